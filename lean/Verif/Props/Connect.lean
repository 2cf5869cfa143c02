import Verif.Props.Builder
import Verif.Props.Receiver
import Verif.Props.OwnedSubslice
/-
C53: connect and disconnect packets.
-/
namespace SIO
open Spec

/-- The packet that connects to, or disconnects from, a namespace. -/
def joinPkt (leave : Bool) (ns : Str) : Pkt := ⟨if leave then '1' else '0', none, nsPart ns, none, none⟩

/-- What `serialize_connect` and `serialize_disconnect` make. -/
def joinMsg (leave : Bool) (ns : Str) : EMsg := if leave then serializeDisconnect ns else serializeConnect ns

theorem joinMsg_payload (leave : Bool) (ns : Str) : HasPayload (joinMsg leave ns) (.text ('4' :: (joinPkt leave ns).text)) := by
  have h : ∀ k : PKind, serializeHeader k none ns none = '4' :: (⟨k.digit, none, nsPart ns, none, none⟩ : Pkt).text := by
    intro k
    unfold serializeHeader nsPart Pkt.text Pkt.parts Parts.text
    by_cases hn : ns = ['/'] <;> simp [hn, part]
  cases leave
  · exact (C25_whole _ []).1.trans (congrArg some (h .connect))
  · exact (C25_whole _ []).1.trans (congrArg some (h .disconnect))

/-- C53, the exact text: the engine.io message digit, the kind digit, and outside of the default
namespace the namespace and a comma. -/
theorem C53_text (ns : Str) :
    (∃ t, serializeConnect ns = .text t ∧
      t.deref = some (if ns = ['/'] then ['4', '0'] else ['4', '0'] ++ ns ++ [','])) ∧
    (∃ t, serializeDisconnect ns = .text t ∧
      t.deref = some (if ns = ['/'] then ['4', '1'] else ['4', '1'] ++ ns ++ [','])) := by
  refine ⟨⟨_, rfl, (C25_whole _ []).1.trans ?_⟩, ⟨_, rfl, (C25_whole _ []).1.trans ?_⟩⟩ <;>
    by_cases hn : ns = ['/'] <;> simp [serializeHeader, PKind.digit, hn]

/-- C53 is false: both functions make an engine message, and `deserialize` takes engine messages,
but it rejects what they make, whatever the namespace: the text already has the engine.io digit
in front. -/
theorem C53_counterexample (ns : Str) :
    (∃ e, deserialize (serializeConnect ns) = .err (.invalidMessage e)) ∧
    (∃ e, deserialize (serializeDisconnect ns) = .err (.invalidMessage e)) := by
  have h : ∀ leave, ∃ e, deserialize (joinMsg leave ns) = .err (.invalidMessage e) := by
    intro leave
    have hp := joinMsg_payload leave ns
    cases hm : joinMsg leave ns with
    | binary b => rw [hm] at hp; exact absurd hp (by simp [HasPayload])
    | text t =>
      rw [hm] at hp
      have : ¬ ∃ p : Pkt, p.Wf ∧ p.text = '4' :: (joinPkt leave ns).text := by
        rintro ⟨p, hw, ht⟩
        have hk := hw.kind
        have : p.kind = '4' := by
          simp [Pkt.text, Pkt.parts, Parts.text] at ht
          exact ht.1
        simp [this] at hk
      obtain ⟨e, he⟩ := (C14_accept t _ hp).2 this
      exact ⟨e, by simp [deserialize, deserializeText, he, bind, Res.bind]⟩
  exact ⟨h false, h true⟩

theorem joinPkt_wf (leave : Bool) {ns : Str} (hn : NsOk ns) : (joinPkt leave ns).Wf := by
  refine ⟨by cases leave <;> simp [joinPkt], ?_, by simp [joinPkt]⟩
  intro n h
  rcases hn with rfl | hn
  · simp [joinPkt, nsPart] at h
  · simp only [joinPkt, nsPart] at h
    split at h
    · simp at h
    · simp at h; exact h ▸ hn

/-- C53, what holds: sent as it is, as a websocket text, the message is read by the peer as
the connect or disconnect packet of the namespace.  Missing for the full claim: it cannot be
given to `deserialize` directly, nor to `encode_message`, which would add a second digit
(`C53_counterexample`). -/
theorem C53_partial (ns : Str) (hn : NsOk ns) :
    (∃ t s pk, serializeConnect ns = .text t ∧ t.deref = some s ∧ PeerReads .active [.text s] pk ∧
      Shows pk ns .connect) ∧
    (∃ t s pk, serializeDisconnect ns = .text t ∧ t.deref = some s ∧ PeerReads .active [.text s] pk ∧
      Shows pk ns .disconnect) := by
  have key : ∀ leave body, (joinPkt leave ns).Means [] [] body →
      ∃ pk, PeerReads .active [textMessage (joinPkt leave ns)] pk ∧ Shows pk ns body := by
    intro leave body hm
    obtain ⟨pk, h1, h2⟩ := peer_reads (vs := []) (bs := []) (joinPkt_wf leave hn)
      ⟨by simp [joinPkt], by simp [joinPkt]⟩ rfl hm (Or.inr (by simp [joinPkt]))
    refine ⟨pk, h1, ?_⟩
    have : (joinPkt leave ns).ns = nsPart ns := rfl
    rw [this, nsPart_getD] at h2
    exact h2
  obtain ⟨pk, h1, h2⟩ := key false .connect (.connect rfl rfl rfl rfl rfl)
  obtain ⟨pk', h3, h4⟩ := key true .disconnect (.disconnect rfl rfl rfl rfl rfl)
  exact ⟨⟨_, _, pk, rfl, joinMsg_payload false ns, h1, h2⟩, ⟨_, _, pk', rfl, joinMsg_payload true ns, h3, h4⟩⟩

example : serializeConnect "/chat".toList = .text (OwnedSubslice.ofWhole "40/chat,".toList) := by decide +kernel
example : serializeDisconnect ['/'] = .text (OwnedSubslice.ofWhole "41".toList) := by decide +kernel

/-- C53, receiving: a connect or disconnect packet is read and ignored, whatever the namespace
and the registry, with logging on or off. -/
theorem C53_ignored (cfg : RCfg) (reg : Callbacks) (pk : Packet) (ns : Str)
    (h : Shows pk ns .connect ∨ Shows pk ns .disconnect) : processPacket cfg reg pk = (reg, [], .ok ()) := by
  refine processPacket_dataless (fun hl => ?_) h
  have hd : pk.display cfg.ext.fin ≠ .panic := by
    rcases h with ⟨_, h⟩ | ⟨_, h⟩ <;> simp only at h <;> simp [Packet.display, h, Data.display, bind, Res.bind]
  exact hd hl.2

/-- The same for the messages on the wire: unless the engine is closed or a binary packet is
waiting for attachments, the connect or disconnect message of a namespace changes nothing. -/
theorem C53_received (cfg : RCfg) (st : RState) (reg : Callbacks) (ns : Str) (hn : NsOk ns) (d : Char)
    (hd : d = '0' ∨ d = '1') (hc : st.decoder ≠ .closed) (hi : st.inProgress = none) :
    processWs cfg st reg (.text (['4', d] ++ (if ns = ['/'] then [] else ns ++ [',']))) = ⟨st, reg, [], .ok ()⟩ := by
  obtain ⟨leave, rfl⟩ : ∃ leave : Bool, d = if leave then '1' else '0' := by
    rcases hd with rfl | rfl
    · exact ⟨false, rfl⟩
    · exact ⟨true, rfl⟩
  have ht : (['4', if leave then '1' else '0'] ++ (if ns = ['/'] then [] else ns ++ [','])) =
      '4' :: (joinPkt leave ns).text := by
    unfold joinPkt nsPart Pkt.text Pkt.parts Parts.text
    by_cases hn : ns = ['/'] <;> simp [hn, part]
  rw [ht]
  have hm : ∃ body, (joinPkt leave ns).Means [] [] body ∧ (body = .connect ∨ body = .disconnect) := by
    cases leave
    · exact ⟨_, .connect rfl rfl rfl rfl rfl, Or.inl rfl⟩
    · exact ⟨_, .disconnect rfl rfl rfl rfl rfl, Or.inr rfl⟩
  obtain ⟨body, hm, hb⟩ := hm
  have hp : HasPayload (.text (OwnedSubslice.new ('4' :: (joinPkt leave ns).text) 1
      (blen ('4' :: (joinPkt leave ns).text)))) (.text (joinPkt leave ns).text) := deref_text _
  have hl : (joinPkt leave ns).Longest := (longest_cases (joinPkt_wf leave hn)).2 (by simp [joinPkt])
  rcases decode_complete (joinPkt_wf leave hn) hl ⟨by simp [joinPkt], by simp [joinPkt]⟩ (vs := []) rfl hm hp
    (ms := []) .nil with ⟨_, pk, h1, h2⟩ | ⟨h, _⟩
  · have h3 : Shows pk ((joinPkt leave ns).ns.getD ['/']) .connect ∨
        Shows pk ((joinPkt leave ns).ns.getD ['/']) .disconnect := by
      rcases hb with rfl | rfl
      · exact Or.inl h2
      · exact Or.inr h2
    obtain ⟨dec, ip, tx⟩ := st
    simp only at hc hi
    subst hi
    simp only [blen] at h1
    simp [processWs, processMessage, decode, hc, decodeText, processEngineMessage, h1, C53_ignored cfg reg pk _ h3]
  · exact absurd rfl h

example : processWs exCfg ⟨.active, none, false⟩ Callbacks.new (.text "41/chat,".toList) =
    ⟨⟨.active, none, false⟩, Callbacks.new, [], .ok ()⟩ :=
  C53_received exCfg _ _ "/chat".toList (Or.inr ⟨'c', "hat".toList, by decide, by decide, by decide⟩) '1' (Or.inr rfl) (by decide) rfl

end SIO
