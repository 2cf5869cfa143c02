import Verif.Lemmas.DecodeOut
import Verif.Lemmas.Balance
/-
Received messages, completion of binary packets, and what decoded packets are.
-/
namespace SIO
open Spec

theorem decodeText_message {st st' : EState} {t : Str} {m : EMsg}
    (h : decodeText st t = (st', .ok (.message m))) :
    ∃ r, t = '4' :: r ∧ st' = st ∧ m = .text (OwnedSubslice.new t 1 (blen t)) := by
  unfold decodeText at h
  split at h
  · simp at h
  · rename_i c r
    split at h
    · split at h
      · simp at h
      · split at h <;> simp at h
    · split at h
      · split at h <;> simp at h
      · split at h
        · split at h <;> simp at h
        · split at h
          · split at h <;> simp at h
          · split at h
            · rename_i hc
              simp only [Prod.mk.injEq, Res.ok.injEq, EPacket.message.injEq] at h
              exact ⟨r, by rw [hc], h.1.symm, h.2.symm⟩
            · simp at h

theorem decodeBinary_message {st st' : EState} {b : Bytes} {m : EMsg}
    (h : decodeBinary st b = (st', .ok (.message m))) :
    ∃ r, b = 4 :: r ∧ st' = st ∧ st ≠ .initial ∧ m = .binary (OwnedSubslice.new b 1 b.length) := by
  unfold decodeBinary at h
  split at h
  · simp at h
  · rename_i hst
    split at h
    · simp at h
    · split at h
      · simp at h
      · rename_i r hb
        simp only [Prod.mk.injEq, Res.ok.injEq, EPacket.message.injEq] at h
        simp at hb
        exact ⟨r, by rw [hb], h.1.symm, hst, h.2.symm⟩

theorem deref_text (r : Str) : (OwnedSubslice.new ('4' :: r) 1 (blen ('4' :: r))).deref = some r := by
  have h4 : ('4' : Char).utf8Size = 1 := rfl
  show sliceB ('4' :: r) 1 (blen ('4' :: r)) = some r
  have := sliceB_mid' ['4'] r [] 1 (blen ('4' :: r)) (by simp [h4]) (by simp)
  simpa using this

theorem deref_binary (r : Bytes) : (OwnedSubslice.new (4 :: r) 1 (4 :: r).length).deref = some r := by
  show sliceV (4 :: r) 1 (r.length + 1) = some r
  simp [sliceV]

/-- A received message is the rest of a websocket message after its header byte. -/
theorem received_iff (m : EMsg) : Received m ↔
    (∃ r, m = .text (OwnedSubslice.new ('4' :: r) 1 (blen ('4' :: r)))) ∨
    (∃ r : Bytes, m = .binary (OwnedSubslice.new (4 :: r) 1 (4 :: r).length)) := by
  constructor
  · rintro ⟨st, w, st', h⟩
    unfold decode at h
    split at h
    · simp at h
    · cases w with
      | ping b => simp at h
      | pong b => simp at h
      | close => simp at h
      | text t =>
        obtain ⟨r, rfl, _, rfl⟩ := decodeText_message h
        exact Or.inl ⟨r, rfl⟩
      | binary b =>
        obtain ⟨r, rfl, _, _, rfl⟩ := decodeBinary_message h
        exact Or.inr ⟨r, rfl⟩
  · rintro (⟨r, rfl⟩ | ⟨r, rfl⟩)
    · exact ⟨.active, .text ('4' :: r), .active, rfl⟩
    · exact ⟨.active, .binary (4 :: r), .active, rfl⟩

theorem Received.payload {m : EMsg} (h : Received m) : ∃ pl, HasPayload m pl := by
  rcases (received_iff m).1 h with ⟨r, rfl⟩ | ⟨r, rfl⟩
  · exact ⟨.text r, deref_text r⟩
  · exact ⟨.binary r, deref_binary r⟩

theorem hasPayload_unique {m : EMsg} {p q : Payload} (hp : HasPayload m p) (hq : HasPayload m q) : p = q := by
  cases m <;> cases p <;> cases q <;> simp_all [HasPayload]

theorem received_text (r : Str) : Received (.text (OwnedSubslice.new ('4' :: r) 1 (blen ('4' :: r)))) :=
  (received_iff _).2 (Or.inl ⟨r, rfl⟩)

theorem received_binary (r : Bytes) : Received (.binary (OwnedSubslice.new (4 :: r) 1 (4 :: r).length)) :=
  (received_iff _).2 (Or.inr ⟨r, rfl⟩)

theorem received_payloads {ms : List EMsg} (h : ∀ m ∈ ms, Received m) : ∃ pls, Payloads ms pls := by
  induction ms with
  | nil => exact ⟨[], .nil⟩
  | cons m ms ih =>
    obtain ⟨pl, hp⟩ := Received.payload (h m (by simp))
    obtain ⟨pls, hps⟩ := ih fun x hx => h x (by simp [hx])
    exact ⟨pl :: pls, .cons hp hps⟩

theorem payloads_length {ms : List EMsg} {pls : List Payload} (h : Payloads ms pls) : ms.length = pls.length := by
  induction h with
  | nil => rfl
  | cons _ _ ih => simp [ih]

theorem binaries_out {ms : List EMsg} {pls : List Payload} (h : Payloads ms pls) :
    (∃ (pre : List Bytes) (t : Str) (post : List Payload), pls = (pre.map Payload.binary) ++ Payload.text t :: post ∧
      binaries ms = .err (.textAttachment t)) ∨
    (∃ (bs : List Bytes) (att : List (OwnedSubslice Bytes)), pls = bs.map Payload.binary ∧ binaries ms = .ok att ∧
      att.map OwnedSubslice.deref = bs.map some) := by
  induction h with
  | nil => exact Or.inr ⟨[], [], rfl, rfl, rfl⟩
  | @cons m pl ms pls hp _ ih =>
    cases m with
    | text t =>
      cases pl with
      | binary b => simp [HasPayload] at hp
      | text s =>
        left
        exact ⟨[], s, pls, rfl, by simp [binaries, show t.deref = some s from hp]⟩
    | binary b =>
      cases pl with
      | text s => simp [HasPayload] at hp
      | binary x =>
        rcases ih with ⟨pre, t, post, h1, h2⟩ | ⟨bs, att, h1, h2, h3⟩
        · exact Or.inl ⟨x :: pre, t, post, by simp [h1], by simp [binaries, h2]⟩
        · exact Or.inr ⟨x :: bs, b :: att, by simp [h1], by simp [binaries, h2],
            by simp [h3, show b.deref = some x from hp]⟩

/-- Everything `deserialize_partial` can do. -/
theorem deserializePartial_out {q : Parse} {p : Pkt} {vs : List Str} (h : Parsed q p vs)
    (hk : p.kind ∈ ['5', '6']) {n : Nat} (hn : p.att = some n) {ms : List EMsg} {pls : List Payload}
    (hp : Payloads ms pls) :
    (∃ (pre : List Bytes) (t : Str) (post : List Payload), pls = (pre.map Payload.binary) ++ Payload.text t :: post ∧
      deserializePartial q ms = .err (.textAttachment t)) ∨
    (∃ bs : List Bytes, pls = bs.map Payload.binary ∧
      (((vs = [] ∨ (p.kind = '6' ∧ p.id = none)) ∧ deserializePartial q ms = .err (.missingData (typeName p.kind) p.text)) ∨
      (vs ≠ [] ∧ (p.kind = '6' → p.id ≠ none) ∧ bs.length ≠ n ∧
        deserializePartial q ms = .err (.invalidAttachmentCount bs.length n)) ∨
      (∃ body pk, p.Means vs bs body ∧ Shows pk (p.ns.getD ['/']) body ∧ deserializePartial q ms = .ok pk))) := by
  rcases binaries_out hp with ⟨pre, t, post, h1, h2⟩ | ⟨bs, att, h1, h2, h3⟩
  · exact Or.inl ⟨pre, t, post, h1, by simp [deserializePartial, h2]⟩
  · refine Or.inr ⟨bs, h1, ?_⟩
    have hatt : p.att.getD 0 = n := by simp [hn]
    rcases digit_cases _ h.kind with ⟨hq, hc⟩ | ⟨hq, hc⟩ | ⟨hq, hc⟩ | ⟨hq, hc⟩ | ⟨hq, hc⟩ | ⟨hq, hc⟩ <;>
      simp [hc] at hk
    · have he : deserializePartial q ms = deserializeEvent q .event "binary event".toList att := by
        simp [deserializePartial, h2, hq]
      rw [he]
      rcases event_shows h .event _ (by simp) h3 with ⟨h4, h5⟩ | ⟨h4, h5, h6, h7⟩ | ⟨h4, h5, pk, h6, h7⟩
      · exact Or.inl ⟨Or.inl (by simpa using h4), by rw [hc]; exact h5⟩
      · exact Or.inr (Or.inl ⟨h4, by simp [hc], by rwa [← hatt], by rw [h7, hatt]⟩)
      · obtain ⟨body, hm, hs⟩ := ok_event_body (Or.inl ⟨rfl, Or.inr ⟨hc, by simp [hn]⟩⟩) h4 h5 h7
        exact Or.inr (Or.inr ⟨body, pk, hm, hs, h6⟩)
    · have he : deserializePartial q ms = deserializeEvent q .ack "binary ack".toList att := by
        simp [deserializePartial, h2, hq]
      rw [he]
      rcases event_shows h .ack _ (by simp) h3 with ⟨h4, h5⟩ | ⟨h4, h5, h6, h7⟩ | ⟨h4, h5, pk, h6, h7⟩
      · exact Or.inl ⟨by simpa [hc] using h4, by rw [hc]; exact h5⟩
      · exact Or.inr (Or.inl ⟨h4, fun _ => h5 rfl, by rwa [← hatt], by rw [h7, hatt]⟩)
      · obtain ⟨body, hm, hs⟩ := ok_event_body (Or.inr ⟨rfl, Or.inr ⟨hc, by simp [hn]⟩⟩) h4 h5 h7
        exact Or.inr (Or.inr ⟨body, pk, hm, hs, h6⟩)

theorem deserialize_text_eq {m : EMsg} {s : Str} (h : HasPayload m (.text s)) :
    DeOut s (deserialize m) := by
  cases m with
  | binary b => simp [HasPayload] at h
  | text t => exact deserializeText_out h

theorem deserialize_binary_eq {m : EMsg} {b : Bytes} (h : HasPayload m (.binary b)) :
    deserialize m = .err (.nonAttachmentBinary b) := by
  cases m with
  | text t => simp [HasPayload] at h
  | binary x => simp [deserialize, show x.deref = some b from h]

/-- Every decoded packet is the meaning of a packet whose text was received, with the
contents of the attachment messages. -/
theorem decoded_means {s : Str} {ms : List EMsg} {pk : Packet} (h : Decoded s ms pk) :
    ∃ (p : Pkt) (vs : List Str) (bs : List Bytes) (body : Body), p.Wf ∧ p.text = s ∧ p.Longest ∧ p.Fits ∧ p.ArgTexts vs ∧
      Payloads ms (bs.map Payload.binary) ∧ p.Means vs bs body ∧ Shows pk (p.ns.getD ['/']) body := by
  cases h with
  | alone m hr hp hms hd =>
    have ho := deserialize_text_eq hp
    rw [hd] at ho
    cases ho with
    | packet p vs body pk h1 h2 h3 h4 h5 h6 h7 =>
      exact ⟨p, vs, [], body, h1, h2, h3, h4, h5, by rw [hms]; exact .nil, h6, h7⟩
  | withAttachments m q hr hp hd hms hpk =>
    have ho := deserialize_text_eq hp
    rw [hd] at ho
    cases ho with
    | needed p vs n q h1 h2 h3 h4 h5 =>
      obtain ⟨pls, hpl⟩ := received_payloads hms
      rcases deserializePartial_out h5 h2 h3 hpl with ⟨_, _, _, _, he⟩ | ⟨bs, hbs, ⟨_, he⟩ | ⟨_, _, _, he⟩ |
        ⟨body, pk', hm, hs, he⟩⟩
      · rw [he] at hpk; simp at hpk
      · rw [he] at hpk; simp at hpk
      · rw [he] at hpk; simp at hpk
      · rw [he] at hpk
        simp at hpk
        subst hpk
        exact ⟨p, vs, bs, body, h5.wf, h1, h5.longest, h5.fits, h5.args, by rw [← hbs]; exact hpl, hm, hs⟩

/-- A bracketed JSON array text: no surrounding whitespace. -/
theorem bracketed_array {g : Str} {vs : List Str} (hb : IsBracketed g) (h : IsArrayText vs g) :
    ∃ b, g = '[' :: (b ++ [']']) ∧ IsElemTexts vs b := by
  obtain ⟨w, rfl, _⟩ := hb
  obtain ⟨w1, b, w2, he, h1, h2, hb⟩ := h
  have : w1 = [] := by
    cases w1 with
    | nil => rfl
    | cons c w1 =>
      simp at he
      have := h1 c (by simp)
      rw [← he.1] at this
      simp at this
  subst this
  have : w2 = [] := by
    rcases List.eq_nil_or_concat w2 with h | ⟨w2', x, rfl⟩
    · exact h
    · have hl := congrArg List.getLast? he
      rw [show [] ++ ('[' :: (b ++ (']' :: w2'.concat x))) = ('[' :: (b ++ (']' :: w2'))) ++ [x] by simp,
        show ('[' :: (w ++ [']']) : Str) = ('[' :: w) ++ [']'] by simp] at hl
      rw [List.getLast?_concat, List.getLast?_concat] at hl
      simp at hl
      have := h2 x (by simp)
      rw [← hl] at this
      simp at this
  subst this
  exact ⟨b, by simpa using he, hb⟩

/-- If a well-formed packet was sent, the packet read from its text, if its argument part is
an array at all, is the packet sent. -/
theorem sent_is_read {p q : Pkt} {vs vs' : List Str} (hp : p.Wf) (hq : q.Wf) (he : q.text = p.text)
    (hl : q.Longest) (hv : p.ArgTexts vs) (hv' : q.ArgTexts vs') : p = q ∧ vs = vs' := by
  have hpq : p = q := by
    have hpl : p.Longest := by
      intro r hr her
      rcases Nat.lt_or_ge p.parts.nsLen r.nsLen with hlt | hge
      · exfalso
        have hql := hl r hr (her.trans he.symm)
        obtain ⟨n, g, u, g', h1, h2, h3, h4, h5⟩ :=
          longer_split (Pkt.partsWf hp) (Pkt.partsWf hq) he (by omega)
        have h2 : p.args = some g := h2
        have h3 : q.args = some g' := h3
        unfold Pkt.ArgTexts at hv hv'
        rw [h2] at hv
        rw [h3] at hv'
        obtain ⟨b, hb, hbe⟩ := bracketed_array (hp.args g h2) hv
        obtain ⟨b', hb', hbe'⟩ := bracketed_array (hq.args g' h3) hv'
        rw [hb, hb'] at h5
        exact array_no_suffix hbe hbe' (part_id_digits (Pkt.partsWf hq).id) h5
      · exact hge
    exact Pkt.longest_unique hp hq he.symm hpl hl
  subst hpq
  refine ⟨rfl, ?_⟩
  unfold Pkt.ArgTexts at hv hv'
  cases h : p.args with
  | none => rw [h] at hv hv'; rw [hv, hv']
  | some g => rw [h] at hv hv'; exact isArrayText_unique hv hv'


theorem argTexts_unique {p : Pkt} {vs vs' : List Str} (hv : p.ArgTexts vs) (hv' : p.ArgTexts vs') : vs = vs' := by
  unfold Pkt.ArgTexts at hv hv'
  cases h : p.args with
  | none => rw [h] at hv hv'; rw [hv, hv']
  | some g => rw [h] at hv hv'; exact isArrayText_unique hv hv'

theorem means_unique {p : Pkt} {vs : List Str} {bs : List Bytes} {b b' : Body}
    (h : p.Means vs bs b) (h' : p.Means vs bs b') : b = b' := by
  cases h with
  | connect h1 =>
    cases h' with
    | connect => rfl
    | disconnect g1 => rw [h1] at g1; simp at g1
    | event g1 => rw [h1] at g1; simp at g1
    | ack i g1 => rw [h1] at g1; simp at g1
  | disconnect h1 =>
    cases h' with
    | disconnect => rfl
    | connect g1 => rw [h1] at g1; simp at g1
    | event g1 => rw [h1] at g1; simp at g1
    | ack i g1 => rw [h1] at g1; simp at g1
  | event h1 =>
    cases h' with
    | event => rfl
    | connect g1 => rw [g1] at h1; simp at h1
    | disconnect g1 => rw [g1] at h1; simp at h1
    | ack i g1 =>
      rcases h1 with ⟨h1, _⟩ | ⟨h1, _⟩ <;> rcases g1 with ⟨g1, _⟩ | ⟨g1, _⟩ <;> rw [h1] at g1 <;> simp at g1
  | ack i h1 h2 =>
    cases h' with
    | ack j g1 g2 => rw [h2] at g2; simp at g2; rw [g2]
    | connect g1 => rw [g1] at h1; simp at h1
    | disconnect g1 => rw [g1] at h1; simp at h1
    | event g1 =>
      rcases h1 with ⟨h1, _⟩ | ⟨h1, _⟩ <;> rcases g1 with ⟨g1, _⟩ | ⟨g1, _⟩ <;> rw [h1] at g1 <;> simp at g1

/-- Every packet that is well-formed, unambiguous, has 64-bit numbers, and has contents is
decoded to these contents. -/
theorem decode_complete {p : Pkt} {vs : List Str} {bs : List Bytes} {body : Body} (hw : p.Wf)
    (hl : p.Longest) (hf : p.Fits) (ha : p.ArgTexts vs) (hm : p.Means vs bs body) {m : EMsg}
    (hp : HasPayload m (.text p.text)) {ms : List EMsg} (hms : Payloads ms (bs.map Payload.binary)) :
    (bs = [] ∧ ∃ pk, deserialize m = .ok (.packet pk) ∧ Shows pk (p.ns.getD ['/']) body) ∨
    (bs ≠ [] ∧ ∃ q, deserialize m = .ok (.dataNeeded q) ∧ q.attachments = some bs.length ∧
      ∃ pk, deserializePartial q ms = .ok pk ∧ Shows pk (p.ns.getD ['/']) body) := by
  have hatt : bs.length = p.att.getD 0 := by
    cases hm with
    | connect _ h _ _ h' => simp [h, h']
    | disconnect _ h _ _ h' => simp [h, h']
    | event _ _ h => exact h
    | ack _ _ _ _ h => exact h
  generalize hr : deserialize m = r
  have ho := deserialize_text_eq hp
  rw [hr] at ho
  have uniq : ∀ p' : Pkt, p'.Wf → p'.text = p.text → p'.Longest → p' = p :=
    fun p' h1 h2 h3 => Pkt.longest_unique h1 hw h2 h3 hl
  cases ho with
  | bad h => exact absurd rfl (h p hw)
  | overflow p' h1 h2 h3 h4 => rw [uniq p' h1 h2 h3] at h4; exact absurd hf h4
  | json p' g h1 h2 h3 h4 h5 h6 =>
    rw [uniq p' h1 h2 h3] at h5
    unfold Pkt.ArgTexts at ha
    rw [h5] at ha
    exact absurd ⟨vs, ha⟩ h6
  | extra p' vs' h1 h2 h3 h4 h5 h6 h7 =>
    have := uniq p' h1 h2 h3
    subst this
    have := argTexts_unique ha h5
    subst this
    exfalso
    cases hm with
    | connect g1 g2 g3 g4 => simp [g2, g3, g4] at h7
    | disconnect g1 g2 g3 g4 => simp [g2, g3, g4] at h7
    | event g1 => rcases g1 with ⟨g1, _⟩ | ⟨g1, _⟩ <;> simp [g1] at h6
    | ack i g1 => rcases g1 with ⟨g1, _⟩ | ⟨g1, _⟩ <;> simp [g1] at h6
  | missing p' vs' h1 h2 h3 h4 h5 h6 h7 h8 =>
    have := uniq p' h1 h2 h3
    subst this
    have := argTexts_unique ha h5
    subst this
    exfalso
    cases hm with
    | connect g1 g2 g3 g4 => simp [g1] at h6
    | disconnect g1 g2 g3 g4 => simp [g1] at h6
    | event g1 g2 => rcases g1 with ⟨g1, _⟩ | ⟨g1, g3⟩ <;> simp_all
    | ack i g1 g2 g3 => rcases g1 with ⟨g1, _⟩ | ⟨g1, g4⟩ <;> simp_all
  | count p' vs' n h1 h2 h3 h4 h5 h6 h7 h8 h9 h10 =>
    have := uniq p' h1 h2 h3
    subst this
    exfalso
    cases hm with
    | connect g1 g2 g3 g4 => simp [g1] at h6
    | disconnect g1 g2 g3 g4 => simp [g1] at h6
    | event g1 g2 =>
      rcases g1 with ⟨g1, g3⟩ | ⟨g1, g3⟩
      · rw [g3, h9] at hatt; simp at hatt; omega
      · simp [g1] at h6
    | ack i g1 g2 g3 =>
      rcases g1 with ⟨g1, g3⟩ | ⟨g1, g3⟩
      · rw [g3, h9] at hatt; simp at hatt; omega
      · simp [g1] at h6
  | packet p' vs' body' pk h1 h2 h3 h4 h5 h6 h7 =>
    have := uniq p' h1 h2 h3
    subst this
    have := argTexts_unique ha h5
    subst this
    have hbs : bs = [] := by
      have : ([] : List Bytes).length = p'.att.getD 0 := by
        cases h6 with
        | connect _ h _ _ h' => simp [h]
        | disconnect _ h _ _ h' => simp [h]
        | event _ _ h => exact h
        | ack _ _ _ _ h => exact h
      rw [← this] at hatt
      simpa using hatt
    subst hbs
    rw [means_unique h6 hm] at h7
    exact Or.inl ⟨rfl, pk, rfl, h7⟩
  | needed p' vs' n q h1 h2 h3 h4 h5 =>
    have := uniq p' h5.wf h1 h5.longest
    subst this
    have := argTexts_unique ha h5.args
    subst this
    have hn : bs.length = n := by rw [hatt, h3]; rfl
    refine Or.inr ⟨by intro h; subst h; simp at hn; omega, q, rfl, by rw [h5.att, h3, hn], ?_⟩
    rcases deserializePartial_out h5 h2 h3 hms with ⟨pre, t, post, he, _⟩ | ⟨bs', hb, h⟩
    · have hmem : Payload.text t ∈ bs.map Payload.binary := by rw [he]; simp
      simp at hmem
    · have hbb : bs = bs' := List.map_inj_right (fun _ _ => Payload.binary.inj) |>.1 hb
      subst hbb
      rcases h with ⟨h, _⟩ | ⟨_, _, h, _⟩ | ⟨body', pk, hm', hs, he⟩
      · exfalso
        cases hm with
        | connect g1 g2 g3 g4 => simp [g1] at h2
        | disconnect g1 g2 g3 g4 => simp [g1] at h2
        | event g1 g2 => rcases g1 with ⟨g1, _⟩ | ⟨g1, g3⟩ <;> simp_all
        | ack i g1 g2 g3 => rcases g1 with ⟨g1, _⟩ | ⟨g1, g4⟩ <;> simp_all
      · exact absurd hn h
      · rw [means_unique hm' hm] at hs
        exact ⟨pk, he, hs⟩

end SIO
