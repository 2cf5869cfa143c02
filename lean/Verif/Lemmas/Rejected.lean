import Verif.Spec.Rejected
import Verif.Lemmas.Stream
/-
What is wrong with a message that is not accepted: the receiver, message by message.
-/
namespace SIO
open Spec

/-! ### The first message of a packet -/

/-- Whether a text is refused by the decoder. -/
theorem deOut_err {s : Str} {r : Res SErr DeResult} (h : DeOut s r) (e : SErr) (he : r = .err e) : Refused (.text s) e := by
  cases h with
  | bad h => cases he; exact .form s h
  | overflow => cases he
  | json p g h1 h2 h3 h4 h5 h6 => cases he; subst h2; exact .json h1 h3 h4 h5 h6
  | extra p vs h1 h2 h3 h4 h5 h6 h7 => cases he; subst h2; exact .extra ⟨h1, h3, h4, h5⟩ h6 h7
  | missing p vs h1 h2 h3 h4 h5 h6 h7 h8 =>
    cases he
    subst h2
    refine .missing ⟨h1, h3, h4, h5⟩ h6 h7 fun hk => ?_
    have := h8 hk
    cases ha : p.att with
    | none => exact Or.inl rfl
    | some n => rw [ha] at this; simp at this; rw [this]; exact Or.inr rfl
  | count p vs n h1 h2 h3 h4 h5 h6 h7 h8 h9 h10 =>
    cases he
    subst h2
    exact .count ⟨h1, h3, h4, h5⟩ h6 h7 h8 h9 h10
  | packet => cases he
  | needed => cases he

theorem pkt_reads_unique {p p' : Pkt} {vs vs' : List Str} (h : p.Reads vs) (h' : p'.Reads vs') (he : p'.text = p.text) :
    p' = p ∧ vs' = vs := by
  have := Pkt.longest_unique h'.wf h.wf he h'.longest h.longest
  subst this
  exact ⟨rfl, argTexts_unique h'.args h.args⟩

/-- A text that is read is read in one way. -/
theorem deOut_reads {s : Str} {r : Res SErr DeResult} (h : DeOut s r) {p : Pkt} {vs : List Str} (hs : p.text = s)
    (hr : p.Reads vs) :
    (p.kind ∈ ['0', '1'] ∧ (p.att ≠ none ∨ p.id ≠ none ∨ vs ≠ []) ∧ r = .err (.invalidExtraData (typeName p.kind) s)) ∨
    (p.kind ∈ ['2', '3', '5', '6'] ∧
      (vs = [] ∨ (p.kind ∈ ['3', '6'] ∧ p.id = none) ∨ (p.kind ∈ ['5', '6'] ∧ p.att = none)) ∧
      (p.kind ∈ ['5', '6'] → p.att.getD 0 = 0) ∧ r = .err (.missingData (typeName p.kind) s)) ∨
    (∃ n, p.kind ∈ ['2', '3'] ∧ vs ≠ [] ∧ (p.kind = '3' → p.id ≠ none) ∧ p.att = some n ∧ n ≠ 0 ∧
      r = .err (.invalidAttachmentCount 0 n)) ∨
    (∃ body pk, p.Means vs [] body ∧ Shows pk (p.ns.getD ['/']) body ∧ r = .ok (.packet pk)) ∨
    (∃ n q, p.kind ∈ ['5', '6'] ∧ p.att = some n ∧ 0 < n ∧ Parsed q p vs ∧ r = .ok (.dataNeeded q)) := by
  subst hs
  have uniq : ∀ p' : Pkt, p'.Wf → p'.text = p.text → p'.Longest → p' = p :=
    fun p' h1 h2 h3 => Pkt.longest_unique h1 hr.wf h2 h3 hr.longest
  cases h with
  | bad h => exact absurd rfl (h p hr.wf)
  | overflow p' h1 h2 h3 h4 => rw [uniq p' h1 h2 h3] at h4; exact absurd hr.fits h4
  | json p' g h1 h2 h3 h4 h5 h6 =>
    rw [uniq p' h1 h2 h3] at h5
    have ha := hr.args
    unfold Pkt.ArgTexts at ha
    rw [h5] at ha
    exact absurd ⟨vs, ha⟩ h6
  | extra p' vs' h1 h2 h3 h4 h5 h6 h7 =>
    obtain ⟨rfl, rfl⟩ := pkt_reads_unique hr ⟨h1, h3, h4, h5⟩ h2
    exact Or.inl ⟨h6, h7, rfl⟩
  | missing p' vs' h1 h2 h3 h4 h5 h6 h7 h8 =>
    obtain ⟨rfl, rfl⟩ := pkt_reads_unique hr ⟨h1, h3, h4, h5⟩ h2
    exact Or.inr (Or.inl ⟨h6, h7, h8, rfl⟩)
  | count p' vs' n h1 h2 h3 h4 h5 h6 h7 h8 h9 h10 =>
    obtain ⟨rfl, rfl⟩ := pkt_reads_unique hr ⟨h1, h3, h4, h5⟩ h2
    exact Or.inr (Or.inr (Or.inl ⟨n, h6, h7, h8, h9, h10, rfl⟩))
  | packet p' vs' body pk h1 h2 h3 h4 h5 h6 h7 =>
    obtain ⟨rfl, rfl⟩ := pkt_reads_unique hr ⟨h1, h3, h4, h5⟩ h2
    exact Or.inr (Or.inr (Or.inr (Or.inl ⟨body, pk, h6, h7, rfl⟩)))
  | needed p' vs' n q h1 h2 h3 h4 h5 =>
    obtain ⟨rfl, rfl⟩ := pkt_reads_unique hr ⟨h5.wf, h5.longest, h5.fits, h5.args⟩ h1
    exact Or.inr (Or.inr (Or.inr (Or.inr ⟨n, q, h2, h3, h4, h5, rfl⟩)))

theorem refused_decode {m : EMsg} {pl : Payload} {e : SErr} (hp : HasPayload m pl) (h : Refused pl e) :
    deserialize m = .err e := by
  have key : ∀ {p : Pkt} {g : Str}, p.Wf → p.Longest → p.Fits → p.args = some g → (¬ ∃ vs, IsArrayText vs g) →
      ∀ {r}, DeOut p.text r → r = .err (.invalidDataJson g) := by
    intro p g h1 h2 h3 h4 h5 r hd
    have uniq : ∀ p' : Pkt, p'.Wf → p'.text = p.text → p'.Longest → p' = p :=
      fun p' g1 g2 g3 => Pkt.longest_unique g1 h1 g2 g3 h2
    have no : ∀ vs, ¬ p.ArgTexts vs := by
      intro vs ha
      unfold Pkt.ArgTexts at ha
      rw [h4] at ha
      exact h5 ⟨vs, ha⟩
    cases hd with
    | bad h => exact absurd rfl (h p h1)
    | overflow p' g1 g2 g3 g4 => rw [uniq p' g1 g2 g3] at g4; exact absurd h3 g4
    | json p' g g1 g2 g3 g4 g5 g6 =>
      rw [uniq p' g1 g2 g3, h4] at g5
      cases g5
      rfl
    | extra p' vs' g1 g2 g3 g4 g5 => rw [uniq p' g1 g2 g3] at g5; exact absurd g5 (no _)
    | missing p' vs' g1 g2 g3 g4 g5 => rw [uniq p' g1 g2 g3] at g5; exact absurd g5 (no _)
    | count p' vs' n g1 g2 g3 g4 g5 => rw [uniq p' g1 g2 g3] at g5; exact absurd g5 (no _)
    | packet p' vs' body pk g1 g2 g3 g4 g5 => rw [uniq p' g1 g2 g3] at g5; exact absurd g5 (no _)
    | needed p' vs' n q g1 g2 g3 g4 g5 =>
      have g6 := g5.args
      rw [uniq p' g5.wf g1 g5.longest] at g6
      exact absurd g6 (no _)
  cases h with
  | binary b => exact deserialize_binary_eq hp
  | form s hn =>
    have hd := deserialize_text_eq hp
    generalize deserialize m = r at hd
    cases hd with
    | bad => rfl
    | overflow p h1 h2 => exact absurd h2 (hn p h1)
    | json p g h1 h2 => exact absurd h2 (hn p h1)
    | extra p vs h1 h2 => exact absurd h2 (hn p h1)
    | missing p vs h1 h2 => exact absurd h2 (hn p h1)
    | count p vs n h1 h2 => exact absurd h2 (hn p h1)
    | packet p vs body pk h1 h2 => exact absurd h2 (hn p h1)
    | needed p vs n q h1 h2 h3 h4 h5 => exact absurd h1 (hn p h5.wf)
  | json h1 h2 h3 h4 h5 => exact key h1 h2 h3 h4 h5 (deserialize_text_eq hp)
  | @extra p vs hr hk hx =>
    rcases deOut_reads (deserialize_text_eq hp) rfl hr with ⟨_, _, h⟩ | ⟨g, _⟩ | ⟨n, g, _⟩ | ⟨body, pk, g, _⟩ | ⟨n, q, g, _⟩
    · exact h
    · exfalso; simp at hk g; rcases hk with hk | hk <;> simp [hk] at g
    · exfalso; simp at hk g; rcases hk with hk | hk <;> simp [hk] at g
    · exfalso
      cases g with
      | connect _ g1 g2 g3 => simp [g1, g2, g3] at hx
      | disconnect _ g1 g2 g3 => simp [g1, g2, g3] at hx
      | event g1 => simp at hk g1; rcases hk with hk | hk <;> simp [hk] at g1
      | ack _ g1 => simp at hk g1; rcases hk with hk | hk <;> simp [hk] at g1
    · exfalso; simp at hk g; rcases hk with hk | hk <;> simp [hk] at g
  | @missing p vs hr hk hx hy =>
    have hy' : p.kind ∈ ['5', '6'] → p.att.getD 0 = 0 := fun h => by rcases hy h with h | h <;> simp [h]
    rcases deOut_reads (deserialize_text_eq hp) rfl hr with ⟨g, _⟩ | ⟨_, _, _, h⟩ | ⟨n, g1, g2, g3, _⟩ | ⟨body, pk, g, _⟩ |
      ⟨n, q, g1, g2, g3, _⟩
    · exfalso; simp at hk g; rcases g with g | g <;> simp [g] at hk
    · exact h
    · exfalso
      rcases hx with hx | ⟨hx, hx'⟩ | ⟨hx, hx'⟩
      · exact g2 hx
      · simp at hx g1
        rcases hx with hx | hx
        · exact g3 hx hx'
        · simp [hx] at g1
      · simp at hx g1; rcases hx with hx | hx <;> simp [hx] at g1
    · exfalso
      cases g with
      | connect g1 => simp [g1] at hk
      | disconnect g1 => simp [g1] at hk
      | event g1 g2 =>
        rcases hx with hx | ⟨hx, hx'⟩ | ⟨hx, hx'⟩
        · exact g2 hx
        · simp at hx; rcases hx with hx | hx <;> simp [hx] at g1
        · simp at hx
          rcases g1 with ⟨g1, _⟩ | ⟨_, g1⟩
          · rcases hx with hx | hx <;> simp [hx] at g1
          · exact g1 hx'
      | ack i g1 g2 g3 =>
        rcases hx with hx | ⟨hx, hx'⟩ | ⟨hx, hx'⟩
        · exact g3 hx
        · rw [g2] at hx'; simp at hx'
        · simp at hx
          rcases g1 with ⟨g1, _⟩ | ⟨_, g1⟩
          · rcases hx with hx | hx <;> simp [hx] at g1
          · exact g1 hx'
    · exfalso
      have := hy' g1
      rw [g2] at this
      simp at this
      omega
  | @count p vs n hr hk hv hi hn h0 =>
    rcases deOut_reads (deserialize_text_eq hp) rfl hr with ⟨g, _⟩ | ⟨_, g, _⟩ | ⟨n', g1, g2, g3, g4, g5, h⟩ |
      ⟨body, pk, g, _⟩ | ⟨n, q, g1, g2, g3, _⟩
    · exfalso; simp at hk g; rcases hk with hk | hk <;> simp [hk] at g
    · exfalso
      rcases g with g | ⟨g, g'⟩ | ⟨g, g'⟩
      · exact hv g
      · simp at hk g
        rcases hk with hk | hk
        · simp [hk] at g
        · exact hi hk g'
      · simp [hn] at g'
    · rw [hn] at g4
      cases g4
      exact h
    · exfalso
      cases g with
      | connect g1 => simp [g1] at hk
      | disconnect g1 => simp [g1] at hk
      | event _ _ g => simp [hn] at g; omega
      | ack _ _ _ _ g => simp [hn] at g; omega
    · exfalso; simp at hk g1; rcases hk with hk | hk <;> simp [hk] at g1

theorem overflow_decode {m : EMsg} {p : Pkt} (hp : HasPayload m (.text p.text)) (h1 : p.Wf) (h2 : p.Longest)
    (h3 : ¬ p.Fits) : deserialize m = .panic := by
  have uniq : ∀ p' : Pkt, p'.Wf → p'.text = p.text → p'.Longest → p' = p :=
    fun p' g1 g2 g3 => Pkt.longest_unique g1 h1 g2 g3 h2
  have hd := deserialize_text_eq hp
  generalize deserialize m = r at hd
  cases hd with
  | bad h => exact absurd rfl (h p h1)
  | overflow => rfl
  | json p' g g1 g2 g3 g4 => rw [uniq p' g1 g2 g3] at g4; exact absurd g4 h3
  | extra p' vs' g1 g2 g3 g4 => rw [uniq p' g1 g2 g3] at g4; exact absurd g4 h3
  | missing p' vs' g1 g2 g3 g4 => rw [uniq p' g1 g2 g3] at g4; exact absurd g4 h3
  | count p' vs' n g1 g2 g3 g4 => rw [uniq p' g1 g2 g3] at g4; exact absurd g4 h3
  | packet p' vs' body pk g1 g2 g3 g4 => rw [uniq p' g1 g2 g3] at g4; exact absurd g4 h3
  | needed p' vs' n q g1 g2 g3 g4 g5 =>
    have g6 := g5.fits
    rw [uniq p' g5.wf g1 g5.longest] at g6
    exact absurd g6 h3

/-! ### One packet -/

theorem shows_ack_unique {pk : Packet} {ns ns' : Str} {id id' : Nat} {vs vs' : List Str} {bs bs' : List Bytes}
    (h : Shows pk ns (.ack id vs bs)) (h' : Shows pk ns' (.ack id' vs' bs')) :
    ns = ns' ∧ id = id' ∧ vs = vs' ∧ bs = bs' := by
  obtain ⟨a1, A, a2, a3⟩ := h
  obtain ⟨b1, B, b2, b3⟩ := h'
  rw [a1] at b1
  rw [a2] at b2
  simp only [Res.ok.injEq, Data.ack.injEq] at b1 b2
  obtain ⟨rfl, rfl⟩ := b2
  have e1 := a3.iter
  rw [b3.iter] at e1
  simp only [Res.ok.injEq] at e1
  have e2 := a3.atts
  rw [b3.atts] at e2
  exact ⟨b1, rfl, (List.map_inj_right (fun x y h => by simpa using h)).1 e1.symm,
    (List.map_inj_right (fun x y h => by simpa using h)).1 e2.symm⟩

/-- What is the result of a packet. -/
theorem processPacket_exact {cfg : RCfg} {reg : Callbacks} {pk : Packet} {ns : Str} {body : Body} (hs : Shows pk ns body)
    (ht : ∀ v ∈ body.content.1, ∃ t, IsVal t v) (hne : ∀ id bs, body ≠ .event id [] bs) :
    (∀ f, (∃ e, (processPacket cfg reg pk).2.2 = .err e ∧ Names e f) ↔
      Loggable cfg body ∧ NoUse (whoOf reg) ns body f) ∧
    ((processPacket cfg reg pk).2.2 = .panic ↔ ¬ Loggable cfg body) ∧
    (∀ e, (processPacket cfg reg pk).2.2 = .err e → ∃ f, Names e f) ∧
    ((processPacket cfg reg pk).2.2 ≠ .ok () → (processPacket cfg reg pk).2.1 = []) := by
  have hlog := loggable_iff (cfg := cfg) hs ht
  by_cases hl : LogPanics cfg pk
  · have hn : ¬ Loggable cfg body := fun h => hlog.1 h hl
    rw [processPacket_log hl]
    simp [hn]
  · have hy : Loggable cfg body := hlog.2 hl
    cases body with
    | connect =>
      rw [processPacket_dataless hl (Or.inl hs)]
      simp only [hy, true_and, not_true_eq_false]
      exact ⟨fun f => ⟨by simp, by intro h; cases h⟩, by simp, by simp, by simp⟩
    | disconnect =>
      rw [processPacket_dataless hl (Or.inr hs)]
      simp only [hy, true_and, not_true_eq_false]
      exact ⟨fun f => ⟨by simp, by intro h; cases h⟩, by simp, by simp, by simp⟩
    | event id vs bs =>
      obtain ⟨A, h, hA⟩ := hs.2
      cases vs with
      | nil => exact absurd rfl (hne id bs)
      | cons v vs =>
        obtain ⟨t, ht⟩ := ht v (by simp [Body.content])
        simp only [hy, true_and, not_true_eq_false]
        rcases processPacket_event (cfg := cfg) (reg := reg) hl hs.1 h hA ht with ⟨name, h1, h2⟩ | ⟨h1, h2⟩
        · have hok : (processPacket cfg reg pk).2.2 = .ok () := by rw [h2]; split <;> rfl
          rw [hok]
          refine ⟨fun f => ⟨by simp, ?_⟩, by simp, by simp, by simp⟩
          intro h
          cases h with
          | name hn => exact absurd h1 (hn name)
        · rw [h2]
          refine ⟨fun f => ⟨?_, ?_⟩, by simp, ?_, by simp⟩
          · rintro ⟨e, he, hf⟩
            simp only [Res.err.injEq] at he
            subst he
            cases hf
            exact .name h1
          · intro h
            cases h with
            | name hn => exact ⟨_, rfl, .name v⟩
          · intro e he
            simp only [Res.err.injEq] at he
            subst he
            exact ⟨_, .name v⟩
    | ack id vs bs =>
      obtain ⟨A, h, hA⟩ := hs.2
      simp only [hy, true_and, not_true_eq_false]
      rw [processPacket_ack hl hs.1 h]
      cases hg : (reg.getAndClearAck ns id).1 with
      | some cb =>
        refine ⟨fun f => ⟨by simp, ?_⟩, by simp, by simp, by simp⟩
        intro h
        cases h with
        | ack hn => exact absurd hg (hn cb)
      | none =>
        refine ⟨fun f => ⟨?_, ?_⟩, by simp, ?_, by simp⟩
        · rintro ⟨e, he, hf⟩
          simp only [Res.err.injEq] at he
          subst he
          cases hf with
          | ack hs' =>
            obtain ⟨rfl, rfl, rfl, rfl⟩ := shows_ack_unique hs hs'
            refine .ack fun cb hcb => ?_
            rw [show (reg.getAndClearAck ns id).1 = _ from hcb] at hg
            simp at hg
        · intro h
          cases h with
          | ack hn => exact ⟨_, rfl, .ack hs⟩
        · intro e he
          simp only [Res.err.injEq] at he
          subst he
          exact ⟨_, .ack hs⟩

/-! ### One engine message -/

/-- Where the receiver is. -/
def StandsAt (st : RState) : Option Begun → Prop
  | none => st.inProgress = none
  | some b => ∃ n, Pending st b.p b.vs n b.got

/-- What one message has to do with the result. -/
structure Exact (cfg : RCfg) (reg : Callbacks) (x : Option Begun) (pl : Payload) (o : ROut) : Prop where
  fault : ∀ f, (∃ e, o.res = .err e ∧ Names e f) ↔ Faulty cfg (whoOf reg) x pl f
  panic : o.res = .panic ↔ Crashes cfg x pl
  named : ∀ e, o.res = .err e → ∃ f, Names e f
  effs : o.res ≠ .ok () → o.effs = []

theorem exact_err {cfg : RCfg} {reg : Callbacks} {x : Option Begun} {pl : Payload} {o : ROut} {e : SErr}
    (h1 : o.res = .err (.socket e)) (h2 : o.effs = []) (h3 : Faulty cfg (whoOf reg) x pl (.socket e))
    (h4 : ∀ f, Faulty cfg (whoOf reg) x pl f → f = .socket e) (h5 : ¬ Crashes cfg x pl) : Exact cfg reg x pl o := by
  refine ⟨fun f => ⟨?_, ?_⟩, ?_, ?_, fun _ => h2⟩
  · rintro ⟨e', he, hf⟩
    rw [h1] at he
    simp only [Res.err.injEq] at he
    subst he
    cases hf
    exact h3
  · intro h
    rw [h4 f h]
    exact ⟨_, h1, .socket e⟩
  · rw [h1]
    exact ⟨by simp, fun h => absurd h h5⟩
  · intro e' he
    rw [h1] at he
    simp only [Res.err.injEq] at he
    subst he
    exact ⟨_, .socket e⟩

theorem completes_decode {m : EMsg} {pl : Payload} {ns : Str} {body : Body} (hp : HasPayload m pl)
    (h : Completes none pl ns body) : ∃ pk, deserialize m = .ok (.packet pk) ∧ Shows pk ns body ∧
      (∀ v ∈ body.content.1, ∃ t, IsVal t v) ∧ ∀ id bs, body ≠ .event id [] bs := by
  cases h with
  | single hr hm =>
    rcases decode_complete hr.wf hr.longest hr.fits hr.args hm hp (ms := []) .nil with ⟨_, pk, h1, h2⟩ | ⟨h, _⟩
    · exact ⟨pk, h1, h2, means_content hr.args hm⟩
    · simp at h

theorem completes_unique {pl : Payload} {ns ns' : Str} {body body' : Body}
    (h : Completes none pl ns body) (h' : Completes none pl ns' body') : ns' = ns ∧ body' = body := by
  cases h with
  | single hr hm =>
    generalize hx : Payload.text _ = y at h'
    cases h' with
    | single hr' hm' =>
      simp only [Payload.text.injEq] at hx
      obtain ⟨rfl, rfl⟩ := pkt_reads_unique hr hr' hx.symm
      exact ⟨rfl, means_unique hm' hm⟩

/-- A message where a packet has to begin. -/
theorem idle_exact {cfg : RCfg} {st : RState} {reg : Callbacks} {m : EMsg} {pl : Payload} (hi : st.inProgress = none)
    (hp : HasPayload m pl) : Exact cfg reg none pl (processEngineMessage cfg st reg m) := by
  have refused : ∀ e, deserialize m = .err e → Refused pl e →
      Exact cfg reg none pl (processEngineMessage cfg st reg m) := by
    intro e he hr
    have ho : processEngineMessage cfg st reg m = ⟨st, reg, [], .err (.socket e)⟩ := by
      unfold processEngineMessage
      rw [hi]
      simp only [he]
    rw [ho]
    refine exact_err rfl rfl (.refused hr) ?_ ?_
    · intro f hf
      cases hf with
      | refused h =>
        have := refused_decode hp h
        rw [he] at this
        cases this
        rfl
      | packet h =>
        obtain ⟨pk, h, _⟩ := completes_decode hp h
        rw [he] at h
        cases h
    · intro hc
      cases hc with
      | number h1 h2 h3 =>
        have := overflow_decode hp h1 h2 h3
        rw [he] at this
        cases this
      | log h =>
        obtain ⟨pk, h, _⟩ := completes_decode hp h
        rw [he] at h
        cases h
  cases pl with
  | binary b => exact refused _ (deserialize_binary_eq hp) (.binary b)
  | text s =>
    have hd := deserialize_text_eq hp
    generalize hr : deserialize m = r at hd
    cases r with
    | err e => exact refused e hr (deOut_err hd e rfl)
    | panic =>
      have ho : processEngineMessage cfg st reg m = ⟨st, reg, [], .panic⟩ := by
        unfold processEngineMessage
        rw [hi]
        simp only [hr]
      rw [ho]
      cases hd with
      | overflow p h1 h2 h3 h4 =>
        subst h2
        refine ⟨fun f => ⟨by simp, ?_⟩, ⟨fun _ => .number h1 h3 h4, fun _ => rfl⟩, by simp, by simp⟩
        intro hf
        cases hf with
        | refused h =>
          have := refused_decode hp h
          rw [hr] at this
          cases this
        | packet h =>
          obtain ⟨pk, h, _⟩ := completes_decode hp h
          rw [hr] at h
          cases h
    | ok d =>
      cases hd with
      | packet p vs body pk h1 h2 h3 h4 h5 h6 h7 =>
        subst h2
        have hcomp : Completes none (.text p.text) (p.ns.getD ['/']) body := .single ⟨h1, h3, h4, h5⟩ h6
        obtain ⟨c1, c2⟩ := means_content h5 h6
        obtain ⟨k1, k2, k3, k4⟩ := processPacket_exact (cfg := cfg) (reg := reg) h7 c1 c2
        have ho : ((processEngineMessage cfg st reg m).effs, (processEngineMessage cfg st reg m).res) =
            ((processPacket cfg reg pk).2.1, (processPacket cfg reg pk).2.2) := by
          unfold processEngineMessage
          rw [hi]
          simp only [hr]
        simp only [Prod.mk.injEq] at ho
        refine ⟨fun f => ?_, ?_, by rw [ho.2]; exact k3, by rw [ho.1, ho.2]; exact k4⟩
        · rw [ho.2, k1 f]
          constructor
          · rintro ⟨g1, g2⟩
            exact .packet hcomp g1 g2
          · intro hf
            cases hf with
            | refused h =>
              have := refused_decode hp h
              rw [hr] at this
              cases this
            | packet g1 g2 g3 =>
              obtain ⟨rfl, rfl⟩ := completes_unique hcomp g1
              exact ⟨g2, g3⟩
        · rw [ho.2, k2]
          constructor
          · exact fun h => .log hcomp h
          · intro hc
            generalize hx : Payload.text p.text = y at hc
            cases hc with
            | number g1 g2 g3 =>
              have := overflow_decode (hx ▸ hp) g1 g2 g3
              rw [hr] at this
              cases this
            | log g1 g2 =>
              subst hx
              obtain ⟨rfl, rfl⟩ := completes_unique hcomp g1
              exact g2
      | needed p vs n q h1 h2 h3 h4 h5 =>
        subst h1
        have ho : processEngineMessage cfg st reg m = ⟨{ st with inProgress := some ⟨q, []⟩ }, reg, [], .ok ()⟩ := by
          unfold processEngineMessage
          rw [hi]
          simp only [hr]
        rw [ho]
        refine ⟨fun f => ⟨by simp, ?_⟩, ⟨by simp, ?_⟩, by simp, by simp⟩
        · intro hf
          exfalso
          cases hf with
          | refused h =>
            have := refused_decode hp h
            rw [hr] at this
            cases this
          | packet h =>
            obtain ⟨pk, h, _⟩ := completes_decode hp h
            rw [hr] at h
            cases h
        · intro hc
          exfalso
          generalize hx : Payload.text p.text = y at hc
          cases hc with
          | number g1 g2 g3 =>
            have := overflow_decode (hx ▸ hp) g1 g2 g3
            rw [hr] at this
            cases this
          | log h =>
            obtain ⟨pk, h, _⟩ := completes_decode (hx ▸ hp) h
            rw [hr] at h
            cases h

theorem first_text_unique {pre pre' : List Bytes} {t t' : Str} {post post' : List Payload}
    (h : pre.map Payload.binary ++ .text t :: post = pre'.map Payload.binary ++ .text t' :: post') : t = t' := by
  induction pre generalizing pre' with
  | nil =>
    cases pre' with
    | nil => simpa using And.left (by simpa using h : t = t' ∧ post = post')
    | cons b pre' => simp at h
  | cons b pre ih =>
    cases pre' with
    | nil => simp at h
    | cons b' pre' =>
      simp only [List.map_cons, List.cons_append, List.cons.injEq] at h
      exact ih h.2

theorem binaries_inj {a b : List Bytes} (h : a.map Payload.binary = b.map Payload.binary) : a = b :=
  List.map_inj_right (fun x y h => by simpa using h) |>.1 h

theorem text_binaries {pre bs : List Bytes} {t : Str} {post : List Payload}
    (h : pre.map Payload.binary ++ .text t :: post = bs.map Payload.binary) : False := by
  have : Payload.text t ∈ bs.map Payload.binary := by rw [← h]; simp
  simp at this

theorem means_missing {p : Pkt} {vs : List Str} {bs : List Bytes} {body : Body} (hk : p.kind ∈ ['5', '6'])
    (hm : p.Means vs bs body) (h : vs = [] ∨ (p.kind = '6' ∧ p.id = none)) : False := by
  cases hm with
  | connect hk' => rw [hk'] at hk; simp at hk
  | disconnect hk' => rw [hk'] at hk; simp at hk
  | event hk' hv =>
    rcases h with h | ⟨h, _⟩
    · exact hv h
    · rcases hk' with ⟨hk', _⟩ | ⟨hk', _⟩ <;> rw [h] at hk' <;> simp at hk'
  | ack i _ hi hv =>
    rcases h with h | ⟨_, h⟩
    · exact hv h
    · rw [hi] at h; simp at h

/-- A message for a packet that has begun. -/
theorem pending_exact {cfg : RCfg} {st : RState} {reg : Callbacks} {m : EMsg} {pl : Payload} {p : Pkt} {vs : List Str}
    {n : Nat} {got : List Payload} (h : Pending st p vs n got) (hp : HasPayload m pl) :
    Exact cfg reg (some ⟨p, vs, got⟩) pl (processEngineMessage cfg st reg m) := by
  have ha : p.ArgTexts vs := by obtain ⟨q, ms, _, h2, _⟩ := h.ip; exact h2.args
  have comp : ∀ {ns body}, Completes (some ⟨p, vs, got⟩) pl ns body →
      ∃ bs : List Bytes, ns = p.ns.getD ['/'] ∧ got ++ [pl] = bs.map .binary ∧ p.Means vs bs body ∧ got.length + 1 = n := by
    intro ns body hc
    cases hc with
    | @last _ _ _ _ bs _ g1 g2 =>
      have hne : bs ≠ [] := by rintro rfl; simp at g1
      have hl := congrArg List.length g1
      simp at hl
      have := (means_att g2 hne).2
      rw [h.att] at this
      simp only [Option.some.injEq] at this
      exact ⟨bs, rfl, g1, g2, by omega⟩
  rcases Nat.lt_or_ge (got.length + 1) n with hlt | hge
  · obtain ⟨_, _, _, ho⟩ := pending_more (cfg := cfg) (reg := reg) h hp hlt
    rw [show processEngineMessage cfg st reg m = processEngineMessage cfg st reg m from rfl]
    refine ⟨fun f => ⟨by rw [ho]; simp, ?_⟩, ⟨by rw [ho]; simp, ?_⟩, by rw [ho]; simp, by rw [ho]; simp⟩
    · intro hf
      exfalso
      cases hf with
      | text g1 g2 => rw [h.att] at g1; simp only [Option.some.injEq] at g1; omega
      | missing g1 g2 => rw [h.att] at g1; simp only [Option.some.injEq] at g1; omega
      | packet g1 => obtain ⟨_, _, _, _, g⟩ := comp g1; omega
    · intro hc
      exfalso
      cases hc with
      | log g1 => obtain ⟨_, _, _, _, g⟩ := comp g1; omega
  · have hl : got.length + 1 = n := by have := h.lt; omega
    obtain ⟨_, h2⟩ := pending_last (cfg := cfg) (reg := reg) h hp hl
    rcases h2 with ⟨pre, t, post, g1, _, g3, g4⟩ | ⟨bs, g1, ⟨g2, _, g4, g5⟩ | ⟨body, pk, g2, g3, g4⟩⟩
    · refine exact_err g4 g3 (.text h.att hl g1) ?_ ?_
      · intro f hf
        cases hf with
        | text _ _ k => rw [first_text_unique (g1.symm.trans k)]
        | missing _ _ k => exact (text_binaries (g1.symm.trans k)).elim
        | packet k => obtain ⟨_, _, k, _⟩ := comp k; exact (text_binaries (g1.symm.trans k)).elim
      · intro hc
        cases hc with
        | log k => obtain ⟨_, _, k, _⟩ := comp k; exact (text_binaries (g1.symm.trans k)).elim
    · refine exact_err g5 g4 (.missing h.att hl g1 g2) ?_ ?_
      · intro f hf
        cases hf with
        | text _ _ k => exact (text_binaries (k.symm.trans g1)).elim
        | missing => rfl
        | packet k => obtain ⟨_, _, _, k, _⟩ := comp k; exact (means_missing h.kind k g2).elim
      · intro hc
        cases hc with
        | log k => obtain ⟨_, _, _, k, _⟩ := comp k; exact (means_missing h.kind k g2).elim
    · obtain ⟨c1, c2⟩ := means_content ha g2
      obtain ⟨k1, k2, k3, k4⟩ := processPacket_exact (cfg := cfg) (reg := reg) g3 c1 c2
      rw [← g4] at k1 k2 k3 k4
      simp only at k1 k2 k3 k4
      have uniq : ∀ {ns body'}, Completes (some ⟨p, vs, got⟩) pl ns body' → ns = p.ns.getD ['/'] ∧ body' = body := by
        intro ns body' hc
        obtain ⟨bs', j1, j2, j3, _⟩ := comp hc
        rw [g1] at j2
        rw [← binaries_inj j2] at j3
        exact ⟨j1, means_unique j3 g2⟩
      refine ⟨fun f => ?_, ?_, k3, k4⟩
      · rw [k1 f]
        constructor
        · rintro ⟨j1, j2⟩
          exact .packet (.last g1 g2) j1 j2
        · intro hf
          cases hf with
          | text _ _ k => exact (text_binaries (k.symm.trans g1)).elim
          | missing _ _ _ k => exact (means_missing h.kind g2 k).elim
          | packet j1 j2 j3 =>
            obtain ⟨rfl, rfl⟩ := uniq j1
            exact ⟨j2, j3⟩
      · rw [k2]
        constructor
        · exact fun hn => .log (.last g1 g2) hn
        · intro hc
          cases hc with
          | log j1 j2 =>
            obtain ⟨rfl, rfl⟩ := uniq j1
            exact j2

theorem message_exact {cfg : RCfg} {st : RState} {reg : Callbacks} {m : EMsg} {pl : Payload} {x : Option Begun}
    (h : StandsAt st x) (hp : HasPayload m pl) : Exact cfg reg x pl (processEngineMessage cfg st reg m) := by
  cases x with
  | none => exact idle_exact h hp
  | some b => obtain ⟨n, h⟩ := h; exact pending_exact h hp

/-! ### Where the receiver is -/

theorem cut_append {a : List Payload} (h : Cut a none) : ∀ {b : List Payload} {x : Option Begun}, Cut b x → Cut (a ++ b) x := by
  generalize hy : (none : Option Begun) = y at h
  induction h with
  | between => intro b x h; exact h
  | inside => cases hy
  | packet h1 h2 _ ih =>
    intro b x h
    have := Cut.packet h1 h2 (ih hy h)
    simpa using this

theorem cut_begun {a : List Payload} {p : Pkt} {vs : List Str} {got : List Payload} (h : Cut a (some ⟨p, vs, got⟩)) :
    ∃ pre n, a = pre ++ .text p.text :: got ∧ Cut pre none ∧ p.Reads vs ∧ p.kind ∈ ['5', '6'] ∧ p.att = some n ∧ got.length < n := by
  generalize hy : some (Begun.mk p vs got) = y at h
  induction h with
  | between => cases hy
  | inside h1 h2 h3 h4 => cases hy; exact ⟨[], _, rfl, .between, h1, h2, h3, h4⟩
  | @packet p' vs' bs body rest x h1 h2 _ ih =>
    obtain ⟨pre, n, e, k1, k2⟩ := ih hy
    refine ⟨.text p'.text :: (bs.map .binary ++ pre), n, by rw [e]; simp, .packet h1 h2 k1, k2⟩

/-- The receiver after messages that were accepted stands where their contents are cut. -/
theorem stands_at (cfg : RCfg) : ∀ (k : Nat) (l : List (Callbacks × Ws)), l.length = k →
    (∀ o ∈ outs cfg RState.new l, o.res = .ok ()) →
    ∃ x, Cut (payloads l) x ∧ StandsAt (after cfg RState.new l) x := by
  intro k
  induction k with
  | zero =>
    intro l hl _
    have := List.length_eq_zero_iff.1 hl
    subst this
    exact ⟨none, .between, rfl⟩
  | succ k ih =>
    intro l hl hok
    rcases List.eq_nil_or_concat l with rfl | ⟨l, ⟨reg, w⟩, rfl⟩
    · simp at hl
    · rw [List.concat_eq_append] at hl hok ⊢
      rw [outs_append] at hok
      obtain ⟨x, hx, hs⟩ := ih l (by simpa using hl) (fun o ho => hok o (by simp [ho]))
      have ho : (processWs cfg (after cfg RState.new l) reg w).res = .ok () := hok _ (by simp [outs])
      rw [after_append, payloads_append]
      simp only [after]
      generalize after cfg RState.new l = st at hs ho
      have hdec : IsControl w ∨ ∃ p, (decode st.decoder w).2 = .ok p := by
        by_cases hc : IsControl w
        · exact Or.inl hc
        · exact Or.inr (res_ok_decoded ho hc)
      cases hp : payload? w with
      | none =>
        refine ⟨x, by simpa [payloads, hp] using hx, ?_⟩
        have : (processWs cfg st reg w).st.inProgress = st.inProgress := (processWs_other cfg st reg hp).1
        cases x with
        | none => simpa [StandsAt, this] using hs
        | some b =>
          obtain ⟨n, hs⟩ := hs
          exact ⟨n, by rw [this]; exact hs.ip, hs.kind, hs.att, hs.lt⟩
      | some pl =>
        obtain ⟨m, hm, _, he⟩ := payload_given (cfg := cfg) (reg := reg) hp hdec
        rw [he] at ho ⊢
        have e : payloads [(reg, w)] = [pl] := by simp [payloads, hp]
        rw [e]
        cases x with
        | none =>
          rcases idle_only hs hm ho with ⟨p, vs, body, cs, rfl, h1, h2, h3, h4⟩ | ⟨p, vs, n, rfl, h1, h2, h3, h4⟩
          · refine ⟨none, cut_append hx (.packet (bs := []) h1 h2 .between), ?_⟩
            rw [(idle_packet hs hm h1 h2 h3 h4).2.1]
            exact hs
          · exact ⟨some ⟨p, vs, []⟩, cut_append hx (.inside h1 h2 h3 (by simpa using h4)),
              n, (idle_header hs hm h1 h2 h3 h4).2.2⟩
        | some b =>
          obtain ⟨p, vs, got⟩ := b
          obtain ⟨n, hs⟩ := hs
          simp only at hs
          obtain ⟨pre, n', e', c1, c2, c3, c4, c5⟩ := cut_begun hx
          have : n' = n := by rw [hs.att] at c4; simpa using c4.symm
          subst this
          rcases Nat.lt_or_ge (got.length + 1) n' with hlt | hge
          · refine ⟨some ⟨p, vs, got ++ [pl]⟩, ?_, n', (pending_more hs hm hlt).1⟩
            rw [e', List.append_assoc]
            exact cut_append c1 (.inside c2 c3 c4 (by simpa using hlt))
          · have hl' : got.length + 1 = n' := by omega
            obtain ⟨g1, g2, _⟩ := pending_act (cfg := cfg) (reg := reg) hs hm hl'
            obtain ⟨bs, body, cs, k1, k2, _⟩ := g2 ho
            refine ⟨none, ?_, g1⟩
            rw [e', List.append_assoc, List.cons_append, k1]
            have := Cut.packet (bs := bs) c2 k2 .between
            rw [List.append_nil] at this
            exact cut_append c1 this

theorem means_length {p : Pkt} {vs : List Str} {bs : List Bytes} {body : Body} (hm : p.Means vs bs body) :
    bs.length = p.att.getD 0 := by
  cases hm with
  | connect _ h _ _ h' => simp [h, h']
  | disconnect _ h _ _ h' => simp [h, h']
  | event _ _ h => exact h
  | ack _ _ _ _ h => exact h

/-- Contents are cut in one way. -/
theorem cut_unique {a : List Payload} {x : Option Begun} (h : Cut a x) : ∀ {y : Option Begun}, Cut a y → y = x := by
  induction h with
  | between =>
    intro y h'
    generalize hz : ([] : List Payload) = z at h'
    cases h' with
    | between => rfl
    | inside => cases hz
    | packet => cases hz
  | @inside p vs n ms h1 h2 h3 h4 =>
    intro y h'
    generalize hz : Payload.text p.text :: ms = z at h'
    cases h' with
    | between => cases hz
    | @inside p' vs' n' ms' g1 g2 g3 g4 =>
      simp only [List.cons.injEq, Payload.text.injEq] at hz
      obtain ⟨rfl, rfl⟩ := pkt_reads_unique h1 g1 hz.1.symm
      rw [hz.2]
    | @packet p' vs' bs body rest x g1 g2 g3 =>
      simp only [List.cons.injEq, Payload.text.injEq] at hz
      obtain ⟨rfl, rfl⟩ := pkt_reads_unique h1 g1 hz.1.symm
      have hl := means_length g2
      rw [h3] at hl
      rw [hz.2] at h4
      simp at hl h4
      omega
  | @packet p vs bs body rest x h1 h2 _ ih =>
    intro y h'
    generalize hz : Payload.text p.text :: (bs.map Payload.binary ++ rest) = z at h'
    cases h' with
    | between => cases hz
    | @inside p' vs' n' ms' g1 g2 g3 g4 =>
      simp only [List.cons.injEq, Payload.text.injEq] at hz
      obtain ⟨rfl, rfl⟩ := pkt_reads_unique h1 g1 hz.1.symm
      have hl := means_length h2
      rw [← hz.2] at g4
      rw [g3] at hl
      simp at hl g4
      omega
    | @packet p' vs' bs' body' rest' x' g1 g2 g3 =>
      simp only [List.cons.injEq, Payload.text.injEq] at hz
      obtain ⟨rfl, rfl⟩ := pkt_reads_unique h1 g1 hz.1.symm
      have hl := means_length h2
      rw [← means_length g2] at hl
      have := (List.append_inj hz.2 (by simpa using hl)).2
      subst this
      exact ih g3

/-! ### The engine protocol -/

/-- What the decoder knows after messages that were accepted. -/
theorem decoder_history (cfg : RCfg) : ∀ (k : Nat) (l : List (Callbacks × Ws)), l.length = k →
    (∀ o ∈ outs cfg RState.new l, o.res = .ok ()) →
    ((after cfg RState.new l).decoder ≠ .initial ↔ Opened (l.map Prod.snd)) ∧
    ((after cfg RState.new l).decoder = .closed ↔ Closed (l.map Prod.snd)) := by
  intro k
  induction k with
  | zero =>
    intro l hl _
    have := List.length_eq_zero_iff.1 hl
    subst this
    simp [after, RState.new, EState.new, Opened, Closed]
  | succ k ih =>
    intro l hl hok
    rcases List.eq_nil_or_concat l with rfl | ⟨l, ⟨reg, w⟩, rfl⟩
    · simp at hl
    · rw [List.concat_eq_append] at hl hok ⊢
      rw [outs_append] at hok
      obtain ⟨i1, i2⟩ := ih l (by simpa using hl) (fun o ho => hok o (by simp [ho]))
      have ho : (processWs cfg (after cfg RState.new l) reg w).res = .ok () := hok _ (by simp [outs])
      rw [after_append]
      simp only [after]
      generalize after cfg RState.new l = st at i1 i2 ho
      have e1 : Opened ((l ++ [(reg, w)]).map Prod.snd) ↔ Opened (l.map Prod.snd) ∨ ∃ o, Wire w (.opened o) := by
        simp only [Opened, List.map_append, List.map_cons, List.map_nil, List.mem_append, List.mem_singleton, or_and_right,
          exists_or, exists_eq_left]
      have e2 : Closed ((l ++ [(reg, w)]).map Prod.snd) ↔ Closed (l.map Prod.snd) ∨ Wire w .close := by
        simp only [Closed, List.map_append, List.map_cons, List.map_nil, List.mem_append, List.mem_singleton, or_and_right,
          exists_or, exists_eq_left]
      rw [e1, e2, ← i1, ← i2]
      by_cases hc : IsControl w
      · rw [control_ws hc]
        have n : ∀ m, ¬ Wire w m := fun m h => wire_control h hc
        simp [n]
      · rw [processWs_decoder hc]
        obtain ⟨p, hp⟩ := res_ok_decoded ho hc
        obtain ⟨m, hm⟩ := decode_tells hp
        obtain ⟨k1, k2, k3⟩ := (decode_ok_iff _ w m).1 ⟨p, hp, hm⟩
        rcases decode_state st.decoder w with ⟨o, g1, g2, g3⟩ | ⟨g1, g2, g3⟩ | ⟨g1, g2, g3⟩
        · rw [g3]
          rw [hp] at g1
          cases g1
          cases hm
          refine ⟨⟨fun _ => Or.inr ⟨_, k2⟩, by simp⟩, ⟨by simp, ?_⟩⟩
          rintro (h | h)
          · exact absurd h k1
          · cases k2; cases h
        · rw [g3]
          rw [hp] at g1
          cases g1
          cases hm
          exact ⟨⟨fun _ => Or.inl (by rw [g2]; simp), by simp⟩, ⟨fun _ => Or.inr k2, fun _ => rfl⟩⟩
        · rw [g3]
          have n1 : ∀ o, ¬ Wire w (.opened o) := by
            intro o h
            cases hm with
            | opened o' => exact g1 o' hp
            | close => cases k2; cases h
            | ping => cases k2; cases h
            | pong => cases k2; cases h
            | text => cases k2; cases h
            | binary => cases k2; cases h
          have n2 : ¬ Wire w .close := by
            intro h
            cases hm with
            | opened o' => exact g1 o' hp
            | close => exact g2 hp
            | ping => cases k2; cases h
            | pong => cases k2; cases h
            | text => cases k2; cases h
            | binary => cases k2; cases h
          simp [n1, n2]

/-! ### One websocket message -/

/-- Which result a message gives after messages that were accepted. -/
theorem ws_exact (cfg : RCfg) (l : List (Callbacks × Ws)) (hok : ∀ o ∈ outs cfg RState.new l, o.res = .ok ())
    (reg : Callbacks) (w : Ws) :
    ∃ x, Cut (payloads l) x ∧
      (∀ f, (∃ e, (processWs cfg (after cfg RState.new l) reg w).res = .err e ∧ Names e f) ↔
        Wrong cfg (whoOf reg) (l.map Prod.snd) x w f) ∧
      ((processWs cfg (after cfg RState.new l) reg w).res = .panic ↔ Fatal cfg (l.map Prod.snd) x w) ∧
      (∀ e, (processWs cfg (after cfg RState.new l) reg w).res = .err e → ∃ f, Names e f) ∧
      ((processWs cfg (after cfg RState.new l) reg w).res ≠ .ok () →
        (processWs cfg (after cfg RState.new l) reg w).effs = []) := by
  obtain ⟨x, hx, hs⟩ := stands_at cfg _ l rfl hok
  obtain ⟨h1, h2⟩ := decoder_history cfg _ l rfl hok
  refine ⟨x, hx, ?_⟩
  generalize after cfg RState.new l = st at hs h1 h2
  generalize l.map Prod.snd = ws at h1 h2
  have hfail : ∀ e, (decode st.decoder w).2 = .err e ↔ Fails (Opened ws) (Closed ws) w e := by
    intro e
    rw [decode_err_iff, ← propext h1, ← propext h2]
  have pay : ∀ pl, payload? w = some pl → ¬ IsControl w := by
    rintro pl hp (⟨b, rfl⟩ | ⟨b, rfl⟩ | rfl) <;> simp [payload?] at hp
  by_cases hc : IsControl w
  · rw [control_ws hc]
    refine ⟨fun f => ⟨by simp, ?_⟩, ⟨by simp, ?_⟩, by simp, by simp⟩
    · intro h
      cases h with
      | engine h => exact absurd hc h
      | message h => exact absurd hc (pay _ h)
    · rintro ⟨pl, h, _⟩
      exact absurd hc (pay _ h)
  · cases hd : (decode st.decoder w).2 with
    | panic => exact absurd hd (decode_no_panic _ _)
    | err e =>
      have hf := (hfail e).1 hd
      have ho : (processWs cfg st reg w).res = .err (.engine e) ∧ (processWs cfg st reg w).effs = [] := by
        rw [data_ws hc]
        unfold processMessage
        cases hd' : decode st.decoder w with
        | mk d r => rw [hd'] at hd; simp only at hd; subst hd; exact ⟨rfl, rfl⟩
      rw [ho.1, ho.2]
      refine ⟨fun f => ⟨?_, ?_⟩, ⟨by simp, ?_⟩, ?_, by simp⟩
      · rintro ⟨e', he, hn⟩
        simp only [Res.err.injEq] at he
        subst he
        cases hn
        exact .engine hc hf
      · intro h
        cases h with
        | engine _ h =>
          rw [← hfail, hd] at h
          cases h
          exact ⟨_, rfl, .engine e⟩
        | message _ h => exact absurd hf (h e)
      · rintro ⟨pl, _, h, _⟩
        exact absurd hf (h e)
      · intro e' he
        simp only [Res.err.injEq] at he
        subst he
        exact ⟨_, .engine e⟩
    | ok p =>
      have hno : ∀ e, ¬ Fails (Opened ws) (Closed ws) w e := by
        intro e h
        rw [← hfail, hd] at h
        cases h
      cases hp : payload? w with
      | none =>
        have ho := other_ok (cfg := cfg) (st := st) (reg := reg) hp (Or.inr ⟨p, hd⟩)
        rw [ho]
        refine ⟨fun f => ⟨by simp, ?_⟩, ⟨by simp, ?_⟩, by simp, by simp⟩
        · intro h
          cases h with
          | engine _ h => exact absurd h (hno _)
          | message h => rw [hp] at h; cases h
        · rintro ⟨pl, h, _⟩
          rw [hp] at h
          cases h
      | some pl =>
        obtain ⟨m, hm, _, he⟩ := payload_given (cfg := cfg) (reg := reg) hp (Or.inr ⟨p, hd⟩)
        rw [he]
        obtain ⟨k1, k2, k3, k4⟩ := message_exact (cfg := cfg) (reg := reg) hs hm
        refine ⟨fun f => ?_, ?_, k3, k4⟩
        · rw [k1 f]
          constructor
          · exact fun h => .message hp hno h
          · intro h
            cases h with
            | engine _ h => exact absurd h (hno _)
            | message g1 _ g3 =>
              rw [hp] at g1
              cases g1
              exact g3
        · rw [k2]
          constructor
          · exact fun h => ⟨pl, hp, hno, h⟩
          · rintro ⟨pl', g1, _, g3⟩
            rw [hp] at g1
            cases g1
            exact g3

end SIO
