import Verif.Props.CallLock
/-
C64: every message reaches the callback that is registered when it is served.
-/
namespace SIO
open Spec

theorem xrun_snoc {beh : Behaviour} {P : List Nat → XState → List CbEv → Prop} {s0 : XState} (h0 : P [] s0 [])
    (hs : ∀ is s es i s' e, xrun beh s0 is = some (s, es) → P is s es → xstep beh s i = some (s', e) → P (is ++ [i]) s' (es ++ e)) :
    ∀ (is : List Nat) (s : XState) (es : List CbEv), xrun beh s0 is = some (s, es) → P is s es := by
  have gen : ∀ (js is : List Nat) (s s' : XState) (es es' : List CbEv), xrun beh s0 is = some (s, es) → P is s es →
      xrun beh s js = some (s', es') → P (is ++ js) s' (es ++ es') := by
    intro js
    induction js with
    | nil =>
      intro is s s' es es' hr hp h
      simp only [xrun, Option.some.injEq, Prod.mk.injEq] at h
      obtain ⟨rfl, rfl⟩ := h
      simpa using hp
    | cons j js ih =>
      intro is s s' es es' hr hp h
      simp only [xrun] at h
      split at h
      · simp at h
      · rename_i s1 e1 h1
        split at h
        · simp at h
        · rename_i s2 e2 h2
          simp only [Option.some.injEq, Prod.mk.injEq] at h
          obtain ⟨rfl, rfl⟩ := h
          have hr1 : xrun beh s0 (is ++ [j]) = some (s1, es ++ e1) := xrun_append hr (by simp [xrun, h1])
          have := ih (is ++ [j]) s1 _ _ _ hr1 (hs _ _ _ _ _ _ hr hp h1) h2
          simpa using this
  intro is s es h
  have := gen is [] s0 s [] es rfl h0 h
  simpa using this

/-- A step of another thread leaves the registry alone while the thread has its guard. -/
theorem reg_held {beh : Behaviour} {s s' : XState} {c i j : Nat} {e : List CbEv} (hI : GuardInv okT s)
    (hh : s.holder (.reg c) = some i) (hj : j ≠ i) (h : xstep beh s j = some (s', e)) : s'.reg c = s.reg c := by
  obtain ⟨hs, h1, _, h3⟩ := hI.fits j
  have hne : ∀ d, .reg d ∈ hs → d ≠ c := by
    rintro d hd rfl
    rw [h1, hh] at hd
    simp only [Option.some.injEq] at hd
    exact hj hd.symm
  unfold xstep at h
  split at h
  · simp at h
  all_goals rename_i hcode
  all_goals rw [hcode] at h3
  · split at h
    · simp at h
    · split at h <;> (simp only [Option.some.injEq, Prod.mk.injEq] at h; obtain ⟨rfl, rfl⟩ := h) <;> rfl
  · split at h
    · simp only [Option.some.injEq, Prod.mk.injEq] at h
      obtain ⟨rfl, rfl⟩ := h; rfl
    · simp at h
  · split at h <;> (simp only [Option.some.injEq, Prod.mk.injEq] at h; obtain ⟨rfl, rfl⟩ := h) <;> rfl
  · have := hne _ h3.2.1
    split at h <;> (simp only [Option.some.injEq, Prod.mk.injEq] at h; obtain ⟨rfl, rfl⟩ := h) <;>
      simp [XState.setReg, XState.goto, Ne.symm this]
  · split at h
    · simp at h
    · split at h <;> (simp only [Option.some.injEq, Prod.mk.injEq] at h; obtain ⟨rfl, rfl⟩ := h) <;> rfl
  · split at h
    · simp only [Option.some.injEq, Prod.mk.injEq] at h
      obtain ⟨rfl, rfl⟩ := h; rfl
    · simp at h
  · have := hne _ h3.2.1
    simp only [Option.some.injEq, Prod.mk.injEq] at h
    obtain ⟨rfl, rfl⟩ := h
    simp [XState.setReg, XState.goto, Ne.symm this]
  · simp only [Option.some.injEq, Prod.mk.injEq] at h
    obtain ⟨rfl, rfl⟩ := h; rfl
  · simp only [Option.some.injEq, Prod.mk.injEq] at h
    obtain ⟨rfl, rfl⟩ := h; rfl

/-- At some moment of the schedule the message was served. -/
def Served (beh : Behaviour) (s0 : XState) (c i : Nat) (is : List Nat) (msg : CbMsg) (post : List CbMsg) : Prop :=
  ∃ is1 is2 s1 es1, is = is1 ++ i :: is2 ∧ xrun beh s0 is1 = some (s1, es1) ∧
    Serves beh c i (post.flatMap (CbMsg.code c)) s1 msg

theorem served_snoc {beh : Behaviour} {s0 : XState} {c i j : Nat} {is : List Nat} {msg : CbMsg} {post : List CbMsg}
    (h : Served beh s0 c i is msg post) : Served beh s0 c i (is ++ [j]) msg post := by
  obtain ⟨is1, is2, s1, es1, rfl, h2, h3⟩ := h
  exact ⟨is1, is2 ++ [j], s1, es1, by simp, h2, h3⟩

def AllServed (beh : Behaviour) (s0 : XState) (c i : Nat) (is : List Nat) (q r : List CbMsg) : Prop :=
  ∀ a msg b, q = a ++ msg :: b → Served beh s0 c i is msg (b ++ r)

theorem allServed_snoc {beh : Behaviour} {s0 : XState} {c i j : Nat} {is : List Nat} {q r : List CbMsg}
    (h : AllServed beh s0 c i is q r) : AllServed beh s0 c i (is ++ [j]) q r :=
  fun a msg b hq => served_snoc (h a msg b hq)

theorem allServed_more {beh : Behaviour} {s0 : XState} {c i : Nat} {is : List Nat} {q r : List CbMsg} {msg : CbMsg}
    (h : AllServed beh s0 c i is q (msg :: r)) (hm : Served beh s0 c i is msg r) : AllServed beh s0 c i is (q ++ [msg]) r := by
  intro a m b hq
  rcases snoc_split hq with ⟨rfl, _, rfl⟩ | ⟨b', rfl, h3⟩
  · simpa using hm
  · have := h a m b' h3
    simpa using this

def CbMsg.instr (c : Nat) : CbMsg → XInstr
  | .event ns name => .event c ns name
  | .ack ns id => .ack c ns id

theorem CbMsg.code_eq (c : Nat) (m : CbMsg) : m.code c = [.lock c, m.instr c, .unlock c] := by cases m <;> rfl

/-- Where the task is in its messages. -/
inductive At (beh : Behaviour) (s0 : XState) (c i : Nat) (msgs : List CbMsg) (is : List Nat) (s : XState) (es : List CbEv) : Prop where
  | gone : .panic i ∈ es → At beh s0 c i msgs is s es
  | between (q r : List CbMsg) : msgs = q ++ r → AllServed beh s0 c i is q r → s.code i = r.flatMap (CbMsg.code c) →
      At beh s0 c i msgs is s es
  | locked (q r : List CbMsg) (m : CbMsg) : msgs = q ++ m :: r → AllServed beh s0 c i is q (m :: r) → s.holder (.reg c) = some i →
      s.code i = m.instr c :: .unlock c :: r.flatMap (CbMsg.code c) → At beh s0 c i msgs is s es
  | found (q r : List CbMsg) (ns name : Str) (m : Cb) : msgs = q ++ .event ns name :: r →
      AllServed beh s0 c i is q (.event ns name :: r) → s.holder (.reg c) = some i → (s.reg c).getEvent ns name = some m →
      s.code i = .call m :: .unlock c :: r.flatMap (CbMsg.code c) → At beh s0 c i msgs is s es
  | inside (q r : List CbMsg) (p : List XInstr) : msgs = q ++ r → AllServed beh s0 c i is q r → s.holder (.reg c) = some i →
      s.code i = p ++ .unlock c :: r.flatMap (CbMsg.code c) → Shut c p → At beh s0 c i msgs is s es

theorem ack_gone (r : Callbacks) (ns : Str) (id : Nat) :
    (r.getAndClearAck ns id).2.getAndClearAck ns id = (none, (r.getAndClearAck ns id).2) := by
  unfold Callbacks.getAndClearAck
  cases h : r.namespaces.get ns with
  | none => simp [h]
  | some n =>
    simp only [kget_insert, if_true, kget_remove]
    have hrr : ∀ (m : KMap Nat Cb), KMap.remove (KMap.remove m id) id = KMap.remove m id := by
      intro m
      induction m with
      | nil => rfl
      | cons p m ih =>
        obtain ⟨k, v⟩ := p
        by_cases hk : k = id
        · simp [KMap.remove, hk, ih]
        · simp [KMap.remove, hk, ih]
    have hrr' : ∀ (m : KMap Str Namespace), KMap.remove (KMap.remove m ns) ns = KMap.remove m ns := by
      intro m
      induction m with
      | nil => rfl
      | cons p m ih =>
        obtain ⟨k, v⟩ := p
        by_cases hk : k = ns
        · simp [KMap.remove, hk, ih]
        · simp [KMap.remove, hk, ih]
    simp [KMap.insert, KMap.remove, hrr, hrr']

/-- Inside of a dispatch. -/
theorem inside_step {beh : Behaviour} {s s' : XState} {c i : Nat} {e : List CbEv} {p : List XInstr} {tail : List XInstr}
    (hh : s.holder (.reg c) = some i) (hc : s.code i = p ++ .unlock c :: tail) (hs : Shut c p)
    (h : xstep beh s i = some (s', e)) :
    .panic i ∈ e ∨ (p = [] ∧ s'.code i = tail) ∨
      ∃ p', s'.holder (.reg c) = some i ∧ s'.code i = p' ++ .unlock c :: tail ∧ Shut c p' := by
  cases p with
  | nil =>
    simp only [List.nil_append] at hc
    simp only [xstep, hc, hh, if_true, Option.some.injEq, Prod.mk.injEq] at h
    obtain ⟨rfl, rfl⟩ := h
    exact .inr (.inl ⟨rfl, by simp [XState.hold, XState.goto]⟩)
  | cons x p =>
    simp only [List.cons_append] at hc
    cases x with
    | lock d =>
      simp only [xstep, hc] at h
      split at h
      · simp at h
      · rename_i hn
        have hd : d ≠ c := by rintro rfl; rw [hh] at hn; simp at hn
        split at h <;> (simp only [Option.some.injEq, Prod.mk.injEq] at h; obtain ⟨rfl, rfl⟩ := h)
        · exact .inl (by simp)
        · exact .inr (.inr ⟨p, by simp [XState.hold, XState.goto, hh, Ne.symm hd],
            by simp [XState.hold, XState.goto], shut_tail hs (by simp [hd])⟩)
    | unlock d =>
      have hd : d ≠ c := by
        rintro rfl
        have := hs [] p rfl
        simp at this
      simp only [xstep, hc] at h
      split at h
      · simp only [Option.some.injEq, Prod.mk.injEq] at h
        obtain ⟨rfl, rfl⟩ := h
        exact .inr (.inr ⟨p, by simp [XState.hold, XState.goto, hh, Ne.symm hd],
            by simp [XState.hold, XState.goto], shut_tail hs (by simp)⟩)
      · simp at h
    | event d ns name =>
      simp only [xstep, hc] at h
      split at h <;> (simp only [Option.some.injEq, Prod.mk.injEq] at h; obtain ⟨rfl, rfl⟩ := h)
      · exact .inr (.inr ⟨p, hh, by simp [XState.goto], shut_tail hs (by simp)⟩)
      · rename_i m _
        exact .inr (.inr ⟨.call m :: p, hh, by simp [XState.goto], shut_cons (shut_tail hs (by simp)) (by simp)⟩)
    | ack d ns id =>
      simp only [xstep, hc] at h
      split at h <;> (simp only [Option.some.injEq, Prod.mk.injEq] at h; obtain ⟨rfl, rfl⟩ := h)
      · exact .inr (.inr ⟨p, hh, by simp [XState.goto, XState.setReg], shut_tail hs (by simp)⟩)
      · rename_i cb _ _
        exact .inr (.inr ⟨acts (beh.ack cb) ++ p, hh, by simp [XState.goto, XState.setReg], shut_acts (shut_tail hs (by simp)) _⟩)
    | call m =>
      simp only [xstep, hc] at h
      split at h
      · simp at h
      · split at h <;> (simp only [Option.some.injEq, Prod.mk.injEq] at h; obtain ⟨rfl, rfl⟩ := h)
        · exact .inl (by simp)
        · exact .inr (.inr ⟨acts (beh.event m (s.calls m)) ++ .ret m :: p, by simp [XState.hold, XState.goto, hh],
            by simp [XState.hold, XState.goto], shut_acts (shut_cons (shut_tail hs (by simp)) (by simp)) _⟩)
    | ret m =>
      simp only [xstep, hc] at h
      split at h
      · simp only [Option.some.injEq, Prod.mk.injEq] at h
        obtain ⟨rfl, rfl⟩ := h
        exact .inr (.inr ⟨p, by simp [XState.hold, XState.goto, hh], by simp [XState.hold, XState.goto], shut_tail hs (by simp)⟩)
      · simp at h
    | op d o =>
      simp only [xstep, hc, Option.some.injEq, Prod.mk.injEq] at h
      obtain ⟨rfl, rfl⟩ := h
      exact .inr (.inr ⟨p, hh, by simp [XState.goto, XState.setReg], shut_tail hs (by simp)⟩)
    | panic =>
      simp only [xstep, hc, Option.some.injEq, Prod.mk.injEq] at h
      obtain ⟨rfl, rfl⟩ := h
      exact .inl (by simp)
    | other =>
      simp only [xstep, hc, Option.some.injEq, Prod.mk.injEq] at h
      obtain ⟨rfl, rfl⟩ := h
      exact .inr (.inr ⟨p, hh, by simp [XState.goto], shut_tail hs (by simp)⟩)

theorem shut_nil (c : Nat) : Shut c [] := fun q r h => by simp at h

theorem at_step {beh : Behaviour} {s0 s s' : XState} {c i j : Nat} {msgs : List CbMsg} {is : List Nat} {es e : List CbEv}
    (hI : GuardInv okT s) (hr : xrun beh s0 is = some (s, es)) (hA : At beh s0 c i msgs is s es)
    (h : xstep beh s j = some (s', e)) : At beh s0 c i msgs (is ++ [j]) s' (es ++ e) := by
  by_cases hj : j = i
  · subst hj
    cases hA with
    | gone hp => exact .gone (List.mem_append_left _ hp)
    | between q r hm hq hc =>
      cases r with
      | nil => simp [xstep, hc] at h
      | cons m r =>
        have hl : s.code j = .lock c :: m.instr c :: .unlock c :: r.flatMap (CbMsg.code c) := by
          rw [hc, List.flatMap_cons, CbMsg.code_eq]; rfl
        simp only [xstep, hl] at h
        split at h
        · simp at h
        · split at h <;> (simp only [Option.some.injEq, Prod.mk.injEq] at h; obtain ⟨rfl, rfl⟩ := h)
          · exact .gone (by simp)
          · exact .locked q r m hm (allServed_snoc hq) (by simp [XState.hold]) (by simp [XState.hold, XState.goto])
    | locked q r m hm hq hh hc =>
      cases m with
      | event ns name =>
        have hc' := hc
        simp only [CbMsg.instr] at hc
        simp only [xstep, hc] at h
        cases hg : (s.reg c).getEvent ns name with
        | none =>
          rw [hg] at h
          simp only [Option.some.injEq, Prod.mk.injEq] at h
          obtain ⟨rfl, rfl⟩ := h
          refine .inside (q ++ [.event ns name]) r [] (by simp [hm]) (allServed_more (allServed_snoc hq) ?_) hh (by simp [XState.goto]) (shut_nil c)
          exact ⟨is, [], s, es, rfl, hr, hh, .inl ⟨hg, hc⟩⟩
        | some m =>
          rw [hg] at h
          simp only [Option.some.injEq, Prod.mk.injEq] at h
          obtain ⟨rfl, rfl⟩ := h
          exact .found q r ns name m hm (allServed_snoc hq) hh hg (by simp [XState.goto])
      | ack ns id =>
        simp only [CbMsg.instr] at hc
        have hx := h
        simp only [xstep, hc] at h
        have hgone := ack_gone (s.reg c) ns id
        cases hg : (s.reg c).getAndClearAck ns id with
        | mk o r' =>
          rw [hg] at h hgone
          cases o with
          | none =>
            simp only [Option.some.injEq, Prod.mk.injEq] at h
            obtain ⟨rfl, rfl⟩ := h
            refine .inside (q ++ [.ack ns id]) r [] (by simp [hm]) (allServed_more (allServed_snoc hq) ?_) hh
              (by simp [XState.goto, XState.setReg]) (shut_nil c)
            exact ⟨is, [], s, es, rfl, hr, hh, hc, _, by simpa [XState.setReg] using hgone, .inl ⟨by rw [hg], hx, by simp [XState.goto, XState.setReg]⟩⟩
          | some cb =>
            simp only [Option.some.injEq, Prod.mk.injEq] at h
            obtain ⟨rfl, rfl⟩ := h
            refine .inside (q ++ [.ack ns id]) r (acts (beh.ack cb)) (by simp [hm]) (allServed_more (allServed_snoc hq) ?_) hh
              (by simp [XState.goto, XState.setReg]) ?_
            · exact ⟨is, [], s, es, rfl, hr, hh, hc, _, by simpa [XState.setReg] using hgone,
                .inr ⟨cb, by rw [hg], hx, by simp [XState.goto, XState.setReg]⟩⟩
            · have := shut_acts (shut_nil c) (beh.ack cb)
              simpa using this
    | found q r ns name m hm hq hh hg hc =>
      have hx := h
      simp only [xstep, hc] at h
      split at h
      · simp at h
      · split at h <;> (simp only [Option.some.injEq, Prod.mk.injEq] at h; obtain ⟨rfl, rfl⟩ := h)
        · exact .gone (by simp)
        · refine .inside (q ++ [.event ns name]) r (acts (beh.event m (s.calls m)) ++ [.ret m]) (by simp [hm])
            (allServed_more (allServed_snoc hq) ?_) (by simp [XState.hold, XState.goto, hh]) (by simp [XState.hold, XState.goto]) ?_
          · exact ⟨is, [], s, es, rfl, hr, hh, .inr ⟨m, _, _, hg, hc, hx, by simp [XState.hold, XState.goto]⟩⟩
          · exact shut_acts (shut_cons (shut_nil c) (by simp)) _
    | inside q r p hm hq hh hc hs =>
      rcases inside_step hh hc hs h with hp | ⟨_, hc'⟩ | ⟨p', hh', hc', hs'⟩
      · exact .gone (List.mem_append_right _ hp)
      · exact .between q r hm (allServed_snoc hq) hc'
      · exact .inside q r p' hm (allServed_snoc hq) hh' hc' hs'
  · obtain ⟨_, _, _, ho, _⟩ := xstep_frame h
    have hi := ho i (Ne.symm hj)
    cases hA with
    | gone hp => exact .gone (List.mem_append_left _ hp)
    | between q r hm hq hc => exact .between q r hm (allServed_snoc hq) (by rw [hi.1]; exact hc)
    | locked q r m hm hq hh hc => exact .locked q r m hm (allServed_snoc hq) ((hi.2 _).2 hh) (by rw [hi.1]; exact hc)
    | found q r ns name m hm hq hh hg hc =>
      exact .found q r ns name m hm (allServed_snoc hq) ((hi.2 _).2 hh) (by rw [reg_held hI hh hj h]; exact hg) (by rw [hi.1]; exact hc)
    | inside q r p hm hq hh hc hs => exact .inside q r p hm (allServed_snoc hq) ((hi.2 _).2 hh) (by rw [hi.1]; exact hc) hs

/-- C64: a connection task that has come to its end without a panic has served each of its messages: there was
a moment at which it had the registry and entered the callback that the registry held for the message then (or
there was none); an ack callback is out of the registry from then on. -/
theorem C64_served (beh : Behaviour) (reg : Nat → Callbacks) (progs : Nat → Prog) (is : List Nat) (s : XState) (es : List CbEv)
    (h : xrun beh (XState.start reg progs) is = some (s, es)) (c i : Nat) (pre post : List CbMsg) (msg : CbMsg)
    (hi : progs i = .task c (pre ++ msg :: post)) (hd : s.code i = []) (hp : .panic i ∉ es) :
    ∃ is1 is2 s1 es1, is = is1 ++ i :: is2 ∧ xrun beh (XState.start reg progs) is1 = some (s1, es1) ∧
      Serves beh c i (post.flatMap (CbMsg.code c)) s1 msg := by
  have hA := xrun_snoc (beh := beh) (s0 := XState.start reg progs)
    (P := fun is s es => At beh (XState.start reg progs) c i (pre ++ msg :: post) is s es)
    (.between [] _ rfl (fun a m b hq => by simp at hq) (by simp [XState.start, hi, Prog.code]))
    (fun is s es j s' e hr hA hs => at_step (xinvT_run hr) hr hA hs) is s es h
  cases hA with
  | gone hp' => exact absurd hp' hp
  | between q r hm hq hc =>
    rw [hd] at hc
    cases r with
    | nil =>
      have := hq pre msg post (by simpa using hm.symm)
      rw [List.append_nil] at this
      exact this
    | cons m r => rw [List.flatMap_cons, CbMsg.code_eq] at hc; simp at hc
  | locked q r m hm hq hh hc => rw [hd] at hc; simp at hc
  | found q r ns name m hm hq hh hg hc => rw [hd] at hc; simp at hc
  | inside q r p hm hq hh hc hs => rw [hd] at hc; simp at hc

/-- C64: the registry of every client is at any time the result of the changes made to it so far, one after
the other: none is lost, none is made twice, and none comes from another client. -/
theorem C64_history (beh : Behaviour) (c : Nat) (is : List Nat) (s s' : XState) (es : List CbEv)
    (h : xrun beh s is = some (s', es)) : s'.reg c = (regChanges beh c s is).foldl RegOp.run (s.reg c) := by
  induction is generalizing s es with
  | nil =>
    simp only [xrun, Option.some.injEq, Prod.mk.injEq] at h
    rw [← h.1]; rfl
  | cons i is ih =>
    simp only [xrun] at h
    split at h
    · simp at h
    · rename_i s1 e1 h1
      split at h
      · simp at h
      · rename_i s2 e2 h2
        simp only [Option.some.injEq, Prod.mk.injEq] at h
        obtain ⟨rfl, _⟩ := h
        rw [ih s1 e2 h2]
        simp only [regChanges, h1, List.foldl_append]
        congr 1
        unfold xstep at h1
        split at h1
        · simp at h1
        all_goals rename_i hcode
        all_goals rw [hcode]
        · split at h1
          · simp at h1
          · split at h1 <;> (simp only [Option.some.injEq, Prod.mk.injEq] at h1; obtain ⟨rfl, rfl⟩ := h1) <;> rfl
        · split at h1
          · simp only [Option.some.injEq, Prod.mk.injEq] at h1
            obtain ⟨rfl, rfl⟩ := h1; rfl
          · simp at h1
        · split at h1 <;> (simp only [Option.some.injEq, Prod.mk.injEq] at h1; obtain ⟨rfl, rfl⟩ := h1) <;> rfl
        · rename_i d ns id rest
          cases hg : (s.reg d).getAndClearAck ns id with
          | mk o r' =>
            rw [hg] at h1
            cases o <;>
            · simp only [Option.some.injEq, Prod.mk.injEq] at h1
              obtain ⟨rfl, rfl⟩ := h1
              by_cases hd : d = c
              · subst hd; simp [XState.setReg, RegOp.run, hg]
              · simp [XState.setReg, XState.goto, hd, Ne.symm hd]
        · split at h1
          · simp at h1
          · split at h1 <;> (simp only [Option.some.injEq, Prod.mk.injEq] at h1; obtain ⟨rfl, rfl⟩ := h1) <;> rfl
        · split at h1
          · simp only [Option.some.injEq, Prod.mk.injEq] at h1
            obtain ⟨rfl, rfl⟩ := h1; rfl
          · simp at h1
        · rename_i d op rest
          simp only [Option.some.injEq, Prod.mk.injEq] at h1
          obtain ⟨rfl, rfl⟩ := h1
          by_cases hd : d = c
          · subst hd; simp [XState.setReg]
          · simp [XState.setReg, XState.goto, hd, Ne.symm hd]
        · simp only [Option.some.injEq, Prod.mk.injEq] at h1
          obtain ⟨rfl, rfl⟩ := h1; rfl
        · simp only [Option.some.injEq, Prod.mk.injEq] at h1
          obtain ⟨rfl, rfl⟩ := h1; rfl

-- Thread 2 replaces the callback of client 0 before the task takes the lock: the task calls the new one.
example :
    (xrun ⟨fun _ _ => [.other], fun _ => []⟩
      (XState.start oneEach fun i => if i = 2 then .app [.reg 0 (.setEvent ['/'] ['e'] 5)] else twoTasks i)
      [2, 2, 2, 0, 0, 0, 0, 0, 0]).map (fun r => (r.2, r.1.code 0)) = some ([.start 5 0 0, .done 5 0], []) := by rfl
-- An ack callback is started once; the second ack with its number finds nothing.
example :
    (xrun ⟨fun _ _ => [], fun _ => [.other]⟩
      (XState.start (fun _ => Callbacks.new.setAck ['/'] 3 9) fun i => if i = 0 then .task 0 [.ack ['/'] 3, .ack ['/'] 3] else .app [])
      [0, 0, 0, 0, 0, 0, 0]).map (fun r => (r.2, r.1.code 0)) = some ([.ack 9 0], []) := by rfl
-- Changes of the registries of two clients do not mix.
example :
    regChanges ⟨fun _ _ => [], fun _ => []⟩ 1
      (XState.start oneEach fun i => if i = 0 then .app [.reg 0 (.clearEvent ['/'] ['e']), .reg 1 (.clearFallback ['/'])] else .app [])
      [0, 0, 0, 0, 0, 0] = [.clearFallback ['/']] := by rfl

end SIO
