import Verif.Props.Lock
/-
C49: the uses of the registry exclude each other, so a dispatch can be taken as one action.
-/
namespace SIO

namespace Spec

/-- The instruction reads or writes the registry. -/
def Accesses : Instr → Prop
  | .getEvent _ _ | .takeAck _ _ | .op _ => True
  | _ => False

/-- The change of the registry an instruction stands for. -/
def change : List Instr → List RegOp
  | .op op :: _ => [op]
  | .takeAck ns id :: _ => [.takeAck ns id]
  | _ => []

/-- The changes of the registry in a run, in the order of the steps. -/
def changes (beh : Cb → List Use) (s : LState) : List Nat → List RegOp
  | [] => []
  | i :: is => change (s.threads i).code ++
    match lstep beh s i with
    | none => []
    | some s => changes beh s is

end Spec

/-- The registry is used only with the guard; `held` is whether the thread has it.  (What follows
a `lock` by a thread that has the guard is never reached.) -/
def Guarded : Bool → List Instr → Prop
  | _, [] => True
  | true, .lock :: _ => True
  | false, .lock :: r => Guarded true r
  | held, .unlock :: r => held = true ∧ Guarded false r
  | held, .getEvent _ _ :: r => held = true ∧ Guarded held r
  | held, .takeAck _ _ :: r => held = true ∧ Guarded held r
  | held, .op _ :: r => held = true ∧ Guarded held r
  | held, .call :: r => Guarded held r
  | held, .other :: r => Guarded held r

theorem guarded_uses (us : List Use) {held : Bool} {r : List Instr} (hr : Guarded held r) :
    Guarded held (uses us ++ r) := by
  induction us with
  | nil => exact hr
  | cons u us ih =>
    cases u with
    | reg op =>
      cases held with
      | true => simp [uses, Use.code, Guarded]
      | false => exact ⟨rfl, rfl, ih⟩
    | other => cases held <;> exact ih

/-- Every thread uses the registry only with the guard. -/
def AllGuarded (s : LState) : Prop :=
  ∀ i, Guarded (decide (s.holder = some i)) (s.threads i).code

theorem guarded_step {beh : Cb → List Use} {s s' : LState} {i : Nat} (hp : AllGuarded s) (h : lstep beh s i = some s') :
    AllGuarded s' := by
  intro j
  by_cases hj : j = i
  · subst hj
    have hb := hp j
    simp only [lstep] at h
    split at h
    · simp at h
    · rename_i hc
      rw [hc] at hb
      split at h
      · rename_i hn
        simp only [Option.some.injEq] at h; subst h
        simpa [LState.set, hn, Guarded] using hb
      · simp at h
    · rename_i hc
      rw [hc] at hb
      split at h
      · rename_i hn
        simp only [Option.some.injEq] at h; subst h
        simpa [LState.set, hn, Guarded] using hb
      · simp at h
    · rename_i hc
      rw [hc, Guarded] at hb
      simp only [Option.some.injEq] at h; subst h
      simp only [LState.set, if_true]; exact hb.2
    · rename_i hc
      rw [hc, Guarded] at hb
      simp only [Option.some.injEq] at h; subst h
      simp only [LState.set, if_true]; exact hb.2
    · rename_i hc
      rw [hc, Guarded] at hb
      split at h
      · simp only [Option.some.injEq] at h; subst h; simp only [LState.set, if_true]; exact hb
      · simp only [Option.some.injEq] at h; subst h
        simp only [LState.set, if_true]
        exact guarded_uses _ hb
    · rename_i hc
      rw [hc, Guarded] at hb
      simp only [Option.some.injEq] at h; subst h
      simp only [LState.set, if_true]; exact hb.2
    · rename_i hc
      rw [hc, Guarded] at hb
      simp only [Option.some.injEq] at h; subst h
      simp only [LState.set, if_true]; exact hb
  · obtain ⟨k1, k2⟩ := lstep_other h hj
    rw [k1]
    have : decide (s'.holder = some j) = decide (s.holder = some j) := by simp [k2]
    rw [this]
    exact hp j

theorem guarded_start {reg : Callbacks} {code : List Instr} {others : Nat → List Use}
    (hc : (∃ ns name, code = eventCode ns name) ∨ (∃ ns id, code = ackCode ns id)) :
    AllGuarded (.start reg code others) := by
  intro i
  simp only [LState.start]
  split
  · rcases hc with ⟨_, _, rfl⟩ | ⟨_, _, rfl⟩ <;> simp [eventCode, ackCode, Guarded]
  · have := guarded_uses (others i) (held := false) (r := []) trivial
    simpa using this

/-- A step changes the registry only as its instruction says. -/
theorem lstep_reg {beh : Cb → List Use} {s s' : LState} {i : Nat} (h : lstep beh s i = some s') :
    s'.reg = (Spec.change (s.threads i).code).foldl RegOp.run s.reg := by
  simp only [lstep] at h
  split at h
  · simp at h
  · rename_i hc
    split at h
    · simp only [Option.some.injEq] at h; subst h; simp [hc, LState.set, Spec.change]
    · simp at h
  · rename_i hc
    split at h
    · simp only [Option.some.injEq] at h; subst h; simp [hc, LState.set, Spec.change]
    · simp at h
  · rename_i hc
    simp only [Option.some.injEq] at h; subst h; simp [hc, LState.set, Spec.change]
  · rename_i hc
    simp only [Option.some.injEq] at h; subst h; simp [hc, Spec.change, RegOp.run]
  · rename_i hc
    split at h <;> (simp only [Option.some.injEq] at h; subst h; simp [hc, LState.set, Spec.change])
  · rename_i hc
    simp only [Option.some.injEq] at h; subst h; simp [hc, Spec.change]
  · rename_i hc
    simp only [Option.some.injEq] at h; subst h; simp [hc, LState.set, Spec.change]

/-- C49: a thread about to read or change the registry has the guard, so no two threads are ever
there at the same time; whatever the registry, the dispatch, the callbacks and the other threads. -/
theorem C49_exclusive (beh : Cb → List Use) (reg : Callbacks) (code : List Instr) (others : Nat → List Use)
    (hc : (∃ ns name, code = eventCode ns name) ∨ (∃ ns id, code = ackCode ns id))
    (is : List Nat) (s : LState) (h : lrun beh (.start reg code others) is = some s)
    (i j : Nat) (x y : Instr) (r r' : List Instr)
    (hx : (s.threads i).code = x :: r) (ax : Spec.Accesses x) (hy : (s.threads j).code = y :: r') (ay : Spec.Accesses y) :
    s.holder = some i ∧ i = j := by
  have hg : AllGuarded s := lrun_induct (fun _ _ _ hp hs => guarded_step hp hs) is _ s (guarded_start hc) h
  have key : ∀ k (z : Instr) t, (s.threads k).code = z :: t → Spec.Accesses z → s.holder = some k := by
    intro k z t hz az
    have := hg k
    rw [hz] at this
    cases z <;> simp_all [Spec.Accesses, Guarded]
  have h1 := key i x r hx ax
  have h2 := key j y r' hy ay
  refine ⟨h1, ?_⟩
  rw [h1] at h2
  simpa using h2

/-- C49: the registry is at any time the result of the changes made so far, one after the other:
none is lost and none is made twice. -/
theorem C49_history (beh : Cb → List Use) (is : List Nat) (s s' : LState) (h : lrun beh s is = some s') :
    s'.reg = (Spec.changes beh s is).foldl RegOp.run s.reg := by
  induction is generalizing s with
  | nil => simp only [lrun, Option.some.injEq] at h; subst h; rfl
  | cons i is ih =>
    simp only [lrun] at h
    split at h
    · simp at h
    · rename_i s1 hs
      rw [ih s1 h, lstep_reg hs]
      simp [Spec.changes, hs, List.foldl_append]

/-- Where a dispatch is, with what it has found; `get` gives what it must have found. -/
def Finding (get : Instr) (ok : Callbacks → Option Cb → Prop) (s : LState) : Prop :=
  (s.threads 0).code = [.lock, get, .call, .unlock] ∨
  (s.threads 0).code = [get, .call, .unlock] ∨
  ((s.threads 0).code = [.call, .unlock] ∧ s.holder = some 0 ∧ ok s.reg (s.threads 0).found) ∨
  .call ∉ (s.threads 0).code

theorem finding_step {beh : Cb → List Use} {get : Instr} {ok : Callbacks → Option Cb → Prop}
    (hget : (∃ ns name, get = .getEvent ns name ∧ ∀ reg : Callbacks, ok reg (reg.getEvent ns name)) ∨
      (∃ ns id, get = .takeAck ns id ∧ ∀ reg : Callbacks, ok (reg.getAndClearAck ns id).2 (reg.getAndClearAck ns id).1))
    {s s' : LState} {i : Nat} (hg : AllGuarded s) (hp : Finding get ok s) (h : lstep beh s i = some s') :
    Finding get ok s' := by
  by_cases hi : i = 0
  · subst hi
    rcases hp with hp | hp | ⟨hp, _, _⟩ | hp
    · simp only [lstep, hp] at h
      split at h
      · simp only [Option.some.injEq] at h
        subst h
        exact Or.inr (Or.inl (by simp [LState.set]))
      · simp at h
    · refine Or.inr (Or.inr (Or.inl ?_))
      have hb := hg 0
      rw [hp] at hb
      rcases hget with ⟨ns, name, rfl, hok⟩ | ⟨ns, id, rfl, hok⟩
      · simp only [lstep, hp, Option.some.injEq] at h
        subst h
        simp only [Guarded, decide_eq_true_eq] at hb
        exact ⟨by simp [LState.set], hb.1, by simpa [LState.set] using hok s.reg⟩
      · simp only [lstep, hp, Option.some.injEq] at h
        subst h
        simp only [Guarded, decide_eq_true_eq] at hb
        exact ⟨by simp [LState.set], hb.1, by simpa [LState.set] using hok s.reg⟩
    · refine Or.inr (Or.inr (Or.inr ?_))
      simp only [lstep, hp] at h
      split at h
      · simp only [Option.some.injEq] at h; subst h; simp [LState.set]
      · simp only [Option.some.injEq] at h; subst h; simp [LState.set, call_uses]
    · refine Or.inr (Or.inr (Or.inr ?_))
      simp only [lstep] at h
      split at h
      · simp at h
      · rename_i hc
        rw [hc] at hp
        split at h
        · simp only [Option.some.injEq] at h; subst h; simpa [LState.set] using hp
        · simp at h
      · rename_i hc
        rw [hc] at hp
        split at h
        · simp only [Option.some.injEq] at h; subst h; simpa [LState.set] using hp
        · simp at h
      · rename_i hc
        rw [hc] at hp
        simp only [Option.some.injEq] at h; subst h; simpa [LState.set] using hp
      · rename_i hc
        rw [hc] at hp
        simp only [Option.some.injEq] at h; subst h; simpa [LState.set] using hp
      · rename_i hc
        rw [hc] at hp
        simp at hp
      · rename_i hc
        rw [hc] at hp
        simp only [Option.some.injEq] at h; subst h; simpa [LState.set] using hp
      · rename_i hc
        rw [hc] at hp
        simp only [Option.some.injEq] at h; subst h; simpa [LState.set] using hp
  · obtain ⟨k1, k2⟩ := lstep_other h (Ne.symm hi)
    unfold Finding
    rw [k1]
    rcases hp with hp | hp | ⟨hp, hh, ho⟩ | hp
    · exact Or.inl hp
    · exact Or.inr (Or.inl hp)
    · refine Or.inr (Or.inr (Or.inl ⟨hp, k2.1 hh, ?_⟩))
      have hch : Spec.change (s.threads i).code = [] := by
        have hb := hg i
        have hne : (decide (s.holder = some i)) = false := by simp [hh, Ne.symm hi]
        rw [hne] at hb
        revert hb
        cases hcode : (s.threads i).code with
        | nil => intro _; rfl
        | cons z t => cases z <;> simp [Guarded, Spec.change]
      rw [lstep_reg h, hch]
      exact ho
    · exact Or.inr (Or.inr (Or.inr hp))

theorem finding_run {beh : Cb → List Use} {reg : Callbacks} {others : Nat → List Use} {get : Instr}
    {ok : Callbacks → Option Cb → Prop}
    (hget : (∃ ns name, get = .getEvent ns name ∧ ∀ reg : Callbacks, ok reg (reg.getEvent ns name)) ∨
      (∃ ns id, get = .takeAck ns id ∧ ∀ reg : Callbacks, ok (reg.getAndClearAck ns id).2 (reg.getAndClearAck ns id).1))
    {is : List Nat} {s : LState} (h : lrun beh (.start reg [.lock, get, .call, .unlock] others) is = some s)
    {rest : List Instr} (hcall : (s.threads 0).code = .call :: rest) : ok s.reg (s.threads 0).found := by
  have hg0 : AllGuarded (.start reg [.lock, get, .call, .unlock] others) := by
    refine guarded_start ?_
    rcases hget with ⟨ns, name, rfl, _⟩ | ⟨ns, id, rfl, _⟩
    · exact Or.inl ⟨ns, name, rfl⟩
    · exact Or.inr ⟨ns, id, rfl⟩
  have := (lrun_induct (beh := beh) (P := fun s => AllGuarded s ∧ Finding get ok s)
    (fun _ _ _ hp hs => ⟨guarded_step hp.1 hs, finding_step hget hp.1 hp.2 hs⟩) is _ s
    ⟨hg0, Or.inl (by simp [LState.start])⟩ h).2
  rcases this with hd | hd | ⟨_, _, ho⟩ | hd
  · rw [hd] at hcall; simp at hcall
  · rw [hd] at hcall
    rcases hget with ⟨ns, name, rfl, _⟩ | ⟨ns, id, rfl, _⟩ <;> simp at hcall
  · exact ho
  · rw [hcall] at hd; simp at hd

/-- C49: when the task calls the callback of an event, the callback is the one the registry holds
at that moment, whatever the other threads did in between. -/
theorem C49_event (beh : Cb → List Use) (reg : Callbacks) (ns name : Str) (others : Nat → List Use)
    (is : List Nat) (s : LState) (h : lrun beh (.start reg (eventCode ns name) others) is = some s)
    (rest : List Instr) (hcall : (s.threads 0).code = .call :: rest) :
    (s.threads 0).found = s.reg.getEvent ns name :=
  finding_run (get := .getEvent ns name) (ok := fun r f => f = r.getEvent ns name)
    (Or.inl ⟨ns, name, rfl, fun _ => rfl⟩) h hcall

/-- C49: when the task calls the callback of an ack, the registry was, with that callback still in
it, the result of the changes other threads had made, and the callback is out of it now. -/
theorem C49_ack (beh : Cb → List Use) (reg : Callbacks) (ns : Str) (id : Nat) (others : Nat → List Use)
    (is : List Nat) (s : LState) (h : lrun beh (.start reg (ackCode ns id) others) is = some s)
    (rest : List Instr) (hcall : (s.threads 0).code = .call :: rest) :
    ∃ before : Callbacks, s.reg = (RegOp.takeAck ns id).run before ∧
      (s.threads 0).found = (before.getAndClearAck ns id).1 :=
  finding_run (get := .takeAck ns id)
    (ok := fun r f => ∃ before : Callbacks, r = (RegOp.takeAck ns id).run before ∧ f = (before.getAndClearAck ns id).1)
    (Or.inr ⟨ns, id, rfl, fun reg => ⟨reg, rfl, rfl⟩⟩) h hcall

-- non-vacuity: thread 1 replaces the callback before the task takes the lock, thread 2 comes after
-- the call; the task calls the callback of thread 1 and both changes are made
example : ((lrun (fun _ => [.other])
      (.start (Callbacks.new.setEvent ['/'] ['e'] 5) (eventCode ['/'] ['e'])
        fun i => if i = 1 then [.reg (.setEvent ['/'] ['e'] 6)] else [.reg (.setEvent ['/'] ['e'] 7)])
      [1, 1, 1, 0, 0]).map fun s => ((s.threads 0).code, (s.threads 0).found, (s.reg.getEvent ['/'] ['e']),
        (lstep (fun _ => []) s 2).isNone)) =
    some ([.call, .unlock], some 6, some 6, true) := by
  decide +kernel
example : Spec.changes (fun _ => [.other])
      (.start (Callbacks.new.setEvent ['/'] ['e'] 5) (eventCode ['/'] ['e'])
        fun i => if i = 1 then [.reg (.setEvent ['/'] ['e'] 6)] else [.reg (.setEvent ['/'] ['e'] 7)])
      [1, 1, 1, 0, 0, 0, 0, 0, 2, 2, 2] =
    [.setEvent ['/'] ['e'] 6, .setEvent ['/'] ['e'] 7] := by
  decide +kernel
-- an ack is found and gone
example : ((lrun (fun _ => [.other])
      (.start (Callbacks.new.setAck ['/'] 3 5) (ackCode ['/'] 3) fun _ => [])
      [0, 0]).map fun s => ((s.threads 0).found, (s.reg.getAndClearAck ['/'] 3).1)) =
    some (some 5, none) := by
  decide +kernel

end SIO
