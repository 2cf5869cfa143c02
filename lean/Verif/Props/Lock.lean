import Verif.Lock
/-
C38: callbacks and the registry lock.
-/
namespace SIO

theorem lrun_induct {beh : Cb → List Use} {P : LState → Prop} (hs : ∀ s s' i, P s → lstep beh s i = some s' → P s') :
    ∀ (is : List Nat) (s s' : LState), P s → lrun beh s is = some s' → P s' := by
  intro is
  induction is with
  | nil => intro s s' h hr; simp only [lrun, Option.some.injEq] at hr; exact hr ▸ h
  | cons i is ih =>
    intro s s' h hr
    simp only [lrun] at hr
    split at hr
    · simp at hr
    · exact ih _ _ (hs _ _ _ h ‹_›) hr

/-- What a step of a thread does to the others, and to the guard. -/
theorem lstep_other {beh : Cb → List Use} {s s' : LState} {i j : Nat} (h : lstep beh s i = some s') (hj : j ≠ i) :
    s'.threads j = s.threads j ∧ (s.holder = some j ↔ s'.holder = some j) := by
  simp only [lstep] at h
  split at h
  · simp at h
  · split at h
    · simp only [Option.some.injEq] at h
      subst h
      rename_i hn
      simp [LState.set, hj, hn, Ne.symm hj]
    · simp at h
  · split at h
    · simp only [Option.some.injEq] at h
      subst h
      rename_i hn
      simp [LState.set, hj, hn, Ne.symm hj]
    · simp at h
  · simp only [Option.some.injEq] at h; subst h; simp [LState.set, hj]
  · simp only [Option.some.injEq] at h; subst h; simp [LState.set, hj]
  · split at h <;> (simp only [Option.some.injEq] at h; subst h; simp [LState.set, hj])
  · simp only [Option.some.injEq] at h; subst h; simp [LState.set, hj]
  · simp only [Option.some.injEq] at h; subst h; simp [LState.set, hj]

/-- The task holds the guard and is on its way to take it again. -/
def Doomed (s : LState) : Prop :=
  s.holder = some 0 ∧ ∃ us rest op, (s.threads 0).code = uses us ++ rest ∧ .reg op ∈ us

theorem doomed_step {beh : Cb → List Use} {s s' : LState} {i : Nat} (hd : Doomed s) (h : lstep beh s i = some s') :
    Doomed s' := by
  obtain ⟨h1, us, rest, op, h2, h3⟩ := hd
  by_cases hi : i = 0
  · subst hi
    cases us with
    | nil => simp at h3
    | cons u us =>
      cases u with
      | reg op' =>
        simp only [lstep, h2, uses, List.flatMap_cons, Use.code, List.cons_append] at h
        simp [h1] at h
      | other =>
        simp only [lstep, h2, uses, List.flatMap_cons, Use.code, List.cons_append, Option.some.injEq] at h
        subst h
        refine ⟨h1, us, rest, op, ?_, by simpa using h3⟩
        simp [LState.set, uses]
  · obtain ⟨k1, k2⟩ := lstep_other h (Ne.symm hi)
    exact ⟨k2.1 h1, us, rest, op, by rw [k1]; exact h2, h3⟩

theorem call_uses (us : List Use) : .call ∉ uses us := by
  simp only [uses, List.mem_flatMap, not_exists, not_and]
  rintro (_ | _) _ <;> simp [Use.code]

/-- Where the task is in its dispatch, as long as the callback is not called. -/
def Dispatching (get : Instr) (s : LState) : Prop :=
  (s.threads 0).code = [.lock, get, .call, .unlock] ∨
  (s.holder = some 0 ∧ ((s.threads 0).code = [get, .call, .unlock] ∨ (s.threads 0).code = [.call, .unlock])) ∨
  .call ∉ (s.threads 0).code

theorem dispatching_step {beh : Cb → List Use} {get : Instr}
    (hget : (∃ ns name, get = .getEvent ns name) ∨ (∃ ns id, get = .takeAck ns id)) {s s' : LState} {i : Nat}
    (hp : Dispatching get s) (h : lstep beh s i = some s') : Dispatching get s' := by
  by_cases hi : i = 0
  · subst hi
    rcases hp with hp | ⟨hh, hp | hp⟩ | hp
    · simp only [lstep, hp] at h
      split at h
      · simp only [Option.some.injEq] at h
        subst h
        exact Or.inr (Or.inl ⟨rfl, Or.inl (by simp [LState.set])⟩)
      · simp at h
    · refine Or.inr (Or.inl ?_)
      rcases hget with ⟨ns, name, rfl⟩ | ⟨ns, id, rfl⟩ <;>
        (simp only [lstep, hp, Option.some.injEq] at h; subst h; exact ⟨hh, Or.inr (by simp [LState.set])⟩)
    · refine Or.inr (Or.inr ?_)
      simp only [lstep, hp] at h
      split at h
      · simp only [Option.some.injEq] at h; subst h; simp [LState.set]
      · simp only [Option.some.injEq] at h; subst h; simp [LState.set, call_uses]
    · refine Or.inr (Or.inr ?_)
      simp only [lstep] at h
      split at h
      · simp at h
      · rename_i hc
        rw [hc] at hp
        split at h
        · simp only [Option.some.injEq] at h; subst h; simpa [LState.set] using hp
        · simp at h
      · rename_i hc
        rw [hc] at hp
        split at h
        · simp only [Option.some.injEq] at h; subst h; simpa [LState.set] using hp
        · simp at h
      · rename_i hc
        rw [hc] at hp
        simp only [Option.some.injEq] at h; subst h; simpa [LState.set] using hp
      · rename_i hc
        rw [hc] at hp
        simp only [Option.some.injEq] at h; subst h; simpa [LState.set] using hp
      · rename_i hc
        rw [hc] at hp
        simp at hp
      · rename_i hc
        rw [hc] at hp
        simp only [Option.some.injEq] at h; subst h; simpa [LState.set] using hp
      · rename_i hc
        rw [hc] at hp
        simp only [Option.some.injEq] at h; subst h; simpa [LState.set] using hp
  · obtain ⟨k1, k2⟩ := lstep_other h (Ne.symm hi)
    unfold Dispatching
    rw [k1]
    rcases hp with hp | ⟨hh, hp⟩ | hp
    · exact Or.inl hp
    · exact Or.inr (Or.inl ⟨k2.1 hh, hp⟩)
    · exact Or.inr (Or.inr hp)

/-- C38 is false: when the connection task calls a callback it still has the registry guard, in
every execution, whatever the registry, the event or ack, the callbacks and the other threads. -/
theorem C38_held (beh : Cb → List Use) (reg : Callbacks) (code : List Instr) (others : Nat → List Use)
    (hc : (∃ ns name, code = eventCode ns name) ∨ (∃ ns id, code = ackCode ns id))
    (is : List Nat) (s : LState) (h : lrun beh (.start reg code others) is = some s)
    (rest : List Instr) (hcall : (s.threads 0).code = .call :: rest) : s.holder = some 0 := by
  have key : ∀ get : Instr, ((∃ ns name, get = .getEvent ns name) ∨ (∃ ns id, get = .takeAck ns id)) →
      code = [.lock, get, .call, .unlock] → s.holder = some 0 := by
    intro get hget hcode
    have hd : Dispatching get s := lrun_induct (fun _ _ _ hp hs => dispatching_step hget hp hs) is _ s
      (Or.inl (by simp [LState.start, hcode])) h
    rcases hd with hd | ⟨hh, _⟩ | hd
    · rw [hd] at hcall; simp at hcall
    · exact hh
    · rw [hcall] at hd; simp at hd
  rcases hc with ⟨ns, name, hc⟩ | ⟨ns, id, hc⟩
  · exact key (.getEvent ns name) (Or.inl ⟨_, _, rfl⟩) hc
  · exact key (.takeAck ns id) (Or.inr ⟨_, _, rfl⟩) hc

/-- C38 is false: if the connection task calls a callback (having the guard, `C38_held`) that uses
the registry, the task never gets further, and no other thread ever gets the lock again. -/
theorem C38_deadlock (beh : Cb → List Use) (s : LState) (cb : Cb) (rest : List Instr) (op : RegOp)
    (hh : s.holder = some 0) (hc : s.threads 0 = ⟨.call :: rest, some cb⟩) (hb : .reg op ∈ beh cb)
    (is : List Nat) (s' : LState) (h : lrun beh s is = some s') :
    s'.holder = some 0 ∧ (s'.threads 0).code ≠ [] ∧
    ∀ i rest, (s'.threads i).code = .lock :: rest → lstep beh s' i = none := by
  have hd : Doomed s' ∨ (s'.holder = some 0 ∧ s'.threads 0 = ⟨.call :: rest, some cb⟩) := by
    refine lrun_induct (beh := beh) (P := fun s => Doomed s ∨ (s.holder = some 0 ∧ s.threads 0 = ⟨.call :: rest, some cb⟩))
      ?_ is s s' (Or.inr ⟨hh, hc⟩) h
    rintro s s' i (hp | ⟨h1, h2⟩) hs
    · exact Or.inl (doomed_step hp hs)
    · by_cases hi : i = 0
      · subst hi
        simp only [lstep, h2, Option.some.injEq] at hs
        subst hs
        exact Or.inl ⟨h1, beh cb, rest, op, by simp [LState.set], hb⟩
      · obtain ⟨k1, k2⟩ := lstep_other hs (Ne.symm hi)
        exact Or.inr ⟨k2.1 h1, by rw [k1]; exact h2⟩
  have hhold : s'.holder = some 0 := by
    rcases hd with hd | hd
    · exact hd.1
    · exact hd.1
  refine ⟨hhold, ?_, ?_⟩
  · rcases hd with ⟨_, us, r, op, h2, h3⟩ | ⟨_, h2⟩
    · rw [h2]
      intro hn
      simp only [List.append_eq_nil_iff, uses, List.flatMap_eq_nil_iff] at hn
      exact absurd (hn.1 _ h3) (by simp [Use.code])
    · rw [h2]; simp
  · intro i r hr
    simp [lstep, hr, hhold]

/-- C38 is false for every registry and event: if the callback in charge uses the registry, the
task gets stuck in its dispatch. -/
theorem C38_counterexample (beh : Cb → List Use) (reg : Callbacks) (others : Nat → List Use) (ns name : Str) (cb : Cb)
    (op : RegOp) (hr : reg.getEvent ns name = some cb) (hb : .reg op ∈ beh cb) :
    ∃ s, lrun beh (.start reg (eventCode ns name) others) [0, 0] = some s ∧
      ∀ is s', lrun beh s is = some s' → (s'.threads 0).code ≠ [] := by
  refine ⟨_, rfl, fun is s' h => (C38_deadlock beh _ cb [.unlock] op ?_ ?_ hb is s' h).2.1⟩
  · rfl
  · simp [LState.start, LState.set, eventCode, hr]

/-- The same for acks. -/
theorem C38_counterexample_ack (beh : Cb → List Use) (reg : Callbacks) (others : Nat → List Use) (ns : Str) (id : Nat)
    (cb : Cb) (op : RegOp) (hr : (reg.getAndClearAck ns id).1 = some cb) (hb : .reg op ∈ beh cb) :
    ∃ s, lrun beh (.start reg (ackCode ns id) others) [0, 0] = some s ∧
      ∀ is s', lrun beh s is = some s' → (s'.threads 0).code ≠ [] := by
  refine ⟨_, rfl, fun is s' h => (C38_deadlock beh _ cb [.unlock] op ?_ ?_ hb is s' h).2.1⟩
  · rfl
  · simp [LState.start, LState.set, ackCode, hr]

/-! What does hold, and what would hold if the guard were released before the call. -/

/-- The lock is taken only by a thread that has not got it, and released after it was taken;
`held` is whether the thread has it. -/
def Bracketed (beh : Cb → List Use) : Bool → List Instr → Prop
  | held, [] => held = false
  | held, .lock :: r => held = false ∧ Bracketed beh true r
  | held, .unlock :: r => held = true ∧ Bracketed beh false r
  | held, .call :: r => (held = true → ∀ cb op, .reg op ∉ beh cb) ∧ Bracketed beh held r
  | held, .getEvent _ _ :: r => Bracketed beh held r
  | held, .takeAck _ _ :: r => Bracketed beh held r
  | held, .op _ :: r => Bracketed beh held r
  | held, .other :: r => Bracketed beh held r

theorem bracketed_uses {beh : Cb → List Use} (us : List Use) {held : Bool} {r : List Instr}
    (h : held = true → ∀ op, .reg op ∉ us) (hr : Bracketed beh held r) : Bracketed beh held (uses us ++ r) := by
  induction us with
  | nil => exact hr
  | cons u us ih =>
    have ih := ih (fun hh op hm => h hh op (by simp [hm]))
    cases u with
    | reg op =>
      have hf : held = false := by
        cases held
        · rfl
        · exact absurd (by simp) (h rfl op)
      subst hf
      exact ⟨rfl, rfl, ih⟩
    | other => exact ih

/-- Every thread takes and releases the lock properly. -/
def Proper (beh : Cb → List Use) (s : LState) : Prop :=
  ∀ i, Bracketed beh (decide (s.holder = some i)) (s.threads i).code

theorem proper_step {beh : Cb → List Use} {s s' : LState} {i : Nat} (hp : Proper beh s) (h : lstep beh s i = some s') :
    Proper beh s' := by
  intro j
  by_cases hj : j = i
  · subst hj
    have hb := hp j
    simp only [lstep] at h
    split at h
    · simp at h
    · rename_i hc
      rw [hc] at hb
      split at h
      · simp only [Option.some.injEq] at h; subst h; simpa [LState.set, Bracketed] using hb.2
      · simp at h
    · rename_i hc
      rw [hc] at hb
      split at h
      · simp only [Option.some.injEq] at h; subst h; simpa [LState.set, Bracketed] using hb.2
      · simp at h
    · rename_i hc
      rw [hc] at hb
      simp only [Option.some.injEq] at h; subst h; simp only [LState.set, if_true]; exact hb
    · rename_i hc
      rw [hc] at hb
      simp only [Option.some.injEq] at h; subst h; simp only [LState.set, if_true]; exact hb
    · rename_i hc
      rw [hc] at hb
      split at h
      · simp only [Option.some.injEq] at h; subst h; simp only [LState.set, if_true]; exact hb.2
      · rename_i cb hcb
        simp only [Option.some.injEq] at h; subst h
        simp only [LState.set, if_true]
        exact bracketed_uses (beh cb) (fun hh op => hb.1 hh cb op) hb.2
    · rename_i hc
      rw [hc] at hb
      simp only [Option.some.injEq] at h; subst h; simp only [LState.set, if_true]; exact hb
    · rename_i hc
      rw [hc] at hb
      simp only [Option.some.injEq] at h; subst h; simp only [LState.set, if_true]; exact hb
  · obtain ⟨k1, k2⟩ := lstep_other h hj
    rw [k1]
    have : decide (s'.holder = some j) = decide (s.holder = some j) := by simp [k2]
    rw [this]
    exact hp j

/-- No deadlock: as long as some thread is not finished, some thread can make a step. -/
theorem proper_progress {beh : Cb → List Use} {s : LState} (hp : Proper beh s) (hn : ∃ i, (s.threads i).code ≠ []) :
    ∃ i s', lstep beh s i = some s' := by
  have go : ∀ i, (s.threads i).code ≠ [] → (s.holder = none ∨ s.holder = some i) → ∃ s', lstep beh s i = some s' := by
    intro i hi hh
    have hb := hp i
    simp only [lstep]
    split
    · contradiction
    · rename_i hc
      rw [hc] at hb
      rcases hh with hh | hh
      · exact ⟨_, by rw [if_pos hh]⟩
      · simp [Bracketed, hh] at hb
    · rename_i hc
      rw [hc] at hb
      rcases hh with hh | hh
      · simp [Bracketed, hh] at hb
      · exact ⟨_, by rw [if_pos hh]⟩
    · exact ⟨_, rfl⟩
    · exact ⟨_, rfl⟩
    · split <;> exact ⟨_, rfl⟩
    · exact ⟨_, rfl⟩
    · exact ⟨_, rfl⟩
  cases hh : s.holder with
  | none =>
    obtain ⟨i, hi⟩ := hn
    exact ⟨i, go i hi (Or.inl hh)⟩
  | some j =>
    refine ⟨j, go j ?_ (Or.inr hh)⟩
    intro hc
    have hb := hp j
    rw [hc] at hb
    simp [Bracketed, hh] at hb

theorem proper_start {beh : Cb → List Use} {reg : Callbacks} {code : List Instr} {others : Nat → List Use}
    (h : Bracketed beh false code) : Proper beh (.start reg code others) := by
  intro i
  simp only [LState.start]
  split
  · simpa using h
  · have := bracketed_uses (beh := beh) (others i) (held := false) (r := []) (by simp) rfl
    simpa using this

/-- C38, what holds: with callbacks that do not use the registry there is no deadlock, whatever
the other threads do with it.  Missing for the full claim: callbacks that do use it, see
`C38_deadlock`. -/
theorem C38_partial (beh : Cb → List Use) (reg : Callbacks) (code : List Instr) (others : Nat → List Use)
    (hc : (∃ ns name, code = eventCode ns name) ∨ (∃ ns id, code = ackCode ns id)) (hb : ∀ cb op, .reg op ∉ beh cb)
    (is : List Nat) (s : LState) (h : lrun beh (.start reg code others) is = some s)
    (hn : ∃ i, (s.threads i).code ≠ []) : ∃ i s', lstep beh s i = some s' := by
  refine proper_progress (lrun_induct (fun _ _ _ hp hs => proper_step hp hs) is _ s (proper_start ?_) h) hn
  rcases hc with ⟨ns, name, rfl⟩ | ⟨ns, id, rfl⟩
  · exact ⟨rfl, fun _ => hb, rfl, rfl⟩
  · exact ⟨rfl, fun _ => hb, rfl, rfl⟩

/-- If the guard were released before the call, as the documentation of `EventCallback` says, no
callback could cause a deadlock. -/
theorem C38_released (beh : Cb → List Use) (reg : Callbacks) (ns name : Str) (others : Nat → List Use)
    (is : List Nat) (s : LState) (h : lrun beh (.start reg [.lock, .getEvent ns name, .unlock, .call] others) is = some s)
    (hn : ∃ i, (s.threads i).code ≠ []) : ∃ i s', lstep beh s i = some s' :=
  proper_progress (lrun_induct (fun _ _ _ hp hs => proper_step hp hs) is _ s
    (proper_start (by simp [Bracketed])) h) hn

-- non-vacuity: a callback that registers another one gets stuck at once
example : ((lrun (fun _ => [.reg (.clearFallback ['/'])]) (.start (Callbacks.new.setEvent ['/'] ['e'] 5) (eventCode ['/'] ['e'])
      fun _ => []) [0, 0, 0]).map fun s => ((lstep (fun _ => []) s 0).isNone, (s.threads 0).code)) =
    some (true, [.lock, .op (.clearFallback ['/']), .unlock, .unlock]) := by
  decide +kernel
-- one that does not use the registry comes to its end
example : ((lrun (fun _ => [.other]) (.start (Callbacks.new.setEvent ['/'] ['e'] 5) (eventCode ['/'] ['e'])
      fun _ => [.reg (.clearFallback ['/'])]) [0, 0, 0, 0, 0, 1, 1, 1]).map fun s =>
      (s.holder, (s.threads 0).code, (s.threads 1).code)) = some (none, [], []) := by
  decide +kernel

end SIO
