import Verif.Lemmas.CallLock
/-
Which guards a thread has, and the order in which it takes them.
-/
namespace SIO
open Spec

/-- The code fits the guards the thread has (the last one taken first), and `ok` holds of every
instruction with the guards the thread has then. -/
def XFits (ok : List Lk → XInstr → Prop) : List Lk → List XInstr → Prop
  | hs, [] => hs = []
  | hs, .lock c :: r => ok hs (.lock c) ∧ XFits ok (.reg c :: hs) r
  | hs, .unlock c :: r => ∃ hs', hs = .reg c :: hs' ∧ XFits ok hs' r
  | hs, .event c ns name :: r => ok hs (.event c ns name) ∧ .reg c ∈ hs ∧ XFits ok hs r
  | hs, .ack c ns id :: r => ok hs (.ack c ns id) ∧ .reg c ∈ hs ∧ XFits ok hs r
  | hs, .call m :: r => ok hs (.call m) ∧ XFits ok hs r
  | hs, .ret m :: r => ∃ hs', hs = .cell m :: hs' ∧ XFits ok hs' r
  | hs, .op c op :: r => ok hs (.op c op) ∧ .reg c ∈ hs ∧ XFits ok hs r
  | hs, .panic :: r => XFits ok hs r
  | hs, .other :: r => XFits ok hs r

/-- The actions can be done by a thread that has these guards. -/
def Doable (ok : List Lk → XInstr → Prop) (hs : List Lk) (as : List UserAct) : Prop :=
  ∀ r, XFits ok hs r → XFits ok hs (acts as ++ r)

theorem doable_of {ok : List Lk → XInstr → Prop} {hs : List Lk} :
    ∀ {as : List UserAct}, (∀ c op, .reg c op ∈ as → ok hs (.lock c) ∧ ok (.reg c :: hs) (.op c op)) →
      (∀ m, .call m ∈ as → ok hs (.call m)) → Doable ok hs as := by
  intro as
  induction as with
  | nil => intro _ _ r h; exact h
  | cons a as ih =>
    intro h1 h2 r h
    have := ih (fun c op h => h1 c op (List.mem_cons_of_mem _ h)) (fun m h => h2 m (List.mem_cons_of_mem _ h)) r h
    cases a with
    | reg c op =>
      have h3 := h1 c op (by simp)
      exact ⟨h3.1, h3.2, by simp, hs, rfl, this⟩
    | call m => exact ⟨h2 m (by simp), this⟩
    | panic => exact this
    | other => exact this

/-- The guards of every thread. -/
structure GuardInv (ok : List Lk → XInstr → Prop) (s : XState) : Prop where
  fits : ∀ i, ∃ hs : List Lk, (∀ l, l ∈ hs ↔ s.holder l = some i) ∧ hs.Nodup ∧ XFits ok hs (s.code i)
  clean : ∀ l i, s.holder l = some i → s.poisoned l = false

theorem xinv_other {ok : List Lk → XInstr → Prop} {s s' : XState} {i : Nat} (hI : GuardInv ok s)
    (hc : ∀ j, j ≠ i → s'.code j = s.code j) (hh : ∀ l j, j ≠ i → (s'.holder l = some j ↔ s.holder l = some j))
    (hp : ∀ l j, s'.holder l = some j → s'.poisoned l = false)
    (hi : ∃ hs : List Lk, (∀ l, l ∈ hs ↔ s'.holder l = some i) ∧ hs.Nodup ∧ XFits ok hs (s'.code i)) : GuardInv ok s' := by
  refine ⟨fun j => ?_, hp⟩
  by_cases hj : j = i
  · subst hj; exact hi
  · obtain ⟨hs, h1, h2, h3⟩ := hI.fits j
    exact ⟨hs, fun l => by rw [h1, hh l j hj], h2, by rw [hc j hj]; exact h3⟩

theorem xinv_unwind {ok : List Lk → XInstr → Prop} {s : XState} {i : Nat} (hI : GuardInv ok s) : GuardInv ok (s.unwind i) := by
  refine xinv_other (i := i) hI ?_ ?_ ?_ ⟨[], ?_, by simp, ?_⟩
  · intro j hj; simp [XState.unwind, hj]
  · intro l j hj
    simp only [XState.unwind]
    split
    · rename_i h; rw [h]; simp [Ne.symm hj]
    · rfl
  · intro l j h
    simp only [XState.unwind] at h ⊢
    split at h
    · simp at h
    · rename_i h'; simp [h', hI.clean l j h]
  · intro l
    simp only [XState.unwind]
    split
    · simp
    · rename_i h; simp [h]
  · simp [XState.unwind, XFits]

/-- The step of a thread that keeps its guards. -/
theorem xinv_goto {ok : List Lk → XInstr → Prop} {s s' : XState} {i : Nat} {code : List XInstr} (hI : GuardInv ok s)
    (hc : s'.code = (s.goto i code).code) (hh : s'.holder = s.holder) (hp : s'.poisoned = s.poisoned)
    (h : ∀ hs : List Lk, (∀ l, l ∈ hs ↔ s.holder l = some i) → XFits ok hs (s.code i) → XFits ok hs code) : GuardInv ok s' := by
  refine xinv_other (i := i) hI ?_ ?_ ?_ ?_
  · intro j hj; rw [hc]; simp [XState.goto, hj]
  · intro l j _; rw [hh]
  · intro l j hl; rw [hh] at hl; rw [hp]; exact hI.clean l j hl
  · obtain ⟨hs, h1, h2, h3⟩ := hI.fits i
    exact ⟨hs, fun l => by rw [hh]; exact h1 l, h2, by rw [hc]; simpa [XState.goto] using h hs h1 h3⟩

theorem xinv_take {ok : List Lk → XInstr → Prop} {s s' : XState} {i : Nat} {code : List XInstr} {l : Lk} (hI : GuardInv ok s)
    (hc : s'.code = (s.goto i code).code) (hh : s'.holder = (s.hold l (some i)).holder) (hp : s'.poisoned = s.poisoned)
    (hn : s.holder l = none) (hnp : s.poisoned l = false)
    (h : ∀ hs : List Lk, (∀ l, l ∈ hs ↔ s.holder l = some i) → XFits ok hs (s.code i) → XFits ok (l :: hs) code) : GuardInv ok s' := by
  refine xinv_other (i := i) hI ?_ ?_ ?_ ?_
  · intro j hj; rw [hc]; simp [XState.goto, hj]
  · intro k j hj
    rw [hh]
    simp only [XState.hold]
    split
    · rename_i hk; subst hk; rw [hn]; simp [Ne.symm hj]
    · rfl
  · intro k j hk
    rw [hh] at hk
    rw [hp]
    simp only [XState.hold] at hk
    split at hk
    · rename_i hk'; subst hk'; exact hnp
    · exact hI.clean k j hk
  · obtain ⟨hs, h1, h2, h3⟩ := hI.fits i
    refine ⟨l :: hs, ?_, ?_, by rw [hc]; simpa [XState.goto] using h hs h1 h3⟩
    · intro k
      rw [hh]
      simp only [XState.hold, List.mem_cons]
      by_cases hk : k = l
      · simp [hk]
      · simp [hk, h1 k]
    · rw [List.nodup_cons]
      exact ⟨by rw [h1 l, hn]; simp, h2⟩

theorem xinv_drop {ok : List Lk → XInstr → Prop} {s s' : XState} {i : Nat} {code : List XInstr} {l : Lk} (hI : GuardInv ok s)
    (hc : s'.code = (s.goto i code).code) (hh : s'.holder = (s.hold l none).holder) (hp : s'.poisoned = s.poisoned)
    (hi : s.holder l = some i)
    (h : ∀ hs : List Lk, XFits ok hs (s.code i) → ∃ hs', hs = l :: hs' ∧ XFits ok hs' code) : GuardInv ok s' := by
  refine xinv_other (i := i) hI ?_ ?_ ?_ ?_
  · intro j hj; rw [hc]; simp [XState.goto, hj]
  · intro k j hj
    rw [hh]
    simp only [XState.hold]
    split
    · rename_i hk; subst hk; rw [hi]; simp [Ne.symm hj]
    · rfl
  · intro k j hk
    rw [hh] at hk
    rw [hp]
    simp only [XState.hold] at hk
    split at hk
    · simp at hk
    · exact hI.clean k j hk
  · obtain ⟨hs, h1, h2, h3⟩ := hI.fits i
    obtain ⟨hs', rfl, h4⟩ := h hs h3
    rw [List.nodup_cons] at h2
    refine ⟨hs', ?_, h2.2, by rw [hc]; simpa [XState.goto] using h4⟩
    intro k
    rw [hh]
    simp only [XState.hold]
    by_cases hk : k = l
    · subst hk; simp [h2.1]
    · simp [hk, ← h1 k]

/-- Every step keeps the guards in order, provided callbacks do only what is `ok`. -/
theorem xinv_step {ok : List Lk → XInstr → Prop} {beh : Behaviour} {s s' : XState} {i : Nat} {e : List CbEv} (hI : GuardInv ok s)
    (he : ∀ hs c ns name m, .reg c ∈ hs → ok hs (.event c ns name) → (s.reg c).getEvent ns name = some m → ok hs (.call m))
    (ha : ∀ hs c ns id cb, .reg c ∈ hs → ok hs (.ack c ns id) → ((s.reg c).getAndClearAck ns id).1 = some cb →
      Doable ok hs (beh.ack cb))
    (hc : ∀ hs m, ok hs (.call m) → Doable ok (.cell m :: hs) (beh.event m (s.calls m)))
    (h : xstep beh s i = some (s', e)) : GuardInv ok s' := by
  unfold xstep at h
  split at h
  · simp at h
  all_goals rename_i hcode
  · split at h
    · simp at h
    · rename_i hn
      split at h <;> (simp only [Option.some.injEq, Prod.mk.injEq] at h; obtain ⟨rfl, rfl⟩ := h)
      · exact xinv_unwind hI
      · rename_i hp
        refine xinv_take hI rfl rfl rfl (by simpa using hn) (by simpa using hp) ?_
        intro hs _ h; rw [hcode] at h; exact h.2
  · split at h
    · simp only [Option.some.injEq, Prod.mk.injEq] at h
      obtain ⟨rfl, rfl⟩ := h
      rename_i hh
      refine xinv_drop hI rfl rfl rfl hh ?_
      intro hs h; rw [hcode] at h; exact h
    · simp at h
  · split at h <;> (simp only [Option.some.injEq, Prod.mk.injEq] at h; obtain ⟨rfl, rfl⟩ := h)
    · refine xinv_goto hI rfl rfl rfl ?_
      intro hs _ h; rw [hcode] at h; exact h.2.2
    · rename_i hg
      refine xinv_goto hI rfl rfl rfl ?_
      intro hs _ h; rw [hcode] at h; exact ⟨he _ _ _ _ _ h.2.1 h.1 hg, h.2.2⟩
  · split at h <;> (simp only [Option.some.injEq, Prod.mk.injEq] at h; obtain ⟨rfl, rfl⟩ := h)
    · refine xinv_goto hI rfl rfl rfl ?_
      intro hs _ h; rw [hcode] at h; exact h.2.2
    · rename_i hg
      refine xinv_goto hI rfl rfl rfl ?_
      intro hs _ h; rw [hcode] at h
      exact ha _ _ _ _ _ h.2.1 h.1 (by rw [hg]) _ h.2.2
  · split at h
    · simp at h
    · rename_i hn
      split at h <;> (simp only [Option.some.injEq, Prod.mk.injEq] at h; obtain ⟨rfl, rfl⟩ := h)
      · exact xinv_unwind hI
      · rename_i hp
        refine xinv_take hI rfl rfl rfl (by simpa using hn) (by simpa using hp) ?_
        intro hs _ h; rw [hcode] at h
        exact hc _ _ h.1 _ ⟨hs, rfl, h.2⟩
  · split at h
    · simp only [Option.some.injEq, Prod.mk.injEq] at h
      obtain ⟨rfl, rfl⟩ := h
      rename_i hh
      refine xinv_drop hI rfl rfl rfl hh ?_
      intro hs h; rw [hcode] at h; exact h
    · simp at h
  · simp only [Option.some.injEq, Prod.mk.injEq] at h
    obtain ⟨rfl, rfl⟩ := h
    refine xinv_goto hI rfl rfl rfl ?_
    intro hs _ h; rw [hcode] at h; exact h.2.2
  · simp only [Option.some.injEq, Prod.mk.injEq] at h
    obtain ⟨rfl, rfl⟩ := h
    exact xinv_unwind hI
  · simp only [Option.some.injEq, Prod.mk.injEq] at h
    obtain ⟨rfl, rfl⟩ := h
    refine xinv_goto hI rfl rfl rfl ?_
    intro hs _ h; rw [hcode] at h; exact h

theorem fits_task {ok : List Lk → XInstr → Prop} {c : Nat} (h1 : ok [] (.lock c))
    (h2 : ∀ ns name, ok [.reg c] (.event c ns name)) (h3 : ∀ ns id, ok [.reg c] (.ack c ns id)) (msgs : List CbMsg) :
    XFits ok [] (msgs.flatMap (CbMsg.code c)) := by
  induction msgs with
  | nil => rfl
  | cons m ms ih =>
    cases m with
    | event ns name => exact ⟨h1, h2 ns name, by simp, [], rfl, ih⟩
    | ack ns id => exact ⟨h1, h3 ns id, by simp, [], rfl, ih⟩

theorem xinv_start {ok : List Lk → XInstr → Prop} {reg : Nat → Callbacks} {progs : Nat → Prog}
    (h1 : ∀ c, ok [] (.lock c)) (h2 : ∀ c ns name, ok [.reg c] (.event c ns name)) (h3 : ∀ c ns id, ok [.reg c] (.ack c ns id))
    (h4 : ∀ i as, progs i = .app as → Doable ok [] as) : GuardInv ok (XState.start reg progs) := by
  refine ⟨fun i => ⟨[], by simp [XState.start], by simp, ?_⟩, by simp [XState.start]⟩
  simp only [XState.start]
  cases hp : progs i with
  | task c msgs => exact fits_task (h1 c) (h2 c) (h3 c) msgs
  | app as =>
    have := h4 i as hp [] rfl
    simpa [Prog.code] using this

end SIO
