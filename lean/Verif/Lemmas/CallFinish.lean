import Verif.Lemmas.CallOrder
/-
If mutexes are taken in order, every thread can be brought to its end.
-/
namespace SIO
open Spec

/-- Mutexes are taken upwards, and only allowed callbacks are registered. -/
def okR (rank : Lk → Nat) (may mayAck : Nat → Cb → Prop) (hs : List Lk) : XInstr → Prop
  | .lock c => ∀ h ∈ hs, rank h < rank (.reg c)
  | .call m => ∀ h ∈ hs, rank h < rank (.cell m)
  | .op c op => Allowed may mayAck c op
  | .event c _ _ => ∀ h ∈ hs, rank h ≤ rank (.reg c)
  | .ack c _ _ => ∀ h ∈ hs, rank h ≤ rank (.reg c)
  | _ => True

/-- Only allowed callbacks are registered. -/
def RegOk (may mayAck : Nat → Cb → Prop) (c : Nat) (r : Callbacks) : Prop :=
  (∀ ns e m, r.ev ns e = some m → may c m) ∧ (∀ ns m, r.fb ns = some m → may c m) ∧
  ∀ ns id cb, r.ak ns id = some cb → mayAck c cb

theorem regOk_run {may mayAck : Nat → Cb → Prop} {c : Nat} {r : Callbacks} {op : RegOp} (h : RegOk may mayAck c r)
    (ho : Allowed may mayAck c op) : RegOk may mayAck c (op.run r) := by
  obtain ⟨h1, h2, h3⟩ := h
  refine ⟨?_, ?_, ?_⟩
  · intro ns e m hm
    rw [Callbacks.ev_run] at hm
    cases op with
    | setEvent ns' e' cb =>
      simp only at hm
      split at hm
      · simp only [Option.some.injEq] at hm; subst hm; exact ho
      · exact h1 _ _ _ hm
    | clearEvent ns' e' =>
      simp only at hm
      split at hm
      · simp at hm
      · exact h1 _ _ _ hm
    | setFallback ns' cb => exact h1 _ _ _ hm
    | clearFallback ns' => exact h1 _ _ _ hm
    | setAck ns' id cb => exact h1 _ _ _ hm
    | takeAck ns' id => exact h1 _ _ _ hm
  · intro ns m hm
    rw [Callbacks.fb_run] at hm
    cases op with
    | setFallback ns' cb =>
      simp only at hm
      split at hm
      · simp only [Option.some.injEq] at hm; subst hm; exact ho
      · exact h2 _ _ hm
    | clearFallback ns' =>
      simp only at hm
      split at hm
      · simp at hm
      · exact h2 _ _ hm
    | setEvent ns' e' cb => exact h2 _ _ hm
    | clearEvent ns' e' => exact h2 _ _ hm
    | setAck ns' id cb => exact h2 _ _ hm
    | takeAck ns' id => exact h2 _ _ hm
  · intro ns id cb hm
    rw [Callbacks.ak_run] at hm
    cases op with
    | setAck ns' id' cb' =>
      simp only at hm
      split at hm
      · simp only [Option.some.injEq] at hm; subst hm; exact ho
      · exact h3 _ _ _ hm
    | takeAck ns' id' =>
      simp only at hm
      split at hm
      · simp at hm
      · exact h3 _ _ _ hm
    | setEvent ns' e' cb => exact h3 _ _ _ hm
    | clearEvent ns' e' => exact h3 _ _ _ hm
    | setFallback ns' cb => exact h3 _ _ _ hm
    | clearFallback ns' => exact h3 _ _ _ hm

theorem regOk_event {may mayAck : Nat → Cb → Prop} {c : Nat} {r : Callbacks} (h : RegOk may mayAck c r) {ns name : Str} {m : Cb}
    (hm : r.getEvent ns name = some m) : may c m := by
  rw [Callbacks.getEvent_eq] at hm
  cases he : r.ev ns name with
  | none => rw [he] at hm; exact h.2.1 _ _ (by simpa using hm)
  | some m' => rw [he] at hm; exact h.1 _ _ _ (by rw [he]; simpa using hm)

variable {beh : Behaviour} {rank : Lk → Nat} {may mayAck : Nat → Cb → Prop}

structure OrderInv (rank : Lk → Nat) (may mayAck : Nat → Cb → Prop) (s : XState) : Prop where
  inv : GuardInv (okR rank may mayAck) s
  reg : ∀ c, RegOk may mayAck c (s.reg c)

theorem doable_above {hs : List Lk} {n : Nat} {as : List UserAct} (h : Above rank may mayAck n as) (hn : ∀ l ∈ hs, rank l ≤ n) :
    Doable (okR rank may mayAck) hs as := by
  refine doable_of ?_ ?_
  · intro c op hm
    refine ⟨?_, h.2 c op hm⟩
    intro l hl
    have h1 := h.1 _ hm (.reg c) rfl
    have h2 := hn l hl
    omega
  · intro m hm l hl
    have h1 := h.1 _ hm (.cell m) rfl
    have h2 := hn l hl
    omega

theorem orderInv_step (ho : Ordered beh rank may mayAck) {s s' : XState} {i : Nat} {e : List CbEv} (hI : OrderInv rank may mayAck s)
    (h : xstep beh s i = some (s', e)) : OrderInv rank may mayAck s' := by
  refine ⟨xinv_step hI.inv ?_ ?_ ?_ h, ?_⟩
  · intro hs c ns name m _ h1 h2 l hl
    have h3 := h1 l hl
    have h4 := ho.clients c m (regOk_event (hI.reg c) h2)
    omega
  · intro hs c ns id cb _ h1 h2
    refine doable_above (ho.acks c cb ?_) h1
    rw [Callbacks.getAck_eq] at h2
    exact (hI.reg c).2.2 _ _ _ h2
  · intro hs m h1
    refine doable_above (ho.events m _) ?_
    intro l hl
    simp only [List.mem_cons] at hl
    rcases hl with rfl | hl
    · exact Nat.le_refl _
    · exact Nat.le_of_lt (h1 l hl)
  · intro c
    obtain ⟨hs, _, _, hfit⟩ := hI.inv.fits i
    unfold xstep at h
    split at h
    · simp at h
    all_goals rename_i hcode
    · split at h
      · simp at h
      · split at h <;> (simp only [Option.some.injEq, Prod.mk.injEq] at h; obtain ⟨rfl, rfl⟩ := h) <;> exact hI.reg c
    · split at h
      · simp only [Option.some.injEq, Prod.mk.injEq] at h
        obtain ⟨rfl, rfl⟩ := h; exact hI.reg c
      · simp at h
    · split at h <;> (simp only [Option.some.injEq, Prod.mk.injEq] at h; obtain ⟨rfl, rfl⟩ := h) <;> exact hI.reg c
    · rename_i d ns id rest
      have key : RegOk may mayAck d ((s.reg d).getAndClearAck ns id).2 :=
        regOk_run (op := .takeAck ns id) (hI.reg d) trivial
      split at h <;>
      · rename_i hg
        simp only [Option.some.injEq, Prod.mk.injEq] at h
        obtain ⟨rfl, rfl⟩ := h
        rw [hg] at key
        simp only [XState.setReg, XState.goto]
        split
        · rename_i hd; subst hd; exact key
        · exact hI.reg c
    · split at h
      · simp at h
      · split at h <;> (simp only [Option.some.injEq, Prod.mk.injEq] at h; obtain ⟨rfl, rfl⟩ := h) <;> exact hI.reg c
    · split at h
      · simp only [Option.some.injEq, Prod.mk.injEq] at h
        obtain ⟨rfl, rfl⟩ := h; exact hI.reg c
      · simp at h
    · simp only [Option.some.injEq, Prod.mk.injEq] at h
      obtain ⟨rfl, rfl⟩ := h
      rw [hcode] at hfit
      simp only [XState.setReg, XState.goto]
      split
      · rename_i hd; subst hd; exact regOk_run (hI.reg _) hfit.1
      · exact hI.reg c
    · simp only [Option.some.injEq, Prod.mk.injEq] at h
      obtain ⟨rfl, rfl⟩ := h; exact hI.reg c
    · simp only [Option.some.injEq, Prod.mk.injEq] at h
      obtain ⟨rfl, rfl⟩ := h; exact hI.reg c

theorem orderInv_start {reg : Nat → Callbacks} {progs : Nat → Prog} (hf : Fair may mayAck reg progs) :
    OrderInv rank may mayAck (XState.start reg progs) := by
  refine ⟨xinv_start ?_ ?_ ?_ ?_, ?_⟩
  · intro c l hl; simp at hl
  · intro c ns name l hl; simp only [List.mem_singleton] at hl; subst hl; exact Nat.le_refl _
  · intro c ns id l hl; simp only [List.mem_singleton] at hl; subst hl; exact Nat.le_refl _
  · intro i as hp
    refine doable_of ?_ ?_
    · intro c op hm
      exact ⟨fun l hl => by simp at hl, hf.progs i as hp c op hm⟩
    · intro m hm l hl; simp at hl
  · intro c
    simp only [XState.start]
    refine ⟨?_, ?_, ?_⟩
    · intro ns e m h
      unfold Callbacks.ev at h
      cases hn : (reg c).namespaces.get ns with
      | none => rw [hn] at h; simp at h
      | some n => rw [hn] at h; exact (hf.events c ns n hn).1 e m h
    · intro ns m h
      unfold Callbacks.fb at h
      cases hn : (reg c).namespaces.get ns with
      | none => rw [hn] at h; simp at h
      | some n => rw [hn] at h; exact (hf.events c ns n hn).2.1 m h
    · intro ns id cb h
      unfold Callbacks.ak at h
      cases hn : (reg c).namespaces.get ns with
      | none => rw [hn] at h; simp at h
      | some n => rw [hn] at h; exact (hf.events c ns n hn).2.2 id cb h

/-- The mutex an instruction takes. -/
def wants : XInstr → Option Lk
  | .lock c => some (.reg c)
  | .call m => some (.cell m)
  | _ => none

/-- The mutex an instruction releases. -/
def frees : XInstr → Option Lk
  | .unlock c => some (.reg c)
  | .ret m => some (.cell m)
  | _ => none

/-- What a step of thread `i` does to the others and to the guards. -/
theorem xstep_frame {s s' : XState} {i : Nat} {e : List CbEv} (h : xstep beh s i = some (s', e)) :
    ∃ x r, s.code i = x :: r ∧ (∀ t, t ≠ i → s'.code t = s.code t ∧ ∀ l, s'.holder l = some t ↔ s.holder l = some t) ∧
      (∀ l, s'.holder l = s.holder l ∨ s'.holder l = none ∨ wants x = some l) := by
  have huw : ∀ t, t ≠ i → (s.unwind i).code t = s.code t ∧ ∀ l, (s.unwind i).holder l = some t ↔ s.holder l = some t := by
    intro t ht
    refine ⟨by simp [XState.unwind, ht], fun l => ?_⟩
    simp only [XState.unwind]
    split
    · rename_i h; rw [h]; simp [Ne.symm ht]
    · rfl
  have huh : ∀ l, (s.unwind i).holder l = s.holder l ∨ (s.unwind i).holder l = none := by
    intro l
    simp only [XState.unwind]
    split
    · exact .inr rfl
    · exact .inl rfl
  unfold xstep at h
  split at h
  · simp at h
  all_goals rename_i hcode
  all_goals refine ⟨_, _, hcode, ?_⟩
  · split at h
    · simp at h
    · rename_i hn
      split at h <;> (simp only [Option.some.injEq, Prod.mk.injEq] at h; obtain ⟨rfl, rfl⟩ := h)
      · exact ⟨huw, fun l => (huh l).elim .inl (.inr ∘ .inl)⟩
      · refine ⟨fun t ht => ⟨by simp [XState.hold, XState.goto, ht], fun l => ?_⟩, fun l => ?_⟩
        · simp only [XState.hold, XState.goto]
          split
          · rename_i hl; subst hl; simp only [ne_eq, Decidable.not_not] at hn; rw [hn]; simp [Ne.symm ht]
          · rfl
        · simp only [XState.hold, XState.goto, wants]
          split
          · rename_i hl; exact .inr (.inr (by rw [hl]))
          · exact .inl rfl
  · split at h
    · rename_i hh
      simp only [Option.some.injEq, Prod.mk.injEq] at h
      obtain ⟨rfl, rfl⟩ := h
      refine ⟨fun t ht => ⟨by simp [XState.hold, XState.goto, ht], fun l => ?_⟩, fun l => ?_⟩
      · simp only [XState.hold, XState.goto]
        split
        · rename_i hl; subst hl; rw [hh]; simp [Ne.symm ht]
        · rfl
      · simp only [XState.hold, XState.goto]
        split
        · exact .inr (.inl rfl)
        · exact .inl rfl
    · simp at h
  · split at h <;> (simp only [Option.some.injEq, Prod.mk.injEq] at h; obtain ⟨rfl, rfl⟩ := h) <;>
      exact ⟨fun t ht => ⟨by simp [XState.goto, ht], fun l => Iff.rfl⟩, fun l => .inl rfl⟩
  · split at h <;> (simp only [Option.some.injEq, Prod.mk.injEq] at h; obtain ⟨rfl, rfl⟩ := h) <;>
      exact ⟨fun t ht => ⟨by simp [XState.goto, XState.setReg, ht], fun l => Iff.rfl⟩, fun l => .inl rfl⟩
  · split at h
    · simp at h
    · rename_i hn
      split at h <;> (simp only [Option.some.injEq, Prod.mk.injEq] at h; obtain ⟨rfl, rfl⟩ := h)
      · exact ⟨huw, fun l => (huh l).elim .inl (.inr ∘ .inl)⟩
      · refine ⟨fun t ht => ⟨by simp [XState.hold, XState.goto, ht], fun l => ?_⟩, fun l => ?_⟩
        · simp only [XState.hold, XState.goto]
          split
          · rename_i hl; subst hl; simp only [ne_eq, Decidable.not_not] at hn; rw [hn]; simp [Ne.symm ht]
          · rfl
        · simp only [XState.hold, XState.goto, wants]
          split
          · rename_i hl; exact .inr (.inr (by rw [hl]))
          · exact .inl rfl
  · split at h
    · rename_i hh
      simp only [Option.some.injEq, Prod.mk.injEq] at h
      obtain ⟨rfl, rfl⟩ := h
      refine ⟨fun t ht => ⟨by simp [XState.hold, XState.goto, ht], fun l => ?_⟩, fun l => ?_⟩
      · simp only [XState.hold, XState.goto]
        split
        · rename_i hl; subst hl; rw [hh]; simp [Ne.symm ht]
        · rfl
      · simp only [XState.hold, XState.goto]
        split
        · exact .inr (.inl rfl)
        · exact .inl rfl
    · simp at h
  · simp only [Option.some.injEq, Prod.mk.injEq] at h
    obtain ⟨rfl, rfl⟩ := h
    exact ⟨fun t ht => ⟨by simp [XState.goto, XState.setReg, ht], fun l => Iff.rfl⟩, fun l => .inl rfl⟩
  · simp only [Option.some.injEq, Prod.mk.injEq] at h
    obtain ⟨rfl, rfl⟩ := h
    exact ⟨huw, fun l => (huh l).elim .inl (.inr ∘ .inl)⟩
  · simp only [Option.some.injEq, Prod.mk.injEq] at h
    obtain ⟨rfl, rfl⟩ := h
    exact ⟨fun t ht => ⟨by simp [XState.goto, ht], fun l => Iff.rfl⟩, fun l => .inl rfl⟩

/-- There is a schedule from `s` to `s'` that leaves alone all threads but `j` that have only guards below
`n`, and takes no guard below `n`. -/
structure Reach (beh : Behaviour) (rank : Lk → Nat) (j n : Nat) (s s' : XState) : Prop where
  run : ∃ is es, xrun beh s is = some (s', es)
  others : ∀ t, t ≠ j → (∀ l, s.holder l = some t → rank l < n) →
    s'.code t = s.code t ∧ ∀ l, s'.holder l = some t ↔ s.holder l = some t
  low : ∀ l, rank l < n → s'.holder l = s.holder l ∨ s'.holder l = none

theorem reach_refl {j n : Nat} {s : XState} : Reach beh rank j n s s :=
  ⟨⟨[], [], rfl⟩, fun _ _ _ => ⟨rfl, fun _ => Iff.rfl⟩, fun _ _ => .inl rfl⟩

theorem xrun_append : ∀ {is js : List Nat} {s s' s'' : XState} {es fs : List CbEv}, xrun beh s is = some (s', es) →
    xrun beh s' js = some (s'', fs) → xrun beh s (is ++ js) = some (s'', es ++ fs) := by
  intro is
  induction is with
  | nil =>
    intro js s s' s'' es fs h1 h2
    simp only [xrun, Option.some.injEq, Prod.mk.injEq] at h1
    obtain ⟨rfl, rfl⟩ := h1
    simpa using h2
  | cons i is ih =>
    intro js s s' s'' es fs h1 h2
    simp only [xrun] at h1
    split at h1
    · simp at h1
    · rename_i s1 e1 hs1
      split at h1
      · simp at h1
      · rename_i s2 e2 hs2
        simp only [Option.some.injEq, Prod.mk.injEq] at h1
        obtain ⟨rfl, rfl⟩ := h1
        have := ih hs2 h2
        simp [xrun, hs1, this]

theorem reach_trans {j n : Nat} {s s' s'' : XState} (h1 : Reach beh rank j n s s') (h2 : Reach beh rank j n s' s'') :
    Reach beh rank j n s s'' := by
  obtain ⟨is, es, hr⟩ := h1.run
  obtain ⟨js, fs, hr'⟩ := h2.run
  refine ⟨⟨_, _, xrun_append hr hr'⟩, ?_, ?_⟩
  · intro t ht hl
    obtain ⟨a, b⟩ := h1.others t ht hl
    obtain ⟨c, d⟩ := h2.others t ht (fun l h => hl l ((b l).1 h))
    exact ⟨c.trans a, fun l => (d l).trans (b l)⟩
  · intro l hl
    rcases h2.low l hl with h | h
    · rw [h]; exact h1.low l hl
    · exact .inr h

theorem reach_step {j n : Nat} {s s' : XState} {e : List CbEv} (h : xstep beh s j = some (s', e))
    (hw : ∀ x r l, s.code j = x :: r → wants x = some l → n ≤ rank l) : Reach beh rank j n s s' := by
  obtain ⟨x, r, hc, ho, hl⟩ := xstep_frame h
  refine ⟨⟨[j], e, by simp [xrun, h]⟩, fun t ht _ => ho t ht, ?_⟩
  intro l hlt
  rcases hl l with h | h | h
  · exact .inl h
  · exact .inr h
  · have := hw x r l hc h; omega

theorem reach_mono {j n n' : Nat} {s s' : XState} (h : Reach beh rank j n' s s') (hn : n ≤ n') : Reach beh rank j n s s' :=
  ⟨h.run, fun t ht hl => h.others t ht fun l hh => Nat.lt_of_lt_of_le (hl l hh) hn, fun l hl => h.low l (Nat.lt_of_lt_of_le hl hn)⟩

/-- The instruction and the callbacks it leads to take only mutexes from `n` on. -/
def Up (rank : Lk → Nat) (n : Nat) : XInstr → Prop
  | .lock c => n ≤ rank (.reg c)
  | .call m => n ≤ rank (.cell m)
  | .event c _ _ => n ≤ rank (.reg c) + 1
  | .ack c _ _ => n ≤ rank (.reg c) + 1
  | _ => True

def Simple : XInstr → Prop
  | .event _ _ _ => False
  | .ack _ _ _ => False
  | _ => True

/-- Thread `j` can be brought to the end of the first part of its code (or it panics). -/
def CanRun (beh : Behaviour) (rank : Lk → Nat) (may mayAck : Nat → Cb → Prop) (n : Nat) (p : List XInstr) : Prop :=
  ∀ s j r, OrderInv rank may mayAck s → s.code j = p ++ r →
    ∃ s', OrderInv rank may mayAck s' ∧ Reach beh rank j n s s' ∧ (s'.code j = r ∨ s'.code j = [])

/-- What a thread does until it releases a mutex. -/
theorem fits_until {l : Lk} : ∀ {c : List XInstr} {hs : List Lk}, XFits (okR rank may mayAck) hs c → l ∈ hs →
    ∃ p u r, c = p ++ u :: r ∧ frees u = some l ∧ ∀ x ∈ p, Up rank (rank l + 1) x := by
  intro c
  induction c with
  | nil => intro hs h hl; simp only [XFits] at h; subst h; simp at hl
  | cons x c ih =>
    intro hs h hl
    have go : ∀ {hs'}, XFits (okR rank may mayAck) hs' c → l ∈ hs' → Up rank (rank l + 1) x →
        ∃ p u r, x :: c = p ++ u :: r ∧ frees u = some l ∧ ∀ y ∈ p, Up rank (rank l + 1) y := by
      intro hs' h1 h2 h3
      obtain ⟨p, u, r, hc, hu, hp⟩ := ih h1 h2
      refine ⟨x :: p, u, r, by rw [hc]; rfl, hu, ?_⟩
      intro y hy
      simp only [List.mem_cons] at hy
      rcases hy with rfl | hy
      · exact h3
      · exact hp y hy
    cases x with
    | lock d => exact go h.2 (List.mem_cons_of_mem _ hl) (h.1 l hl)
    | unlock d =>
      obtain ⟨hs', rfl, h1⟩ := h
      by_cases hd : l = .reg d
      · exact ⟨[], .unlock d, c, rfl, by rw [hd]; rfl, by simp⟩
      · exact go h1 (by simpa [hd] using hl) trivial
    | event d ns name => exact go h.2.2 hl (Nat.succ_le_succ (h.1 l hl))
    | ack d ns id => exact go h.2.2 hl (Nat.succ_le_succ (h.1 l hl))
    | call m => exact go h.2 hl (h.1 l hl)
    | ret m =>
      obtain ⟨hs', rfl, h1⟩ := h
      by_cases hd : l = .cell m
      · exact ⟨[], .ret m, c, rfl, by rw [hd]; rfl, by simp⟩
      · exact go h1 (by simpa [hd] using hl) trivial
    | op d o => exact go h.2.2 hl trivial
    | panic => exact go h hl trivial
    | other => exact go h hl trivial

/-- A thread can always release a mutex. -/
theorem free_step {s : XState} {k : Nat} {u : XInstr} {r : List XInstr} {l : Lk} (hI : OrderInv rank may mayAck s)
    (hc : s.code k = u :: r) (hu : frees u = some l) :
    ∃ s' e, xstep beh s k = some (s', e) ∧ s'.holder l = none ∧ s'.code k = r := by
  obtain ⟨hs, h1, _, h3⟩ := hI.inv.fits k
  rw [hc] at h3
  cases u with
  | unlock c =>
    simp only [frees, Option.some.injEq] at hu
    subst hu
    obtain ⟨hs', rfl, _⟩ := h3
    have : s.holder (.reg c) = some k := (h1 _).1 (by simp)
    exact ⟨(s.goto k r).hold (.reg c) none, [], by simp [xstep, hc, this], by simp [XState.hold], by simp [XState.hold, XState.goto]⟩
  | ret m =>
    simp only [frees, Option.some.injEq] at hu
    subst hu
    obtain ⟨hs', rfl, _⟩ := h3
    have : s.holder (.cell m) = some k := (h1 _).1 (by simp)
    exact ⟨(s.goto k r).hold (.cell m) none, [.done m k], by simp [xstep, hc, this], by simp [XState.hold], by simp [XState.hold, XState.goto]⟩
  | _ => simp [frees] at hu

/-- A mutex that a thread waits for can be brought to be free. -/
theorem can_free (ho : Ordered beh rank may mayAck) {s : XState} {j n : Nat} {l : Lk} (hI : OrderInv rank may mayAck s)
    (hj : ∀ k, s.holder k = some j → rank k < rank l) (hn : n ≤ rank l)
    (IH : ∀ p, (∀ x ∈ p, Up rank (rank l + 1) x) → CanRun beh rank may mayAck (rank l + 1) p) :
    ∃ s', OrderInv rank may mayAck s' ∧ Reach beh rank j n s s' ∧ s'.code j = s.code j ∧
      (∀ k, s'.holder k = some j ↔ s.holder k = some j) ∧ s'.holder l = none := by
  cases hh : s.holder l with
  | none => exact ⟨s, hI, reach_refl, rfl, fun _ => Iff.rfl, hh⟩
  | some k =>
    have hjk : j ≠ k := by
      rintro rfl
      have := hj l hh
      omega
    have hkn : ∀ t, (∀ l', s.holder l' = some t → rank l' < n) → t ≠ k := by
      rintro t ht rfl
      have := ht l hh
      omega
    obtain ⟨hs, h1, _, h3⟩ := hI.inv.fits k
    obtain ⟨p, u, r, hc, hu, hp⟩ := fits_until h3 ((h1 l).2 hh)
    obtain ⟨s1, hI1, hR1, hc1⟩ := IH p hp s k (u :: r) hI hc
    have hj1 := hR1.others j hjk (fun k' hk' => Nat.lt_succ_of_lt (hj k' hk'))
    rcases hc1 with hc1 | hc1
    · obtain ⟨s2, e, hs2, hf, _⟩ := free_step (beh := beh) hI1 hc1 hu
      have hR2 : Reach beh rank k (rank l + 1) s1 s2 := reach_step hs2 (by
        intro x r' l' hx hw
        rw [hc1] at hx
        simp only [List.cons.injEq] at hx
        obtain ⟨rfl, _⟩ := hx
        cases u <;> simp [frees, wants] at hu hw)
      have hR := reach_trans hR1 hR2
      have hj2 := hR.others j hjk (fun k' hk' => Nat.lt_succ_of_lt (hj k' hk'))
      refine ⟨s2, orderInv_step ho hI1 hs2, ⟨hR.run, ?_, ?_⟩, hj2.1, hj2.2, hf⟩
      · intro t _ hl
        exact hR.others t (hkn t hl) fun l' h' => by have := hl l' h'; omega
      · intro l' hl'
        exact hR.low l' (by omega)
    · refine ⟨s1, hI1, ⟨hR1.run, ?_, ?_⟩, hj1.1, hj1.2, ?_⟩
      · intro t _ hl
        exact hR1.others t (hkn t hl) fun l' h' => by have := hl l' h'; omega
      · intro l' hl'
        exact hR1.low l' (by omega)
      · rcases hR1.low l (Nat.lt_succ_self _) with h | h
        · rw [hh] at h
          obtain ⟨hs', h1', _, h3'⟩ := hI1.inv.fits k
          rw [hc1] at h3'
          simp only [XFits] at h3'
          subst h3'
          have := (h1' l).2 h
          simp at this
        · exact h

theorem canRun_nil {n : Nat} : CanRun beh rank may mayAck n [] := fun s _ _ hI hc => ⟨s, hI, reach_refl, .inl hc⟩

theorem canRun_cons {n : Nat} {x : XInstr} {p : List XInstr} (hp : CanRun beh rank may mayAck n p)
    (h : ∀ s j r, OrderInv rank may mayAck s → s.code j = x :: r →
      ∃ s', OrderInv rank may mayAck s' ∧ Reach beh rank j n s s' ∧ (s'.code j = r ∨ s'.code j = [])) :
    CanRun beh rank may mayAck n (x :: p) := by
  intro s j r hI hc
  obtain ⟨s1, hI1, hR1, hc1⟩ := h s j (p ++ r) hI hc
  rcases hc1 with hc1 | hc1
  · obtain ⟨s2, hI2, hR2, hc2⟩ := hp s1 j r hI1 hc1
    exact ⟨s2, hI2, reach_trans hR1 hR2, hc2⟩
  · exact ⟨s1, hI1, hR1, .inr hc1⟩

theorem up_acts {n : Nat} {as : List UserAct} (h : ∀ a ∈ as, ∀ l, takes a = some l → n < rank l) :
    ∀ x ∈ acts as, Up rank (n + 1) x ∧ Simple x := by
  intro x hx
  simp only [acts, List.mem_flatMap] at hx
  obtain ⟨a, ha, hx⟩ := hx
  cases a with
  | reg c op =>
    have := h _ ha (.reg c) rfl
    simp only [UserAct.code, List.mem_cons, List.not_mem_nil, or_false] at hx
    rcases hx with rfl | rfl | rfl
    · exact ⟨this, trivial⟩
    · exact ⟨trivial, trivial⟩
    · exact ⟨trivial, trivial⟩
  | call m =>
    have := h _ ha (.cell m) rfl
    simp only [UserAct.code, List.mem_singleton] at hx
    subst hx
    exact ⟨this, trivial⟩
  | panic => simp only [UserAct.code, List.mem_singleton] at hx; subst hx; exact ⟨trivial, trivial⟩
  | other => simp only [UserAct.code, List.mem_singleton] at hx; subst hx; exact ⟨trivial, trivial⟩

theorem up_mono {n n' : Nat} {x : XInstr} (h : Up rank n' x) (hn : n ≤ n') : Up rank n x := by
  cases x <;> simp only [Up] at h ⊢ <;> omega

/-- A thread that has its mutex free can go on: it has taken it, or it panics. -/
theorem run_simple (ho : Ordered beh rank may mayAck) {n : Nat}
    (IH : ∀ l, n ≤ rank l → ∀ p, (∀ x ∈ p, Up rank (rank l + 1) x) → CanRun beh rank may mayAck (rank l + 1) p)
    {x : XInstr} (hx : Up rank n x) (hxs : Simple x) {s : XState} {j : Nat} {r : List XInstr}
    (hI : OrderInv rank may mayAck s) (hc : s.code j = x :: r) :
    ∃ s', OrderInv rank may mayAck s' ∧ Reach beh rank j n s s' ∧ (s'.code j = r ∨ s'.code j = []) := by
  have plain : ∀ {s' e}, xstep beh s j = some (s', e) → wants x = none → (s'.code j = r ∨ s'.code j = []) →
      ∃ s', OrderInv rank may mayAck s' ∧ Reach beh rank j n s s' ∧ (s'.code j = r ∨ s'.code j = []) := by
    intro s' e h1 h2 h3
    refine ⟨s', orderInv_step ho hI h1, reach_step h1 ?_, h3⟩
    intro y r' l hy hw
    rw [hc] at hy
    simp only [List.cons.injEq] at hy
    obtain ⟨rfl, _⟩ := hy
    rw [h2] at hw
    simp at hw
  obtain ⟨hs, h1, _, h3⟩ := hI.inv.fits j
  rw [hc] at h3
  cases x with
  | event c ns name => exact hxs.elim
  | ack c ns id => exact hxs.elim
  | lock c =>
    obtain ⟨s1, hI1, hR1, hc1, _, hf⟩ := can_free ho hI (l := .reg c) (fun k hk => h3.1 k ((h1 k).2 hk)) hx (IH _ hx)
    rw [hc] at hc1
    by_cases hp : s1.poisoned (.reg c) = true
    · have hs2 : xstep beh s1 j = some (s1.unwind j, [.panic j]) := by simp [xstep, hc1, hf, hp]
      refine ⟨_, orderInv_step ho hI1 hs2, reach_trans hR1 (reach_step hs2 ?_), .inr (by simp [XState.unwind])⟩
      intro y r' l hy hw
      rw [hc1] at hy
      simp only [List.cons.injEq] at hy
      obtain ⟨rfl, _⟩ := hy
      simp only [wants, Option.some.injEq] at hw
      subst hw; exact hx
    · have hs2 : xstep beh s1 j = some ((s1.goto j r).hold (.reg c) (some j), []) := by simp [xstep, hc1, hf, hp]
      refine ⟨_, orderInv_step ho hI1 hs2, reach_trans hR1 (reach_step hs2 ?_), .inl (by simp [XState.hold, XState.goto])⟩
      intro y r' l hy hw
      rw [hc1] at hy
      simp only [List.cons.injEq] at hy
      obtain ⟨rfl, _⟩ := hy
      simp only [wants, Option.some.injEq] at hw
      subst hw; exact hx
  | call m =>
    obtain ⟨s1, hI1, hR1, hc1, _, hf⟩ := can_free ho hI (l := .cell m) (fun k hk => h3.1 k ((h1 k).2 hk)) hx (IH _ hx)
    rw [hc] at hc1
    have hw : ∀ y r' l, s1.code j = y :: r' → wants y = some l → n ≤ rank l := by
      intro y r' l hy hw
      rw [hc1] at hy
      simp only [List.cons.injEq] at hy
      obtain ⟨rfl, _⟩ := hy
      simp only [wants, Option.some.injEq] at hw
      subst hw; exact hx
    by_cases hp : s1.poisoned (.cell m) = true
    · have hs2 : xstep beh s1 j = some (s1.unwind j, [.panic j]) := by simp [xstep, hc1, hf, hp]
      exact ⟨_, orderInv_step ho hI1 hs2, reach_trans hR1 (reach_step hs2 hw), .inr (by simp [XState.unwind])⟩
    · have hs2 : ∃ s2 e, xstep beh s1 j = some (s2, e) ∧ s2.code j = acts (beh.event m (s1.calls m)) ++ .ret m :: r := by
        refine ⟨_, _, by simp only [xstep, hc1, hf, ne_eq, not_true_eq_false, if_false, hp]; rfl, by simp [XState.hold, XState.goto]⟩
      obtain ⟨s2, e, hs2, hc2⟩ := hs2
      have hI2 := orderInv_step ho hI1 hs2
      obtain ⟨s3, hI3, hR3, hc3⟩ := IH (.cell m) hx (acts (beh.event m (s1.calls m)))
        (fun y hy => (up_acts (ho.events m _).1 y hy).1) s2 j (.ret m :: r) hI2 hc2
      have hR := reach_trans hR1 (reach_trans (reach_step hs2 hw) (reach_mono hR3 (Nat.le_succ_of_le hx)))
      rcases hc3 with hc3 | hc3
      · obtain ⟨s4, e4, hs4, _, hc4⟩ := free_step (beh := beh) hI3 hc3 (l := .cell m) rfl
        refine ⟨s4, orderInv_step ho hI3 hs4, reach_trans hR (reach_step hs4 ?_), .inl hc4⟩
        intro y r' l hy hw
        rw [hc3] at hy
        simp only [List.cons.injEq] at hy
        obtain ⟨rfl, _⟩ := hy
        simp [wants] at hw
      · exact ⟨s3, hI3, hR, .inr hc3⟩
  | unlock c =>
    obtain ⟨s', e, h, _, hc'⟩ := free_step (beh := beh) hI hc (l := .reg c) rfl
    exact plain h rfl (.inl hc')
  | ret m =>
    obtain ⟨s', e, h, _, hc'⟩ := free_step (beh := beh) hI hc (l := .cell m) rfl
    exact plain h rfl (.inl hc')
  | op c o =>
    exact plain (s' := (s.goto j r).setReg c (o.run (s.reg c))) (e := []) (by simp [xstep, hc]) rfl (.inl (by simp [XState.setReg, XState.goto]))
  | panic => exact plain (s' := s.unwind j) (e := [.panic j]) (by simp [xstep, hc]) rfl (.inr (by simp [XState.unwind]))
  | other => exact plain (s' := s.goto j r) (e := []) (by simp [xstep, hc]) rfl (.inl (by simp [XState.goto]))

/-- All code that takes only mutexes from `n` on can be run, if that is so above each of them. -/
theorem canRun_level (ho : Ordered beh rank may mayAck) {n : Nat}
    (IH : ∀ l, n ≤ rank l → ∀ p, (∀ x ∈ p, Up rank (rank l + 1) x) → CanRun beh rank may mayAck (rank l + 1) p) :
    ∀ p, (∀ x ∈ p, Up rank n x) → CanRun beh rank may mayAck n p := by
  have simple : ∀ p, (∀ x ∈ p, Up rank n x ∧ Simple x) → CanRun beh rank may mayAck n p := by
    intro p
    induction p with
    | nil => intro _; exact canRun_nil
    | cons x p ih =>
      intro h
      refine canRun_cons (ih fun y hy => h y (List.mem_cons_of_mem _ hy)) ?_
      intro s j r hI hc
      exact run_simple ho IH (h x (by simp)).1 (h x (by simp)).2 hI hc
  intro p
  induction p with
  | nil => intro _; exact canRun_nil
  | cons x p ih =>
    intro h
    refine canRun_cons (ih fun y hy => h y (List.mem_cons_of_mem _ hy)) ?_
    have hx := h x (by simp)
    intro s j r hI hc
    by_cases hs : Simple x
    · exact run_simple ho IH hx hs hI hc
    · have hw : ∀ y r' l, s.code j = y :: r' → wants y = some l → n ≤ rank l := by
        intro y r' l hy hw
        rw [hc] at hy
        simp only [List.cons.injEq] at hy
        obtain ⟨rfl, _⟩ := hy
        cases x <;> simp [Simple, wants] at hs hw
      cases x with
      | event c ns name =>
        cases hg : (s.reg c).getEvent ns name with
        | none =>
          have h1 : xstep beh s j = some (s.goto j r, []) := by simp [xstep, hc, hg]
          exact ⟨_, orderInv_step ho hI h1, reach_step h1 hw, .inl (by simp [XState.goto])⟩
        | some m =>
          have h1 : xstep beh s j = some (s.goto j (.call m :: r), []) := by simp [xstep, hc, hg]
          have hI1 := orderInv_step ho hI h1
          have hm := ho.clients c m (regOk_event (hI.reg c) hg)
          have hu : Up rank n (.call m) := by simp only [Up] at hx ⊢; omega
          obtain ⟨s2, hI2, hR2, hc2⟩ := run_simple ho IH hu trivial (r := r) hI1 (j := j) (by simp [XState.goto])
          exact ⟨s2, hI2, reach_trans (reach_step h1 hw) hR2, hc2⟩
      | ack c ns id =>
        cases hg : (s.reg c).getAndClearAck ns id with
        | mk o reg' =>
          cases o with
          | none =>
            have h1 : xstep beh s j = some ((s.goto j r).setReg c reg', []) := by simp [xstep, hc, hg]
            exact ⟨_, orderInv_step ho hI h1, reach_step h1 hw, .inl (by simp [XState.goto, XState.setReg])⟩
          | some cb =>
            have h1 : xstep beh s j = some ((s.goto j (acts (beh.ack cb) ++ r)).setReg c reg', [.ack cb j]) := by simp [xstep, hc, hg]
            have hI1 := orderInv_step ho hI h1
            have hm : mayAck c cb := by
              refine (hI.reg c).2.2 ns id cb ?_
              rw [← Callbacks.getAck_eq, hg]
            have hu : ∀ y ∈ acts (beh.ack cb), Up rank n y ∧ Simple y := by
              intro y hy
              have := up_acts (ho.acks c cb hm).1 y hy
              exact ⟨up_mono this.1 hx, this.2⟩
            obtain ⟨s2, hI2, hR2, hc2⟩ := simple _ hu _ j r hI1 (by simp [XState.goto, XState.setReg])
            exact ⟨s2, hI2, reach_trans (reach_step h1 hw) hR2, hc2⟩
      | _ => exact absurd trivial hs

theorem canRun_all (ho : Ordered beh rank may mayAck) {b : Nat} (hb : ∀ l, rank l ≤ b) :
    ∀ d n, b < n + d → ∀ p, (∀ x ∈ p, Up rank n x) → CanRun beh rank may mayAck n p := by
  intro d
  induction d with
  | zero =>
    intro n hn
    exact canRun_level ho (fun l hl => absurd (hb l) (by omega))
  | succ d ih =>
    intro n hn
    exact canRun_level ho (fun l hl => ih (rank l + 1) (by omega))

end SIO
