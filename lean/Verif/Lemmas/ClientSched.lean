import Verif.Lemmas.ClientConn
/-
Schedules: taking them apart and putting them together.
-/
namespace SIO
open Spec

theorem exec_append {cfg : RCfg} {b : List Act} {s2 : Sys} {t2 : List Ev} : ∀ {a : List Act} {s0 s1 : Sys} {t1 : List Ev},
    exec cfg s0 a = some (s1, t1) → exec cfg s1 b = some (s2, t2) → exec cfg s0 (a ++ b) = some (s2, t1 ++ t2) := by
  intro a
  induction a with
  | nil =>
    intro s0 s1 t1 h1 h2
    simp only [exec, Option.some.injEq, Prod.mk.injEq] at h1
    obtain ⟨rfl, rfl⟩ := h1
    simpa using h2
  | cons x a ih =>
    intro s0 s1 t1 h1 h2
    simp only [exec, List.cons_append] at h1 ⊢
    cases hx : step cfg s0 x with
    | none => rw [hx] at h1; simp at h1
    | some r =>
      obtain ⟨s', e'⟩ := r
      rw [hx] at h1
      simp only at h1 ⊢
      cases hy : exec cfg s' a with
      | none => rw [hy] at h1; simp at h1
      | some r2 =>
        obtain ⟨s3, e3⟩ := r2
        rw [hy] at h1
        simp only [Option.some.injEq, Prod.mk.injEq] at h1
        obtain ⟨rfl, rfl⟩ := h1
        rw [ih hy h2]
        simp

theorem exec_append_inv {cfg : RCfg} {b : List Act} {s2 : Sys} : ∀ {a : List Act} {s0 : Sys} {tr : List Ev},
    exec cfg s0 (a ++ b) = some (s2, tr) →
    ∃ s1 t1 t2, exec cfg s0 a = some (s1, t1) ∧ exec cfg s1 b = some (s2, t2) ∧ tr = t1 ++ t2 := by
  intro a
  induction a with
  | nil => intro s0 tr h; exact ⟨s0, [], tr, rfl, by simpa using h, rfl⟩
  | cons x a ih =>
    intro s0 tr h
    simp only [exec, List.cons_append] at h ⊢
    cases hx : step cfg s0 x with
    | none => rw [hx] at h; simp at h
    | some r =>
      obtain ⟨s', e'⟩ := r
      rw [hx] at h
      simp only at h ⊢
      cases hy : exec cfg s' (a ++ b) with
      | none => rw [hy] at h; simp at h
      | some r2 =>
        obtain ⟨s3, e3⟩ := r2
        rw [hy] at h
        simp only [Option.some.injEq, Prod.mk.injEq] at h
        obtain ⟨rfl, rfl⟩ := h
        obtain ⟨s1, t1, t2, h1, h2, rfl⟩ := ih hy
        exact ⟨s1, e' ++ t1, t2, by rw [h1], h2, by simp⟩

theorem exec_one {cfg : RCfg} {s s' : Sys} {a : Act} {evs : List Ev} :
    exec cfg s [a] = some (s', evs) ↔ step cfg s a = some (s', evs) := by
  simp only [exec]
  cases step cfg s a with
  | none => simp
  | some r => obtain ⟨s1, e1⟩ := r; simp

theorem runs_snoc_inv {cfg : RCfg} {acts : List Act} {a : Act} {s : Sys} {tr : List Ev} (h : Runs cfg (acts ++ [a]) s tr) :
    ∃ s0 tr0 evs, Runs cfg acts s0 tr0 ∧ step cfg s0 a = some (s, evs) ∧ tr = tr0 ++ evs := by
  obtain ⟨s1, t1, t2, h1, h2, h3⟩ := exec_append_inv h
  exact ⟨s1, t1, t2, h1, exec_one.1 h2, h3⟩

/-- Induction over schedules, with the schedule. -/
theorem sched_induct {cfg : RCfg} {P : List Act → List Ev → Sys → Prop} (h0 : P [] [] Sys.init)
    (hs : ∀ acts tr s s' evs a, Runs cfg acts s tr → P acts tr s → step cfg s a = some (s', evs) →
      P (acts ++ [a]) (tr ++ evs) s')
    {acts : List Act} {s : Sys} {tr : List Ev} (h : Runs cfg acts s tr) : P acts tr s := by
  have key : ∀ (n : Nat) (acts : List Act), acts.length = n → ∀ s tr, Runs cfg acts s tr → P acts tr s := by
    intro n
    induction n with
    | zero =>
      intro acts hn s tr h
      obtain rfl := List.eq_nil_of_length_eq_zero hn
      simp only [Runs, exec, Option.some.injEq, Prod.mk.injEq] at h
      obtain ⟨rfl, rfl⟩ := h
      exact h0
    | succ n ih =>
      intro acts hn s tr h
      rcases List.eq_nil_or_concat acts with rfl | ⟨pre, a, rfl⟩
      · simp at hn
      · simp only [List.concat_eq_append] at *
        obtain ⟨s0, tr0, evs, h1, h2, rfl⟩ := runs_snoc_inv h
        exact hs _ _ _ _ _ _ h1 (ih pre (by simpa using hn) _ _ h1) h2
  exact key _ acts rfl s tr h

/-- The action an observation belongs to. -/
theorem run_split' {cfg : RCfg} {acts : List Act} {s : Sys} {tr : List Ev} (h : Runs cfg acts s tr)
    {t1 t2 : List Ev} {e : Ev} (he : tr = t1 ++ e :: t2) :
    ∃ (a1 : List Act) (s0 : Sys) (tr0 : List Ev) (a : Act) (a2 : List Act) (s1 : Sys) (x y : List Ev), acts = a1 ++ a :: a2 ∧
      Runs cfg a1 s0 tr0 ∧ step cfg s0 a = some (s1, x ++ e :: y) ∧ t1 = tr0 ++ x := by
  refine sched_induct (P := fun acts tr _ => ∀ t1 t2, tr = t1 ++ e :: t2 →
    ∃ (a1 : List Act) (s0 : Sys) (tr0 : List Ev) (a : Act) (a2 : List Act) (s1 : Sys) (x y : List Ev), acts = a1 ++ a :: a2 ∧
      Runs cfg a1 s0 tr0 ∧ step cfg s0 a = some (s1, x ++ e :: y) ∧ t1 = tr0 ++ x) (by simp) ?_ h t1 t2 he
  intro acts tr s s' evs a hr hi hs t1 t2 heq
  rcases split_append heq with ⟨t, h1, _⟩ | ⟨t, h1, h2⟩
  · obtain ⟨a1, s0, tr0, b, a2, s1, x, y, rfl, h⟩ := hi _ _ h1
    exact ⟨a1, s0, tr0, b, a2 ++ [a], s1, x, y, by simp, h⟩
  · subst h2
    exact ⟨acts, s, tr, a, [], s', t, t2, rfl, hr, hs, h1⟩

theorem enqueue_frame (s : Sys) (src : Src) (g : List Ws) : ∃ q, (s.enqueue src g).1 = { s with queue := q } := by
  unfold Sys.enqueue
  split
  · exact ⟨_, rfl⟩
  · exact ⟨s.queue, rfl⟩

theorem recv_frame (cfg : RCfg) (s : Sys) (w : Ws) (p : Bool) : ∃ rx reg slot hs n q po t,
    (s.recv cfg w p).1 = { s with rx := rx, reg := reg, openSlot := slot, handles := hs, senders := n, queue := q,
                                  poisoned := po, task := t } := by
  have heff : ∀ (effs : List Eff) (s : Sys), ∃ slot hs n q,
      (s.effects effs).1 = { s with openSlot := slot, handles := hs, senders := n, queue := q } := by
    intro effs
    induction effs with
    | nil => intro s; exact ⟨_, _, _, _, rfl⟩
    | cons x effs ih =>
      intro s
      simp only [Sys.effects]
      obtain ⟨slot, hs, n, q, h⟩ := ih (s.effect x).1
      rw [h]
      cases x with
      | enqueue g =>
        simp only [Sys.effect]
        obtain ⟨q', hq⟩ := enqueue_frame s .pong g
        rw [hq]; exact ⟨_, _, _, _, rfl⟩
      | event ns name cb A ack => cases ack <;> exact ⟨_, _, _, _, rfl⟩
      | _ => exact ⟨_, _, _, _, rfl⟩
  obtain ⟨slot, hs, n, q, h⟩ := heff (processWs cfg s.rx s.reg w).effs
    { s with rx := (processWs cfg s.rx s.reg w).st, reg := (processWs cfg s.rx s.reg w).reg }
  unfold Sys.recv
  simp only [h]
  split
  · exact ⟨_, _, _, _, _, _, _, _, rfl⟩
  · split <;> exact ⟨_, _, _, _, _, _, _, _, rfl⟩

end SIO
