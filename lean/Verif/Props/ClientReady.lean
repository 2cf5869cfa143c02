import Verif.Spec.Ready
import Verif.Props.ClientExact
/-
C59: what the connection task can do next, exactly, from what was done and seen.
-/
namespace SIO
open Spec

theorem trans_unborn {cfg : RCfg} {s s' : Sys} {evs : List Ev} (ht : Trans cfg s s' evs) (h : s'.task = .unborn) : s.task = .unborn := by
  cases ht with
  | sendOk src g s0 evs hs hl hc => cases hs <;> exact h
  | sendFail src g s0 evs hs hc => cases hs <;> exact h
  | recvEvent w st ns name cb A ack _ _ _ => cases ack <;> exact h
  | _ => first | exact h | (simp [Sys.endTask] at h; done)

set_option maxHeartbeats 1000000 in
theorem step_born {cfg : RCfg} {s s' : Sys} {a : Act} {evs : List Ev} (h : step cfg s a = some (s', evs)) (ha : a ≠ .handshakeOk) :
    s'.task = .unborn ↔ s.task = .unborn := by
  cases a with
  | recv w p =>
    have h0 : s.task ≠ .unborn := by intro hx; simp [step, hx] at h
    exact ⟨fun hx => absurd (trans_unborn (step_trans h) hx) h0, fun hx => absurd hx h0⟩
  | rawSend g =>
    simp only [step, Sys.enqueue] at h
    grind
  | emitEnqueue =>
    simp only [step, Sys.enqueue] at h
    grind
  | reply x b args =>
    simp only [step, Sys.enqueue] at h
    grind
  | handshakeOk => exact absurd rfl ha
  | _ =>
    simp only [step, Sys.finishTask, Sys.endTask, Sys.failConnect, Sys.closeOver] at h
    grind [Task.live]

@[simp] theorem completed_append (a b : List Ev) : completed (a ++ b) = completed a + completed b := by simp [completed]

/-- Groups taken and groups completed. -/
structure GroupInv (tr : List Ev) (s : Sys) : Prop where
  unborn : s.task = .unborn → completed tr = 0 ∧ taken tr = []
  reads : s.task.reads → completed tr = (taken tr).length
  writing : ∀ l, s.task = .writing l → completed tr + 1 = (taken tr).length

theorem groupinv_congr {tr : List Ev} {s s' : Sys} {evs : List Ev} (hi : GroupInv tr s) (ht : s'.task = s.task)
    (h1 : completed evs = 0) (h2 : taken evs = []) : GroupInv (tr ++ evs) s' := by
  obtain ⟨k1, k2, k3⟩ := hi
  constructor <;> rw [ht] <;> simpa [h1, h2]

theorem groupinv_end {tr : List Ev} {s : Sys} {t : Task} (h : t.live = false) (h' : t ≠ .unborn) : GroupInv tr (s.endTask t) := by
  constructor
  · intro hx; exact absurd hx h'
  · intro hx
    have : t.live = true := hx.live
    rw [this] at h
    simp at h
  · intro l hx
    rw [show t = .writing l from hx] at h
    simp [Task.live] at h

theorem groupinv {cfg : RCfg} {acts : List Act} {s : Sys} {tr : List Ev} (h : Runs cfg acts s tr) : GroupInv tr s := by
  refine (exec_induct (P := fun tr s => PInv s ∧ GroupInv tr s) ⟨pinv_init, ?_⟩ ?_ acts s tr h).2
  · constructor <;> simp [Sys.init, Task.reads, completed, taken]
  intro tr s s' evs ⟨hp, hi⟩ ht
  refine ⟨pinv_trans hp ht, ?_⟩
  cases ht with
  | handshakeOk h =>
    obtain ⟨k1, k2⟩ := hi.unborn (hp.start h).1
    constructor <;> simp [k1, k2]
  | sendOk src g s0 evs hs hl hc => cases hs <;> exact groupinv_congr hi rfl rfl rfl
  | sendFail src g s0 evs hs hc => cases hs <;> exact groupinv_congr hi rfl rfl rfl
  | recvEvent w st ns name cb A ack _ _ _ => cases ack <;> exact groupinv_congr hi rfl rfl rfl
  | dequeue g q h1 h2 =>
    have := hi.reads (Or.inl h1)
    constructor
    · simp
    · simp [Task.reads]
    · intro l _
      simp [completed, taken] at this ⊢
      omega
  | write w rest h1 =>
    have := hi.writing _ h1
    constructor
    · simp
    · simp [Task.reads]
    · intro l _
      simpa [completed, taken] using this
  | endGroup h1 =>
    have := hi.writing _ h1
    constructor
    · simp
    · intro _
      simpa [completed, taken] using this
    · simp
  | seeClose h1 h2 =>
    have := hi.reads (Or.inl h1)
    constructor
    · simp
    · intro _
      simpa [completed, taken] using this
    · simp
  | _ => first | exact groupinv_congr hi rfl rfl rfl | exact groupinv_end rfl (by simp)

theorem born {cfg : RCfg} {acts : List Act} {s : Sys} {tr : List Ev} (h : Runs cfg acts s tr) :
    s.task = .unborn ↔ .handshakeOk ∉ acts := by
  refine sched_induct (P := fun acts tr s => s.task = .unborn ↔ .handshakeOk ∉ acts) (by simp [Sys.init]) ?_ h
  intro acts tr s s' evs a hr hi hs
  by_cases ha : a = .handshakeOk
  · subst ha
    have : s'.task = .running := by
      simp only [step] at hs
      grind
    simp [this]
  · rw [step_born hs ha, hi]
    simp [Ne.symm ha]

theorem task_alive {cfg : RCfg} {acts : List Act} {s : Sys} {tr : List Ev} (h : Runs cfg acts s tr) :
    TaskAlive acts tr ↔ s.task.live = true := by
  constructor
  · rintro ⟨h1, h2, h3⟩
    generalize ht : s.task = t
    cases t with
    | unborn => exact absurd h1 ((born h).1 ht)
    | done r => exact absurd ((einv h).done r ht) (h2 r)
    | dropped => exact absurd ((einv h).dropped ht) h3
    | _ => rfl
  · intro hl
    refine ⟨?_, ?_, ?_⟩
    · by_cases hb : .handshakeOk ∈ acts
      · exact hb
      · rw [(born h).2 hb] at hl
        simp [Task.live] at hl
    · intro r hm
      obtain ⟨a, b, hab⟩ := mem_split hm
      rw [((einv h).after _ _ _ hab (Or.inl ⟨r, rfl⟩)).1] at hl
      simp [endOf, Task.live] at hl
    · intro hm
      obtain ⟨a, b, hab⟩ := mem_split hm
      rw [((einv h).after _ _ _ hab (Or.inr rfl)).1] at hl
      simp [endOf, Task.live] at hl

theorem waits_iff {cfg : RCfg} {acts : List Act} {s : Sys} {tr : List Ev} (h : Runs cfg acts s tr) :
    Waits acts tr ↔ s.task.reads := by
  constructor
  · rintro ⟨h1, h2⟩
    have hl := (task_alive h).1 h1
    generalize ht : s.task = t at hl
    cases t with
    | running => exact Or.inl rfl
    | closing => exact Or.inr rfl
    | writing l =>
      have := (groupinv h).writing l ht
      omega
    | _ => simp [Task.live] at hl
  · intro hr
    exact ⟨(task_alive h).2 hr.live, (groupinv h).reads hr⟩

theorem writes_iff {cfg : RCfg} {acts : List Act} {s : Sys} {tr : List Ev} (h : Runs cfg acts s tr) :
    Writes acts tr ↔ ∃ l, s.task = .writing l := by
  constructor
  · rintro ⟨h1, h2⟩
    have hl := (task_alive h).1 h1
    generalize ht : s.task = t at hl
    cases t with
    | writing l => exact ⟨l, rfl⟩
    | running => exact absurd ((groupinv h).reads (Or.inl ht)) h2
    | closing => exact absurd ((groupinv h).reads (Or.inr ht)) h2
    | _ => simp [Task.live] at hl
  · rintro ⟨l, ht⟩
    refine ⟨(task_alive h).2 (by rw [ht]; rfl), ?_⟩
    have := (groupinv h).writing l ht
    omega

theorem running_iff {cfg : RCfg} {acts : List Act} {s : Sys} {tr : List Ev} (h : Runs cfg acts s tr) :
    (Waits acts tr ∧ .closeSeen ∉ tr) ↔ s.task = .running := by
  rw [waits_iff h]
  constructor
  · rintro ⟨h1 | h1, h2⟩
    · exact h1
    · exact absurd ((kinv h).closing h1) h2
  · intro ht
    refine ⟨Or.inl ht, ?_⟩
    intro hm
    obtain ⟨a, b, hab⟩ := mem_split hm
    have := ((kinv h).seen a b hab).2.1
    rw [ht] at this
    exact this

/-- C59: the task can receive a message, an error or the end of the stream exactly if it is not inside a group. -/
theorem C59_receive (cfg : RCfg) (acts : List Act) (s : Sys) (tr : List Ev) (h : Runs cfg acts s tr) :
    (∀ w p, (∃ s' evs, step cfg s (.recv w p) = some (s', .received w :: evs)) ↔ Waits acts tr) ∧
    (∀ e, (∃ s', step cfg s (.streamErr e) = some (s', [.taskEnd (.err (.websocket e))])) ↔ Waits acts tr) ∧
    ((∃ s', step cfg s .streamEnd = some (s', [.taskEnd (.ok ())])) ↔ Waits acts tr) := by
  rw [waits_iff h]
  refine ⟨?_, ?_, ?_⟩
  · intro w p
    have h0 : ∃ rest, (s.recv cfg w p).2 = .received w :: rest := by
      unfold Sys.recv
      dsimp only
      repeat' split
      all_goals exact ⟨_, rfl⟩
    obtain ⟨rest, h0⟩ := h0
    constructor
    · rintro ⟨s', evs, hs⟩
      simp only [step] at hs
      split at hs
      · rename_i ht; exact Or.inl ht
      · rename_i ht; exact Or.inr ht
      · simp at hs
    · intro hr
      refine ⟨(s.recv cfg w p).1, rest, ?_⟩
      rcases hr with hr | hr <;> simp [step, hr, ← h0]
  · intro e
    constructor
    · rintro ⟨s', hs⟩
      simp only [step] at hs
      split at hs
      · rename_i ht; exact Or.inl ht
      · rename_i ht; exact Or.inr ht
      · simp at hs
    · rintro (hr | hr) <;> simp [step, hr, Sys.finishTask]
  · constructor
    · rintro ⟨s', hs⟩
      simp only [step] at hs
      split at hs
      · rename_i ht; exact Or.inl ht
      · rename_i ht; exact Or.inr ht
      · simp at hs
    · rintro (hr | hr) <;> simp [step, hr, Sys.finishTask]

/-- C59: it can take a group exactly if it waits, has not seen the close signal, and the group is the next one. -/
theorem C59_take (cfg : RCfg) (acts : List Act) (s : Sys) (tr : List Ev) (h : Runs cfg acts s tr) (g : List Ws) :
    (∃ s', step cfg s .dequeue = some (s', [.dequeued g])) ↔
      Waits acts tr ∧ .closeSeen ∉ tr ∧ taken tr ++ [g] <+: groups tr := by
  rw [← and_assoc, running_iff h]
  constructor
  · rintro ⟨s', hs⟩
    simp only [step] at hs
    split at hs
    · rename_i ht
      refine ⟨ht, ?_⟩
      have hq := C32_queue cfg acts s tr h (by rw [ht]; rfl)
      split at hs
      · rename_i g' q hg
        simp only [Option.some.injEq, Prod.mk.injEq, List.cons.injEq, Ev.dequeued.injEq, and_true] at hs
        obtain ⟨_, rfl⟩ := hs
        rw [hq, hg]
        exact ⟨q, by simp⟩
      · split at hs <;> simp [Sys.finishTask] at hs
    · simp at hs
  · rintro ⟨ht, q, hq⟩
    rw [C32_queue cfg acts s tr h (by rw [ht]; rfl), List.append_assoc, List.append_cancel_left_eq] at hq
    simp [step, ht, ← hq]

/-- C59: it can write a message, or fail to, exactly if it is inside a group and the message is the next one. -/
theorem C59_write (cfg : RCfg) (acts : List Act) (s : Sys) (tr : List Ev) (h : Runs cfg acts s tr) (w : Ws) :
    ((∃ s', step cfg s .write = some (s', [.wrote w])) ↔ Writes acts tr ∧ written tr ++ [w] <+: (taken tr).flatten) ∧
    (∀ e, (∃ s', step cfg s (.writeFail e) = some (s', [.writeFailed w, .taskEnd (.err (.websocket e))])) ↔
      Writes acts tr ∧ written tr ++ [w] <+: (taken tr).flatten) := by
  have key : (Writes acts tr ∧ written tr ++ [w] <+: (taken tr).flatten) ↔ ∃ rest, s.task = .writing (w :: rest) := by
    rw [writes_iff h]
    constructor
    · rintro ⟨⟨l, ht⟩, rest, hp⟩
      have h1 := (winv h).wire
      rw [ht] at h1
      rw [← h1.1, List.append_assoc, List.append_cancel_left_eq] at hp
      exact ⟨rest, by rw [ht, ← hp]; rfl⟩
    · rintro ⟨rest, ht⟩
      have h1 := (winv h).wire
      rw [ht] at h1
      exact ⟨⟨_, ht⟩, rest, by rw [← h1.1]; simp⟩
  rw [key]
  constructor
  · constructor
    · rintro ⟨s', hs⟩
      simp only [step] at hs
      split at hs
      · rename_i w' rest ht
        simp only [Option.some.injEq, Prod.mk.injEq, List.cons.injEq, Ev.wrote.injEq, and_true] at hs
        obtain ⟨_, rfl⟩ := hs
        exact ⟨rest, ht⟩
      · simp at hs
    · rintro ⟨rest, ht⟩
      simp [step, ht]
  · intro e
    constructor
    · rintro ⟨s', hs⟩
      simp only [step] at hs
      split at hs
      · rename_i w' rest ht
        simp only [Sys.finishTask, Option.some.injEq, Prod.mk.injEq, List.cons.injEq, Ev.writeFailed.injEq] at hs
        obtain ⟨_, rfl, _⟩ := hs
        exact ⟨rest, ht⟩
      · simp at hs
    · rintro ⟨rest, ht⟩
      simp [step, ht, Sys.finishTask]

/-- C59: the group is over exactly if all of it was written. -/
theorem C59_group (cfg : RCfg) (acts : List Act) (s : Sys) (tr : List Ev) (h : Runs cfg acts s tr) :
    (∃ s', step cfg s .endGroup = some (s', [.groupDone])) ↔ Writes acts tr ∧ written tr = (taken tr).flatten := by
  rw [writes_iff h]
  constructor
  · rintro ⟨s', hs⟩
    simp only [step] at hs
    split at hs
    · rename_i ht
      have h1 := (winv h).wire
      rw [ht] at h1
      exact ⟨⟨_, ht⟩, by simpa using h1.1⟩
    · simp at hs
  · rintro ⟨⟨l, ht⟩, hw⟩
    have h1 := (winv h).wire
    rw [ht] at h1
    have : l = [] := by
      have := h1.1
      rw [hw] at this
      simpa using this
    subst this
    simp [step, ht]

/-- C59: it can turn to closing exactly if it waits, has not done so before, and there is a close signal. -/
theorem C59_close (cfg : RCfg) (acts : List Act) (s : Sys) (tr : List Ev) (h : Runs cfg acts s tr) :
    (∃ s', step cfg s .seeClose = some (s', [.closeSeen])) ↔ Waits acts tr ∧ .closeSeen ∉ tr ∧
      (.closeRequested ∈ tr ∨ .openTimeout ∈ acts ∨ .connectCancel ∈ acts ∨ .dropClient ∈ acts) := by
  rw [← and_assoc, running_iff h]
  constructor
  · intro hs
    have ht : s.task = .running := by
      obtain ⟨s', hs⟩ := hs
      simp only [step] at hs
      split at hs
      · assumption
      · simp at hs
    exact ⟨ht, (C33_signal cfg acts s tr h ht).1 hs⟩
  · rintro ⟨ht, hs⟩
    exact (C33_signal cfg acts s tr h ht).2 hs

-- the connected task waits; after it has taken a group of two it writes, and can write the first message only
example : (match exec exCfg Sys.init exConnect with
    | some (_, tr) => decide (completed tr = 0 ∧ (taken tr).length = 0) | none => false) = true := by decide +kernel

example : (match exec exCfg Sys.init (exConnect ++ [.rawSend [.text ['a'], .text ['b']], .dequeue]) with
    | some (s, tr) => decide (completed tr = 0 ∧ taken tr = [[.text ['a'], .text ['b']]] ∧ written tr = []) &&
        (step exCfg s .write).isSome && (step exCfg s .endGroup).isNone && (step exCfg s (.recv (.text ['2']) false)).isNone
    | none => false) = true := by decide +kernel

-- when both are written the group is over, and the task receives again
example : (match exec exCfg Sys.init (exConnect ++ [.rawSend [.text ['a'], .text ['b']], .dequeue, .write, .write, .endGroup]) with
    | some (s, tr) => decide (completed tr = 1 ∧ (taken tr).length = 1) && (step exCfg s (.recv (.text ['2']) false)).isSome
    | none => false) = true := by decide +kernel

end SIO
