import Verif.Spec.Client
import Verif.Lemmas.Client
/-
Invariants of the client machine.
-/
namespace SIO
open Spec

theorem split_append {α : Type} {x : α} {a b c d : List α} (h : a ++ b = c ++ x :: d) :
    (∃ t, a = c ++ x :: t ∧ d = t ++ b) ∨ (∃ t, c = a ++ t ∧ b = t ++ x :: d) := by
  rcases List.append_eq_append_iff.1 h with ⟨t, h1, h2⟩ | ⟨t, h1, h2⟩
  · exact Or.inr ⟨t, h1, h2⟩
  · cases t with
    | nil => exact Or.inr ⟨[], by simpa using h1.symm, by simpa using h2.symm⟩
    | cons y t =>
      simp only [List.cons_append, List.cons.injEq] at h2
      exact Or.inl ⟨t, by rw [h1, h2.1], h2.2⟩

/-- Where the application and the connecting future are. -/
structure PInv (s : Sys) : Prop where
  start : s.phase = .handshake → s.task = .unborn ∧ s.clones = 0 ∧ s.handles = [] ∧ s.openSlot = none
  unborn : s.task = .unborn → s.client = false ∧ s.queue = [] ∧ s.phase ≠ .waitOpen
  client : s.client = true → ∃ sid, s.phase = .connected sid
  send : s.ownSend = true → s.client = true
  here : s.handleHere = true → s.client = true ∧ s.closeCall = false
  call : s.closeCall = true → s.client = true
  emit : s.emit ≠ none → s.client = true
  queue : s.task.live = false → s.queue = []

set_option maxHeartbeats 1000000 in
theorem pinv_trans {cfg : RCfg} {s s' : Sys} {evs : List Ev} (hi : PInv s) (ht : Trans cfg s s' evs) : PInv s' := by
  obtain ⟨h1, h2, h3, h4, h5, h6, h7, h8⟩ := hi
  cases ht with
  | sendOk src g s0 evs hs hl hc =>
    cases hs <;> constructor <;> grind [Task.reads, Task.live]
  | sendFail src g s0 evs hs hc =>
    cases hs <;> constructor <;> grind [Task.reads, Task.live]
  | recvEvent w st ns name cb A ack _ _ _ =>
    cases ack <;> constructor <;> grind [Task.reads, Task.live, Sys.withHandle]
  | recvEventPanic w st ns name cb A ack _ _ _ =>
    cases ack <;> constructor <;> grind [Task.reads, Task.live, Sys.withHandle, Sys.endTask]
  | _ =>
    constructor <;> grind [Task.reads, Task.live, Sys.endTask]

theorem pinv_init : PInv Sys.init := by
  constructor <;> simp [Sys.init]

theorem pinv {cfg : RCfg} {acts : List Act} {s : Sys} {tr : List Ev} (h : Runs cfg acts s tr) : PInv s :=
  exec_induct (P := fun _ s => PInv s) pinv_init (fun _ _ _ _ hi ht => pinv_trans hi ht) acts s tr h

/-- The number of senders of the queue: one in the task, one in the connecting future or in the
connection, the one of the client, those of the application and of the reply handles. -/
def SInv (s : Sys) : Prop :=
  s.senders = s.task.live.toNat + (match s.phase with | .waitOpen => 1 | _ => 0) + s.client.toNat + s.ownSend.toNat +
    s.clones + s.handles.length

theorem length_erase_mem {h : AckHandle} {l : List AckHandle} (hm : h ∈ l) : (l.erase h).length + 1 = l.length := by
  have := List.length_erase_of_mem hm
  have := List.length_pos_of_mem hm
  omega

set_option maxHeartbeats 1000000 in
theorem sinv_trans {cfg : RCfg} {s s' : Sys} {evs : List Ev} (hp : PInv s) (hi : SInv s) (ht : Trans cfg s s' evs) :
    SInv s' := by
  obtain ⟨h1, h2, h3, h4, h5, h6, h7, h8⟩ := hp
  unfold SInv at *
  have hb : ∀ b : Bool, b.toNat = if b then 1 else 0 := by intro b; cases b <;> rfl
  simp only [hb] at *
  cases ht with
  | sendOk src g s0 evs hs hl hc =>
    cases hs <;> grind [Task.reads, Task.live, length_erase_mem]
  | sendFail src g s0 evs hs hc =>
    cases hs <;> grind [Task.reads, Task.live, length_erase_mem]
  | recvEvent w st ns name cb A ack _ _ _ =>
    cases ack <;> grind [Task.reads, Task.live, Sys.withHandle]
  | recvEventPanic w st ns name cb A ack _ _ _ =>
    cases ack <;> grind [Task.reads, Task.live, Sys.withHandle, Sys.endTask]
  | _ =>
    grind [Task.reads, Task.live, Sys.endTask, length_erase_mem]

theorem sinv {cfg : RCfg} {acts : List Act} {s : Sys} {tr : List Ev} (h : Runs cfg acts s tr) : SInv s :=
  (exec_induct (P := fun _ s => PInv s ∧ SInv s) ⟨pinv_init, by simp [SInv, Sys.init, Task.live]⟩
    (fun _ _ _ _ hi ht => ⟨pinv_trans hi.1 ht, sinv_trans hi.1 hi.2 ht⟩) acts s tr h).2

/-- What a task that does not run any more can do: nothing. -/
theorem trans_dead {cfg : RCfg} {s s' : Sys} {evs : List Ev} (ht : Trans cfg s s' evs) (hp : PInv s)
    (hd : (∃ r, s.task = .done r) ∨ s.task = .dropped) : s'.task = s.task ∧ ∀ e ∈ evs, ¬ TaskActs e := by
  obtain ⟨h1, _, _, _, _, _, _, _⟩ := hp
  have hl : s.task.live = false := by rcases hd with ⟨r, h⟩ | h <;> rw [h] <;> rfl
  have hu : s.task ≠ .unborn := by rcases hd with ⟨r, h⟩ | h <;> rw [h] <;> simp
  have hrd : ¬ s.task.reads := fun h => by rw [h.live] at hl; simp at hl
  have hw : ∀ l, s.task ≠ .writing l := fun l h => by rw [h] at hl; simp [Task.live] at hl
  have hrn : s.task ≠ .running := fun h => by rw [h] at hl; simp [Task.live] at hl
  cases ht with
  | sendOk src g s0 evs hs hl' hc => rw [hl] at hl'; simp at hl'
  | sendFail src g s0 evs hs hc => cases hs <;> first | contradiction | simp [TaskActs]
  | dropTask h _ => rw [hl] at h; simp at h
  | handshakeOk h => exact absurd (h1 h).1 hu
  | write w rest h => exact absurd h (hw _)
  | writeFail w rest e h => exact absurd h (hw _)
  | endGroup h => exact absurd h (hw _)
  | _ => first | contradiction | simp [TaskActs]

/-- How the task ends. -/
theorem trans_ends {cfg : RCfg} {s s' : Sys} {evs : List Ev} (ht : Trans cfg s s' evs) (e : Ev)
    (he : (∃ r, e = .taskEnd r) ∨ e = .taskDropped) (hm : e ∈ evs) :
    s.task.live = true ∧ s'.task = (match e with | .taskEnd r => .done r | _ => .dropped) ∧
      ∃ pre, evs = pre ++ [e] ∧ ∀ x ∈ pre, (∀ r, x ≠ .taskEnd r) ∧ x ≠ .taskDropped := by
  cases ht with
  | sendOk src g s0 evs hs hl' hc => rcases he with ⟨r, rfl⟩ | rfl <;> cases hs <;> simp at hm
  | sendFail src g s0 evs hs hc => rcases he with ⟨r, rfl⟩ | rfl <;> cases hs <;> simp at hm
  | recvErr w st x hr _ =>
    rcases he with ⟨r, rfl⟩ | rfl <;> simp at hm
    subst hm; exact ⟨hr.live, rfl, [.received w], by simp⟩
  | recvPanic w st hr _ =>
    rcases he with ⟨r, rfl⟩ | rfl <;> simp at hm
    subst hm; exact ⟨hr.live, rfl, [.received w], by simp⟩
  | recvNoAck w st ns id pk hr _ _ =>
    rcases he with ⟨r, rfl⟩ | rfl <;> simp at hm
    subst hm; exact ⟨hr.live, rfl, [.received w], by simp⟩
  | recvEventPanic w st ns name cb A ack hr _ _ =>
    rcases he with ⟨r, rfl⟩ | rfl <;> simp at hm
    subst hm; exact ⟨hr.live, rfl, [.received w, .eff (.event ns name cb A ack)], by simp⟩
  | recvAckPanic w st ns id cb A hr _ _ =>
    rcases he with ⟨r, rfl⟩ | rfl <;> simp at hm
    subst hm; exact ⟨hr.live, rfl, [.received w, .eff (.ack ns id cb A)], by simp⟩
  | streamErr x hr =>
    rcases he with ⟨r, rfl⟩ | rfl <;> simp at hm
    subst hm; exact ⟨hr.live, rfl, [], by simp⟩
  | streamEnd hr =>
    rcases he with ⟨r, rfl⟩ | rfl <;> simp at hm
    subst hm; exact ⟨hr.live, rfl, [], by simp⟩
  | queueEnd hr _ _ =>
    rcases he with ⟨r, rfl⟩ | rfl <;> simp at hm
    subst hm; exact ⟨by rw [hr]; rfl, rfl, [], by simp⟩
  | writeFail w rest x h =>
    rcases he with ⟨r, rfl⟩ | rfl <;> simp at hm
    subst hm; exact ⟨by rw [h]; rfl, rfl, [.writeFailed w], by simp⟩
  | dropTask h _ =>
    rcases he with ⟨r, rfl⟩ | rfl <;> simp at hm
    exact ⟨h, rfl, [], by simp⟩
  | _ => rcases he with ⟨r, rfl⟩ | rfl <;> simp at hm

/-- The state of the task after its end. -/
def endOf : Ev → Task
  | .taskEnd r => .done r
  | _ => .dropped

/-- The task ends once, and does nothing afterwards. -/
structure EInv (tr : List Ev) (s : Sys) : Prop where
  after : ∀ t1 e t2, tr = t1 ++ e :: t2 → ((∃ r, e = .taskEnd r) ∨ e = .taskDropped) →
    s.task = endOf e ∧ ∀ x ∈ t2, ¬ TaskActs x
  done : ∀ r, s.task = .done r → .taskEnd r ∈ tr
  dropped : s.task = .dropped → .taskDropped ∈ tr

theorem trans_reaches {cfg : RCfg} {s s' : Sys} {evs : List Ev} (ht : Trans cfg s s' evs) :
    (∀ r, s'.task = .done r → s.task = .done r ∨ .taskEnd r ∈ evs) ∧
    (s'.task = .dropped → s.task = .dropped ∨ .taskDropped ∈ evs) := by
  cases ht with
  | sendOk src g s0 evs hs hl' hc => cases hs <;> exact ⟨fun r h => Or.inl h, fun h => Or.inl h⟩
  | sendFail src g s0 evs hs hc => cases hs <;> exact ⟨fun r h => Or.inl h, fun h => Or.inl h⟩
  | recvEvent w st ns name cb A ack _ _ _ => cases ack <;> exact ⟨fun r h => Or.inl h, fun h => Or.inl h⟩
  | _ =>
    first
      | exact ⟨fun r h => Or.inl h, fun h => Or.inl h⟩
      | constructor <;> simp [Sys.endTask] <;> (intros; simp_all)

theorem einv {cfg : RCfg} {acts : List Act} {s : Sys} {tr : List Ev} (h : Runs cfg acts s tr) : EInv tr s := by
  refine (exec_induct (P := fun tr s => PInv s ∧ EInv tr s) ⟨pinv_init, ?_⟩ ?_ acts s tr h).2
  · refine ⟨?_, ?_, ?_⟩ <;> simp [Sys.init]
  · intro tr s s' evs ⟨hp, hi⟩ ht
    refine ⟨pinv_trans hp ht, ?_, ?_, ?_⟩
    · intro t1 e t2 heq he
      rcases split_append heq with ⟨t, h1, h2⟩ | ⟨t, h1, h2⟩
      · obtain ⟨k1, k2⟩ := hi.after t1 e t h1 he
        have hd : (∃ r, s.task = .done r) ∨ s.task = .dropped := by
          rcases he with ⟨r, rfl⟩ | rfl
          · exact Or.inl ⟨r, k1⟩
          · exact Or.inr k1
        obtain ⟨k3, k4⟩ := trans_dead ht hp hd
        refine ⟨by rw [k3, k1], ?_⟩
        intro x hx
        rw [h2] at hx
        rcases List.mem_append.1 hx with hx | hx
        · exact k2 x hx
        · exact k4 x hx
      · obtain ⟨_, k1, pre, k2, k3⟩ := trans_ends ht e he (by rw [h2]; simp)
        rw [k2] at h2
        have ht2 : t2 = [] := by
          rcases split_append h2 with ⟨u, g1, g2⟩ | ⟨u, g1, g2⟩
          · have := k3 e (by rw [g1]; simp)
            rcases he with ⟨r, rfl⟩ | rfl <;> simp at this
          · cases u with
            | nil => simpa using g2.symm
            | cons a u => simp at g2
        subst ht2
        refine ⟨?_, by simp⟩
        rw [k1]
        rcases he with ⟨r, rfl⟩ | rfl <;> rfl
    · intro r hr
      rcases (trans_reaches ht).1 r hr with h1 | h1
      · exact List.mem_append_left _ (hi.done r h1)
      · exact List.mem_append_right _ h1
    · intro hr
      rcases (trans_reaches ht).2 hr with h1 | h1
      · exact List.mem_append_left _ (hi.dropped h1)
      · exact List.mem_append_right _ h1

theorem mem_split {α : Type} {x : α} {l : List α} (h : x ∈ l) : ∃ a b, l = a ++ x :: b := List.append_of_mem h

/-- The task ends only once. -/
theorem end_unique {cfg : RCfg} {acts : List Act} {s : Sys} {tr : List Ev} (h : Runs cfg acts s tr)
    {r r' : Res CErr Unit} (h1 : .taskEnd r ∈ tr) (h2 : .taskEnd r' ∈ tr) : r = r' := by
  obtain ⟨a, b, hab⟩ := mem_split h1
  obtain ⟨a', b', hab'⟩ := mem_split h2
  have k1 := ((einv h).after _ _ _ hab (Or.inl ⟨r, rfl⟩)).1
  have k2 := ((einv h).after _ _ _ hab' (Or.inl ⟨r', rfl⟩)).1
  rw [k1] at k2
  simpa [endOf] using k2

/-- Trace invariants from steps: a property of every event and what came before it. -/
theorem before_induct {cfg : RCfg} {I : List Ev → Sys → Prop} {Q : List Ev → Ev → Prop}
    (h0 : I [] Sys.init) (hI : ∀ tr s s' evs, I tr s → Trans cfg s s' evs → I (tr ++ evs) s')
    (hQ : ∀ tr s s' evs, I tr s → Trans cfg s s' evs → ∀ a e b, evs = a ++ e :: b → Q (tr ++ a) e)
    {acts : List Act} {s : Sys} {tr : List Ev} (h : Runs cfg acts s tr) :
    ∀ t1 e t2, tr = t1 ++ e :: t2 → Q t1 e := by
  refine (exec_induct (P := fun tr s => I tr s ∧ ∀ t1 e t2, tr = t1 ++ e :: t2 → Q t1 e) ⟨h0, by simp⟩ ?_ acts s tr h).2
  intro tr s s' evs ⟨hi, hq⟩ ht
  refine ⟨hI _ _ _ _ hi ht, ?_⟩
  intro t1 e t2 heq
  rcases split_append heq with ⟨t, h1, h2⟩ | ⟨t, h1, h2⟩
  · exact hq _ _ _ h1
  · rw [h1]; exact hQ _ _ _ _ hi ht _ _ _ h2

/-- The same without an order. -/
theorem mem_induct {cfg : RCfg} {I : List Ev → Sys → Prop} {Q : Ev → Prop}
    (h0 : I [] Sys.init) (hI : ∀ tr s s' evs, I tr s → Trans cfg s s' evs → I (tr ++ evs) s')
    (hQ : ∀ tr s s' evs, I tr s → Trans cfg s s' evs → ∀ e ∈ evs, Q e)
    {acts : List Act} {s : Sys} {tr : List Ev} (h : Runs cfg acts s tr) : ∀ e ∈ tr, Q e := by
  intro e he
  obtain ⟨a, b, hab⟩ := mem_split he
  exact before_induct (Q := fun _ e => Q e) h0 hI (fun tr s s' evs hi ht a e b heq => hQ tr s s' evs hi ht e (by rw [heq]; simp)) h a e b hab

/-- With which results the task ends. -/
theorem end_results {cfg : RCfg} {acts : List Act} {s : Sys} {tr : List Ev} (h : Runs cfg acts s tr) :
    ∀ e ∈ tr, ∀ x, e = .taskEnd (.err x) → (∃ n, x = .websocket n) ∨ (∃ r, x = .processing r) := by
  refine mem_induct (I := fun _ _ => True) trivial (fun _ _ _ _ _ _ => trivial) ?_ h
  intro tr s s' evs _ ht e he x hx
  subst hx
  cases ht with
  | sendOk src g s0 evs hs hl' hc => cases hs <;> simp at he
  | sendFail src g s0 evs hs hc => cases hs <;> simp at he
  | _ => simp at he <;> simp [he]

@[simp] theorem written_append (a b : List Ev) : written (a ++ b) = written a ++ written b := by simp [written]
@[simp] theorem groups_append (a b : List Ev) : groups (a ++ b) = groups a ++ groups b := by simp [groups]
@[simp] theorem taken_append (a b : List Ev) : taken (a ++ b) = taken a ++ taken b := by simp [taken]
@[simp] theorem inbox_append (a b : List Ev) : inbox (a ++ b) = inbox a ++ inbox b := by simp [inbox]
@[simp] theorem arrived_append (a b : List Ev) : arrived (a ++ b) = arrived a ++ arrived b := by simp [arrived]
@[simp] theorem history_append (a b : List Ev) : history (a ++ b) = history a ++ history b := by simp [history]
@[simp] theorem ackRuns_append (a b : List Ev) : ackRuns (a ++ b) = ackRuns a ++ ackRuns b := by simp [ackRuns]
@[simp] theorem ackIds_append (a b : List Ev) : ackIds (a ++ b) = ackIds a ++ ackIds b := by simp [ackIds]
@[simp] theorem closeResults_append (a b : List Ev) : closeResults (a ++ b) = closeResults a ++ closeResults b := by
  simp [closeResults]
@[simp] theorem connectResults_append (a b : List Ev) :
    connectResults (a ++ b) = connectResults a ++ connectResults b := by simp [connectResults]

/-- All of the taken groups but the rest of the last one is written. -/
def Progress (gs : List (List Ws)) (ws rest : List Ws) : Prop :=
  ws ++ rest = gs.flatten ∧ (rest = [] ∨ ∃ pre g, gs = pre ++ [g] ∧ rest <:+ g)

/-- The wire, the taken groups and the queue. -/
structure WInv (tr : List Ev) (s : Sys) : Prop where
  queue : groups tr = taken tr ++ s.queue ∨ (s.task.live = false ∧ s.task ≠ .unborn ∧ taken tr <+: groups tr)
  wire : match s.task with
    | .writing rest => Progress (taken tr) (written tr) rest
    | .done _ => ∃ rest, Progress (taken tr) (written tr) rest
    | .dropped => ∃ rest, Progress (taken tr) (written tr) rest
    | _ => written tr = (taken tr).flatten

theorem winv_congr {tr : List Ev} {s s' : Sys} {evs : List Ev} (hi : WInv tr s) (ht : s'.task = s.task)
    (hq : s'.queue = s.queue) (h1 : groups evs = []) (h2 : taken evs = []) (h3 : written evs = []) :
    WInv (tr ++ evs) s' := by
  obtain ⟨k1, k2⟩ := hi
  constructor
  · simpa [ht, hq, h1, h2] using k1
  · rw [ht]; simpa [h2, h3] using k2

theorem winv_wire {tr : List Ev} {s : Sys} (hi : WInv tr s) : ∃ rest, Progress (taken tr) (written tr) rest := by
  have := hi.wire
  split at this
  · exact ⟨_, this⟩
  · exact this
  · exact this
  · exact ⟨[], by simpa using this, Or.inl rfl⟩

theorem winv_end {tr : List Ev} {s s' : Sys} {evs : List Ev} (hi : WInv tr s)
    (ht : (∃ r, s'.task = .done r) ∨ s'.task = .dropped)
    (h1 : groups evs = []) (h2 : taken evs = []) (h3 : written evs = []) :
    WInv (tr ++ evs) s' := by
  obtain ⟨k1, k2⟩ := hi
  have hl : s'.task.live = false := by rcases ht with ⟨r, ht⟩ | ht <;> rw [ht] <;> rfl
  constructor
  · right
    refine ⟨hl, by rcases ht with ⟨r, ht⟩ | ht <;> rw [ht] <;> simp, ?_⟩
    simp only [taken_append, groups_append, h1, h2, List.append_nil]
    rcases k1 with k1 | k1
    · rw [k1]; exact List.prefix_append _ _
    · exact k1.2.2
  · have := winv_wire ⟨k1, k2⟩
    rcases ht with ⟨r, ht⟩ | ht <;> rw [ht] <;> simpa [h2, h3] using this

set_option maxHeartbeats 400000 in
theorem winv_trans {cfg : RCfg} {tr : List Ev} {s s' : Sys} {evs : List Ev} (hp : PInv s) (hi : WInv tr s)
    (ht : Trans cfg s s' evs) : WInv (tr ++ evs) s' := by
  have hr0 : ∀ h : s.task.reads, written tr = (taken tr).flatten := by
    intro h
    have := hi.wire
    rcases h with h | h <;> rw [h] at this <;> exact this
  have hq0 : s.task.live = true → groups tr = taken tr ++ s.queue := by
    intro h
    rcases hi.queue with h1 | ⟨h1, _⟩
    · exact h1
    · rw [h] at h1; simp at h1
  cases ht with
  | handshakeOk h =>
    have hu := (hp.start h).1
    have hq := (hp.unborn hu).2.1
    obtain ⟨k1, k2⟩ := hi
    rw [hu] at k2
    simp only at k2
    constructor
    · left
      simp only [List.append_nil]
      rcases k1 with k1 | ⟨_, k1⟩
      · exact k1
      · exact absurd hu k1.1
    · simpa using k2
  | sendOk src g s0 evs hs hl hc =>
    have ht0 : s0.task = s.task := by cases hs <;> rfl
    have e1 : groups evs = [] := by cases hs <;> rfl
    have e2 : taken evs = [] := by cases hs <;> rfl
    have e3 : written evs = [] := by cases hs <;> rfl
    constructor
    · left
      simp only [groups_append, taken_append, e1, e2, hq0 hl]
      simp [groups, taken]
    · have := hi.wire
      simp only [ht0, taken_append, written_append, e2, e3]
      simpa [taken, written] using this
  | sendFail src g s0 evs hs hc =>
    cases hs <;> exact winv_congr hi rfl rfl rfl rfl rfl
  | recvEvent w st ns name cb A ack _ _ _ => cases ack <;> exact winv_congr hi rfl rfl rfl rfl rfl
  | recvEventPanic w st ns name cb A ack _ _ _ => exact winv_end hi (Or.inl ⟨_, rfl⟩) rfl rfl rfl
  | dequeue g q hr hq =>
    have h1 := hr0 (Or.inl hr)
    have h2 := hq0 (by rw [hr]; rfl)
    constructor
    · left
      rw [groups_append, taken_append, h2, hq]
      show (taken tr ++ g :: q) ++ [] = (taken tr ++ [g]) ++ q
      simp
    · show Progress _ _ _
      rw [taken_append, written_append]
      refine ⟨by rw [h1]; show _ ++ [] ++ g = (taken tr ++ [g]).flatten; simp, Or.inr ⟨taken tr, g, rfl, List.suffix_refl _⟩⟩
  | write w rest hw =>
    have hwire := hi.wire
    rw [hw] at hwire
    simp only at hwire
    obtain ⟨k1, k2⟩ := hwire
    constructor
    · left
      rw [groups_append, taken_append, hq0 (by rw [hw]; rfl)]
      show _ ++ [] = (taken tr ++ []) ++ s.queue
      simp
    · show Progress _ _ _
      rw [taken_append, written_append]
      refine ⟨by show (written tr ++ [w]) ++ rest = (taken tr ++ []).flatten; simpa using k1, ?_⟩
      rcases k2 with k2 | ⟨pre, g, k2, k3⟩
      · simp at k2
      · exact Or.inr ⟨pre, g, by show taken tr ++ [] = _; simpa using k2, (List.suffix_cons _ _).trans k3⟩
  | endGroup hw =>
    have hwire := hi.wire
    rw [hw] at hwire
    simp only at hwire
    constructor
    · left
      rw [groups_append, taken_append, hq0 (by rw [hw]; rfl)]
      show _ ++ [] = (taken tr ++ []) ++ s.queue
      simp
    · show written _ = _
      rw [taken_append, written_append]
      show written tr ++ [] = (taken tr ++ []).flatten
      simpa using hwire.1
  | seeClose hr _ =>
    constructor
    · left
      rw [groups_append, taken_append, hq0 (by rw [hr]; rfl)]
      show _ ++ [] = (taken tr ++ []) ++ s.queue
      simp
    · show written _ = _
      rw [taken_append, written_append]
      show written tr ++ [] = (taken tr ++ []).flatten
      simpa using hr0 (Or.inl hr)
  | _ =>
    first
      | exact winv_congr hi rfl rfl rfl rfl rfl
      | exact winv_end hi (Or.inl ⟨_, rfl⟩) rfl rfl rfl
      | exact winv_end hi (Or.inr rfl) rfl rfl rfl

theorem winv {cfg : RCfg} {acts : List Act} {s : Sys} {tr : List Ev} (h : Runs cfg acts s tr) : WInv tr s :=
  (exec_induct (P := fun tr s => PInv s ∧ WInv tr s)
    ⟨pinv_init, ⟨Or.inl rfl, rfl⟩⟩
    (fun _ _ _ _ hi ht => ⟨pinv_trans hi.1 ht, winv_trans hi.1 hi.2 ht⟩) acts s tr h).2

/-- The task is past its sending loop. -/
def Task.past : Task → Prop
  | .closing => True
  | .done _ => True
  | .dropped => True
  | _ => False

theorem trans_past {cfg : RCfg} {s s' : Sys} {evs : List Ev} (ht : Trans cfg s s' evs) (hp : PInv s)
    (hd : s.task.past) : s'.task.past ∧ ∀ e ∈ evs, ¬ Sending e ∧ e ≠ .closeSeen := by
  have hw : ∀ l, s.task ≠ .writing l := fun l h => by rw [h] at hd; exact hd
  have hrn : s.task ≠ .running := fun h => by rw [h] at hd; exact hd
  cases ht with
  | handshakeOk h => rw [(hp.start h).1] at hd; exact hd.elim
  | sendOk src g s0 evs hs hl' hc => cases hs <;> exact ⟨hd, by simp [Sending]⟩
  | sendFail src g s0 evs hs hc => cases hs <;> exact ⟨hd, by simp [Sending]⟩
  | recvEvent w st ns name cb A ack _ _ _ => cases ack <;> exact ⟨hd, by simp [Sending]⟩
  | write w rest h => exact absurd h (hw _)
  | writeFail w rest e h => exact absurd h (hw _)
  | endGroup h => exact absurd h (hw _)
  | dequeue g q h => exact absurd h hrn
  | seeClose h => exact absurd h hrn
  | queueEnd h => exact absurd h hrn
  | _ => first | exact ⟨hd, by simp [Sending]⟩ | exact ⟨trivial, by simp [Sending]⟩

/-- After the close request was seen. -/
structure KInv (tr : List Ev) (s : Sys) : Prop where
  seen : ∀ t1 t2, tr = t1 ++ .closeSeen :: t2 →
    written t1 = (taken t1).flatten ∧ s.task.past ∧ ∀ e ∈ t2, ¬ Sending e ∧ e ≠ .closeSeen
  closing : s.task = .closing → .closeSeen ∈ tr

theorem kinv {cfg : RCfg} {acts : List Act} {s : Sys} {tr : List Ev} (h : Runs cfg acts s tr) : KInv tr s := by
  refine (exec_induct (P := fun tr s => PInv s ∧ WInv tr s ∧ KInv tr s)
    ⟨pinv_init, ⟨Or.inl rfl, rfl⟩, by simp, by simp [Sys.init]⟩ ?_ acts s tr h).2.2
  intro tr s s' evs ⟨hp, hw, hk⟩ ht
  refine ⟨pinv_trans hp ht, winv_trans hp hw ht, ?_, ?_⟩
  · intro t1 t2 heq
    rcases split_append heq with ⟨t, h1, h2⟩ | ⟨t, h1, h2⟩
    · obtain ⟨k1, k2, k3⟩ := hk.seen t1 t h1
      obtain ⟨k4, k5⟩ := trans_past ht hp k2
      refine ⟨k1, k4, ?_⟩
      intro e he
      rw [h2] at he
      rcases List.mem_append.1 he with he | he
      · exact k3 e he
      · exact k5 e he
    · have hm : .closeSeen ∈ evs := by rw [h2]; simp
      cases ht with
      | seeClose hr hc =>
        cases t with
        | nil =>
          simp only [List.nil_append, List.cons.injEq, true_and, List.append_nil] at h1 h2
          subst h1 h2
          refine ⟨?_, trivial, by simp⟩
          have := hw.wire
          rw [hr] at this
          exact this
        | cons a t => simp at h2
      | sendOk src g s0 evs hs hl' hc => cases hs <;> simp at hm
      | sendFail src g s0 evs hs hc => cases hs <;> simp at hm
      | _ => simp at hm
  · intro hc
    by_cases hs : s.task = .closing
    · exact List.mem_append_left _ (hk.closing hs)
    · refine List.mem_append_right _ ?_
      cases ht with
      | seeClose hr hc => simp
      | sendOk src g s0 evs hs' hl' hc' => cases hs' <;> exact absurd hc hs
      | sendFail src g s0 evs hs' hc' => cases hs' <;> exact absurd hc hs
      | recvEvent w st ns name cb A ack _ _ _ => cases ack <;> exact absurd hc hs
      | recvEventPanic w st ns name cb A ack _ _ _ => simp [Sys.endTask] at hc
      | _ => first | exact absurd hc hs | simp [Sys.endTask] at hc

theorem closeRequests_append (a b : List Ev) : closeRequests (a ++ b) = closeRequests a + closeRequests b := by
  simp [closeRequests]

@[simp] theorem closeReports_append (a b : List Ev) : closeReports (a ++ b) = closeReports a ++ closeReports b := by
  simp [closeReports]

theorem closeRequests_pos (tr : List Ev) : 0 < closeRequests tr ↔ .closeRequested ∈ tr := by
  unfold closeRequests
  rw [List.length_pos_iff_exists_mem]
  constructor
  · rintro ⟨e, he⟩
    obtain ⟨h1, h2⟩ := List.mem_filter.1 he
    cases e <;> simp_all
  · intro h
    exact ⟨_, List.mem_filter.2 ⟨h, rfl⟩⟩

/-- Calls of `close`: the number `n` of those that took the handle, the number `m` of those that
reported. -/
structure CInv (n m : Nat) (s : Sys) : Prop where
  here : s.handleHere = true → n = 0
  gone : s.client = true → s.handleHere = false → n = 1
  le : n ≤ 1
  early : s.phase = .handshake ∨ s.phase = .waitOpen → n = 0
  reports : m + (if s.closeCall then 1 else 0) ≤ n

set_option maxHeartbeats 1000000 in
theorem cinv_trans {cfg : RCfg} {s s' : Sys} {evs : List Ev} {n m : Nat} (hp : PInv s) (hi : CInv n m s)
    (hend : ∀ r, s.task = .done r → r ≠ .err .alreadyClosed) (ht : Trans cfg s s' evs) :
    CInv (n + closeRequests evs) (m + (closeReports evs).length) s' := by
  obtain ⟨h1, h2, h3, h4, h5, h6, h7, h8⟩ := hp
  obtain ⟨k1, k2, k3, k4, k5⟩ := hi
  cases ht with
  | sendOk src g s0 evs hs hl hc =>
    cases hs <;> simp only [closeRequests, closeReports] <;> constructor <;> grind
  | sendFail src g s0 evs hs hc =>
    cases hs <;> simp only [closeRequests, closeReports] <;> constructor <;> grind
  | recvEvent w st ns name cb A ack _ _ _ =>
    cases ack <;> simp only [closeRequests, closeReports] <;> constructor <;> grind [Sys.withHandle]
  | recvEventPanic w st ns name cb A ack _ _ _ =>
    cases ack <;> simp only [closeRequests, closeReports] <;> constructor <;> grind [Sys.withHandle, Sys.endTask]
  | closeReady r h hr =>
    have hx := hend r hr
    have : (closeReports [.closeReturned r]).length = 1 := by
      cases r with
      | ok u => rfl
      | panic => rfl
      | err e => cases e <;> first | rfl | exact absurd rfl hx
    rw [this]
    constructor <;> simp only [closeRequests] <;> grind
  | _ =>
    simp only [closeRequests, closeReports] <;> constructor <;> grind [Sys.endTask]

theorem cinv {cfg : RCfg} {acts : List Act} {s : Sys} {tr : List Ev} (h : Runs cfg acts s tr) :
    CInv (closeRequests tr) (closeReports tr).length s := by
  refine (exec_induct (P := fun tr s => PInv s ∧ (∀ r, s.task = .done r → r ≠ .err .alreadyClosed) ∧
    CInv (closeRequests tr) (closeReports tr).length s)
    ⟨pinv_init, by simp [Sys.init], ?_⟩ ?_ acts s tr h).2.2
  · constructor <;> simp [Sys.init, closeRequests, closeReports]
  · intro tr s s' evs ⟨hp, hend, hi⟩ ht
    refine ⟨pinv_trans hp ht, ?_, ?_⟩
    · intro r hr
      rcases (trans_reaches ht).1 r hr with h1 | h1
      · exact hend r h1
      · rintro rfl
        cases ht with
        | sendOk src g s0 evs hs hl' hc => cases hs <;> simp at h1
        | sendFail src g s0 evs hs hc => cases hs <;> simp at h1
        | _ => simp at h1
    · rw [closeRequests_append, closeReports_append, List.length_append]
      exact cinv_trans hp hi hend ht

end SIO
