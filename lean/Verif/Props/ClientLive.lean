import Verif.Props.ClientPanic
import Verif.Lemmas.ClientSched
import Verif.Lemmas.ClientTag
import Verif.Props.ClientAck
import Verif.Props.ClientClose
/-
C46: a call of `close` can come to its end, what is queued can be written, and a task nobody
waits for can be dropped.
-/
namespace SIO
open Spec

/-- The task and its transport, working. -/
inductive Spec.Works : Act → Prop where
  | dequeue : Works .dequeue
  | write : Works .write
  | endGroup : Works .endGroup

/-- The actions that give up the handle of a task that may still run. -/
inductive Spec.Releases : Act → Prop where
  | openTimeout : Releases .openTimeout
  | connectCancel : Releases .connectCancel
  | closeTimeout : Releases .closeTimeout
  | closeCancel : Releases .closeCancel
  | dropClient : Releases .dropClient

/-- The handle of the task. -/
structure OwnInv (s : Sys) : Prop where
  held : s.closeCall = true ∨ s.handleHere = true ∨ s.phase = .handshake ∨ s.phase = .waitOpen → s.handleDropped = false
  dropped : s.task = .dropped → s.handleDropped = true
  sig : s.closeCall = true → s.closeSig = true

set_option maxHeartbeats 1000000 in
theorem owninv_trans {cfg : RCfg} {s s' : Sys} {evs : List Ev} (hp : PInv s) (hi : OwnInv s) (ht : Trans cfg s s' evs) : OwnInv s' := by
  obtain ⟨h1, h2, h3, h4, h5, h6, h7, h8⟩ := hp
  obtain ⟨k1, k2, k3⟩ := hi
  cases ht with
  | sendOk src g s0 evs hs hl hc => cases hs <;> exact ⟨k1, k2, k3⟩
  | sendFail src g s0 evs hs hc => cases hs <;> exact ⟨k1, k2, k3⟩
  | recvEvent w st ns name cb A ack _ _ _ => cases ack <;> exact ⟨k1, k2, k3⟩
  | recvEventPanic w st ns name cb A ack _ _ _ =>
    cases ack <;> exact ⟨k1, by simp [Sys.endTask, Sys.withHandle], k3⟩
  | _ => constructor <;> grind [Task.reads, Task.live, Sys.endTask]

theorem owninv {cfg : RCfg} {acts : List Act} {s : Sys} {tr : List Ev} (h : Runs cfg acts s tr) : OwnInv s :=
  (exec_induct (P := fun _ s => PInv s ∧ OwnInv s) ⟨pinv_init, by constructor <;> simp [Sys.init]⟩
    (fun _ _ _ _ hi ht => ⟨pinv_trans hi.1 ht, owninv_trans hi.1 hi.2 ht⟩) acts s tr h).2

theorem written_map (l : List Ws) : written (l.map Ev.wrote) = l := by
  induction l with
  | nil => rfl
  | cons w l ih =>
    have : written (List.map Ev.wrote (w :: l)) = w :: written (l.map Ev.wrote) := rfl
    rw [this, ih]

/-- The rest of a group can be written. -/
theorem write_rest (cfg : RCfg) : ∀ (rest : List Ws) (s : Sys), s.task = .writing rest →
    ∃ acts, exec cfg s acts = some ({ s with task := .running }, rest.map .wrote ++ [.groupDone]) ∧
      ∀ a ∈ acts, a = .write ∨ a = .endGroup := by
  intro rest
  induction rest with
  | nil =>
    intro s hs
    refine ⟨[.endGroup], ?_, by simp⟩
    simp [exec, step, hs]
  | cons w rest ih =>
    intro s hs
    obtain ⟨acts, h1, h2⟩ := ih { s with task := .writing rest } rfl
    refine ⟨.write :: acts, ?_, by simp; exact h2⟩
    simp only [exec, step, hs, h1]
    simp

/-- C46: from every moment of a waiting call of `close` there is a continuation in which it returns
the result of the task: the task writes the rest of the group it has begun, nothing more of the
queue, and the peer ends the stream. -/
theorem C46_close (cfg : RCfg) (acts : List Act) (s : Sys) (tr : List Ev) (h : Runs cfg acts s tr)
    (hc : s.closeCall = true) :
    ∃ acts' s' t' r, exec cfg s acts' = some (s', t') ∧
      (∀ a ∈ acts', a = .write ∨ a = .endGroup ∨ a = .seeClose ∨ a = .streamEnd ∨ a = .closeReady) ∧
      closeResults t' = [r] ∧ .taskEnd r ∈ tr ++ t' ∧ taken t' = [] ∧
      (s.task.live = true → r = .ok () ∧ written (tr ++ t') = (taken (tr ++ t')).flatten) := by
  have hi := owninv h
  have hd := hi.held (Or.inl hc)
  have hsig := hi.sig hc
  have hcl := (pinv h).call hc
  have hwire := (winv h).wire
  cases htk : s.task with
  | unborn => have := (pinv h).unborn htk; rw [hcl] at this; simp at this
  | dropped => have := hi.dropped htk; rw [hd] at this; simp at this
  | done r =>
    refine ⟨[.closeReady], _, [.closeReturned r], r, by simp [exec, step, hc, htk]; rfl, by simp, rfl,
      List.mem_append_left _ ((einv h).done r htk), rfl, by simp [Task.live]⟩
  | running =>
    rw [htk] at hwire
    refine ⟨[.seeClose, .streamEnd, .closeReady], _, [.closeSeen, .taskEnd (.ok ()), .closeReturned (.ok ())], .ok (),
      by simp [exec, step, hc, htk, hsig, Sys.finishTask, Sys.endTask]; rfl, by simp, rfl, by simp, rfl, ?_⟩
    intro _
    simpa [written, taken] using hwire
  | closing =>
    rw [htk] at hwire
    refine ⟨[.streamEnd, .closeReady], _, [.taskEnd (.ok ()), .closeReturned (.ok ())], .ok (),
      by simp [exec, step, hc, htk, Sys.finishTask, Sys.endTask]; rfl, by simp, rfl, by simp, rfl, ?_⟩
    intro _
    simpa [written, taken] using hwire
  | writing rest =>
    rw [htk] at hwire
    obtain ⟨acts1, e1, ha1⟩ := write_rest cfg rest s htk
    obtain ⟨s2, e2⟩ : ∃ s2, exec cfg { s with task := .running } [.seeClose, .streamEnd, .closeReady] =
        some (s2, [.closeSeen, .taskEnd (.ok ()), .closeReturned (.ok ())]) := by
      simp [exec, step, hc, hsig, Sys.finishTask, Sys.endTask]
    refine ⟨_, _, _, .ok (), exec_append e1 e2, ?_, ?_, by simp, ?_, ?_⟩
    · intro a ha
      rcases List.mem_append.1 ha with ha | ha
      · rcases ha1 a ha with rfl | rfl <;> simp
      · simp at ha; rcases ha with rfl | rfl | rfl <;> simp
    · simp [closeResults]
    · simp [taken]
    · intro _
      refine ⟨rfl, ?_⟩
      have := hwire.1
      have hw := written_map rest
      have hk : taken (rest.map Ev.wrote) = [] := by simp [taken]
      have h0 : written [Ev.groupDone] = [] ∧ taken [Ev.groupDone] = [] ∧
        written [.closeSeen, .taskEnd (.ok ()), .closeReturned (.ok ())] = [] ∧
        taken [.closeSeen, .taskEnd (.ok ()), .closeReturned (.ok ())] = [] := ⟨rfl, rfl, rfl, rfl⟩
      simp only [written_append, taken_append, hw, hk, h0, List.append_nil]
      exact this

/-- The queue can be written. -/
theorem drain_queue (cfg : RCfg) : ∀ (q : List (List Ws)) (s : Sys), s.task = .running → s.queue = q →
    ∃ acts s' t', exec cfg s acts = some (s', t') ∧ s'.task = .running ∧ (∀ a ∈ acts, Works a) ∧
      written t' = q.flatten ∧ groups t' = [] := by
  intro q
  induction q with
  | nil =>
    intro s ht hq
    exact ⟨[], s, [], rfl, ht, by simp, rfl, rfl⟩
  | cons g q ih =>
    intro s ht hq
    have e1 : exec cfg s [.dequeue] = some ({ s with queue := q, task := .writing g }, [.dequeued g]) := by
      simp [exec, step, ht, hq]
    obtain ⟨a2, e2, h2⟩ := write_rest cfg g { s with queue := q, task := .writing g } rfl
    obtain ⟨a3, s3, t3, e3, h0, h3, h4, h5⟩ := ih { s with queue := q, task := .running } rfl rfl
    refine ⟨_, s3, _, exec_append e1 (exec_append e2 e3), h0, ?_, ?_, ?_⟩
    · intro a ha
      rcases List.mem_append.1 ha with ha | ha
      · simp at ha; subst ha; exact .dequeue
      · rcases List.mem_append.1 ha with ha | ha
        · rcases h2 a ha with rfl | rfl
          · exact .write
          · exact .endGroup
        · exact h3 a ha
    · simp only [written_append, written_map, h4]
      simp [written]
    · have : groups (g.map Ev.wrote) = [] := by simp [groups]
      simp only [groups_append, this, h5]
      rfl

/-- C46: as long as the task lives and has not seen a close request, everything that was put into
the queue can still be written, without any help of the peer. -/
theorem C46_drain (cfg : RCfg) (acts : List Act) (s : Sys) (tr : List Ev) (h : Runs cfg acts s tr)
    (hl : s.task.live = true) (hn : .closeSeen ∉ tr) :
    ∃ acts' s' t', exec cfg s acts' = some (s', t') ∧ (∀ a ∈ acts', Works a) ∧ groups t' = [] ∧
      written (tr ++ t') = (groups tr).flatten ∧ s'.task.live = true := by
  have hw := winv h
  have hq : groups tr = taken tr ++ s.queue := by
    rcases hw.queue with h1 | ⟨h1, _⟩
    · exact h1
    · rw [hl] at h1; simp at h1
  have hwire := hw.wire
  cases htk : s.task with
  | unborn => rw [htk] at hl; simp [Task.live] at hl
  | dropped => rw [htk] at hl; simp [Task.live] at hl
  | done r => rw [htk] at hl; simp [Task.live] at hl
  | closing => exact absurd ((kinv h).closing htk) hn
  | running =>
    rw [htk] at hwire
    obtain ⟨a, s', t, h1, h0, h2, h3, h4⟩ := drain_queue cfg s.queue s htk rfl
    refine ⟨a, s', t, h1, h2, h4, ?_, by simp [h0, Task.live]⟩
    rw [written_append, h3, hq, List.flatten_append, ← hwire]
  | writing rest =>
    rw [htk] at hwire
    obtain ⟨a1, e1, h1⟩ := write_rest cfg rest s htk
    obtain ⟨a, s', t, e2, h0, h2, h3, h4⟩ := drain_queue cfg s.queue { s with task := .running } rfl rfl
    refine ⟨_, s', _, exec_append e1 e2, ?_, ?_, ?_, by simp [h0, Task.live]⟩
    · intro x hx
      rcases List.mem_append.1 hx with hx | hx
      · rcases h1 x hx with rfl | rfl
        · exact .write
        · exact .endGroup
      · exact h2 x hx
    · have : groups (rest.map Ev.wrote) = [] := by simp [groups]
      simp only [groups_append, this, h4]
      rfl
    · have h0 : written [Ev.groupDone] = [] := rfl
      have := hwire.1
      simp only [written_append, written_map, h3, hq, List.flatten_append, h0, List.append_nil]
      rw [← this, List.append_assoc]

set_option maxHeartbeats 1000000 in
theorem step_handle {cfg : RCfg} {s s' : Sys} {a : Act} {evs : List Ev} (h : step cfg s a = some (s', evs))
    (hi : PInv s) (hl : s'.task.live = true) :
    (s'.handleDropped = true ↔ s.handleDropped = true ∨ Releases a) ∧ (s.task.live = true ∨ a = .handshakeOk) := by
  have hrel : Releases a ↔ a = .openTimeout ∨ a = .connectCancel ∨ a = .closeTimeout ∨ a = .closeCancel ∨ a = .dropClient := by
    constructor
    · intro h; cases h <;> simp
    · rintro (rfl | rfl | rfl | rfl | rfl) <;> constructor
  rw [hrel]
  have h1 := hi.start
  cases a with
  | recv w p =>
    simp only [step] at h
    obtain ⟨rx, reg, slot, hs, n, q, po, t, hf⟩ := recv_frame cfg s w p
    cases htk : s.task <;> rw [htk] at h <;> simp only [Option.some.injEq, reduceCtorEq] at h <;>
      (rw [h] at hf; simp only at hf; rw [hf]; simp [Task.live])
  | rawSend g =>
    simp only [step] at h
    obtain ⟨q, hf⟩ := enqueue_frame s .raw g
    split at h
    · simp only [Option.some.injEq] at h
      rw [h] at hf; simp only at hf; rw [hf] at hl ⊢; simpa using hl
    · simp at h
  | emitEnqueue =>
    simp only [step] at h
    split at h
    · split at h
      · simp only [Option.some.injEq] at h
        obtain ⟨q, hf⟩ := enqueue_frame { s with emit := none } (.emit ‹_› ‹_›) ‹_›
        rw [h] at hf; simp only at hf; rw [hf] at hl ⊢; simpa using hl
      · simp only [Option.some.injEq, Prod.mk.injEq] at h; rw [← h.1] at hl ⊢; simpa using hl
    · simp at h
  | reply x b args =>
    simp only [step] at h
    split at h
    · split at h
      · simp only [Option.some.injEq, Prod.mk.injEq] at h; rw [← h.1] at hl ⊢; simpa using hl
      · simp only [Option.some.injEq] at h
        obtain ⟨q, hf⟩ := enqueue_frame { s with handles := s.handles.erase x, senders := s.senders - 1 } (.reply x) ‹_›
        rw [h] at hf; simp only at hf; rw [hf] at hl ⊢; simpa using hl
    · simp at h
  | _ =>
    simp only [step, Sys.finishTask, Sys.endTask, Sys.failConnect, Sys.closeOver] at h
    grind [Task.live]

/-- C46: a task that still runs can be dropped exactly if its handle was given up: `connect` or
`close` timed out or was cancelled, or the client was dropped. -/
theorem C46_release (cfg : RCfg) (acts : List Act) (s : Sys) (tr : List Ev) (h : Runs cfg acts s tr)
    (hl : s.task.live = true) :
    (∃ s', step cfg s .dropTask = some (s', [.taskDropped])) ↔ ∃ a ∈ acts, Releases a := by
  have key : (s.phase = .handshake → ∀ a ∈ acts, ¬ Releases a) ∧
      (s.task.live = true → (s.handleDropped = true ↔ ∃ a ∈ acts, Releases a)) := by
    refine sched_induct (P := fun acts _ s => (s.phase = .handshake → ∀ a ∈ acts, ¬ Releases a) ∧
      (s.task.live = true → (s.handleDropped = true ↔ ∃ a ∈ acts, Releases a))) ?_ ?_ h
    · simp [Sys.init, Task.live]
    intro acts tr s s' evs a hr ⟨hi1, hi2⟩ hs
    have hp := pinv hr
    constructor
    · intro hph
      have h0 : s.phase = .handshake := by
        have ht := step_trans hs
        clear hs
        cases ht with
        | sendOk src g s0 evs hs hl hc => cases hs <;> exact hph
        | sendFail src g s0 evs hs hc => cases hs <;> exact hph
        | recvEvent w st ns name cb A ack _ _ _ => cases ack <;> exact hph
        | recvEventPanic w st ns name cb A ack _ _ _ => cases ack <;> exact hph
        | _ => first | exact hph | simp at hph
      intro x hx
      rcases List.mem_append.1 hx with hx | hx
      · exact hi1 h0 x hx
      · simp only [List.mem_singleton] at hx
        subst hx
        have hc : s.client = false := by
          cases hc : s.client
          · rfl
          · obtain ⟨sid, hc⟩ := hp.client hc
            rw [h0] at hc; simp at hc
        have hcc : s.closeCall = false := by
          cases hcc : s.closeCall
          · rfl
          · have := hp.call hcc; rw [hc] at this; simp at this
        intro hx
        cases hx with
        | connectCancel =>
          simp only [step, h0, Option.some.injEq, Prod.mk.injEq] at hs
          rw [← hs.1] at hph; simp at hph
        | _ => simp [step, h0, hc, hcc] at hs
    · intro hl'
      obtain ⟨k1, k2⟩ := step_handle hs hp hl'
      have hx : (s.handleDropped = true ↔ ∃ a ∈ acts, Releases a) := by
        rcases k2 with k2 | rfl
        · exact hi2 k2
        · have h0 : s.phase = .handshake := by
            simp only [step] at hs
            split at hs
            · assumption
            · simp at hs
          have := (owninv hr).held (Or.inr (Or.inr (Or.inl h0)))
          have h2 := hi1 h0
          rw [this]
          simp only [Bool.false_eq_true, false_iff, not_exists, not_and]
          exact h2
      rw [k1, hx]
      simp only [List.mem_append, List.mem_singleton]
      constructor
      · rintro (⟨x, h1, h2⟩ | h2)
        · exact ⟨x, Or.inl h1, h2⟩
        · exact ⟨a, Or.inr rfl, h2⟩
      · rintro ⟨x, h1 | rfl, h2⟩
        · exact Or.inl ⟨x, h1, h2⟩
        · exact Or.inr h2
  rw [← key.2 hl]
  simp [step, hl]

-- non-vacuity: `close` called while a group of two messages is being written
example : seen exCfg (exConnect ++ [.rawSend [.text ['4', '2'], .binary [1]], .rawSend [.text ['x']], .dequeue, .write, .closeStart,
      .write, .endGroup, .seeClose, .streamEnd, .closeReady]) =
    some [.received exOpen, .opened ['s'], .connectReturned .ok, .enqueued .raw [.text ['4', '2'], .binary [1]],
      .enqueued .raw [.text ['x']], .dequeued [.text ['4', '2'], .binary [1]], .wrote (.text ['4', '2']), .closeRequested,
      .wrote (.binary [1]), .groupDone, .closeSeen, .taskEnd .ok, .closeReturned .ok] := by
  decide +kernel
-- a queue that is written to its end
example : seen exCfg (exConnect ++ [.rawSend [.text ['4', '2']], .rawSend [.text ['x']], .dequeue, .write, .endGroup, .dequeue,
      .write, .endGroup]) =
    some [.received exOpen, .opened ['s'], .connectReturned .ok, .enqueued .raw [.text ['4', '2']],
      .enqueued .raw [.text ['x']], .dequeued [.text ['4', '2']], .wrote (.text ['4', '2']), .groupDone,
      .dequeued [.text ['x']], .wrote (.text ['x']), .groupDone] := by
  decide +kernel
-- dropping the client, and a timeout of `close`, let the task be dropped; without them it cannot be
example : seen exCfg (exConnect ++ [.dropClient, .dropTask]) =
    some [.received exOpen, .opened ['s'], .connectReturned .ok, .taskDropped] := by
  decide +kernel
example : seen exCfg (exConnect ++ [.closeStart, .closeTimeout, .dropTask]) =
    some [.received exOpen, .opened ['s'], .connectReturned .ok, .closeRequested, .closeReturned (.timeout .close),
      .taskDropped] := by
  decide +kernel
example : seen exCfg (exConnect ++ [.dropTask]) = none := by
  decide +kernel

end SIO
