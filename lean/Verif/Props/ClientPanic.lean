import Verif.Props.ClientSend
import Verif.Lemmas.ClientSched
import Verif.Lemmas.ClientTag
import Verif.Props.ClientAck
import Verif.Props.ClientClose
/-
C47: what a panic of a callback leaves behind.
-/
namespace SIO
open Spec

/-- In the course of the schedule a callback is called and panics. -/
def Spec.CallbackPanics (cfg : RCfg) (acts : List Act) : Prop :=
  ∃ (a1 : List Act) (w : Ws) (a2 : List Act) (s1 : Sys) (t1 : List Ev) (s2 : Sys) (evs : List Ev) (e : Eff),
    acts = a1 ++ .recv w true :: a2 ∧ Runs cfg a1 s1 t1 ∧ step cfg s1 (.recv w true) = some (s2, evs) ∧
    .eff e ∈ evs ∧ RunsCallback e

theorem recv_poison (cfg : RCfg) (s : Sys) (w : Ws) (p : Bool) :
    (s.recv cfg w p).1.poisoned = true ↔
      s.poisoned = true ∨ (p = true ∧ ∃ e, .eff e ∈ (s.recv cfg w p).2 ∧ RunsCallback e) := by
  have hsh := processWs_shape cfg s.rx s.reg w
  unfold Sys.recv
  generalize hp : processWs cfg s.rx s.reg w = o at hsh
  obtain ⟨st, reg', effs, res⟩ := o
  simp only at hsh
  cases hsh with
  | packet x hx =>
    cases hx with
    | quiet => cases res <;> simp [Sys.effects, Sys.finishTask, Sys.endTask]
    | noAck ns id pk hn => simp [Sys.effects, Sys.finishTask, Sys.endTask]
    | event ns name cb A ack hcb hns =>
      cases p <;> cases ack <;>
        simp [Sys.effects, Sys.effect, Sys.finishTask, Sys.endTask, Eff.isCall, RunsCallback]
    | ack ns id cb A hcb =>
      cases p <;> simp [Sys.effects, Sys.effect, Sys.finishTask, Sys.endTask, Eff.isCall, RunsCallback]
  | opened o => cases p <;> simp [Sys.effects, Sys.effect, Eff.isCall, RunsCallback]
  | secondOpen o => cases p <;> simp [Sys.effects, Sys.effect, Eff.isCall, RunsCallback]
  | ping hw =>
    by_cases hl : s.task.live = true <;> by_cases hc : s.chanClosed = true <;>
      simp [Sys.effects, Sys.effect, Sys.enqueue, Eff.isCall, RunsCallback, hl, hc]

theorem step_poison {cfg : RCfg} {s s' : Sys} {a : Act} {evs : List Ev} (h : step cfg s a = some (s', evs)) :
    s'.poisoned = true ↔ s.poisoned = true ∨ ∃ w e, a = .recv w true ∧ .eff e ∈ evs ∧ RunsCallback e := by
  have henq : ∀ (s : Sys) src g, (s.enqueue src g).1.poisoned = s.poisoned := by
    intro s src g; unfold Sys.enqueue; split <;> rfl
  cases a with
  | recv w p =>
    have key : ∀ x, some (s.recv cfg w p) = some x → x = (s', evs) → (s'.poisoned = true ↔
        s.poisoned = true ∨ ∃ w' e, Act.recv w p = .recv w' true ∧ .eff e ∈ evs ∧ RunsCallback e) := by
      intro x hx hy
      simp only [Option.some.injEq] at hx
      have := recv_poison cfg s w p
      rw [hx, hy] at this
      simp only at this
      rw [this]
      constructor
      · rintro (h1 | ⟨rfl, e, h1, h2⟩)
        · exact Or.inl h1
        · exact Or.inr ⟨w, e, rfl, h1, h2⟩
      · rintro (h1 | ⟨w', e, h0, h1, h2⟩)
        · exact Or.inl h1
        · simp only [Act.recv.injEq] at h0
          exact Or.inr ⟨h0.2, e, h1, h2⟩
    simp only [step] at h
    split at h
    · exact key _ h rfl
    · exact key _ h rfl
    · simp at h
  | rawSend g =>
    simp only [step] at h
    split at h
    · simp only [Option.some.injEq] at h
      have := henq s .raw g
      rw [h] at this
      simpa using congrArg (· = true) this
    · simp at h
  | emitEnqueue =>
    simp only [step] at h
    split at h
    · split at h
      · simp only [Option.some.injEq] at h
        have := henq { s with emit := none } (.emit ‹_› ‹_›) ‹_›
        rw [h] at this
        simpa using congrArg (· = true) this
      · simp only [Option.some.injEq, Prod.mk.injEq] at h; rw [← h.1]; simp
    · simp at h
  | reply x b args =>
    simp only [step] at h
    split at h
    · split at h
      · simp only [Option.some.injEq, Prod.mk.injEq] at h; rw [← h.1]; simp
      · simp only [Option.some.injEq] at h
        have := henq { s with handles := s.handles.erase x, senders := s.senders - 1 } (.reply x) ‹_›
        rw [h] at this
        simpa using congrArg (· = true) this
    · simp at h
  | _ =>
    simp only [step, Sys.finishTask, Sys.endTask, Sys.failConnect, Sys.closeOver] at h
    grind

theorem poisoned_iff {cfg : RCfg} {acts : List Act} {s : Sys} {tr : List Ev} (h : Runs cfg acts s tr) :
    s.poisoned = true ↔ CallbackPanics cfg acts := by
  refine sched_induct (P := fun acts _ s => s.poisoned = true ↔ CallbackPanics cfg acts) ?_ ?_ h
  · simp [Sys.init, CallbackPanics]
  intro acts tr s s' evs a hr hi hs
  rw [step_poison hs, hi]
  constructor
  · rintro (⟨a1, w, a2, s1, t1, s2, evs', e, rfl, h2, h3, h4, h5⟩ | ⟨w, e, rfl, h4, h5⟩)
    · exact ⟨a1, w, a2 ++ [a], s1, t1, s2, evs', e, by simp, h2, h3, h4, h5⟩
    · exact ⟨acts, w, [], s, tr, s', evs, e, rfl, hr, hs, h4, h5⟩
  · rintro ⟨a1, w, a2, s1, t1, s2, evs', e, h1, h2, h3, h4, h5⟩
    rcases List.eq_nil_or_concat a2 with rfl | ⟨a3, b, rfl⟩
    · obtain ⟨h6, h7⟩ := List.append_inj' h1 rfl
      simp only [List.cons.injEq, and_true] at h7
      subst h6 h7
      unfold Runs at hr h2
      rw [hr] at h2
      simp only [Option.some.injEq, Prod.mk.injEq] at h2
      obtain ⟨rfl, rfl⟩ := h2
      rw [hs] at h3
      simp only [Option.some.injEq, Prod.mk.injEq] at h3
      obtain ⟨rfl, rfl⟩ := h3
      exact Or.inr ⟨w, e, rfl, h4, h5⟩
    · simp only [List.concat_eq_append] at h1
      have h1' : acts ++ [a] = (a1 ++ Act.recv w true :: a3) ++ [b] := by simp [h1]
      obtain ⟨rfl, _⟩ := List.append_inj' h1' rfl
      exact Or.inl ⟨a1, w, a3, s1, t1, s2, evs', e, rfl, h2, h3, h4, h5⟩

theorem poisoned_done {cfg : RCfg} {acts : List Act} {s : Sys} {tr : List Ev} (h : Runs cfg acts s tr)
    (hp : s.poisoned = true) : s.task = .done .panic := by
  refine exec_induct (P := fun _ s => PInv s ∧ (s.poisoned = true → s.task = .done .panic)) ⟨pinv_init, by simp [Sys.init]⟩
    ?_ acts s tr h |>.2 hp
  intro tr s s' evs ⟨hp, hi⟩ ht
  refine ⟨pinv_trans hp ht, ?_⟩
  cases ht with
  | sendOk src g s0 evs hs hl hc => cases hs <;> exact hi
  | sendFail src g s0 evs hs hc => cases hs <;> exact hi
  | recvEvent w st ns name cb A ack _ _ _ => cases ack <;> exact hi
  | recvEventPanic => intro _; rfl
  | recvAckPanic => intro _; rfl
  | _ =>
    have := hp.start
    intro h1
    grind [Task.reads, Sys.endTask, Task.live]

/-- C47: once a callback has panicked, the task has ended with a panic; every call of the registry
panics without changing anything, and so does `send` of an event with a callback. -/
theorem C47_panics (cfg : RCfg) (acts : List Act) (s : Sys) (tr : List Ev) (h : Runs cfg acts s tr)
    (hp : CallbackPanics cfg acts) :
    .taskEnd .panic ∈ tr ∧
    (s.client = true → ∀ op, op.public = true → step cfg s (.reg op) = some (s, [.userPanic])) ∧
    (∀ ns id cb bld g, s.emit = some (.args ns (some (id, cb)) bld) → bld.finish = .ok g →
      step cfg s .emitSend = some ({ s with emit := none }, [.userPanic])) := by
  have hp := (poisoned_iff h).2 hp
  refine ⟨(einv h).done _ (poisoned_done h hp), ?_, ?_⟩
  · intro hc op ho
    simp [step, hc, ho, hp]
  · intro ns id cb bld g he hg
    simp [step, he, hg, hp]

/-- C47: from then on nothing is registered or cleared, no callback runs, nothing is received or
written, and `close` reports the panic (or a timeout, or that it was called before). -/
theorem C47_after (cfg : RCfg) (a1 a2 : List Act) (s1 s : Sys) (t1 t2 : List Ev) (h1 : Runs cfg a1 s1 t1)
    (hp : CallbackPanics cfg a1) (h : Runs cfg (a1 ++ a2) s (t1 ++ t2)) :
    history t2 = [] ∧ (∀ x ∈ t2, ¬ TaskActs x) ∧
    (∀ r, .closeReturned r ∈ t2 → r = .panic ∨ r = .err (.timeout .close) ∨ r = .err .alreadyClosed) := by
  have hend := (C47_panics cfg a1 s1 t1 h1 hp).1
  have hacts : ∀ x ∈ t2, ¬ TaskActs x := by
    obtain ⟨u, v, huv⟩ := mem_split hend
    have := ((einv h).after u (.taskEnd .panic) (v ++ t2) (by rw [huv]; simp) (Or.inl ⟨_, rfl⟩)).2
    exact fun x hx => this x (List.mem_append_right _ hx)
  refine ⟨?_, hacts, ?_⟩
  · have hpo := (poisoned_iff h1).2 hp
    have hpi := pinv h1
    have hdo := poisoned_done h1 hpo
    obtain ⟨s1', t1', t2', e1, e2, e3⟩ := exec_append_inv h
    simp only [Runs] at h1
    rw [h1] at e1
    simp only [Option.some.injEq, Prod.mk.injEq] at e1
    obtain ⟨rfl, rfl⟩ := e1
    obtain rfl := List.append_cancel_left e3
    clear h e3 hacts hend h1 hp
    have key : ∀ (a2 : List Act) (s1 s : Sys) (t2 : List Ev), s1.poisoned = true → PInv s1 → s1.task = .done .panic →
        exec cfg s1 a2 = some (s, t2) → history t2 = [] := by
      intro a2
      induction a2 with
      | nil => intro s1 s t2 _ _ _ he; simp only [exec, Option.some.injEq, Prod.mk.injEq] at he; rw [← he.2]; rfl
      | cons a a2 ih =>
        intro s1 s t2 hp hi hd he
        simp only [exec] at he
        cases hx : step cfg s1 a with
        | none => rw [hx] at he; simp at he
        | some r =>
          obtain ⟨s', e'⟩ := r
          rw [hx] at he
          simp only at he
          cases hy : exec cfg s' a2 with
          | none => rw [hy] at he; simp at he
          | some r2 =>
            obtain ⟨s3, e3⟩ := r2
            rw [hy] at he
            simp only [Option.some.injEq, Prod.mk.injEq] at he
            obtain ⟨rfl, rfl⟩ := he
            have ht := step_trans hx
            have hd' := trans_dead ht hi (Or.inl ⟨_, hd⟩)
            have h3 := ih s' s3 e3 ((step_poison hx).2 (Or.inl hp)) (pinv_trans hi ht) (by rw [hd'.1, hd]) hy
            have h4 : history e' = [] := by
              clear hx
              have hn := hd'.2
              cases ht with
              | sendOk src g s0 evs hs hl hc => cases hs <;> simp [TaskActs] at hn
              | sendFail src g s0 evs hs hc => cases hs <;> first | rfl | simp [TaskActs] at hn
              | reg op _ _ h => rw [hp] at h; simp at h
              | emitRegister ns id cb bld g _ _ h => rw [hp] at h; simp at h
              | _ => first | rfl | simp [TaskActs] at hn
            simp only [history, List.filterMap_append] at h3 h4 ⊢
            rw [h3, h4]; rfl
    exact key a2 s1 s t2 hpo hpi hdo e2
  · intro r hr
    obtain ⟨u, v, huv⟩ := mem_split hr
    have hx := (C34_result cfg _ s _ h (t1 ++ u) v r (by rw [huv]; simp)).2
    rcases hx with hx | hx | hx
    · exact Or.inr (Or.inr hx)
    · exact Or.inr (Or.inl hx)
    · left
      refine end_unique h ?_ (List.mem_append_left _ hend)
      rw [huv]
      rcases List.mem_append.1 hx with hx | hx <;> simp [hx]

/-- C47: as long as no callback has panicked, the calls of the registry work, and `send` of an event
with a callback registers it. -/
theorem C47_usable (cfg : RCfg) (acts : List Act) (s : Sys) (tr : List Ev) (h : Runs cfg acts s tr)
    (hp : ¬ CallbackPanics cfg acts) :
    (s.client = true → ∀ op, op.public = true → ∃ s', step cfg s (.reg op) = some (s', [.regOp op])) ∧
    (∀ ns id cb bld g, s.emit = some (.args ns (some (id, cb)) bld) → bld.finish = .ok g →
      ∃ s', step cfg s .emitSend = some (s', [.registered ns id cb])) := by
  have hp : s.poisoned = false := by
    cases hx : s.poisoned
    · rfl
    · exact absurd ((poisoned_iff h).1 hx) hp
  constructor
  · intro hc op ho
    simp [step, hc, ho, hp]
  · intro ns id cb bld g he hg
    simp [step, he, hg, hp]

/-- A callback for the event `e`, and the event. -/
def exPanic : List Act := exConnect ++ [.reg (.setEvent ['/'] ['e'] 5), .recv (.text "42[\"e\"]".toList) true]

-- non-vacuity: the callback panics, the registry is useless, `close` resumes the panic
example : seen exCfg (exPanic ++ [.reg (.clearFallback ['/']), .emitStart ['/'] ['x'], .emitCallback, .emitArgs, .emitSend,
      .closeStart, .closeReady]) =
    some [.received exOpen, .opened ['s'], .connectReturned .ok, .regOp, .received (.text "42[\"e\"]".toList),
      .event ['/'] ['e'] 5 none, .taskEnd .panic, .userPanic, .allocated 0 0, .userPanic, .closeRequested,
      .closeReturned .panic] := by
  decide +kernel
example : CallbackPanics exCfg exPanic := by
  obtain ⟨s, tr, h, _⟩ := runs_of_seen (cfg := exCfg) (acts := exPanic)
    (ts := [.received exOpen, .opened ['s'], .connectReturned .ok, .regOp, .received (.text "42[\"e\"]".toList),
      .event ['/'] ['e'] 5 none, .taskEnd .panic]) (by decide +kernel)
  refine (poisoned_iff h).1 ?_
  have : (exec exCfg Sys.init exPanic).map (fun x => x.1.poisoned) = some true := by decide +kernel
  simp only [Runs] at h
  rw [h] at this
  simpa using this
-- a message for which there is no callback cannot do this, also if callbacks panic
example : seen exCfg (exConnect ++ [.reg (.setEvent ['/'] ['e'] 5), .recv (.text "42[\"f\"]".toList) true,
      .reg (.clearFallback ['/'])]) =
    some [.received exOpen, .opened ['s'], .connectReturned .ok, .regOp, .received (.text "42[\"f\"]".toList), .regOp] := by
  decide +kernel

end SIO
