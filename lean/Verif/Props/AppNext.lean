import Verif.Spec.AppNext
import Verif.Props.ClientEmit
import Verif.Props.ClientExact
/-
C73: what the application can do next, exactly.
-/
namespace SIO
open Spec

theorem seenIn_snoc (log : List (Act × List Ev)) (a : Act) (evs : List Ev) : seenIn (log ++ [(a, evs)]) = seenIn log ++ evs := by
  simp [seenIn]

theorem doneIn_snoc (log : List (Act × List Ev)) (a : Act) (evs : List Ev) : doneIn (log ++ [(a, evs)]) = doneIn log ++ [a] := by
  simp [doneIn]

theorem Spec.Logged.runs {cfg : RCfg} {log : List (Act × List Ev)} {s : Sys} (h : Logged cfg log s) :
    Runs cfg (doneIn log) s (seenIn log) := by
  induction h with
  | start => rfl
  | next h hs ih =>
    rw [doneIn_snoc, seenIn_snoc]
    exact exec_snoc ih hs

/-- C73: the executions with what was seen at each action are the executions. -/
theorem C73_log (cfg : RCfg) (acts : List Act) (s : Sys) (tr : List Ev) :
    Runs cfg acts s tr ↔ ∃ log, Logged cfg log s ∧ doneIn log = acts ∧ seenIn log = tr := by
  constructor
  · intro h
    refine sched_induct (P := fun acts tr s => ∃ log, Logged cfg log s ∧ doneIn log = acts ∧ seenIn log = tr) ?_ ?_ h
    · exact ⟨[], .start, rfl, rfl⟩
    · rintro acts tr s s' evs a _ ⟨log, h1, rfl, rfl⟩ hs
      exact ⟨_, h1.next hs, doneIn_snoc .., seenIn_snoc ..⟩
  · rintro ⟨log, h, rfl, rfl⟩
    exact h.runs

/-- The stage of the event in the state. -/
def emitStageOf : Option Emit → EmitStage
  | none => .idle
  | some (.building ..) => .options
  | some (.args ..) => .args
  | some (.sending ..) => .sending

theorem senderOut_swapped (log : List (Act × List Ev)) : senderOut log = swapped (doneIn log) := by
  unfold senderOut swapped doneIn
  rw [List.foldl_map]
  rfl

theorem enqueue_emit (s : Sys) (src : Src) (g : List Ws) : (s.enqueue src g).1.emit = s.emit := by
  unfold Sys.enqueue; split <;> rfl

theorem step_emitStage {cfg : RCfg} {s s' : Sys} {a : Act} {evs : List Ev} (h : step cfg s a = some (s', evs)) :
    emitStageOf s'.emit = (emitStageOf s.emit).after (a, evs) := by
  cases ha : isEmit a with
  | false =>
    rw [(step_emit_frame h ha).1]
    cases a <;> simp_all [EmitStage.after, isEmit]
  | true =>
    cases a <;> simp only [isEmit, Bool.false_eq_true] at ha <;> simp only [step] at h <;>
      (repeat' split at h) <;> simp only [Option.some.injEq, Prod.mk.injEq, reduceCtorEq] at h
    all_goals first
      | (obtain ⟨h1, h2⟩ := h
         subst h1; subst h2
         simp_all [EmitStage.after, emitStageOf, panicked])
      | (have hq := congrArg (fun x => x.1.emit) h
         simp only [enqueue_emit] at hq
         rw [← hq]
         rfl)

theorem logged_stage {cfg : RCfg} {log : List (Act × List Ev)} {s : Sys} (h : Logged cfg log s) : emitStageOf s.emit = stage log := by
  induction h with
  | start => rfl
  | next h hs ih =>
    rw [step_emitStage hs, ih]
    simp [stage]

/-- What an action does to the number of further senders. -/
theorem step_clones {cfg : RCfg} {s s' : Sys} {a : Act} {evs : List Ev} (h : step cfg s a = some (s', evs)) :
    s'.clones + (match a with | .dropSender => 1 | .putSend => 1 | _ => 0) =
      s.clones + (match a with | .cloneSender => 1 | .takeSend => 1 | _ => 0) := by
  cases a with
  | recv w p => simp [(step_io h (Or.inl ⟨w, p, rfl⟩)).2.2.2.1]
  | rawSend g => simp [(step_io h (Or.inr (Or.inl ⟨g, rfl⟩))).2.2.2.1]
  | emitEnqueue => simp [(step_io h (Or.inr (Or.inr (Or.inl rfl)))).2.2.2.1]
  | reply x b args => simp [(step_io h (Or.inr (Or.inr (Or.inr ⟨x, b, args, rfl⟩)))).2.2.2.1]
  | _ =>
    simp only [step, Sys.finishTask, Sys.endTask, Sys.failConnect, Sys.closeOver] at h
    grind

theorem logged_clones {cfg : RCfg} {log : List (Act × List Ev)} {s : Sys} (h : Logged cfg log s) :
    s.clones + sendersGiven log = sendersGot log := by
  induction h with
  | start => rfl
  | @next log s s' a evs h hs ih =>
    have hc := step_clones hs
    simp only [sendersGiven, sendersGot, List.countP_append, List.countP_singleton] at ih ⊢
    cases a <;> simp_all <;> omega

theorem hasClient_iff {cfg : RCfg} {log : List (Act × List Ev)} {s : Sys} (h : Logged cfg log s) :
    s.client = true ↔ HasClient log := by
  rw [C37_owner cfg _ _ _ h.runs]
  exact ⟨fun ⟨a, b⟩ => ⟨a, b⟩, fun ⟨a, b⟩ => ⟨a, b⟩⟩

theorem own_iff {cfg : RCfg} {log : List (Act × List Ev)} {s : Sys} (h : Logged cfg log s) :
    s.ownSend = true ↔ HasClient log ∧ senderOut log = false := by
  have h1 := (own_swapped h.runs).1
  have h2 := (pinv h.runs).send
  rw [← hasClient_iff h, senderOut_swapped]
  constructor
  · intro ho
    refine ⟨h2 ho, ?_⟩
    rw [h1 (h2 ho)] at ho
    simpa using ho
  · rintro ⟨hc, ho⟩
    rw [h1 hc, ho]
    rfl

theorem spare_iff {cfg : RCfg} {log : List (Act × List Ev)} {s : Sys} (h : Logged cfg log s) :
    0 < s.clones ↔ SpareSender log := by
  have := logged_clones h
  unfold SpareSender
  omega

theorem hasSender_iff {cfg : RCfg} {log : List (Act × List Ev)} {s : Sys} (h : Logged cfg log s) :
    (s.ownSend = true ∨ 0 < s.clones) ↔ HasSender log := by
  rw [own_iff h, spare_iff h]
  rfl

theorem idle_iff {cfg : RCfg} {log : List (Act × List Ev)} {s : Sys} (h : Logged cfg log s) :
    s.emit = none ↔ stage log = .idle := by
  rw [← logged_stage h]
  cases he : s.emit with
  | none => simp [emitStageOf]
  | some e => cases e <;> simp [emitStageOf]

/-- C73: what the application can do with senders of the queue: send a group itself, clone one and close
the channel exactly if it has one; drop exactly one it has besides that in the client; and take that
out, and put one in, exactly if it is there, or not there, and no event is being built (that borrows
the client). -/
theorem C73_senders (cfg : RCfg) (log : List (Act × List Ev)) (s : Sys) (h : Logged cfg log s) :
    (∀ g, step cfg s (.rawSend g) ≠ none ↔ HasSender log) ∧
    ((∃ s', step cfg s .cloneSender = some (s', [])) ↔ HasSender log) ∧
    ((∃ s', step cfg s .closeChannel = some (s', [])) ↔ HasSender log) ∧
    ((∃ s', step cfg s .dropSender = some (s', [])) ↔ SpareSender log) ∧
    ((∃ s', step cfg s .takeSend = some (s', [])) ↔ HasClient log ∧ senderOut log = false ∧ stage log = .idle) ∧
    ((∃ s', step cfg s .putSend = some (s', [])) ↔
      HasClient log ∧ senderOut log = true ∧ SpareSender log ∧ stage log = .idle) := by
  rw [← hasSender_iff h, ← spare_iff h, ← idle_iff h]
  refine ⟨?_, ?_, ?_, ?_, ?_, ?_⟩
  · intro g
    simp only [step]
    split <;> simp_all
  · simp only [step]
    split <;> simp_all
  · simp only [step]
    split <;> simp_all
  · simp only [step]
    split <;> simp_all
  · rw [← and_assoc, ← own_iff h]
    simp only [step]
    split <;> simp_all
  · have ho := own_iff h
    have hc := hasClient_iff h
    cases hso : senderOut log with
    | true =>
      simp only [hso, Bool.true_eq_false, and_false, iff_false] at ho
      rw [← hc]
      simp only [step, ho]
      split
      · simp_all
      · simp only [reduceCtorEq, exists_false, false_iff]
        rintro ⟨h1, -, h2, h3⟩
        simp_all
    | false =>
      simp only [hso, and_true] at ho
      simp only [Bool.false_eq_true, false_and, and_false, iff_false, step]
      split <;> simp_all

/-- C73: the calls on an event come in their order: `emit`, with the client in hand and no other event
begun; options; `args`; arguments; `send`; and it can be dropped until `send`. -/
theorem C73_builder (cfg : RCfg) (log : List (Act × List Ev)) (s : Sys) (h : Logged cfg log s) :
    (∀ ns ev, (∃ s', step cfg s (.emitStart ns ev) = some (s', [])) ↔ HasClient log ∧ stage log = .idle) ∧
    (∀ b, (∃ s', step cfg s (.emitBinary b) = some (s', [])) ↔ stage log = .options) ∧
    ((∃ s' id cb, step cfg s .emitCallback = some (s', [.allocated id cb])) ↔ stage log = .options) ∧
    (step cfg s .emitArgs ≠ none ↔ stage log = .options) ∧
    (∀ v, step cfg s (.emitArg v) ≠ none ↔ stage log = .args) ∧
    (step cfg s .emitSend ≠ none ↔ stage log = .args) ∧
    (step cfg s .emitEnqueue ≠ none ↔ stage log = .sending) ∧
    ((∃ s', step cfg s .emitDrop = some (s', [])) ↔ stage log = .options ∨ stage log = .args) := by
  rw [← hasClient_iff h, ← logged_stage h]
  refine ⟨?_, ?_, ?_, ?_, ?_, ?_, ?_, ?_⟩
  · intro ns ev
    cases he : s.emit with
    | none => cases hc : s.client <;> simp [step, he, hc, emitStageOf]
    | some e => cases e <;> simp [step, he, emitStageOf]
  · intro b
    cases he : s.emit with
    | none => simp [step, he, emitStageOf]
    | some e => cases e <;> simp [step, he, emitStageOf]
  · cases he : s.emit with
    | none => simp [step, he, emitStageOf]
    | some e => cases e <;> simp [step, he, emitStageOf]
  · cases he : s.emit with
    | none => simp [step, he, emitStageOf]
    | some e =>
      cases e <;> simp only [step, he, emitStageOf, ne_eq, not_true_eq_false, reduceCtorEq, iff_true]
      split <;> simp
  · intro v
    cases he : s.emit with
    | none => simp [step, he, emitStageOf]
    | some e =>
      cases e <;> simp only [step, he, emitStageOf, ne_eq, not_true_eq_false, reduceCtorEq, iff_true]
      split <;> simp
  · cases he : s.emit with
    | none => simp [step, he, emitStageOf]
    | some e =>
      cases e <;> simp only [step, he, emitStageOf, ne_eq, not_true_eq_false, reduceCtorEq, iff_true]
      (repeat' split) <;> simp
  · cases he : s.emit with
    | none => simp [step, he, emitStageOf]
    | some e =>
      cases e <;> simp only [step, he, emitStageOf, ne_eq, not_true_eq_false, reduceCtorEq, iff_true]
      split <;> simp
  · cases he : s.emit with
    | none => simp [step, he, emitStageOf]
    | some e => cases e <;> simp [step, he, emitStageOf]

/-- C73: the client can be used and dropped: the registry by everyone who has the client, and it is
dropped when neither a call of `close` waits nor an event is being built. -/
theorem C73_client (cfg : RCfg) (log : List (Act × List Ev)) (s : Sys) (h : Logged cfg log s) :
    (∀ op, step cfg s (.reg op) ≠ none ↔ HasClient log ∧ (∀ ns id cb, op ≠ .setAck ns id cb) ∧ ∀ ns id, op ≠ .takeAck ns id) ∧
    ((∃ s', step cfg s .dropClient = some (s', [])) ↔
      HasClient log ∧ ¬ ClosePending (doneIn log) (seenIn log) ∧ stage log = .idle) := by
  rw [← hasClient_iff h, ← idle_iff h, ← close_pending h.runs]
  constructor
  · intro op
    simp only [step]
    cases op <;> cases hc : s.client <;> simp [RegOp.public] <;> split <;> simp
  · simp only [step]
    split <;> simp_all

/-- The log of a schedule. -/
def logFrom (cfg : RCfg) (s : Sys) : List Act → Option (List (Act × List Ev) × Sys)
  | [] => some ([], s)
  | a :: as =>
    match step cfg s a with
    | none => none
    | some (s, evs) =>
      match logFrom cfg s as with
      | none => none
      | some (log, s) => some ((a, evs) :: log, s)

-- non-vacuity: a client with its sender, then without it, and then dropped with a sender kept
example : (match logFrom exCfg Sys.init exConnect with
    | some (log, s) => decide (sendersGot log = 0 ∧ senderOut log = false ∧ stage log = .idle) &&
        (step exCfg s (.rawSend [])).isSome && (step exCfg s .dropSender).isNone && (step exCfg s .putSend).isNone &&
        (step exCfg s .takeSend).isSome && (step exCfg s .dropClient).isSome
    | none => false) = true := by decide +kernel

example : (match logFrom exCfg Sys.init (exConnect ++ [.takeSend, .dropSender]) with
    | some (log, s) => decide (sendersGot log = 1 ∧ sendersGiven log = 1 ∧ senderOut log = true) &&
        (step exCfg s (.rawSend [])).isNone && (step exCfg s .cloneSender).isNone && (step exCfg s .putSend).isNone
    | none => false) = true := by decide +kernel

example : (match logFrom exCfg Sys.init (exConnect ++ [.cloneSender, .dropClient]) with
    | some (log, s) => decide (sendersGot log = 1 ∧ sendersGiven log = 0) &&
        (step exCfg s (.rawSend [])).isSome && (step exCfg s .takeSend).isNone && (step exCfg s (.reg (.clearFallback ['/']))).isNone
    | none => false) = true := by decide +kernel

-- an event from `emit` to `send`; in between another event cannot be begun
example : (match logFrom exCfg Sys.init (exConnect ++ [.emitStart ['/'] ['e'], .emitBinary true, .emitArgs, .emitArg (.int 1)]) with
    | some (log, s) => decide (stage log = .args) && (step exCfg s .emitSend).isSome && (step exCfg s .emitDrop).isSome &&
        (step exCfg s (.emitStart ['/'] ['f'])).isNone && (step exCfg s (.emitBinary false)).isNone &&
        (step exCfg s .dropClient).isNone && (step exCfg s .takeSend).isNone
    | none => false) = true := by decide +kernel

example : (match logFrom exCfg Sys.init (exConnect ++ [.emitStart ['/'] ['e'], .emitArgs, .emitSend]) with
    | some (log, s) => decide (stage log = .sending) && (step exCfg s .emitEnqueue).isSome && (step exCfg s .emitDrop).isNone
    | none => false) = true := by decide +kernel

end SIO
