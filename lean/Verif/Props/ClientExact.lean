import Verif.Props.ClientEmit
import Verif.Props.ClientReply
/-
C33, C35, C36, C37, C41 once more, as equivalences: what happens exactly when.
-/
namespace SIO
open Spec

/-- What ends the task, and with which result: the peer ends the stream, reading or writing fails,
a message cannot be processed, a callback panics, or the application closed the channel. -/
inductive Spec.Ends (cfg : RCfg) (acts : List Act) (s : Sys) : Act → Res CErr Unit → Prop where
  | streamEnd : Ends cfg acts s .streamEnd (.ok ())
  | streamErr (n : Nat) : Ends cfg acts s (.streamErr n) (.err (.websocket n))
  | writeFail (n : Nat) : Ends cfg acts s (.writeFail n) (.err (.websocket n))
  | processing (w : Ws) (p : Bool) (e : RErr) : (processWs cfg s.rx s.reg w).res = .err e →
      Ends cfg acts s (.recv w p) (.err (.processing e))
  | processPanic (w : Ws) (p : Bool) : (processWs cfg s.rx s.reg w).res = .panic → Ends cfg acts s (.recv w p) .panic
  | callback (w : Ws) (e : Eff) : e ∈ (processWs cfg s.rx s.reg w).effs → RunsCallback e →
      Ends cfg acts s (.recv w true) .panic
  | closed : s.queue = [] → .closeChannel ∈ acts → Ends cfg acts s .dequeue .panic

theorem isCall_iff (e : Eff) : e.isCall = true ↔ RunsCallback e := by
  cases e <;> simp [Eff.isCall, RunsCallback]

theorem effects_no_end (effs : List Eff) : ∀ (s : Sys) (r : Res CErr Unit), .taskEnd r ∉ (s.effects effs).2 := by
  induction effs with
  | nil => simp [Sys.effects]
  | cons e effs ih =>
    intro s r
    simp only [Sys.effects, List.mem_append, not_or]
    refine ⟨?_, ih _ r⟩
    cases e with
    | enqueue g => simp only [Sys.effect, Sys.enqueue]; split <;> simp
    | _ => simp [Sys.effect]

theorem recv_ends (cfg : RCfg) (acts : List Act) (s : Sys) (w : Ws) (p : Bool) (r : Res CErr Unit) :
    .taskEnd r ∈ (s.recv cfg w p).2 ↔ Ends cfg acts s (.recv w p) r := by
  have hcall : (processWs cfg s.rx s.reg w).effs.any Eff.isCall = true ↔
      ∃ e ∈ (processWs cfg s.rx s.reg w).effs, RunsCallback e := by
    simp only [List.any_eq_true, isCall_iff]
  have hok : (∃ e ∈ (processWs cfg s.rx s.reg w).effs, RunsCallback e) → (processWs cfg s.rx s.reg w).res = .ok () := by
    rintro ⟨e, he, hc⟩
    have hsh := processWs_shape cfg s.rx s.reg w
    generalize hx : ((processWs cfg s.rx s.reg w).reg, (processWs cfg s.rx s.reg w).effs, (processWs cfg s.rx s.reg w).res) = x at hsh
    have h1 : (processWs cfg s.rx s.reg w).effs = x.2.1 := by rw [← hx]
    have h2 : (processWs cfg s.rx s.reg w).res = x.2.2 := by rw [← hx]
    rw [h1] at he
    rw [h2]
    cases hsh with
    | packet x hx =>
      cases hx with
      | quiet => simp at he
      | noAck => simp at he
      | event => rfl
      | ack => rfl
    | _ => rfl
  unfold Sys.recv
  simp only
  split
  · rename_i hp
    obtain ⟨rfl, hp⟩ := hp
    have hx := hcall.1 hp
    have hres := hok hx
    simp only [Sys.finishTask, List.mem_cons, reduceCtorEq, List.mem_append, effects_no_end, false_or, Ev.taskEnd.injEq,
      List.not_mem_nil, or_false]
    obtain ⟨e, h1, h2⟩ := hx
    constructor
    · rintro rfl; exact .callback w e h1 h2
    · intro h
      cases h with
      | processing _ _ e he => rw [hres] at he; simp at he
      | processPanic _ _ he => rfl
      | callback => rfl
  · rename_i hp
    have hno : ¬ (p = true ∧ ∃ e ∈ (processWs cfg s.rx s.reg w).effs, RunsCallback e) := by rwa [hcall] at hp
    have hnc : ∀ {r}, Ends cfg acts s (.recv w p) r → (∃ e, (processWs cfg s.rx s.reg w).res = .err e ∧ r = .err (.processing e)) ∨
        ((processWs cfg s.rx s.reg w).res = .panic ∧ r = .panic) := by
      intro r h
      cases h with
      | processing _ _ e he => exact Or.inl ⟨e, he, rfl⟩
      | processPanic _ _ he => exact Or.inr ⟨he, rfl⟩
      | callback _ e h1 h2 => exact absurd ⟨rfl, e, h1, h2⟩ hno
    cases hres : (processWs cfg s.rx s.reg w).res with
    | ok u =>
      simp only [List.mem_cons, reduceCtorEq, effects_no_end, or_self, false_iff]
      intro h
      rcases hnc h with ⟨e, h, _⟩ | ⟨h, _⟩ <;> rw [hres] at h <;> simp at h
    | err e =>
      simp only [Sys.finishTask, List.mem_cons, reduceCtorEq, List.mem_append, effects_no_end, false_or, Ev.taskEnd.injEq,
        List.not_mem_nil, or_false]
      constructor
      · rintro rfl; exact .processing w p e hres
      · intro h
        rcases hnc h with ⟨e', h1, rfl⟩ | ⟨h1, _⟩ <;> rw [hres] at h1 <;> simp at h1
        rw [h1]
    | panic =>
      simp only [Sys.finishTask, List.mem_cons, reduceCtorEq, List.mem_append, effects_no_end, false_or, Ev.taskEnd.injEq,
        List.not_mem_nil, or_false]
      constructor
      · rintro rfl; exact .processPanic w p hres
      · intro h
        rcases hnc h with ⟨e', h1, rfl⟩ | ⟨_, rfl⟩
        · rw [hres] at h1; simp at h1
        · rfl

/-- C35: an action ends the task exactly if it is one of those, and with that result. -/
theorem C35_ends (cfg : RCfg) (acts : List Act) (s s' : Sys) (tr evs : List Ev) (h : Runs cfg acts s tr) (a : Act)
    (hs : step cfg s a = some (s', evs)) (r : Res CErr Unit) : .taskEnd r ∈ evs ↔ Ends cfg acts s a r := by
  have hch := chan_closed h
  have hsi := sinv h
  cases a with
  | recv w p =>
    have key : s.recv cfg w p = (s', evs) → (.taskEnd r ∈ evs ↔ Ends cfg acts s (.recv w p) r) := by
      intro hx
      have := recv_ends cfg acts s w p r
      rwa [hx] at this
    simp only [step] at hs
    split at hs
    · exact key (by simpa using hs)
    · exact key (by simpa using hs)
    · simp at hs
  | dequeue =>
    simp only [step] at hs
    split at hs
    · rename_i htk
      split at hs
      · rename_i g q hq
        simp only [Option.some.injEq, Prod.mk.injEq] at hs
        rw [← hs.2]
        simp only [List.mem_singleton, reduceCtorEq, false_iff]
        intro hx
        cases hx with
        | closed h1 _ => rw [hq] at h1; simp at h1
      · rename_i hq
        split at hs
        · rename_i hc
          simp only [Sys.finishTask, Option.some.injEq, Prod.mk.injEq] at hs
          rw [← hs.2]
          simp only [List.mem_singleton, Ev.taskEnd.injEq]
          have hcc : s.chanClosed = true := by
            rcases hc with hc | hc
            · exact hc
            · simp only [SInv, htk, Task.live] at hsi; simp at hsi; omega
          constructor
          · rintro rfl; exact .closed hq (hch.1 hcc)
          · intro hx; cases hx; rfl
        · simp at hs
    · simp at hs
  | streamErr n =>
    simp only [step] at hs
    split at hs <;> simp only [Sys.finishTask, Option.some.injEq, Prod.mk.injEq, reduceCtorEq] at hs <;> rw [← hs.2] <;>
      simp only [List.mem_singleton, Ev.taskEnd.injEq] <;> constructor <;>
      first | (rintro rfl; exact .streamErr n) | (intro hx; cases hx; rfl)
  | streamEnd =>
    simp only [step] at hs
    split at hs <;> simp only [Sys.finishTask, Option.some.injEq, Prod.mk.injEq, reduceCtorEq] at hs <;> rw [← hs.2] <;>
      simp only [List.mem_singleton, Ev.taskEnd.injEq] <;> constructor <;>
      first | (rintro rfl; exact .streamEnd) | (intro hx; cases hx; rfl)
  | writeFail n =>
    simp only [step] at hs
    split at hs <;> simp only [Sys.finishTask, Option.some.injEq, Prod.mk.injEq, reduceCtorEq] at hs
    rw [← hs.2]
    simp only [List.mem_cons, List.not_mem_nil, or_false, reduceCtorEq, false_or, Ev.taskEnd.injEq]
    constructor
    · rintro rfl; exact .writeFail n
    · intro hx; cases hx; rfl
  | rawSend g =>
    have hn : ¬ Ends cfg acts s (.rawSend g) r := by intro hx; cases hx
    simp only [step, Sys.enqueue] at hs
    grind
  | emitEnqueue =>
    have hn : ¬ Ends cfg acts s .emitEnqueue r := by intro hx; cases hx
    simp only [step, Sys.enqueue] at hs
    grind
  | reply x b args =>
    have hn : ¬ Ends cfg acts s (.reply x b args) r := by intro hx; cases hx
    simp only [step, Sys.enqueue] at hs
    grind
  | _ =>
    constructor
    · intro hm
      exfalso
      simp only [step, Sys.endTask, Sys.failConnect, Sys.closeOver] at hs
      grind
    · intro hx
      cases hx

/-- C35: nothing happens after the task was dropped either. -/
theorem C35_dropped (cfg : RCfg) (acts : List Act) (s : Sys) (tr : List Ev) (h : Runs cfg acts s tr)
    (t1 t2 : List Ev) (he : tr = t1 ++ .taskDropped :: t2) : ∀ e ∈ t2, ¬ TaskActs e :=
  ((einv h).after t1 .taskDropped t2 he (Or.inr rfl)).2

/-- C36: every holder of a sender counts once: the task, the waiting `connect`, the connection of
the client, the client itself, the application with its clones and its reply handles. -/
theorem C36_count (cfg : RCfg) (acts : List Act) (s : Sys) (tr : List Ev) (h : Runs cfg acts s tr) :
    s.senders = (if s.task.live = true then 1 else 0) + (match s.phase with | .waitOpen => 1 | _ => 0) +
      (if s.client = true then 1 else 0) + (if s.ownSend = true then 1 else 0) + s.clones + s.handles.length := by
  have hi := sinv h
  have hb : ∀ b : Bool, b.toNat = if b = true then 1 else 0 := by intro b; cases b <;> rfl
  simp only [SInv, hb] at hi
  exact hi

/-- C36: with an empty queue the waiting task goes on (and panics) exactly if the application closed
the channel. -/
theorem C36_closed (cfg : RCfg) (acts : List Act) (s : Sys) (tr : List Ev) (h : Runs cfg acts s tr)
    (ht : s.task = .running) (hq : s.queue = []) :
    (.closeChannel ∈ acts → ∃ s', step cfg s .dequeue = some (s', [.taskEnd .panic])) ∧
    (.closeChannel ∉ acts → step cfg s .dequeue = none) := by
  have hch := chan_closed h
  have hsi := C36_senders cfg acts s tr h (by rw [ht]; rfl)
  constructor
  · intro hm
    rw [← hch] at hm
    simp [step, ht, hq, hm, Sys.finishTask]
  · intro hm
    rw [← hch] at hm
    simp only [step, ht, hq]
    rw [if_neg]
    rintro (h1 | h1)
    · exact hm h1
    · omega

set_option maxHeartbeats 1000000 in
theorem step_sig {cfg : RCfg} {s s' : Sys} {a : Act} {evs : List Ev} (h : step cfg s a = some (s', evs))
    (hi : PInv s) (hl : s'.task.live = true) :
    (s'.closeSig = true ↔ s.closeSig = true ∨ .closeRequested ∈ evs ∨ a = .openTimeout ∨ a = .connectCancel ∨ a = .dropClient) ∧
    (s.task.live = true ∨ a = .handshakeOk) := by
  refine ⟨?_, (step_handle h hi hl).2⟩
  have h1 := hi.start
  cases a with
  | recv w p =>
    obtain ⟨rx, reg, slot, hs, n, q, po, t, hf⟩ := recv_frame cfg s w p
    have hev := recv_events cfg s w p
    have key : s.recv cfg w p = (s', evs) → (s'.closeSig = true ↔ s.closeSig = true ∨ .closeRequested ∈ evs) := by
      intro hx
      rw [hx] at hf hev
      simp only at hf hev
      rw [hf]
      have : .closeRequested ∉ evs := by
        intro hm
        rcases hev _ hm with h | ⟨x, h⟩ | ⟨g, h | h⟩ | ⟨r, h⟩ <;> simp at h
      simp [this]
    simp only [step] at h
    split at h
    · simpa using key (by simpa using h)
    · simpa using key (by simpa using h)
    · simp at h
  | rawSend g =>
    simp only [step, Sys.enqueue] at h
    grind
  | emitEnqueue =>
    simp only [step, Sys.enqueue] at h
    grind
  | reply x b args =>
    simp only [step, Sys.enqueue] at h
    grind
  | _ =>
    simp only [step, Sys.finishTask, Sys.endTask, Sys.failConnect, Sys.closeOver] at h
    grind [Task.live]

/-- `connect` has its websocket and waits for the open packet. -/
structure Spec.AwaitsOpen (acts : List Act) (tr : List Ev) : Prop where
  shook : .handshakeOk ∈ acts
  kept : .connectCancel ∉ acts
  silent : ∀ r, .connectReturned r ∉ tr

theorem step_io_events {cfg : RCfg} {s s' : Sys} {a : Act} {evs : List Ev} (h : step cfg s a = some (s', evs))
    (ha : (∃ w p, a = .recv w p) ∨ (∃ g, a = .rawSend g) ∨ a = .emitEnqueue ∨ ∃ x b args, a = .reply x b args) :
    (∀ r, .connectReturned r ∉ evs) ∧ .closeRequested ∉ evs := by
  rcases ha with ⟨w, p, rfl⟩ | ⟨g, rfl⟩ | rfl | ⟨x, b, args, rfl⟩
  · have hev := recv_events cfg s w p
    have key : s.recv cfg w p = (s', evs) → (∀ r, .connectReturned r ∉ evs) ∧ .closeRequested ∉ evs := by
      intro hx
      rw [hx] at hev
      simp only at hev
      constructor
      · intro r hm
        rcases hev _ hm with h | ⟨x, h⟩ | ⟨g, h | h⟩ | ⟨r, h⟩ <;> simp at h
      · intro hm
        rcases hev _ hm with h | ⟨x, h⟩ | ⟨g, h | h⟩ | ⟨r, h⟩ <;> simp at h
    simp only [step] at h
    split at h
    · exact key (by simpa using h)
    · exact key (by simpa using h)
    · simp at h
  all_goals
    simp only [step, Sys.enqueue] at h
    grind

/-- The actions of `connect`, and dropping the client. -/
def Act.onPhase : Act → Bool
  | .handshakeOk | .handshakeFail _ | .handshakeTimeout | .spawnFail | .openReady | .openTimeout | .connectCancel | .dropClient => true
  | _ => false

set_option maxHeartbeats 1000000 in
/-- Every other action needs the task or something the application only has after `connect`, and
changes nothing of this. -/
theorem step_phase {cfg : RCfg} {s s' : Sys} {a : Act} {evs : List Ev} (h : step cfg s a = some (s', evs)) (ha : a.onPhase = false) :
    s'.phase = s.phase ∧ s'.client = s.client ∧ (∀ r, .connectReturned r ∉ evs) ∧
    (s.task ≠ .unborn ∨ s.ownSend = true ∨ 0 < s.clones ∨ s.handles ≠ [] ∨ s.client = true ∨ s.emit ≠ none ∨ s.closeCall = true) := by
  cases a with
  | recv w p =>
    obtain ⟨k1, k2, _⟩ := step_io h (Or.inl ⟨_, _, rfl⟩)
    refine ⟨k1, k2, (step_io_events h (Or.inl ⟨_, _, rfl⟩)).1, Or.inl ?_⟩
    intro hx
    simp [step, hx] at h
  | rawSend g =>
    simp only [step, Sys.enqueue] at h
    grind
  | emitEnqueue =>
    simp only [step, Sys.enqueue] at h
    grind
  | reply x b args =>
    simp only [step, Sys.enqueue] at h
    grind
  | _ =>
    first
      | (simp [Act.onPhase] at ha; done)
      | (simp only [step, Sys.finishTask, Sys.endTask, Sys.closeOver] at h
         grind [Task.live])

/-- Where `connect` is, from what was done and seen. -/
structure PhaseInv (acts : List Act) (tr : List Ev) (s : Sys) : Prop where
  start : s.phase = .handshake ↔ acts = []
  wait : s.phase = .waitOpen ↔ .handshakeOk ∈ acts ∧ .connectCancel ∉ acts ∧ ∀ r, .connectReturned r ∉ tr
  client : s.client = true ↔ (∃ sid, .connectReturned (.ok sid) ∈ tr) ∧ .dropClient ∉ acts
  dropped : .dropClient ∈ acts → ∃ sid, .connectReturned (.ok sid) ∈ tr

theorem phaseinv {cfg : RCfg} {acts : List Act} {s : Sys} {tr : List Ev} (h : Runs cfg acts s tr) : PhaseInv acts tr s := by
  refine sched_induct (P := PhaseInv) ?_ ?_ h
  · constructor <;> simp [Sys.init]
  intro acts tr s s' evs a hr ⟨h1, h2, h3, h4⟩ hs
  have hp := pinv hr
  have hci := conninv hr
  have quiet : a.onPhase = false → PhaseInv (acts ++ [a]) (tr ++ evs) s' := by
    intro ha
    obtain ⟨k1, k2, k3, k4⟩ := step_phase hs ha
    have hne : s.phase ≠ .handshake := by
      intro hx
      obtain ⟨g1, g2, g3, g4⟩ := hp.start hx
      have hc : s.client = false := by
        cases hc : s.client
        · rfl
        · obtain ⟨sid, hc⟩ := hp.client hc
          rw [hx] at hc; simp at hc
      rcases k4 with k | k | k | k | k | k | k
      · exact k g1
      · have := hp.send k; rw [hc] at this; simp at this
      · omega
      · exact k g3
      · rw [hc] at k; simp at k
      · have := hp.emit k; rw [hc] at this; simp at this
      · have := hp.call k; rw [hc] at this; simp at this
    have hno : Act.handshakeOk ≠ a ∧ Act.connectCancel ≠ a ∧ Act.dropClient ≠ a := by
      refine ⟨?_, ?_, ?_⟩ <;> rintro rfl <;> simp [Act.onPhase] at ha
    constructor
    · rw [k1]; simp [hne]
    · rw [k1, h2]; simp [hno, k3]
    · rw [k2, h3]; simp [hno, k3]
    · simpa [hno, k3] using h4
  have hsil : s.phase = .handshake ∨ s.phase = .waitOpen → ∀ r, .connectReturned r ∉ tr := by
    intro hx r hm
    have h0 := (hci.wait hx).1
    have : r ∈ connectResults tr := List.mem_filterMap.2 ⟨_, hm, rfl⟩
    rw [h0] at this
    simp at this
  have hcf : s.phase = .handshake ∨ s.phase = .waitOpen → s.client = false := by
    intro hx
    cases hc : s.client
    · rfl
    · obtain ⟨sid, hc⟩ := hp.client hc
      rcases hx with hx | hx <;> rw [hx] at hc <;> simp at hc
  have hnd : s.phase = .handshake ∨ s.phase = .waitOpen → .dropClient ∉ acts := by
    intro hx hm
    obtain ⟨sid, hm⟩ := h4 hm
    exact hsil hx _ hm
  have ret : ∀ r, s.phase = .handshake ∨ s.phase = .waitOpen → s'.phase ≠ .handshake → s'.phase ≠ .waitOpen →
      (s'.client = true ↔ ∃ sid, r = .ok sid) → evs = [.connectReturned r] → a ≠ .dropClient →
      PhaseInv (acts ++ [a]) (tr ++ evs) s' := by
    rintro r k1 k2 k3 k4 rfl k5
    have k5 := k5.symm
    constructor
    · simp [k2]
    · simp only [k3, false_iff]
      intro hx
      exact hx.2.2 r (by simp)
    · rw [k4]; simp [hnd k1, hsil k1, k5, eq_comm]
    · simp [hnd k1, k5]
  cases a with
  | handshakeOk =>
    simp only [step] at hs
    split at hs
    · rename_i hph
      simp only [Option.some.injEq, Prod.mk.injEq] at hs
      obtain ⟨rfl, rfl⟩ := hs
      obtain rfl := h1.1 hph
      have hx := hsil (Or.inl hph)
      constructor
      · simp
      · simp [hx]
      · simp [hx, hcf (Or.inl hph)]
      · simp
    · simp at hs
  | handshakeFail e =>
    simp only [step] at hs
    split at hs
    · rename_i hph
      simp only [Option.some.injEq, Prod.mk.injEq] at hs
      obtain ⟨rfl, rfl⟩ := hs
      exact ret _ (Or.inl hph) (by simp) (by simp) (by simp [hcf (Or.inl hph)]) rfl (by simp)
    · simp at hs
  | handshakeTimeout =>
    simp only [step] at hs
    split at hs
    · rename_i hph
      simp only [Option.some.injEq, Prod.mk.injEq] at hs
      obtain ⟨rfl, rfl⟩ := hs
      exact ret _ (Or.inl hph) (by simp) (by simp) (by simp [hcf (Or.inl hph)]) rfl (by simp)
    · simp at hs
  | spawnFail =>
    simp only [step] at hs
    split at hs
    · rename_i hph
      simp only [Option.some.injEq, Prod.mk.injEq] at hs
      obtain ⟨rfl, rfl⟩ := hs
      exact ret _ (Or.inl hph) (by simp) (by simp) (by simp [hcf (Or.inl hph)]) rfl (by simp)
    · simp at hs
  | openReady =>
    simp only [step] at hs
    split at hs
    · rename_i hph
      split at hs
      · simp only [Option.some.injEq, Prod.mk.injEq] at hs
        obtain ⟨rfl, rfl⟩ := hs
        exact ret _ (Or.inr hph) (by simp) (by simp) (by simp) rfl (by simp)
      · split at hs
        · simp at hs
        · simp only [Option.some.injEq, Prod.mk.injEq] at hs
          obtain ⟨rfl, rfl⟩ := hs
          exact ret _ (Or.inr hph) (by simp) (by simp) (by simp [hcf (Or.inr hph)]) rfl (by simp)
    · simp at hs
  | openTimeout =>
    simp only [step, Sys.failConnect] at hs
    split at hs
    · rename_i hph
      simp only [Option.some.injEq, Prod.mk.injEq] at hs
      obtain ⟨rfl, rfl⟩ := hs
      exact ret _ (Or.inr hph) (by simp) (by simp) (by simp [hcf (Or.inr hph)]) rfl (by simp)
    · simp at hs
  | connectCancel =>
    have key : s'.phase = .cancelled → s'.client = s.client → evs = [] →
        PhaseInv (acts ++ [.connectCancel]) (tr ++ evs) s' := by
      rintro k1 k2 rfl
      constructor
      · rw [k1]; simp
      · rw [k1]; simp
      · rw [k2, h3]; simp
      · simpa using h4
    simp only [step] at hs
    split at hs
    · simp only [Option.some.injEq, Prod.mk.injEq] at hs
      obtain ⟨rfl, rfl⟩ := hs
      exact key rfl rfl rfl
    · simp only [Option.some.injEq, Prod.mk.injEq] at hs
      obtain ⟨rfl, rfl⟩ := hs
      exact key rfl rfl rfl
    · simp at hs
  | dropClient =>
    simp only [step] at hs
    split at hs
    · rename_i hc
      simp only [Option.some.injEq, Prod.mk.injEq] at hs
      obtain ⟨rfl, rfl⟩ := hs
      obtain ⟨sid, hph⟩ := hp.client hc.1
      obtain ⟨⟨sid', hm⟩, _⟩ := h3.1 hc.1
      constructor
      · rw [hph]; simp
      · rw [h2]; simp
      · simp
      · exact fun _ => ⟨sid', by simpa using hm⟩
    · simp at hs
  | _ => exact quiet rfl

/-- C37: what can happen to `connect`.  The handshake ends once, at the start; after it `connect` can
time out or be cancelled until it returns; and it goes on exactly if the open packet was signalled
or the task has ended. -/
theorem C37_possible (cfg : RCfg) (acts : List Act) (s : Sys) (tr : List Ev) (h : Runs cfg acts s tr) :
    (∀ a, (a = .handshakeOk ∨ (∃ n, a = .handshakeFail n) ∨ a = .handshakeTimeout ∨ a = .spawnFail) →
      (step cfg s a ≠ none ↔ acts = [])) ∧
    (step cfg s .openTimeout ≠ none ↔ AwaitsOpen acts tr) ∧
    (step cfg s .connectCancel ≠ none ↔ acts = [] ∨ AwaitsOpen acts tr) ∧
    (step cfg s .openReady ≠ none ↔ AwaitsOpen acts tr ∧ ((∃ o, .eff (.opened o) ∈ tr) ∨ ∃ r, .taskEnd r ∈ tr)) := by
  obtain ⟨h1, h2, _, _⟩ := phaseinv h
  have hw : s.phase = .waitOpen ↔ AwaitsOpen acts tr :=
    h2.trans ⟨fun hx => ⟨hx.1, hx.2.1, hx.2.2⟩, fun hx => ⟨hx.shook, hx.kept, hx.silent⟩⟩
  have hi := conninv h
  refine ⟨?_, ?_, ?_, ?_⟩
  · rintro a (rfl | ⟨n, rfl⟩ | rfl | rfl) <;> rw [← h1] <;> simp only [step] <;> cases s.phase <;> simp
  · rw [← hw]; simp only [step]; cases s.phase <;> simp
  · rw [← hw, ← h1]; simp only [step]; cases s.phase <;> simp
  · rw [← hw]
    simp only [step]
    cases hph : s.phase with
    | waitOpen =>
      have hslot : s.openSlot ≠ none ↔ ∃ o, .eff (.opened o) ∈ tr := by
        constructor
        · intro hx
          cases ho : s.openSlot with
          | none => exact absurd ho hx
          | some o => exact ⟨o, hi.slot o ho⟩
        · rintro ⟨o, ho⟩ hx
          exact hi.empty hx o ho
      have hlive : s.task.live = false ↔ ∃ r, .taskEnd r ∈ tr := by
        constructor
        · intro hl
          cases ht : s.task with
          | unborn => exact absurd hph ((pinv h).unborn ht).2.2
          | running => rw [ht] at hl; simp [Task.live] at hl
          | writing l => rw [ht] at hl; simp [Task.live] at hl
          | closing => rw [ht] at hl; simp [Task.live] at hl
          | done r => exact ⟨r, (einv h).done r ht⟩
          | dropped =>
            have := hi.dropped ht
            rw [(hi.wait (Or.inr hph)).2.1] at this; simp at this
        · rintro ⟨r, hm⟩
          obtain ⟨a, b, hab⟩ := mem_split hm
          have := ((einv h).after _ _ _ hab (Or.inl ⟨r, rfl⟩)).1
          rw [this]; rfl
      rw [← hslot, ← hlive]
      cases ho : s.openSlot with
      | some o => simp
      | none => cases hl : s.task.live <;> simp
    | _ => simp

/-- What `connect` returns, and for what. -/
inductive Spec.Returns (tr : List Ev) : Act → Res CErr Str → Prop where
  | handshakeFail (n : Nat) : Returns tr (.handshakeFail n) (.err (.websocket n))
  | handshakeTimeout : Returns tr .handshakeTimeout (.err (.timeout .handshake))
  | spawnFail : Returns tr .spawnFail (.err .spawn)
  | openTimeout : Returns tr .openTimeout (.err (.timeout .openPacket))
  | ready (o : Open) : .eff (.opened o) ∈ tr → Returns tr .openReady (.ok o.sid)
  | gone : (∀ o, .eff (.opened o) ∉ tr) → Returns tr .openReady .panic

theorem opened_unique {cfg : RCfg} {acts : List Act} {s : Sys} {tr : List Ev} (h : Runs cfg acts s tr) {o o' : Open}
    (h1 : .eff (.opened o) ∈ tr) (h2 : .eff (.opened o') ∈ tr) : o = o' := by
  obtain ⟨a, b, hab⟩ := mem_split h1
  rw [hab, List.mem_append, List.mem_cons] at h2
  rcases h2 with h2 | h2 | h2
  · exact absurd h2 (((C42_system cfg acts s tr h).2 a b o hab).1 o')
  · simpa using h2.symm
  · obtain ⟨c, d, hcd⟩ := mem_split h2
    have := ((C42_system cfg acts s tr h).2 (a ++ .eff (.opened o) :: c) d o' (by rw [hab, hcd]; simp)).1 o
    simp at this

/-- C37: an action makes `connect` return exactly if it is one of those, and with that result. -/
theorem C37_returns (cfg : RCfg) (acts : List Act) (s s' : Sys) (tr evs : List Ev) (h : Runs cfg acts s tr) (a : Act)
    (hs : step cfg s a = some (s', evs)) (r : Res CErr Str) : .connectReturned r ∈ evs ↔ Returns tr a r := by
  have hi := conninv h
  cases ha : a.onPhase with
  | false =>
    have hk := (step_phase hs ha).2.2.1 r
    simp only [hk, false_iff]
    intro hx
    cases hx <;> simp [Act.onPhase] at ha
  | true =>
    cases a with
    | openReady =>
      simp only [step] at hs
      split at hs
      · split at hs
        · rename_i o ho
          simp only [Option.some.injEq, Prod.mk.injEq] at hs
          rw [← hs.2]
          simp only [List.mem_singleton, Ev.connectReturned.injEq]
          constructor
          · rintro rfl; exact .ready o (hi.slot o ho)
          · intro hx
            cases hx with
            | ready o' ho' => rw [opened_unique h ho' (hi.slot o ho)]
            | gone hx => exact absurd (hi.slot o ho) (hx o)
        · rename_i ho
          split at hs
          · simp at hs
          · simp only [Option.some.injEq, Prod.mk.injEq] at hs
            rw [← hs.2]
            simp only [List.mem_singleton, Ev.connectReturned.injEq]
            constructor
            · rintro rfl; exact .gone (hi.empty ho)
            · intro hx
              cases hx with
              | ready o' ho' => exact absurd ho' (hi.empty ho o')
              | gone hx => rfl
      · simp at hs
    | handshakeOk =>
      have : evs = [] := by simp only [step] at hs; grind
      subst this
      simp only [List.not_mem_nil, false_iff]
      intro hx; cases hx
    | connectCancel =>
      have : evs = [] := by simp only [step] at hs; grind
      subst this
      simp only [List.not_mem_nil, false_iff]
      intro hx; cases hx
    | dropClient =>
      have : evs = [] := by simp only [step] at hs; grind
      subst this
      simp only [List.not_mem_nil, false_iff]
      intro hx; cases hx
    | handshakeFail n =>
      simp only [step] at hs
      split at hs
      · simp only [Option.some.injEq, Prod.mk.injEq] at hs
        rw [← hs.2]
        simp only [List.mem_singleton, Ev.connectReturned.injEq]
        exact ⟨by rintro rfl; constructor, by intro hx; cases hx; rfl⟩
      · simp at hs
    | handshakeTimeout =>
      simp only [step] at hs
      split at hs
      · simp only [Option.some.injEq, Prod.mk.injEq] at hs
        rw [← hs.2]
        simp only [List.mem_singleton, Ev.connectReturned.injEq]
        exact ⟨by rintro rfl; constructor, by intro hx; cases hx; rfl⟩
      · simp at hs
    | spawnFail =>
      simp only [step] at hs
      split at hs
      · simp only [Option.some.injEq, Prod.mk.injEq] at hs
        rw [← hs.2]
        simp only [List.mem_singleton, Ev.connectReturned.injEq]
        exact ⟨by rintro rfl; constructor, by intro hx; cases hx; rfl⟩
      · simp at hs
    | openTimeout =>
      simp only [step, Sys.failConnect] at hs
      split at hs
      · simp only [Option.some.injEq, Prod.mk.injEq] at hs
        rw [← hs.2]
        simp only [List.mem_singleton, Ev.connectReturned.injEq]
        exact ⟨by rintro rfl; constructor, by intro hx; cases hx; rfl⟩
      · simp at hs
    | _ => simp [Act.onPhase] at ha

/-- C37: the application has the client from the moment `connect` returned it until it drops it. -/
theorem C37_owner (cfg : RCfg) (acts : List Act) (s : Sys) (tr : List Ev) (h : Runs cfg acts s tr) :
    s.client = true ↔ (∃ sid, .connectReturned (.ok sid) ∈ tr) ∧ .dropClient ∉ acts :=
  (phaseinv h).client

/-- C33: the waiting task sees the close signal exactly if `close` was called, or the sender of the
signal is gone with the client or with a `connect` that timed out or was cancelled. -/
theorem C33_signal (cfg : RCfg) (acts : List Act) (s : Sys) (tr : List Ev) (h : Runs cfg acts s tr) (ht : s.task = .running) :
    (∃ s', step cfg s .seeClose = some (s', [.closeSeen])) ↔
      .closeRequested ∈ tr ∨ .openTimeout ∈ acts ∨ .connectCancel ∈ acts ∨ .dropClient ∈ acts := by
  have key : s.task.live = true →
      (s.closeSig = true ↔ .closeRequested ∈ tr ∨ .openTimeout ∈ acts ∨ .connectCancel ∈ acts ∨ .dropClient ∈ acts) := by
    refine sched_induct (P := fun acts tr s => s.task.live = true →
      (s.closeSig = true ↔ .closeRequested ∈ tr ∨ .openTimeout ∈ acts ∨ .connectCancel ∈ acts ∨ .dropClient ∈ acts)) ?_ ?_ h
    · simp [Sys.init, Task.live]
    intro acts tr s s' evs a hr hi hs hl
    obtain ⟨k1, k2⟩ := step_sig hs (pinv hr) hl
    have h0 : s.closeSig = true ↔ .closeRequested ∈ tr ∨ .openTimeout ∈ acts ∨ .connectCancel ∈ acts ∨ .dropClient ∈ acts := by
      rcases k2 with k2 | rfl
      · exact hi k2
      · have hph : s.phase = .handshake := by
          simp only [step] at hs
          split at hs
          · assumption
          · simp at hs
        obtain rfl := (phaseinv hr).start.1 hph
        simp only [Runs, exec, Option.some.injEq, Prod.mk.injEq] at hr
        obtain ⟨rfl, rfl⟩ := hr
        simp [Sys.init]
    rw [k1, h0]
    simp only [List.mem_append, List.mem_singleton, eq_comm (b := a)]
    grind
  rw [← key (by rw [ht]; rfl)]
  simp [step, ht]

/-- How often a reply handle was used up. -/
def Spec.uses (x : AckHandle) (acts : List Act) : Nat :=
  (acts.filter fun
    | .reply y _ _ => y == x
    | .dropHandle y => y == x
    | _ => false).length

theorem uses_snoc (x : AckHandle) (acts : List Act) (a : Act) :
    uses x (acts ++ [a]) = uses x acts + (match a with
      | .reply y _ _ => if y = x then 1 else 0
      | .dropHandle y => if y = x then 1 else 0
      | _ => 0) := by
  simp only [uses, List.filter_append, List.length_append]
  congr 1
  cases a <;> simp [List.filter] <;> split <;> simp_all

theorem effects_handles (effs : List Eff) : ∀ s : Sys, (s.effects effs).1.handles = s.handles ++ handed (s.effects effs).2 := by
  induction effs with
  | nil => intro s; simp [Sys.effects, handed]
  | cons e effs ih =>
    intro s
    have h1 : (s.effect e).1.handles = s.handles ++ handed (s.effect e).2 := by
      cases e with
      | enqueue g => simp only [Sys.effect, Sys.enqueue]; split <;> simp [handed]
      | event ns name cb A ack => cases ack <;> simp [Sys.effect, handed]
      | _ => simp [Sys.effect, handed]
    simp only [Sys.effects]
    rw [ih, h1]
    simp

theorem recv_handles (cfg : RCfg) (s : Sys) (w : Ws) (p : Bool) :
    (s.recv cfg w p).1.handles = s.handles ++ handed (s.recv cfg w p).2 := by
  have h1 := effects_handles (processWs cfg s.rx s.reg w).effs
    { s with rx := (processWs cfg s.rx s.reg w).st, reg := (processWs cfg s.rx s.reg w).reg }
  have h2 : ∀ e : Ev, ∀ l, (∀ a b c d x, e ≠ .eff (.event a b c d x)) → handed (e :: l) = handed l := by
    intro e l he
    unfold handed
    rw [List.filterMap_cons]
    split
    · rfl
    · rename_i x hx
      split at hx
      · exact absurd rfl (he _ _ _ _ _)
      · simp at hx
  unfold Sys.recv
  simp only
  split
  · simp only [Sys.finishTask, Sys.endTask]
    rw [h2 _ _ (by simp), handed_append, h2 _ _ (by simp), h1]
    simp [handed]
  · split
    · rw [h2 _ _ (by simp), h1]
    · simp only [Sys.finishTask, Sys.endTask]
      rw [h2 _ _ (by simp), handed_append, h2 _ _ (by simp), h1]
      simp [handed]
    · simp only [Sys.finishTask, Sys.endTask]
      rw [h2 _ _ (by simp), handed_append, h2 _ _ (by simp), h1]
      simp [handed]

set_option maxHeartbeats 1000000 in
theorem step_handles {cfg : RCfg} {s s' : Sys} {a : Act} {evs : List Ev} (h : step cfg s a = some (s', evs))
    (h1 : ∀ x b vs, a ≠ .reply x b vs) (h2 : ∀ x, a ≠ .dropHandle x) : s'.handles = s.handles ++ handed evs := by
  cases a with
  | recv w p =>
    have := recv_handles cfg s w p
    simp only [step] at h
    split at h
    · simp only [Option.some.injEq] at h; rwa [h] at this
    · simp only [Option.some.injEq] at h; rwa [h] at this
    · simp at h
  | reply x b vs => exact absurd rfl (h1 _ _ _)
  | dropHandle x => exact absurd rfl (h2 _)
  | rawSend g =>
    simp only [step, Sys.enqueue] at h
    grind [handed]
  | emitEnqueue =>
    simp only [step, Sys.enqueue] at h
    grind [handed]
  | _ =>
    simp only [step, Sys.finishTask, Sys.endTask, Sys.failConnect, Sys.closeOver] at h
    grind [handed]

/-- C41: every reply handle a callback got is either still there or was used up once, by a reply or
by dropping it; with a handle a reply is always possible, without one it never is. -/
theorem C41_used (cfg : RCfg) (acts : List Act) (s : Sys) (tr : List Ev) (h : Runs cfg acts s tr) (x : AckHandle) :
    uses x acts + s.handles.count x = (handed tr).count x ∧
    (∀ b vs, step cfg s (.reply x b vs) ≠ none ↔ uses x acts < (handed tr).count x) ∧
    (step cfg s (.dropHandle x) ≠ none ↔ uses x acts < (handed tr).count x) := by
  have key : uses x acts + s.handles.count x = (handed tr).count x := by
    refine sched_induct (P := fun acts tr s => uses x acts + s.handles.count x = (handed tr).count x) ?_ ?_ h
    · simp [uses, Sys.init, handed]
    intro acts tr s s' evs a hr hi hs
    have herase : ∀ y, y ∈ s.handles → s'.handles = s.handles.erase y → handed evs = [] →
        uses x acts + (if y = x then 1 else 0) + s'.handles.count x = (handed (tr ++ evs)).count x := by
      intro y hy k1 k2
      have := (List.perm_cons_erase hy).count_eq x
      rw [List.count_cons] at this
      rw [k1, handed_append, k2, List.append_nil, ← hi, this]
      by_cases hyx : y = x <;> simp [hyx] <;> omega
    cases a with
    | reply y b vs =>
      rw [uses_snoc]
      simp only [step] at hs
      split at hs
      · rename_i hy
        split at hs
        · simp only [Option.some.injEq, Prod.mk.injEq] at hs
          obtain ⟨rfl, rfl⟩ := hs
          exact herase y hy rfl rfl
        · simp only [Sys.enqueue] at hs
          split at hs <;> simp only [Option.some.injEq, Prod.mk.injEq] at hs <;> obtain ⟨rfl, rfl⟩ := hs <;>
            exact herase y hy rfl rfl
      · simp at hs
    | dropHandle y =>
      rw [uses_snoc]
      simp only [step] at hs
      split at hs
      · rename_i hy
        simp only [Option.some.injEq, Prod.mk.injEq] at hs
        obtain ⟨rfl, rfl⟩ := hs
        exact herase y hy rfl rfl
      · simp at hs
    | _ =>
      have := step_handles hs (by simp) (by simp)
      rw [this, uses_snoc, List.count_append, handed_append, List.count_append]
      simp only
      omega
  have hmem : x ∈ s.handles ↔ uses x acts < (handed tr).count x := by
    rw [← key, ← List.count_pos_iff]; omega
  refine ⟨key, ?_, ?_⟩
  · intro b vs
    rw [← hmem]
    simp only [step]
    split
    · rename_i hm; split <;> simp [hm]
    · rename_i hm; simp [hm]
  · rw [← hmem]
    simp only [step]
    split <;> rename_i hm <;> simp [hm]

/-- A call of `close` that took the handle of the task has not returned yet. -/
structure Spec.ClosePending (acts : List Act) (tr : List Ev) : Prop where
  called : .closeRequested ∈ tr
  silent : ∀ r, .closeReturned r ∈ tr → r = .err .alreadyClosed
  kept : .closeCancel ∉ acts

/-- The actions of `close`. -/
def Act.onClose : Act → Bool
  | .closeStart | .closeReady | .closeTimeout | .closeCancel => true
  | _ => false

set_option maxHeartbeats 1000000 in
theorem step_close {cfg : RCfg} {s s' : Sys} {a : Act} {evs : List Ev} (h : step cfg s a = some (s', evs))
    (ha : a.onClose = false) :
    s'.closeCall = s.closeCall ∧ .closeRequested ∉ evs ∧ ∀ r, .closeReturned r ∉ evs := by
  cases a with
  | recv w p =>
    obtain ⟨rx, reg, slot, hs, n, q, po, t, hf⟩ := recv_frame cfg s w p
    have hev := recv_events cfg s w p
    have key : s.recv cfg w p = (s', evs) → s'.closeCall = s.closeCall ∧ .closeRequested ∉ evs ∧ ∀ r, .closeReturned r ∉ evs := by
      intro hx
      rw [hx] at hf hev
      simp only at hf hev
      refine ⟨by rw [hf], ?_, ?_⟩
      · intro hm
        rcases hev _ hm with h | ⟨x, h⟩ | ⟨g, h | h⟩ | ⟨r, h⟩ <;> simp at h
      · intro r hm
        rcases hev _ hm with h | ⟨x, h⟩ | ⟨g, h | h⟩ | ⟨r, h⟩ <;> simp at h
    simp only [step] at h
    split at h
    · exact key (by simpa using h)
    · exact key (by simpa using h)
    · simp at h
  | rawSend g =>
    simp only [step, Sys.enqueue] at h
    grind
  | emitEnqueue =>
    simp only [step, Sys.enqueue] at h
    grind
  | reply x b args =>
    simp only [step, Sys.enqueue] at h
    grind
  | _ =>
    first
      | (simp [Act.onClose] at ha; done)
      | (simp only [step, Sys.finishTask, Sys.endTask, Sys.failConnect] at h
         grind)

theorem close_pending {cfg : RCfg} {acts : List Act} {s : Sys} {tr : List Ev} (h : Runs cfg acts s tr) :
    s.closeCall = true ↔ ClosePending acts tr := by
  have key : (s.closeCall = true ↔ .closeRequested ∈ tr ∧ (∀ r, .closeReturned r ∈ tr → r = .err .alreadyClosed) ∧
      .closeCancel ∉ acts) ∧ ((∃ r, .closeReturned r ∈ tr) ∨ .closeCancel ∈ acts → .closeRequested ∈ tr) := by
    refine sched_induct (P := fun acts tr s => (s.closeCall = true ↔ .closeRequested ∈ tr ∧
      (∀ r, .closeReturned r ∈ tr → r = .err .alreadyClosed) ∧ .closeCancel ∉ acts) ∧
      ((∃ r, .closeReturned r ∈ tr) ∨ .closeCancel ∈ acts → .closeRequested ∈ tr)) ?_ ?_ h
    · simp [Sys.init]
    intro acts tr s s' evs a hr ⟨h1, h2⟩ hs
    cases ha : a.onClose with
    | false =>
      obtain ⟨k1, k2, k3⟩ := step_close hs ha
      have hno : Act.closeCancel ≠ a := by rintro rfl; simp [Act.onClose] at ha
      constructor
      · rw [k1, h1]; simp [k2, k3, hno]
      · simpa [k2, k3, hno] using h2
    | true =>
      cases a with
      | closeStart =>
        simp only [step] at hs
        split at hs
        · rename_i hc
          split at hs
          · rename_i hh
            have hn : .closeRequested ∉ tr := by
              intro hm
              have := (cinv hr).here hh
              have := (closeRequests_pos tr).2 hm
              omega
            have hq : ¬ ((∃ r, .closeReturned r ∈ tr) ∨ .closeCancel ∈ acts) := fun hx => hn (h2 hx)
            simp only [Option.some.injEq, Prod.mk.injEq] at hs
            obtain ⟨rfl, rfl⟩ := hs
            constructor
            · simp only [List.mem_append, List.mem_singleton, or_true, true_and, reduceCtorEq, or_false, true_iff]
              exact ⟨fun r hm => absurd (Or.inl ⟨r, hm⟩) hq, fun hm => hq (Or.inr hm)⟩
            · simp
          · rename_i hh
            have hm : .closeRequested ∈ tr := by
              have := (cinv hr).gone hc.1 (by simpa using hh)
              exact (closeRequests_pos tr).1 (by omega)
            simp only [Option.some.injEq, Prod.mk.injEq] at hs
            obtain ⟨rfl, rfl⟩ := hs
            constructor
            · rw [h1]
              simp only [List.mem_append, List.mem_singleton, reduceCtorEq, or_false, Ev.closeReturned.injEq]
              grind
            · simp [hm]
        · simp at hs
      | closeReady =>
        simp only [step] at hs
        split at hs
        · rename_i hc
          have hm := (h1.1 hc).1
          split at hs
          · rename_i r ht
            have hr2 : r ≠ .err .alreadyClosed := by
              rintro rfl
              rcases end_results hr _ ((einv hr).done _ ht) _ rfl with ⟨n, hx⟩ | ⟨n, hx⟩ <;> simp at hx
            simp only [Option.some.injEq, Prod.mk.injEq] at hs
            obtain ⟨rfl, rfl⟩ := hs
            constructor
            · simp only [Sys.closeOver, Bool.false_eq_true, false_iff]
              intro hx
              exact hr2 (hx.2.1 r (by simp))
            · simp [hm]
          · simp at hs
        · simp at hs
      | closeTimeout =>
        simp only [step] at hs
        split at hs
        · rename_i hc
          have hm := (h1.1 hc).1
          simp only [Option.some.injEq, Prod.mk.injEq] at hs
          obtain ⟨rfl, rfl⟩ := hs
          constructor
          · simp only [Sys.closeOver, Bool.false_eq_true, false_iff]
            intro hx
            have := hx.2.1 (.err (.timeout .close)) (by simp)
            simp at this
          · simp [hm]
        · simp at hs
      | closeCancel =>
        simp only [step] at hs
        split at hs
        · rename_i hc
          have hm := (h1.1 hc).1
          simp only [Option.some.injEq, Prod.mk.injEq] at hs
          obtain ⟨rfl, rfl⟩ := hs
          simp [Sys.closeOver, hm]
        · simp at hs
      | _ => simp [Act.onClose] at ha
  rw [key.1]
  exact ⟨fun hx => ⟨hx.1, hx.2.1, hx.2.2⟩, fun hx => ⟨hx.called, hx.silent, hx.kept⟩⟩

/-- C34: what can happen to `close`.  With the client in hand it can be called whenever no call is
pending; a pending call can time out and be cancelled at any time, and returns the result of the
task exactly if that has ended. -/
theorem C34_possible (cfg : RCfg) (acts : List Act) (s : Sys) (tr : List Ev) (h : Runs cfg acts s tr) :
    (step cfg s .closeStart ≠ none ↔ s.client = true ∧ ¬ ClosePending acts tr) ∧
    ((∃ s', step cfg s .closeTimeout = some (s', [.closeReturned (.err (.timeout .close))])) ↔ ClosePending acts tr) ∧
    ((∃ s', step cfg s .closeCancel = some (s', [])) ↔ ClosePending acts tr) ∧
    (∀ r, (∃ s', step cfg s .closeReady = some (s', [.closeReturned r])) ↔ ClosePending acts tr ∧ .taskEnd r ∈ tr) := by
  rw [← close_pending h]
  have hd : ∀ r, .taskEnd r ∈ tr ↔ s.task = .done r := by
    intro r
    constructor
    · intro hm
      obtain ⟨a, b, hab⟩ := mem_split hm
      exact ((einv h).after _ _ _ hab (Or.inl ⟨r, rfl⟩)).1
    · exact (einv h).done r
  refine ⟨?_, ?_, ?_, ?_⟩
  · simp only [step]
    split <;> rename_i hc
    · simp only [hc]
      split <;> simp
    · simp only [ne_eq, not_true_eq_false, false_iff]
      exact hc
  · simp [step]
  · simp [step]
  · intro r
    rw [hd r]
    simp only [step]
    cases hc : s.closeCall with
    | false => simp
    | true =>
      cases ht : s.task <;> simp

-- non-vacuity: `connect` waits, and its websocket task ends; `connect` panics
example : seen exCfg [.handshakeOk, .streamEnd, .openReady] = some [.taskEnd .ok, .connectReturned .panic] := by
  decide +kernel
-- a cancelled `connect`: the task sees that the sender of the close signal is gone
example : seen exCfg [.handshakeOk, .connectCancel, .seeClose, .streamErr 3] = some [.closeSeen, .taskEnd (.websocket 3)] := by
  decide +kernel
-- nothing can be done twice at the start, and nothing waits for an open packet after a timeout
example : seen exCfg [.handshakeOk, .handshakeOk] = none ∧ seen exCfg [.handshakeOk, .openTimeout, .openReady] = none := by
  decide +kernel
-- a closed channel: the task panics as soon as the queue is empty, not earlier
example : seen exCfg (exConnect ++ [.rawSend [.text ['x']], .closeChannel, .dequeue, .write, .endGroup, .dequeue]) =
    some [.received exOpen, .opened ['s'], .connectReturned .ok, .enqueued .raw [.text ['x']], .dequeued [.text ['x']],
      .wrote (.text ['x']), .groupDone, .taskEnd .panic] := by
  decide +kernel
-- the senders: in the task, in the connection, in the client, a clone and a reply handle
example : (exec exCfg Sys.init (exConnect ++ [.cloneSender, .reg (.setEvent ['/'] ['e'] 5),
      .recv (.text "427[\"e\"]".toList) false])).map (fun x => (x.1.senders, x.1.handles)) = some (5, [⟨['/'], 7⟩]) := by
  decide +kernel
-- a handle is used up by the reply
example : seen exCfg (exConnect ++ [.reg (.setEvent ['/'] ['e'] 5), .recv (.text "427[\"e\"]".toList) false,
      .reply ⟨['/'], 7⟩ false [.int 1], .dropHandle ⟨['/'], 7⟩]) = none ∧
    seen exCfg (exConnect ++ [.reg (.setEvent ['/'] ['e'] 5), .recv (.text "427[\"e\"]".toList) false,
      .reply ⟨['/'], 7⟩ false [.int 1]]) ≠ none := by
  decide +kernel
-- a second call of `close` while the first is pending is not possible (it borrows the client)
example : seen exCfg (exConnect ++ [.closeStart, .closeStart]) = none ∧
    seen exCfg (exConnect ++ [.closeStart, .closeReady]) = none := by
  decide +kernel

end SIO
