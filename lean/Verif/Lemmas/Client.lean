import Verif.Client
import Verif.Lemmas.Receiver
/-
The transitions of the client machine, one constructor for each outcome.
-/
namespace SIO
open Spec

theorem ROut.ext_iff' (o : ROut) : o = ⟨o.st, o.reg, o.effs, o.res⟩ := by cases o; rfl

/-- The task reads from the connection. -/
def Task.reads (t : Task) : Prop := t = .running ∨ t = .closing

theorem Task.reads.live {t : Task} (h : t.reads) : t.live = true := by rcases h with rfl | rfl <;> rfl

/-- What the code does before it puts a group into the queue. -/
inductive Sends (cfg : RCfg) (s : Sys) : Src → List Ws → Sys → List Ev → Prop where
  | pong (w : Ws) (st : RState) : s.task.reads → IsPing w →
      processWs cfg s.rx s.reg w = ⟨st, s.reg, [.enqueue [.text ['3']]], .ok ()⟩ →
      Sends cfg s .pong [.text ['3']] { s with rx := st } [.received w, .eff (.enqueue [.text ['3']])]
  | raw (g : List Ws) : s.ownSend = true ∨ 0 < s.clones → Sends cfg s .raw g s []
  | emit (ns : Str) (cb : Option (Nat × Cb)) (g : List Ws) : s.emit = some (.sending ns cb g) → s.ownSend = true →
      Sends cfg s (.emit ns cb) g { s with emit := none } []
  | reply (h : AckHandle) (b : Bool) (args : List SVal) (g : List Ws) : h ∈ s.handles →
      (args.foldl (fun b v => (b.serializeArg v).1) (Builder.newAck h.ns h.id b)).finish = .ok g →
      Sends cfg s (.reply h) g { s with handles := s.handles.erase h, senders := s.senders - 1 } []

/-- The system with a new reply handle. -/
def Sys.withHandle (s : Sys) : Option AckHandle → Sys
  | some h => { s with handles := s.handles ++ [h], senders := s.senders + 1 }
  | none => s

/-- One transition. -/
inductive Trans (cfg : RCfg) (s : Sys) : Sys → List Ev → Prop where
  | handshakeOk : s.phase = .handshake →
      Trans cfg s { s with phase := .waitOpen, task := .running, senders := 2 } []
  | connectFail (e : CErr) : s.phase = .handshake → ((∃ n, e = .websocket n) ∨ e = .spawn ∨ e = .timeout .handshake) →
      Trans cfg s { s with phase := .failed e } [.connectReturned (.err e)]
  | openOk (o : Open) : s.phase = .waitOpen → s.openSlot = some o →
      Trans cfg s { s with phase := .connected o.sid, client := true, ownSend := true, handleHere := true,
                           senders := s.senders + 1 }
        [.connectReturned (.ok o.sid)]
  | openPanic : s.phase = .waitOpen → s.openSlot = none → s.task.live = false →
      Trans cfg s { s with phase := .panicked, closeSig := true, handleDropped := true, senders := s.senders - 1 }
        [.connectReturned .panic]
  | openTimeout : s.phase = .waitOpen →
      Trans cfg s { s with phase := .failed (.timeout .openPacket), closeSig := true, handleDropped := true,
                           senders := s.senders - 1 } [.connectReturned (.err (.timeout .openPacket))]
  | cancelEarly : s.phase = .handshake → Trans cfg s { s with phase := .cancelled } []
  | cancel : s.phase = .waitOpen →
      Trans cfg s { s with phase := .cancelled, closeSig := true, handleDropped := true, senders := s.senders - 1 } []
  -- receiving
  | recvQuiet (w : Ws) (st : RState) : s.task.reads →
      processWs cfg s.rx s.reg w = ⟨st, s.reg, [], .ok ()⟩ → Trans cfg s { s with rx := st } [.received w]
  | recvErr (w : Ws) (st : RState) (e : RErr) : s.task.reads →
      processWs cfg s.rx s.reg w = ⟨st, s.reg, [], .err e⟩ →
      Trans cfg s ({ s with rx := st }.endTask (.done (.err (.processing e))))
        [.received w, .taskEnd (.err (.processing e))]
  | recvPanic (w : Ws) (st : RState) : s.task.reads →
      processWs cfg s.rx s.reg w = ⟨st, s.reg, [], .panic⟩ →
      Trans cfg s ({ s with rx := st }.endTask (.done .panic)) [.received w, .taskEnd .panic]
  | recvNoAck (w : Ws) (st : RState) (ns : Str) (id : Nat) (pk : Packet) : s.task.reads → s.reg.ak ns id = none →
      processWs cfg s.rx s.reg w = ⟨st, (RegOp.takeAck ns id).run s.reg, [], .err (.unexpectedAck pk)⟩ →
      Trans cfg s ({ s with rx := st, reg := (RegOp.takeAck ns id).run s.reg }.endTask
        (.done (.err (.processing (.unexpectedAck pk)))))
        [.received w, .taskEnd (.err (.processing (.unexpectedAck pk)))]
  | recvOpened (w : Ws) (st : RState) (o : Open) : s.task.reads →
      processWs cfg s.rx s.reg w = ⟨st, s.reg, [.opened o], .ok ()⟩ →
      Trans cfg s { s with rx := st, openSlot := some o } [.received w, .eff (.opened o)]
  | recvSecond (w : Ws) (st : RState) (o : Open) : s.task.reads →
      processWs cfg s.rx s.reg w = ⟨st, s.reg, [.secondOpen o], .ok ()⟩ →
      Trans cfg s { s with rx := st } [.received w, .eff (.secondOpen o)]
  | recvEvent (w : Ws) (st : RState) (ns name : Str) (cb : Cb) (A : Args) (ack : Option AckHandle) : s.task.reads →
      s.reg.getEvent ns name = some cb →
      processWs cfg s.rx s.reg w = ⟨st, s.reg, [.event ns name cb A ack], .ok ()⟩ →
      Trans cfg s ({ s with rx := st }.withHandle ack) [.received w, .eff (.event ns name cb A ack)]
  | recvEventPanic (w : Ws) (st : RState) (ns name : Str) (cb : Cb) (A : Args) (ack : Option AckHandle) : s.task.reads →
      s.reg.getEvent ns name = some cb →
      processWs cfg s.rx s.reg w = ⟨st, s.reg, [.event ns name cb A ack], .ok ()⟩ →
      Trans cfg s ({ { s with rx := st }.withHandle ack with poisoned := true }.endTask (.done .panic))
        [.received w, .eff (.event ns name cb A ack), .taskEnd .panic]
  | recvAck (w : Ws) (st : RState) (ns : Str) (id : Nat) (cb : Cb) (A : Args) : s.task.reads →
      s.reg.ak ns id = some cb →
      processWs cfg s.rx s.reg w = ⟨st, (RegOp.takeAck ns id).run s.reg, [.ack ns id cb A], .ok ()⟩ →
      Trans cfg s { s with rx := st, reg := (RegOp.takeAck ns id).run s.reg }
        [.received w, .eff (.ack ns id cb A)]
  | recvAckPanic (w : Ws) (st : RState) (ns : Str) (id : Nat) (cb : Cb) (A : Args) : s.task.reads →
      s.reg.ak ns id = some cb →
      processWs cfg s.rx s.reg w = ⟨st, (RegOp.takeAck ns id).run s.reg, [.ack ns id cb A], .ok ()⟩ →
      Trans cfg s ({ s with rx := st, reg := (RegOp.takeAck ns id).run s.reg, poisoned := true }.endTask (.done .panic))
        [.received w, .eff (.ack ns id cb A), .taskEnd .panic]
  | streamErr (e : Nat) : s.task.reads →
      Trans cfg s (s.endTask (.done (.err (.websocket e)))) [.taskEnd (.err (.websocket e))]
  | streamEnd : s.task.reads → Trans cfg s (s.endTask (.done (.ok ()))) [.taskEnd (.ok ())]
  -- sending
  | sendOk (src : Src) (g : List Ws) (s0 : Sys) (evs : List Ev) : Sends cfg s src g s0 evs →
      s.task.live = true → s.chanClosed = false →
      Trans cfg s { s0 with queue := s.queue ++ [g] } (evs ++ [.enqueued src g])
  | sendFail (src : Src) (g : List Ws) (s0 : Sys) (evs : List Ev) : Sends cfg s src g s0 evs →
      (s.task.live = false ∨ s.chanClosed = true) →
      Trans cfg s s0 (evs ++ [.sendFailed src g])
  | dequeue (g : List Ws) (q : List (List Ws)) : s.task = .running → s.queue = g :: q →
      Trans cfg s { s with queue := q, task := .writing g } [.dequeued g]
  | queueEnd : s.task = .running → s.queue = [] → (s.chanClosed = true ∨ s.senders = 0) →
      Trans cfg s (s.endTask (.done .panic)) [.taskEnd .panic]
  | write (w : Ws) (rest : List Ws) : s.task = .writing (w :: rest) →
      Trans cfg s { s with task := .writing rest } [.wrote w]
  | writeFail (w : Ws) (rest : List Ws) (e : Nat) : s.task = .writing (w :: rest) →
      Trans cfg s (s.endTask (.done (.err (.websocket e)))) [.writeFailed w, .taskEnd (.err (.websocket e))]
  | endGroup : s.task = .writing [] → Trans cfg s { s with task := .running } [.groupDone]
  | seeClose : s.task = .running → s.closeSig = true → Trans cfg s { s with task := .closing } [.closeSeen]
  | dropTask : s.task.live = true → s.handleDropped = true → Trans cfg s (s.endTask .dropped) [.taskDropped]
  -- the application
  | userPanic : s.client = true → Trans cfg s s [.userPanic]
  | reg (op : RegOp) : s.client = true → op.public = true → s.poisoned = false →
      Trans cfg s { s with reg := op.run s.reg } [.regOp op]
  | cloneSender : s.ownSend = true ∨ 0 < s.clones →
      Trans cfg s { s with clones := s.clones + 1, senders := s.senders + 1 } []
  | dropSender : 0 < s.clones → Trans cfg s { s with clones := s.clones - 1, senders := s.senders - 1 } []
  | closeChannel : s.ownSend = true ∨ 0 < s.clones → Trans cfg s { s with chanClosed := true } []
  | takeSend : s.ownSend = true → s.emit = none →
      Trans cfg s { s with ownSend := false, clones := s.clones + 1 } []
  | putSend : s.client = true → s.ownSend = false → s.emit = none → 0 < s.clones →
      Trans cfg s { s with ownSend := true, clones := s.clones - 1 } []
  | emitStart (ns ev : Str) : s.client = true → s.emit = none →
      Trans cfg s { s with emit := some (.building ns ev false none) } []
  | emitBinary (ns ev : Str) (b b' : Bool) (cb : Option (Nat × Cb)) : s.emit = some (.building ns ev b cb) →
      Trans cfg s { s with emit := some (.building ns ev b' cb) } []
  | emitCallback (ns ev : Str) (b : Bool) (cb : Option (Nat × Cb)) : s.emit = some (.building ns ev b cb) →
      Trans cfg s { s with emit := some (.building ns ev b (some (s.nextId, s.allocs))),
                           nextId := (s.nextId + 1) % u64Bound, allocs := s.allocs + 1 } [.allocated s.nextId s.allocs]
  | emitArgs (ns ev : Str) (b : Bool) (cb : Option (Nat × Cb)) (bld : Builder) : s.emit = some (.building ns ev b cb) →
      Builder.newEvent ev ns (cb.map Prod.fst) b = .ok bld →
      Trans cfg s { s with emit := some (.args ns cb bld) } []
  | emitArg (ns : Str) (cb : Option (Nat × Cb)) (bld : Builder) (v : SVal) : s.emit = some (.args ns cb bld) →
      Trans cfg s { s with emit := some (.args ns cb (bld.serializeArg v).1) } []
  | emitPanic : (∀ ns cb g, s.emit ≠ some (.sending ns cb g)) → Trans cfg s { s with emit := none } [.userPanic]
  | emitSend (ns : Str) (bld : Builder) (g : List Ws) : s.emit = some (.args ns none bld) → bld.finish = .ok g →
      Trans cfg s { s with emit := some (.sending ns none g) } []
  | emitRegister (ns : Str) (id : Nat) (cb : Cb) (bld : Builder) (g : List Ws) :
      s.emit = some (.args ns (some (id, cb)) bld) → bld.finish = .ok g → s.poisoned = false →
      Trans cfg s { s with emit := some (.sending ns (some (id, cb)) g), reg := s.reg.setAck ns id cb }
        [.registered ns id cb]
  | emitElsewhere (ns : Str) (cb : Option (Nat × Cb)) (g : List Ws) : s.emit = some (.sending ns cb g) →
      s.ownSend = false → Trans cfg s { s with emit := none } [.sentElsewhere (.emit ns cb) g]
  | emitDrop : (∀ ns cb g, s.emit ≠ some (.sending ns cb g)) → Trans cfg s { s with emit := none } []
  | replyPanic (h : AckHandle) : h ∈ s.handles →
      Trans cfg s { s with handles := s.handles.erase h, senders := s.senders - 1 } [.userPanic]
  | dropHandle (h : AckHandle) : h ∈ s.handles →
      Trans cfg s { s with handles := s.handles.erase h, senders := s.senders - 1 } []
  | closeStart : s.client = true → s.closeCall = false → s.handleHere = true →
      Trans cfg s { s with handleHere := false, closeSig := true, closeCall := true } [.closeRequested]
  | closeAgain : s.client = true → s.closeCall = false → s.handleHere = false →
      Trans cfg s s [.closeReturned (.err .alreadyClosed)]
  | closeReady (r : Res CErr Unit) : s.closeCall = true → s.task = .done r →
      Trans cfg s { s with closeCall := false, handleDropped := true } [.closeReturned r]
  | closeTimeout : s.closeCall = true →
      Trans cfg s { s with closeCall := false, handleDropped := true } [.closeReturned (.err (.timeout .close))]
  | closeCancel : s.closeCall = true → Trans cfg s { s with closeCall := false, handleDropped := true } []
  | dropClient : s.client = true → s.closeCall = false → s.emit = none →
      Trans cfg s { s with client := false, ownSend := false, closeSig := true, handleHere := false,
                           handleDropped := true, senders := s.senders - (if s.ownSend then 2 else 1) } []

theorem enqueue_trans {cfg : RCfg} {s s0 : Sys} {src : Src} {g : List Ws} {evs : List Ev}
    (h : Sends cfg s src g s0 evs) : Trans cfg s (s0.enqueue src g).1 (evs ++ (s0.enqueue src g).2) := by
  have ht : s0.task = s.task ∧ s0.chanClosed = s.chanClosed ∧ s0.queue = s.queue := by
    cases h <;> exact ⟨rfl, rfl, rfl⟩
  unfold Sys.enqueue
  split
  · rename_i hc
    rw [ht.1, ht.2.1] at hc
    rw [ht.2.2]
    exact .sendOk src g s0 evs h hc.1 (by simpa using hc.2)
  · rename_i hc
    rw [ht.1, ht.2.1] at hc
    refine .sendFail src g s0 evs h ?_
    cases hl : s.task.live
    · exact Or.inl rfl
    · right
      simpa [hl] using hc

theorem enqueue_trans' {cfg : RCfg} {s s0 s' : Sys} {src : Src} {g : List Ws} {evs : List Ev}
    (h : Sends cfg s src g s0 []) (he : s0.enqueue src g = (s', evs)) : Trans cfg s s' evs := by
  have := enqueue_trans h
  rw [he] at this
  exact this

theorem recv_trans {cfg : RCfg} {s : Sys} {w : Ws} {p : Bool} (hr : s.task.reads) :
    Trans cfg s (s.recv cfg w p).1 (s.recv cfg w p).2 := by
  have hsh := processWs_shape cfg s.rx s.reg w
  unfold Sys.recv
  generalize hp : processWs cfg s.rx s.reg w = o at hsh
  obtain ⟨st, reg', effs, res⟩ := o
  simp only at hsh
  cases hsh with
  | packet x hx =>
    cases hx with
    | quiet =>
      simp only [Sys.effects, List.any_nil, Bool.false_eq_true, and_false, if_false, List.nil_append]
      cases res with
      | ok u => cases u; exact .recvQuiet w st hr hp
      | err e => exact .recvErr w st e hr hp
      | panic => exact .recvPanic w st hr hp
    | noAck ns id pk hn =>
      simp only [Sys.effects, List.any_nil, Bool.false_eq_true, and_false, if_false, List.nil_append]
      exact .recvNoAck w st ns id pk hr hn hp
    | event ns name cb A ack hcb hns =>
      cases p with
      | false =>
        cases ack with
        | none => exact .recvEvent w st ns name cb A none hr hcb hp
        | some h => exact .recvEvent w st ns name cb A (some h) hr hcb hp
      | true =>
        cases ack with
        | none => exact .recvEventPanic w st ns name cb A none hr hcb hp
        | some h => exact .recvEventPanic w st ns name cb A (some h) hr hcb hp
    | ack ns id cb A hcb =>
      cases p with
      | false => exact .recvAck w st ns id cb A hr hcb hp
      | true => exact .recvAckPanic w st ns id cb A hr hcb hp
  | opened o =>
    cases p <;> exact .recvOpened w st o hr hp
  | secondOpen o =>
    cases p <;> exact .recvSecond w st o hr hp
  | ping hw =>
    have := enqueue_trans (Sends.pong (cfg := cfg) (s := s) w st hr hw hp)
    cases p <;> simpa [Sys.effects, Sys.effect, Eff.isCall] using this

theorem step_trans {cfg : RCfg} {s s' : Sys} {a : Act} {evs : List Ev} (h : step cfg s a = some (s', evs)) :
    Trans cfg s s' evs := by
  cases a with
  | handshakeOk =>
    simp only [step] at h
    split at h
    · simp only [Option.some.injEq, Prod.mk.injEq] at h; obtain ⟨rfl, rfl⟩ := h; exact .handshakeOk ‹_›
    · simp at h
  | handshakeFail e =>
    simp only [step] at h
    split at h
    · simp only [Option.some.injEq, Prod.mk.injEq] at h; obtain ⟨rfl, rfl⟩ := h
      exact .connectFail _ ‹_› (by simp)
    · simp at h
  | handshakeTimeout =>
    simp only [step] at h
    split at h
    · simp only [Option.some.injEq, Prod.mk.injEq] at h; obtain ⟨rfl, rfl⟩ := h
      exact .connectFail _ ‹_› (by simp)
    · simp at h
  | spawnFail =>
    simp only [step] at h
    split at h
    · simp only [Option.some.injEq, Prod.mk.injEq] at h; obtain ⟨rfl, rfl⟩ := h
      exact .connectFail _ ‹_› (by simp)
    · simp at h
  | openReady =>
    simp only [step] at h
    split at h
    · split at h
      · simp only [Option.some.injEq, Prod.mk.injEq] at h; obtain ⟨rfl, rfl⟩ := h; exact .openOk _ ‹_› ‹_›
      · split at h
        · simp at h
        · simp only [Option.some.injEq, Prod.mk.injEq] at h; obtain ⟨rfl, rfl⟩ := h
          exact .openPanic ‹_› ‹_› (by simpa using ‹¬ s.task.live = true›)
    · simp at h
  | openTimeout =>
    simp only [step] at h
    split at h
    · simp only [Sys.failConnect, Option.some.injEq, Prod.mk.injEq] at h; obtain ⟨rfl, rfl⟩ := h
      exact .openTimeout ‹_›
    · simp at h
  | connectCancel =>
    simp only [step] at h
    split at h
    · simp only [Option.some.injEq, Prod.mk.injEq] at h; obtain ⟨rfl, rfl⟩ := h; exact .cancelEarly ‹_›
    · simp only [Option.some.injEq, Prod.mk.injEq] at h; obtain ⟨rfl, rfl⟩ := h; exact .cancel ‹_›
    · simp at h
  | takeSend =>
    simp only [step] at h
    split at h
    · rename_i hc
      simp only [Option.some.injEq, Prod.mk.injEq] at h; obtain ⟨rfl, rfl⟩ := h; exact .takeSend hc.1 hc.2
    · simp at h
  | putSend =>
    simp only [step] at h
    split at h
    · rename_i hc
      simp only [Option.some.injEq, Prod.mk.injEq] at h; obtain ⟨rfl, rfl⟩ := h
      exact .putSend hc.1 (by simpa using hc.2.1) hc.2.2.1 hc.2.2.2
    · simp at h
  | recv w p =>
    have key : ∀ hr : s.task.reads, some (s.recv cfg w p) = some (s', evs) → Trans cfg s s' evs := by
      intro hr hs
      simp only [Option.some.injEq] at hs
      have := recv_trans (cfg := cfg) (w := w) (p := p) hr
      rw [hs] at this
      exact this
    simp only [step] at h
    split at h
    · exact key (Or.inl ‹_›) h
    · exact key (Or.inr ‹_›) h
    · simp at h
  | streamErr e =>
    simp only [step] at h
    split at h
    · simp only [Sys.finishTask, Option.some.injEq, Prod.mk.injEq] at h; obtain ⟨rfl, rfl⟩ := h
      exact .streamErr e (Or.inl ‹_›)
    · simp only [Sys.finishTask, Option.some.injEq, Prod.mk.injEq] at h; obtain ⟨rfl, rfl⟩ := h
      exact .streamErr e (Or.inr ‹_›)
    · simp at h
  | streamEnd =>
    simp only [step] at h
    split at h
    · simp only [Sys.finishTask, Option.some.injEq, Prod.mk.injEq] at h; obtain ⟨rfl, rfl⟩ := h
      exact .streamEnd (Or.inl ‹_›)
    · simp only [Sys.finishTask, Option.some.injEq, Prod.mk.injEq] at h; obtain ⟨rfl, rfl⟩ := h
      exact .streamEnd (Or.inr ‹_›)
    · simp at h
  | dequeue =>
    simp only [step] at h
    split at h
    · split at h
      · simp only [Option.some.injEq, Prod.mk.injEq] at h; obtain ⟨rfl, rfl⟩ := h; exact .dequeue _ _ ‹_› ‹_›
      · split at h
        · simp only [Sys.finishTask, Option.some.injEq, Prod.mk.injEq] at h; obtain ⟨rfl, rfl⟩ := h
          exact .queueEnd ‹_› ‹_› ‹_›
        · simp at h
    · simp at h
  | write =>
    simp only [step] at h
    split at h
    · simp only [Option.some.injEq, Prod.mk.injEq] at h; obtain ⟨rfl, rfl⟩ := h; exact .write _ _ ‹_›
    · simp at h
  | writeFail e =>
    simp only [step] at h
    split at h
    · simp only [Sys.finishTask, Option.some.injEq, Prod.mk.injEq] at h; obtain ⟨rfl, rfl⟩ := h
      exact .writeFail _ _ e ‹_›
    · simp at h
  | endGroup =>
    simp only [step] at h
    split at h
    · simp only [Option.some.injEq, Prod.mk.injEq] at h; obtain ⟨rfl, rfl⟩ := h; exact .endGroup ‹_›
    · simp at h
  | seeClose =>
    simp only [step] at h
    split at h
    · split at h
      · simp only [Option.some.injEq, Prod.mk.injEq] at h; obtain ⟨rfl, rfl⟩ := h; exact .seeClose ‹_› ‹_›
      · simp at h
    · simp at h
  | dropTask =>
    simp only [step] at h
    split at h
    · rename_i hc
      simp only [Option.some.injEq, Prod.mk.injEq] at h; obtain ⟨rfl, rfl⟩ := h; exact .dropTask hc.1 hc.2
    · simp at h
  | reg op =>
    simp only [step] at h
    split at h
    · rename_i hc
      split at h
      · simp only [Option.some.injEq, Prod.mk.injEq] at h; obtain ⟨rfl, rfl⟩ := h; exact .userPanic hc.1
      · simp only [Option.some.injEq, Prod.mk.injEq] at h; obtain ⟨rfl, rfl⟩ := h
        exact .reg op hc.1 hc.2 (by simpa using ‹¬ s.poisoned = true›)
    · simp at h
  | rawSend g =>
    simp only [step] at h
    split at h
    · exact enqueue_trans' (.raw g ‹_›) (by simpa using h)
    · simp at h
  | cloneSender =>
    simp only [step] at h
    split at h
    · simp only [Option.some.injEq, Prod.mk.injEq] at h; obtain ⟨rfl, rfl⟩ := h; exact .cloneSender ‹_›
    · simp at h
  | dropSender =>
    simp only [step] at h
    split at h
    · simp only [Option.some.injEq, Prod.mk.injEq] at h; obtain ⟨rfl, rfl⟩ := h; exact .dropSender ‹_›
    · simp at h
  | closeChannel =>
    simp only [step] at h
    split at h
    · simp only [Option.some.injEq, Prod.mk.injEq] at h; obtain ⟨rfl, rfl⟩ := h; exact .closeChannel ‹_›
    · simp at h
  | emitStart ns ev =>
    simp only [step] at h
    split at h
    · rename_i hc
      simp only [Option.some.injEq, Prod.mk.injEq] at h; obtain ⟨rfl, rfl⟩ := h; exact .emitStart ns ev hc.1 hc.2
    · simp at h
  | emitBinary b =>
    simp only [step] at h
    split at h
    · simp only [Option.some.injEq, Prod.mk.injEq] at h; obtain ⟨rfl, rfl⟩ := h; exact .emitBinary _ _ _ _ _ ‹_›
    · simp at h
  | emitCallback =>
    simp only [step] at h
    split at h
    · simp only [Option.some.injEq, Prod.mk.injEq] at h; obtain ⟨rfl, rfl⟩ := h; exact .emitCallback _ _ _ _ ‹_›
    · simp at h
  | emitArgs =>
    simp only [step] at h
    split at h
    · rename_i hs
      split at h
      · simp only [Option.some.injEq, Prod.mk.injEq] at h; obtain ⟨rfl, rfl⟩ := h; exact .emitArgs _ _ _ _ _ ‹_› ‹_›
      · simp only [Option.some.injEq, Prod.mk.injEq] at h; obtain ⟨rfl, rfl⟩ := h
        exact .emitPanic (by rw [hs]; simp)
    · simp at h
  | emitArg v =>
    simp only [step] at h
    split at h
    · rename_i ns cb b hs
      cases hv : b.serializeArg v with
      | mk b' r =>
        have hb : b' = (b.serializeArg v).1 := by rw [hv]
        rw [hv] at h
        cases r with
        | panic =>
          simp only [Option.some.injEq, Prod.mk.injEq] at h; obtain ⟨rfl, rfl⟩ := h
          exact .emitPanic (by rw [hs]; simp)
        | ok u =>
          simp only [Option.some.injEq, Prod.mk.injEq] at h; obtain ⟨rfl, rfl⟩ := h
          rw [hb]; exact .emitArg _ _ _ _ hs
        | err u =>
          simp only [Option.some.injEq, Prod.mk.injEq] at h; obtain ⟨rfl, rfl⟩ := h
          rw [hb]; exact .emitArg _ _ _ _ hs
    · simp at h
  | emitSend =>
    simp only [step] at h
    split at h
    · rename_i ns cb b hs
      split at h
      · simp only [Option.some.injEq, Prod.mk.injEq] at h; obtain ⟨rfl, rfl⟩ := h
        exact .emitPanic (by rw [hs]; simp)
      · rename_i g hg
        split at h
        · simp only [Option.some.injEq, Prod.mk.injEq] at h; obtain ⟨rfl, rfl⟩ := h
          exact .emitSend ns b g hs hg
        · split at h
          · simp only [Option.some.injEq, Prod.mk.injEq] at h; obtain ⟨rfl, rfl⟩ := h
            exact .emitPanic (by rw [hs]; simp)
          · simp only [Option.some.injEq, Prod.mk.injEq] at h; obtain ⟨rfl, rfl⟩ := h
            exact .emitRegister ns _ _ b g hs hg (by simpa using ‹¬ s.poisoned = true›)
    · simp at h
  | emitEnqueue =>
    simp only [step] at h
    split at h
    · rename_i hs
      split at h
      · exact enqueue_trans' (.emit _ _ _ hs ‹_›) (by simpa using h)
      · simp only [Option.some.injEq, Prod.mk.injEq] at h; obtain ⟨rfl, rfl⟩ := h
        exact .emitElsewhere _ _ _ hs (by simpa using ‹¬ s.ownSend = true›)
    · simp at h
  | emitDrop =>
    simp only [step] at h
    split at h
    · rename_i hs
      simp only [Option.some.injEq, Prod.mk.injEq] at h; obtain ⟨rfl, rfl⟩ := h
      exact .emitDrop (by rw [hs]; simp)
    · rename_i hs
      simp only [Option.some.injEq, Prod.mk.injEq] at h; obtain ⟨rfl, rfl⟩ := h
      exact .emitDrop (by rw [hs]; simp)
    · simp at h
  | reply hd b args =>
    simp only [step] at h
    split at h
    · rename_i hm
      split at h
      · simp only [Option.some.injEq, Prod.mk.injEq] at h; obtain ⟨rfl, rfl⟩ := h
        exact .replyPanic hd hm
      · rename_i g hg
        exact enqueue_trans' (.reply hd b args g hm hg) (by simpa using h)
    · simp at h
  | dropHandle hd =>
    simp only [step] at h
    split at h
    · simp only [Option.some.injEq, Prod.mk.injEq] at h; obtain ⟨rfl, rfl⟩ := h; exact .dropHandle hd ‹_›
    · simp at h
  | closeStart =>
    simp only [step] at h
    split at h
    · rename_i hc
      have hcc : s.closeCall = false := by simpa using hc.2
      split at h
      · simp only [Option.some.injEq, Prod.mk.injEq] at h; obtain ⟨rfl, rfl⟩ := h
        exact .closeStart hc.1 hcc ‹_›
      · simp only [Option.some.injEq, Prod.mk.injEq] at h; obtain ⟨rfl, rfl⟩ := h
        exact .closeAgain hc.1 hcc (by simpa using ‹¬ s.handleHere = true›)
    · simp at h
  | closeReady =>
    simp only [step] at h
    split at h
    · split at h
      · simp only [Sys.closeOver, Option.some.injEq, Prod.mk.injEq] at h; obtain ⟨rfl, rfl⟩ := h
        exact .closeReady _ ‹_› ‹_›
      · simp at h
    · simp at h
  | closeTimeout =>
    simp only [step] at h
    split at h
    · simp only [Sys.closeOver, Option.some.injEq, Prod.mk.injEq] at h; obtain ⟨rfl, rfl⟩ := h
      exact .closeTimeout ‹_›
    · simp at h
  | closeCancel =>
    simp only [step] at h
    split at h
    · simp only [Sys.closeOver, Option.some.injEq, Prod.mk.injEq] at h; obtain ⟨rfl, rfl⟩ := h
      exact .closeCancel ‹_›
    · simp at h
  | dropClient =>
    simp only [step] at h
    split at h
    · rename_i hc
      simp only [Option.some.injEq, Prod.mk.injEq] at h; obtain ⟨rfl, rfl⟩ := h
      exact .dropClient hc.1 (by simpa using hc.2.1) hc.2.2
    · simp at h

/-- Induction over schedules. -/
theorem exec_induct {cfg : RCfg} {P : List Ev → Sys → Prop} (h0 : P [] Sys.init)
    (hs : ∀ tr s s' evs, P tr s → Trans cfg s s' evs → P (tr ++ evs) s') :
    ∀ (acts : List Act) (s : Sys) (tr : List Ev), exec cfg Sys.init acts = some (s, tr) → P tr s := by
  have key : ∀ (acts : List Act) (s0 s : Sys) (tr0 tr : List Ev), P tr0 s0 → exec cfg s0 acts = some (s, tr) →
      P (tr0 ++ tr) s := by
    intro acts
    induction acts with
    | nil =>
      intro s0 s tr0 tr hp he
      simp only [exec, Option.some.injEq, Prod.mk.injEq] at he
      obtain ⟨rfl, rfl⟩ := he
      simpa using hp
    | cons a acts ih =>
      intro s0 s tr0 tr hp he
      simp only [exec] at he
      cases h1 : step cfg s0 a with
      | none => rw [h1] at he; simp at he
      | some r =>
        obtain ⟨s1, e1⟩ := r
        rw [h1] at he
        simp only at he
        cases h2 : exec cfg s1 acts with
        | none => rw [h2] at he; simp at he
        | some r2 =>
          obtain ⟨s2, e2⟩ := r2
          rw [h2] at he
          simp only [Option.some.injEq, Prod.mk.injEq] at he
          obtain ⟨rfl, rfl⟩ := he
          have := ih s1 s2 (tr0 ++ e1) e2 (hs _ _ _ _ hp (step_trans h1)) h2
          rwa [List.append_assoc] at this
  intro acts s tr he
  have := key acts Sys.init s [] tr h0 he
  simpa using this

end SIO
