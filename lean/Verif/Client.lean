import Verif.Receiver
import Verif.Builder
/-
Model of socket-io-client/src/{lib,connection,emit}.rs: one client, its connection task, and
the application, as a labelled transition system.  Every interleaving of the task with the
application is a list of actions (`Act`); `step` is one action, `Ev` what can be observed of it.

Atomicity.  One action of the task is the code between two `.await` points that can interleave
with others; the registry mutex is held for the whole dispatch of a message (receiver.rs:145-156:
the guard is a temporary of the `if let`), so no registry access falls into the middle of it.
Sends of a callback into the queue during the dispatch are actions after it: the task itself
enqueues nothing while a callback runs, so the order in the queue is the same.
-/
namespace SIO
open Spec (SVal)

/-- lib.rs:49-50 and connection.rs:54,74,101 -/
inductive Waiting where
  | handshake
  | openPacket
  | close
deriving Repr, DecidableEq

/-- lib.rs:37-53.  Websocket errors are numbered; url and connection errors are not part of this
machine (see `Url.lean`). -/
inductive CErr where
  | websocket (e : Nat)
  | spawn
  | processing (e : RErr)
  | timeout (w : Waiting)
  | alreadyClosed

/-- State of the connection task, connection.rs:124-176. -/
inductive Task where
  /-- not spawned yet -/
  | unborn
  /-- waiting in the `select!`, connection.rs:128 -/
  | running
  /-- in the loop connection.rs:151-157, the given messages still to be written -/
  | writing (rest : List Ws)
  /-- in the loop connection.rs:169-175, after the close frame -/
  | closing
  /-- ended with this result, or by a panic -/
  | done (r : Res CErr Unit)
  /-- dropped unfinished, because its handle was dropped -/
  | dropped

/-- The task exists and has not ended: its captured variables are alive. -/
def Task.live : Task → Bool
  | .running => true
  | .writing _ => true
  | .closing => true
  | _ => false

/-- Progress of `Connection::new`, connection.rs:32-85. -/
inductive Phase where
  | handshake
  | waitOpen
  | connected (sid : Str)
  | failed (e : CErr)
  | panicked
  /-- its future was dropped -/
  | cancelled

/-- Where a group of messages in the queue comes from. -/
inductive Src where
  | pong
  | emit (ns : Str) (ack : Option (Nat × Cb))
  | reply (h : AckHandle)
  | raw
deriving Repr, DecidableEq

/-- A builder of an event in the hands of the application.  It borrows the client mutably
(emit.rs:10,18), so there is at most one. -/
inductive Emit where
  /-- emit.rs:9-15 -/
  | building (ns ev : Str) (binary : Bool) (cb : Option (Nat × Cb))
  /-- emit.rs:17-22 -/
  | args (ns : Str) (cb : Option (Nat × Cb)) (b : Builder)
  /-- emit.rs:99: inside `send`, after the registration, before the enqueuing -/
  | sending (ns : Str) (cb : Option (Nat × Cb)) (group : List Ws)
deriving Repr, DecidableEq

/-- The whole system. -/
structure Sys where
  phase : Phase
  /-- the value in the open channel -/
  openSlot : Option Open
  task : Task
  rx : RState
  reg : Callbacks
  /-- the registry mutex is poisoned -/
  poisoned : Bool
  queue : List (List Ws)
  /-- number of senders of the queue -/
  senders : Nat
  /-- `close_channel` was called on a sender -/
  chanClosed : Bool
  /-- the sender side of the close channel has sent or is dropped -/
  closeSig : Bool
  /-- the `handle` and `close` fields of the connection are still there -/
  handleHere : Bool
  /-- the handle of the task is dropped -/
  handleDropped : Bool
  /-- a call of `close` is waiting -/
  closeCall : Bool
  /-- the application has the client -/
  client : Bool
  /-- the public `send` field of the client is (still) a sender of this queue -/
  ownSend : Bool
  /-- further senders the application has -/
  clones : Nat
  /-- reply handles the application has (and the sender in each) -/
  handles : List AckHandle
  nextId : Nat
  /-- number of ack callbacks passed to `callback()` so far; the next one is named by it -/
  allocs : Nat
  emit : Option Emit

/-- Observations. -/
inductive Ev where
  | received (w : Ws)
  | eff (e : Eff)
  | enqueued (src : Src) (g : List Ws)
  /-- `unbounded_send` failed (and the result was ignored) -/
  | sendFailed (src : Src) (g : List Ws)
  /-- sent into another queue, through a sender the application put into the client -/
  | sentElsewhere (src : Src) (g : List Ws)
  | dequeued (g : List Ws)
  | wrote (w : Ws)
  /-- writing this message failed; it may or may not have reached the peer -/
  | writeFailed (w : Ws)
  | groupDone
  | closeSeen
  | taskEnd (r : Res CErr Unit)
  | taskDropped
  | closeRequested
  | closeReturned (r : Res CErr Unit)
  | connectReturned (r : Res CErr Str)
  | allocated (id : Nat) (cb : Cb)
  | registered (ns : Str) (id : Nat) (cb : Cb)
  | regOp (op : RegOp)
  /-- an application call panicked -/
  | userPanic

/-- Actions. -/
inductive Act where
  -- Connection::new
  | handshakeOk
  | handshakeFail (e : Nat)
  | handshakeTimeout
  | spawnFail
  | openReady
  | openTimeout
  | connectCancel
  -- the task
  | recv (w : Ws) (cbPanics : Bool)
  | streamErr (e : Nat)
  | streamEnd
  | dequeue
  | write
  | writeFail (e : Nat)
  | endGroup
  | seeClose
  | dropTask
  -- the application
  | reg (op : RegOp)
  | rawSend (g : List Ws)
  | cloneSender
  | dropSender
  | closeChannel
  | takeSend
  | putSend
  | emitStart (ns ev : Str)
  | emitBinary (b : Bool)
  | emitCallback
  | emitArgs
  | emitArg (v : SVal)
  | emitSend
  | emitEnqueue
  | emitDrop
  | reply (h : AckHandle) (binary : Bool) (args : List SVal)
  | dropHandle (h : AckHandle)
  | closeStart
  | closeReady
  | closeTimeout
  | closeCancel
  | dropClient

/-- lib.rs:142-148 and connection.rs:32: at the start of `Connection::new`. -/
def Sys.init : Sys where
  phase := .handshake
  openSlot := none
  task := .unborn
  rx := RState.new
  reg := Callbacks.new
  poisoned := false
  queue := []
  senders := 0
  chanClosed := false
  closeSig := false
  handleHere := false
  handleDropped := false
  closeCall := false
  client := false
  ownSend := false
  clones := 0
  handles := []
  nextId := 0
  allocs := 0
  emit := none

/-- `unbounded_send`: fails if the channel is closed or its receiver (captured by the task) is
gone. -/
def Sys.enqueue (s : Sys) (src : Src) (g : List Ws) : Sys × List Ev :=
  if s.task.live ∧ ¬ s.chanClosed then ({ s with queue := s.queue ++ [g] }, [.enqueued src g])
  else (s, [.sendFailed src g])

/-- The task ends: its variables are dropped, among them the queue with its receiver, the sender
in `Receiver`, and the sender of the open channel. -/
def Sys.endTask (s : Sys) (t : Task) : Sys :=
  { s with task := t, queue := [], senders := s.senders - 1 }

/-- The task returns. -/
def Sys.finishTask (s : Sys) (r : Res CErr Unit) : Sys × List Ev :=
  (s.endTask (.done r), [.taskEnd r])

/-- The effects of the receiver, one after the other. -/
def Sys.effect (s : Sys) : Eff → Sys × List Ev
  | .opened o => ({ s with openSlot := some o }, [.eff (.opened o)])
  | .secondOpen o => (s, [.eff (.secondOpen o)])
  | .enqueue g =>
    let (s, evs) := s.enqueue .pong g
    (s, .eff (.enqueue g) :: evs)
  | .event ns name cb args ack =>
    let s := match ack with
      | some h => { s with handles := s.handles ++ [h], senders := s.senders + 1 }
      | none => s
    (s, [.eff (.event ns name cb args ack)])
  | .ack ns id cb args => (s, [.eff (.ack ns id cb args)])

def Sys.effects (s : Sys) : List Eff → Sys × List Ev
  | [] => (s, [])
  | e :: es =>
    let (s, evs) := s.effect e
    let (s, evs') := s.effects es
    (s, evs ++ evs')

/-- A callback is called. -/
def Eff.isCall : Eff → Bool
  | .event .. => true
  | .ack .. => true
  | _ => false

/-- connection.rs:142 and 171: a message is processed; on an error the task returns it.  If a
callback is called and panics, the panic goes through the task, and the guard of the registry,
which is held during the call, poisons the mutex. -/
def Sys.recv (cfg : RCfg) (s : Sys) (w : Ws) (cbPanics : Bool) : Sys × List Ev :=
  let out := processWs cfg s.rx s.reg w
  let s := { s with rx := out.st, reg := out.reg }
  let (s, evs) := s.effects out.effs
  if cbPanics ∧ out.effs.any Eff.isCall then
    let (s, evs') := { s with poisoned := true }.finishTask .panic
    (s, .received w :: (evs ++ evs'))
  else
    match out.res with
    | .ok () => (s, .received w :: evs)
    | .err e =>
      let (s, evs') := s.finishTask (.err (.processing e))
      (s, .received w :: (evs ++ evs'))
    | .panic =>
      let (s, evs') := s.finishTask .panic
      (s, .received w :: (evs ++ evs'))

/-- The local variables of a failing `Connection::new` are dropped: the handle, the close
sender and `send_tx`. -/
def Sys.failConnect (s : Sys) (e : CErr) : Sys × List Ev :=
  ({ s with phase := .failed e, closeSig := true, handleDropped := true, senders := s.senders - 1 },
    [.connectReturned (.err e)])

/-- Public calls of the registry, lib.rs:187-204. -/
def RegOp.public : RegOp → Bool
  | .setAck .. => false
  | .takeAck .. => false
  | _ => true

/-- The call of `close` is over, the handle (taken out of the connection) is dropped. -/
def Sys.closeOver (s : Sys) : Sys := { s with closeCall := false, handleDropped := true }

/-- One action; `none` if it is not possible in this state. -/
def step (cfg : RCfg) (s : Sys) : Act → Option (Sys × List Ev)
  -- connection.rs:52-70: handshake, then the task is spawned; senders: `send_tx` and the clone in
  -- `Receiver` (the parameter of `process_websocket` is dropped)
  | .handshakeOk =>
    match s.phase with
    | .handshake => some ({ s with phase := .waitOpen, task := .running, senders := 2 }, [])
    | _ => none
  | .handshakeFail e =>
    match s.phase with
    | .handshake => some ({ s with phase := .failed (.websocket e) }, [.connectReturned (.err (.websocket e))])
    | _ => none
  | .handshakeTimeout =>
    match s.phase with
    | .handshake =>
      some ({ s with phase := .failed (.timeout .handshake) }, [.connectReturned (.err (.timeout .handshake))])
    | _ => none
  -- connection.rs:178 and 70: the task is dropped
  | .spawnFail =>
    match s.phase with
    | .handshake => some ({ s with phase := .failed .spawn }, [.connectReturned (.err .spawn)])
    | _ => none
  -- connection.rs:73: the open channel has a value, or its sender is gone (`unwrap` of `Canceled`);
  -- lib.rs:160: the client clones the sender
  | .openReady =>
    match s.phase with
    | .waitOpen =>
      match s.openSlot with
      | some o => some ({ s with phase := .connected o.sid, client := true, ownSend := true, handleHere := true,
                                 senders := s.senders + 1 },
          [.connectReturned (.ok o.sid)])
      | none =>
        if s.task.live then none
        else some ({ s with phase := .panicked, closeSig := true, handleDropped := true, senders := s.senders - 1 },
          [.connectReturned .panic])
    | _ => none
  -- connection.rs:74
  | .openTimeout =>
    match s.phase with
    | .waitOpen => some (s.failConnect (.timeout .openPacket))
    | _ => none
  -- the future of `connect` is dropped at one of its two `.await`s
  | .connectCancel =>
    match s.phase with
    | .handshake => some ({ s with phase := .cancelled }, [])
    | .waitOpen =>
      some ({ s with phase := .cancelled, closeSig := true, handleDropped := true, senders := s.senders - 1 }, [])
    | _ => none
  -- connection.rs:129-145 and 170-171
  | .recv w cbPanics =>
    match s.task with
    | .running => some (s.recv cfg w cbPanics)
    | .closing => some (s.recv cfg w cbPanics)
    | _ => none
  -- connection.rs:143 and 172
  | .streamErr e =>
    match s.task with
    | .running => some (s.finishTask (.err (.websocket e)))
    | .closing => some (s.finishTask (.err (.websocket e)))
    | _ => none
  -- connection.rs:135-138 and 173
  | .streamEnd =>
    match s.task with
    | .running => some (s.finishTask (.ok ()))
    | .closing => some (s.finishTask (.ok ()))
    | _ => none
  -- connection.rs:146-151: the queue ends when it is empty and has no sender or was closed
  | .dequeue =>
    match s.task with
    | .running =>
      match s.queue with
      | g :: q => some ({ s with queue := q, task := .writing g }, [.dequeued g])
      | [] => if s.chanClosed ∨ s.senders = 0 then some (s.finishTask .panic) else none
    | _ => none
  -- connection.rs:153-154
  | .write =>
    match s.task with
    | .writing (w :: rest) => some ({ s with task := .writing rest }, [.wrote w])
    | _ => none
  -- connection.rs:155
  | .writeFail e =>
    match s.task with
    | .writing (w :: _) =>
      let (s, evs) := s.finishTask (.err (.websocket e))
      some (s, .writeFailed w :: evs)
    | _ => none
  -- connection.rs:157
  | .endGroup =>
    match s.task with
    | .writing [] => some ({ s with task := .running }, [.groupDone])
    | _ => none
  -- connection.rs:159-167: also if the close sender was dropped
  | .seeClose =>
    match s.task with
    | .running => if s.closeSig then some ({ s with task := .closing }, [.closeSeen]) else none
    | _ => none
  -- `RemoteHandle`: dropping the handle drops the task
  | .dropTask =>
    if s.task.live ∧ s.handleDropped then some (s.endTask .dropped, [.taskDropped]) else none
  -- lib.rs:187-204: `lock().unwrap()` panics if the mutex is poisoned
  | .reg op =>
    if s.client ∧ op.public then
      if s.poisoned then some (s, [.userPanic])
      else some ({ s with reg := op.run s.reg }, [.regOp op])
    else none
  -- lib.rs:32: the sender of a client is public
  | .rawSend g => if s.ownSend ∨ 0 < s.clones then some (s.enqueue .raw g) else none
  | .cloneSender =>
    if s.ownSend ∨ 0 < s.clones then some ({ s with clones := s.clones + 1, senders := s.senders + 1 }, []) else none
  | .dropSender =>
    if 0 < s.clones then some ({ s with clones := s.clones - 1, senders := s.senders - 1 }, []) else none
  | .closeChannel =>
    if s.ownSend ∨ 0 < s.clones then some ({ s with chanClosed := true }, []) else none
  -- the application swaps the `send` field for a sender of another queue and keeps the old one
  | .takeSend =>
    if s.ownSend ∧ s.emit = none then some ({ s with ownSend := false, clones := s.clones + 1 }, []) else none
  -- the application puts a sender of this queue back into the field
  | .putSend =>
    if s.client ∧ ¬ s.ownSend ∧ s.emit = none ∧ 0 < s.clones then
      some ({ s with ownSend := true, clones := s.clones - 1 }, [])
    else none
  -- lib.rs:174-185, emit.rs:37-45
  | .emitStart ns ev =>
    if s.client ∧ s.emit = none then some ({ s with emit := some (.building ns ev false none) }, []) else none
  -- emit.rs:47-50
  | .emitBinary b =>
    match s.emit with
    | some (.building ns ev _ cb) => some ({ s with emit := some (.building ns ev b cb) }, [])
    | _ => none
  -- emit.rs:52-57 (`next_id` wraps at 2^64; with overflow checks it panics)
  | .emitCallback =>
    match s.emit with
    | some (.building ns ev b _) =>
      some ({ s with emit := some (.building ns ev b (some (s.nextId, s.allocs))), nextId := (s.nextId + 1) % u64Bound,
                     allocs := s.allocs + 1 }, [.allocated s.nextId s.allocs])
    | _ => none
  -- emit.rs:59-72
  | .emitArgs =>
    match s.emit with
    | some (.building ns ev b cb) =>
      match Builder.newEvent ev ns (cb.map Prod.fst) b with
      | .ok bld => some ({ s with emit := some (.args ns cb bld) }, [])
      | .panic => some ({ s with emit := none }, [.userPanic])
    | _ => none
  -- emit.rs:84-89 (`arg`, emit.rs:76-82, drops the builder after an error)
  | .emitArg v =>
    match s.emit with
    | some (.args ns cb b) =>
      match b.serializeArg v with
      | (_, .panic) => some ({ s with emit := none }, [.userPanic])
      | (b', _) => some ({ s with emit := some (.args ns cb b') }, [])
    | _ => none
  -- emit.rs:91-99
  | .emitSend =>
    match s.emit with
    | some (.args ns cb b) =>
      match b.finish with
      | .panic => some ({ s with emit := none }, [.userPanic])
      | .ok g =>
        match cb with
        | none => some ({ s with emit := some (.sending ns none g) }, [])
        | some (id, c) =>
          if s.poisoned then some ({ s with emit := none }, [.userPanic])
          else some ({ s with emit := some (.sending ns (some (id, c)) g), reg := s.reg.setAck ns id c },
            [.registered ns id c])
    | _ => none
  -- emit.rs:100
  | .emitEnqueue =>
    match s.emit with
    | some (.sending ns cb g) =>
      if s.ownSend then some ({ s with emit := none }.enqueue (.emit ns cb) g)
      else some ({ s with emit := none }, [.sentElsewhere (.emit ns cb) g])
    | _ => none
  | .emitDrop =>
    match s.emit with
    | some (.building ..) => some ({ s with emit := none }, [])
    | some (.args ..) => some ({ s with emit := none }, [])
    | _ => none
  -- emit.rs:118-151: the handle and its sender are used up
  | .reply h binary args =>
    if h ∈ s.handles then
      let s' := { s with handles := s.handles.erase h, senders := s.senders - 1 }
      match (args.foldl (fun b v => (b.serializeArg v).1) (Builder.newAck h.ns h.id binary)).finish with
      | .panic => some (s', [.userPanic])
      | .ok g => some (s'.enqueue (.reply h) g)
    else none
  | .dropHandle h =>
    if h ∈ s.handles then some ({ s with handles := s.handles.erase h, senders := s.senders - 1 }, []) else none
  -- connection.rs:95-98, 104: up to the `select!`
  | .closeStart =>
    if s.client ∧ ¬ s.closeCall then
      if s.handleHere then
        some ({ s with handleHere := false, closeSig := true, closeCall := true }, [.closeRequested])
      else some (s, [.closeReturned (.err .alreadyClosed)])
    else none
  -- connection.rs:100; a panic of the task is resumed in `close`
  | .closeReady =>
    if s.closeCall then
      match s.task with
      | .done r => some (s.closeOver, [.closeReturned r])
      | _ => none
    else none
  -- connection.rs:101
  | .closeTimeout => if s.closeCall then some (s.closeOver, [.closeReturned (.err (.timeout .close))]) else none
  -- the future of `close` is dropped
  | .closeCancel => if s.closeCall then some (s.closeOver, []) else none
  -- the client is dropped: the sender of the connection and its own one, the close sender and the handle if still there
  | .dropClient =>
    if s.client ∧ ¬ s.closeCall ∧ s.emit = none then
      some ({ s with client := false, ownSend := false, closeSig := true, handleHere := false, handleDropped := true,
                     senders := s.senders - (if s.ownSend then 2 else 1) }, [])
    else none

/-- A schedule: the actions one after the other, all observations in order. -/
def exec (cfg : RCfg) (s : Sys) : List Act → Option (Sys × List Ev)
  | [] => some (s, [])
  | a :: as =>
    match step cfg s a with
    | none => none
    | some (s, evs) =>
      match exec cfg s as with
      | none => none
      | some (s, evs') => some (s, evs ++ evs')

end SIO
