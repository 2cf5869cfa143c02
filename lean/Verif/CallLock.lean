import Verif.Callbacks
/-
Model of the mutexes around callbacks: every `EventCallback` is an `Arc<Mutex<dyn FnMut>>`
(callbacks.rs:11-39), whose clones share the mutex, and every client has its registry mutex
(lib.rs:33).  `Lock.lean` has one client and no panics, and lets a callback run without a mutex of
its own; here any number of clients and threads share callbacks, callbacks call other callbacks,
and panics poison the mutexes.
-/
namespace SIO

/-- A mutex: the registry of client `c`, or that inside the callback `m`. -/
inductive Lk where
  | reg (c : Nat)
  | cell (m : Cb)
deriving Repr, DecidableEq

/-- What the code of the application does, in a callback or outside. -/
inductive UserAct where
  /-- a public registry call on client `c`, or the registration in `send` of an event with ack
  callback (lib.rs:74, emit.rs:94-98) -/
  | reg (c : Nat) (op : RegOp)
  /-- `EventCallback::call`, which is public -/
  | call (m : Cb)
  | panic
  | other
deriving Repr, DecidableEq

/-- What the callbacks do.  An `FnMut` has a state, so what it does may differ from call to call:
`event m k` is what the event callback `m` does in its call number `k`.  An ack callback is an
`FnOnce`, without mutex (callbacks.rs:41-61). -/
structure Behaviour where
  event : Cb → Nat → List UserAct
  ack : Cb → List UserAct

/-- One step of a thread. -/
inductive XInstr where
  /-- `lock().unwrap()` on the registry of a client -/
  | lock (c : Nat)
  | unlock (c : Nat)
  /-- `get_event` and then `cb.call(..)`, if there is a callback (receiver.rs:145-147) -/
  | event (c : Nat) (ns name : Str)
  /-- `get_and_clear_ack` and then `cb.call(..)`, if there is a callback (receiver.rs:150-157) -/
  | ack (c : Nat) (ns : Str) (id : Nat)
  /-- callbacks.rs:18-20, up to the start of the closure -/
  | call (m : Cb)
  /-- the end of the closure: the guard of callback `m` is dropped -/
  | ret (m : Cb)
  /-- a change of the registry -/
  | op (c : Nat) (op : RegOp)
  | panic
  | other
deriving Repr, DecidableEq

/-- lib.rs:74: the guard is a temporary of the statement. -/
def UserAct.code : UserAct → List XInstr
  | .reg c op => [.lock c, .op c op, .unlock c]
  | .call m => [.call m]
  | .panic => [.panic]
  | .other => [.other]

def acts (as : List UserAct) : List XInstr := as.flatMap UserAct.code

/-- A message that is dispatched to a callback. -/
inductive CbMsg where
  | event (ns name : Str)
  | ack (ns : Str) (id : Nat)
deriving Repr, DecidableEq

/-- receiver.rs:145-156: the guard of the registry is a temporary of the `if let`, so it is
dropped only after the callback has returned. -/
def CbMsg.code (c : Nat) : CbMsg → List XInstr
  | .event ns name => [.lock c, .event c ns name, .unlock c]
  | .ack ns id => [.lock c, .ack c ns id, .unlock c]

/-- What can be seen of the callbacks: thread `i` starts call number `k` of event callback `m`, it
returns from event callback `m`, it starts the ack callback `cb`, it panics. -/
inductive CbEv where
  | start (m : Cb) (i k : Nat)
  | done (m : Cb) (i : Nat)
  | ack (cb : Cb) (i : Nat)
  | panic (i : Nat)
deriving Repr, DecidableEq

structure XState where
  holder : Lk → Option Nat
  poisoned : Lk → Bool
  reg : Nat → Callbacks
  /-- the state of the closures: how often each was called -/
  calls : Cb → Nat
  code : Nat → List XInstr

/-- The state with other code for thread `i`. -/
def XState.goto (s : XState) (i : Nat) (code : List XInstr) : XState :=
  { s with code := fun j => if j = i then code else s.code j }

/-- The state with another holder of `l`. -/
def XState.hold (s : XState) (l : Lk) (h : Option Nat) : XState :=
  { s with holder := fun k => if k = l then h else s.holder k }

/-- The state with another registry of client `c`. -/
def XState.setReg (s : XState) (c : Nat) (r : Callbacks) : XState :=
  { s with reg := fun d => if d = c then r else s.reg d }

/-- Thread `i` panics: all its guards are dropped while it unwinds, which poisons their mutexes.
(Nothing in the code catches a panic; the application is taken not to do so either.) -/
def XState.unwind (s : XState) (i : Nat) : XState where
  holder := fun l => if s.holder l = some i then none else s.holder l
  poisoned := fun l => s.poisoned l || decide (s.holder l = some i)
  reg := s.reg
  calls := s.calls
  code := fun j => if j = i then [] else s.code j

/-- One step of thread `i` and what is seen of it; `none` if it is finished or has to wait.
`lock()` waits while any thread, the same one included, has the guard; then `unwrap()` panics if
the mutex is poisoned. -/
def xstep (beh : Behaviour) (s : XState) (i : Nat) : Option (XState × List CbEv) :=
  match s.code i with
  | [] => none
  | .lock c :: rest =>
    if s.holder (.reg c) ≠ none then none
    else if s.poisoned (.reg c) then some (s.unwind i, [.panic i])
    else some ((s.goto i rest).hold (.reg c) (some i), [])
  | .unlock c :: rest =>
    if s.holder (.reg c) = some i then some ((s.goto i rest).hold (.reg c) none, []) else none
  | .event c ns name :: rest =>
    match (s.reg c).getEvent ns name with
    | none => some (s.goto i rest, [])
    | some m => some (s.goto i (.call m :: rest), [])
  | .ack c ns id :: rest =>
    match (s.reg c).getAndClearAck ns id with
    | (none, r) => some ((s.goto i rest).setReg c r, [])
    | (some cb, r) => some ((s.goto i (acts (beh.ack cb) ++ rest)).setReg c r, [.ack cb i])
  | .call m :: rest =>
    if s.holder (.cell m) ≠ none then none
    else if s.poisoned (.cell m) then some (s.unwind i, [.panic i])
    else
      some ({ (s.goto i (acts (beh.event m (s.calls m)) ++ .ret m :: rest)).hold (.cell m) (some i) with
          calls := fun n => if n = m then s.calls m + 1 else s.calls n },
        [.start m i (s.calls m)])
  | .ret m :: rest =>
    if s.holder (.cell m) = some i then some ((s.goto i rest).hold (.cell m) none, [.done m i]) else none
  | .op c op :: rest => some ((s.goto i rest).setReg c (op.run (s.reg c)), [])
  | .panic :: _ => some (s.unwind i, [.panic i])
  | .other :: rest => some (s.goto i rest, [])

/-- A schedule: which thread makes each step. -/
def xrun (beh : Behaviour) (s : XState) : List Nat → Option (XState × List CbEv)
  | [] => some (s, [])
  | i :: is =>
    match xstep beh s i with
    | none => none
    | some (s', e) =>
      match xrun beh s' is with
      | none => none
      | some (s'', es) => some (s'', e ++ es)

/-- What a thread does: the connection task of client `c` dispatches messages, the other threads
run code of the application. -/
inductive Prog where
  | task (c : Nat) (msgs : List CbMsg)
  | app (as : List UserAct)
deriving Repr, DecidableEq

def Prog.code : Prog → List XInstr
  | .task c msgs => msgs.flatMap (CbMsg.code c)
  | .app as => acts as

/-- Nothing locked or poisoned, no callback called yet. -/
def XState.start (reg : Nat → Callbacks) (progs : Nat → Prog) : XState where
  holder := fun _ => none
  poisoned := fun _ => false
  reg := reg
  calls := fun _ => 0
  code := fun i => (progs i).code

end SIO
