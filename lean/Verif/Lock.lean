import Verif.Callbacks
/-
Model of the uses of the registry mutex (`Arc<Mutex<Callbacks>>`) by several threads:
receiver.rs:145-156, lib.rs:74, emit.rs:94-98.  `Client.lean` treats a dispatch as one action;
here it is taken apart into the steps that take and release the lock.
-/
namespace SIO

/-- One step of a thread. -/
inductive Instr where
  /-- `lock()`: waits until nobody has the guard.  (A second `lock()` by the thread that has the
  guard never returns: `std::sync::Mutex` is not reentrant.) -/
  | lock
  /-- the guard is dropped -/
  | unlock
  /-- `get_event` -/
  | getEvent (ns name : Str)
  /-- `get_and_clear_ack` -/
  | takeAck (ns : Str) (id : Nat)
  /-- `cb.call(..)` for the callback found, if any -/
  | call
  /-- a change of the registry -/
  | op (op : RegOp)
  /-- anything without the registry -/
  | other
deriving Repr, DecidableEq

/-- What a callback, or another thread of the application, does. -/
inductive Use where
  /-- a public registry call, or the registration in `send` of an event with ack callback -/
  | reg (op : RegOp)
  | other
deriving Repr, DecidableEq

/-- lib.rs:74 and emit.rs:94-98: the guard is a temporary of the statement. -/
def Use.code : Use → List Instr
  | .reg op => [.lock, .op op, .unlock]
  | .other => [.other]

def uses (us : List Use) : List Instr := us.flatMap Use.code

/-- receiver.rs:145-147: the guard is a temporary of the `if let` and is dropped at its end. -/
def eventCode (ns name : Str) : List Instr := [.lock, .getEvent ns name, .call, .unlock]

/-- receiver.rs:150-156 -/
def ackCode (ns : Str) (id : Nat) : List Instr := [.lock, .takeAck ns id, .call, .unlock]

/-- A thread: what it still has to do, and the callback it found. -/
structure Thread where
  code : List Instr
  found : Option Cb
deriving Repr, DecidableEq

/-- All threads (thread 0 is the connection task), the registry and who has the guard. -/
structure LState where
  holder : Option Nat
  reg : Callbacks
  threads : Nat → Thread

/-- The state with another state of thread `i`. -/
def LState.set (s : LState) (i : Nat) (t : Thread) : LState :=
  { s with threads := fun j => if j = i then t else s.threads j }

/-- One step of thread `i`; `none` if it is finished or has to wait.  `beh` tells what a callback
does when it is called. -/
def lstep (beh : Cb → List Use) (s : LState) (i : Nat) : Option LState :=
  let t := s.threads i
  match t.code with
  | [] => none
  | .lock :: rest =>
    if s.holder = none then some { s.set i { t with code := rest } with holder := some i } else none
  | .unlock :: rest =>
    if s.holder = some i then some { s.set i { t with code := rest } with holder := none } else none
  | .getEvent ns name :: rest => some (s.set i ⟨rest, s.reg.getEvent ns name⟩)
  | .takeAck ns id :: rest =>
    some { s.set i ⟨rest, (s.reg.getAndClearAck ns id).1⟩ with reg := (s.reg.getAndClearAck ns id).2 }
  | .call :: rest =>
    match t.found with
    | none => some (s.set i { t with code := rest })
    | some cb => some (s.set i { t with code := uses (beh cb) ++ rest })
  | .op op :: rest => some { s.set i { t with code := rest } with reg := op.run s.reg }
  | .other :: rest => some (s.set i { t with code := rest })

/-- A schedule: which thread makes each step. -/
def lrun (beh : Cb → List Use) (s : LState) : List Nat → Option LState
  | [] => some s
  | i :: is =>
    match lstep beh s i with
    | none => none
    | some s => lrun beh s is

/-- The connection task starts with `code`; the other threads use the registry. -/
def LState.start (reg : Callbacks) (code : List Instr) (others : Nat → List Use) : LState where
  holder := none
  reg := reg
  threads := fun i => if i = 0 then ⟨code, none⟩ else ⟨uses (others i), none⟩

end SIO
