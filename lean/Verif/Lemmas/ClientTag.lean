import Verif.Spec.Client
/-
Observations with decidable equality, for the examples.
-/
namespace SIO
open Spec

/-- A result without its error details. -/
inductive Outcome where
  | ok
  | websocket (e : Nat)
  | spawn
  | processing
  | timeout (w : Waiting)
  | alreadyClosed
  | panic
deriving Repr, DecidableEq

def outcome {α : Type} : Res CErr α → Outcome
  | .ok _ => .ok
  | .err (.websocket e) => .websocket e
  | .err .spawn => .spawn
  | .err (.processing _) => .processing
  | .err (.timeout w) => .timeout w
  | .err .alreadyClosed => .alreadyClosed
  | .panic => .panic

/-- An observation without arguments of callbacks. -/
inductive Tag where
  | received (w : Ws)
  | opened (sid : Str)
  | secondOpen
  | enqueue
  | event (ns name : Str) (cb : Cb) (ack : Option AckHandle)
  | ack (ns : Str) (id : Nat) (cb : Cb)
  | enqueued (src : Src) (g : List Ws)
  | sendFailed (src : Src) (g : List Ws)
  | sentElsewhere (src : Src) (g : List Ws)
  | dequeued (g : List Ws)
  | wrote (w : Ws)
  | writeFailed (w : Ws)
  | groupDone
  | closeSeen
  | taskEnd (r : Outcome)
  | taskDropped
  | closeRequested
  | closeReturned (r : Outcome)
  | connectReturned (r : Outcome)
  | allocated (id : Nat) (cb : Cb)
  | registered (ns : Str) (id : Nat) (cb : Cb)
  | regOp
  | userPanic
deriving Repr, DecidableEq

def tag : Ev → Tag
  | .received w => .received w
  | .eff (.opened o) => .opened o.sid
  | .eff (.secondOpen _) => .secondOpen
  | .eff (.enqueue _) => .enqueue
  | .eff (.event ns name cb _ ack) => .event ns name cb ack
  | .eff (.ack ns id cb _) => .ack ns id cb
  | .enqueued src g => .enqueued src g
  | .sendFailed src g => .sendFailed src g
  | .sentElsewhere src g => .sentElsewhere src g
  | .dequeued g => .dequeued g
  | .wrote w => .wrote w
  | .writeFailed w => .writeFailed w
  | .groupDone => .groupDone
  | .closeSeen => .closeSeen
  | .taskEnd r => .taskEnd (outcome r)
  | .taskDropped => .taskDropped
  | .closeRequested => .closeRequested
  | .closeReturned r => .closeReturned (outcome r)
  | .connectReturned r => .connectReturned (outcome r)
  | .allocated id cb => .allocated id cb
  | .registered ns id cb => .registered ns id cb
  | .regOp _ => .regOp
  | .userPanic => .userPanic

/-- What is seen of an execution. -/
def seen (cfg : RCfg) (acts : List Act) : Option (List Tag) := (exec cfg Sys.init acts).map fun x => x.2.map tag

theorem runs_of_seen {cfg : RCfg} {acts : List Act} {ts : List Tag} (h : seen cfg acts = some ts) :
    ∃ s tr, Runs cfg acts s tr ∧ tr.map tag = ts := by
  unfold seen at h
  cases he : exec cfg Sys.init acts with
  | none => rw [he] at h; simp at h
  | some x => rw [he] at h; exact ⟨x.1, x.2, he, by simpa using h⟩

/-- An open packet. -/
def exOpen : Ws := .text "0{\"sid\":\"s\",\"pingInterval\":1,\"pingTimeout\":2}".toList

/-- Actions up to a connected client. -/
def exConnect : List Act := [.handshakeOk, .recv exOpen false, .openReady]

end SIO
