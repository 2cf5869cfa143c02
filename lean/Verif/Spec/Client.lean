import Verif.Spec.Receiver
import Verif.Client
/-
What an execution of the client shows: projections of the trace of observations.
-/
namespace SIO.Spec

/-- The websocket messages written to the connection. -/
def written (tr : List Ev) : List Ws :=
  tr.filterMap fun
    | .wrote w => some w
    | _ => none

/-- The groups put into the send queue. -/
def groups (tr : List Ev) : List (List Ws) :=
  tr.filterMap fun
    | .enqueued _ g => some g
    | _ => none

/-- The groups the connection task took from the queue. -/
def taken (tr : List Ev) : List (List Ws) :=
  tr.filterMap fun
    | .dequeued g => some g
    | _ => none

/-- The websocket messages received. -/
def inbox (tr : List Ev) : List Ws :=
  tr.filterMap fun
    | .received w => some w
    | _ => none

/-- The engine messages received. -/
def arrived (tr : List Ev) : List Payload := (inbox tr).filterMap payload?

/-- The calls of the callback registry: by the application, by `send` of an event with a
callback, and by an incoming ack. -/
def history (tr : List Ev) : List RegOp :=
  tr.filterMap fun
    | .regOp op => some op
    | .registered ns id cb => some (.setAck ns id cb)
    | .eff (.ack ns id _ _) => some (.takeAck ns id)
    | _ => none

/-- The ack callbacks that ran. -/
def ackRuns (tr : List Ev) : List Cb :=
  tr.filterMap fun
    | .eff (.ack _ _ cb _) => some cb
    | _ => none

/-- The ids given out by `callback()`. -/
def ackIds (tr : List Ev) : List Nat :=
  tr.filterMap fun
    | .allocated id _ => some id
    | _ => none

/-- The results of the calls of `close`. -/
def closeResults (tr : List Ev) : List (Res CErr Unit) :=
  tr.filterMap fun
    | .closeReturned r => some r
    | _ => none

/-- The results of `close` other than "already closed". -/
def closeReports (tr : List Ev) : List (Res CErr Unit) :=
  tr.filterMap fun
    | .closeReturned (.err .alreadyClosed) => none
    | .closeReturned r => some r
    | _ => none

/-- The number of calls of `close` that took the handle of the task. -/
def closeRequests (tr : List Ev) : Nat :=
  (tr.filter fun
    | .closeRequested => true
    | _ => false).length

/-- The results of the call of `connect`. -/
def connectResults (tr : List Ev) : List (Res CErr Str) :=
  tr.filterMap fun
    | .connectReturned r => some r
    | _ => none

/-- The connection task does something: it receives or handles a message, takes a group, writes,
sees the close request or ends; or something gets into its queue. -/
def TaskActs : Ev → Prop
  | .received _ => True
  | .eff _ => True
  | .enqueued _ _ => True
  | .dequeued _ => True
  | .wrote _ => True
  | .writeFailed _ => True
  | .groupDone => True
  | .closeSeen => True
  | .taskEnd _ => True
  | .taskDropped => True
  | _ => False

/-- Something is sent over the connection, or is about to be. -/
def Sending : Ev → Prop
  | .dequeued _ => True
  | .wrote _ => True
  | .writeFailed _ => True
  | _ => False

/-- The reply handles given to event callbacks. -/
def handed (tr : List Ev) : List AckHandle :=
  tr.filterMap fun
    | .eff (.event _ _ _ _ ack) => ack
    | _ => none

/-- The reply handles used for a reply. -/
def replied (tr : List Ev) : List AckHandle :=
  tr.filterMap fun
    | .enqueued (.reply h) _ => some h
    | .sendFailed (.reply h) _ => some h
    | _ => none

/-- The messages an event builder makes. -/
def EventGroup (ns : Str) (id : Option Nat) (g : List Ws) : Prop :=
  ∃ (ev : Str) (binary : Bool) (b : Builder) (vs : List SVal),
    Builder.newEvent ev ns id binary = .ok b ∧ (adds b vs).finish = .ok g

/-- The messages a reply builder makes. -/
def ReplyGroup (h : AckHandle) (g : List Ws) : Prop :=
  ∃ (binary : Bool) (vs : List SVal), (adds (Builder.newAck h.ns h.id binary) vs).finish = .ok g

/-- The execution the schedule `acts` leads to. -/
def Runs (cfg : RCfg) (acts : List Act) (s : Sys) (tr : List Ev) : Prop := exec cfg Sys.init acts = some (s, tr)

end SIO.Spec
