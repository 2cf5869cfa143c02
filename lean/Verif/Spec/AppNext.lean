import Verif.Spec.Client
/-
What the application holds, from what was done and seen: the client, senders of the queue, and an
event that is being built.
-/
namespace SIO.Spec

/-- An execution with what was seen at each action. -/
inductive Logged (cfg : RCfg) : List (Act × List Ev) → Sys → Prop where
  | start : Logged cfg [] Sys.init
  | next {log : List (Act × List Ev)} {s s' : Sys} {a : Act} {evs : List Ev} (h : Logged cfg log s)
      (hs : step cfg s a = some (s', evs)) : Logged cfg (log ++ [(a, evs)]) s'

/-- The actions. -/
def doneIn (log : List (Act × List Ev)) : List Act := log.map Prod.fst

/-- Everything that was seen. -/
def seenIn (log : List (Act × List Ev)) : List Ev := (log.map Prod.snd).flatten

/-- `connect` has returned a client, and the application has not dropped it. -/
structure HasClient (log : List (Act × List Ev)) : Prop where
  returned : ∃ sid, .connectReturned (.ok sid) ∈ seenIn log
  kept : .dropClient ∉ doneIn log

/-- How many senders of the queue the application got besides the one in the client: by cloning, or
by taking that one out. -/
def sendersGot (log : List (Act × List Ev)) : Nat :=
  log.countP fun | (.cloneSender, _) => true | (.takeSend, _) => true | _ => false

/-- How many of them it gave away: by dropping one, or by putting it into the client. -/
def sendersGiven (log : List (Act × List Ev)) : Nat :=
  log.countP fun | (.dropSender, _) => true | (.putSend, _) => true | _ => false

/-- The application has a sender besides the one in the client. -/
def SpareSender (log : List (Act × List Ev)) : Prop := sendersGiven log < sendersGot log

/-- The sender in the client was taken out and none was put back. -/
def senderOut (log : List (Act × List Ev)) : Bool :=
  log.foldl (fun b x => match x.1 with | .takeSend => true | .putSend => false | _ => b) false

/-- The application has a sender of the queue. -/
def HasSender (log : List (Act × List Ev)) : Prop := (HasClient log ∧ senderOut log = false) ∨ SpareSender log

/-- Which calls on an event have been made. -/
inductive EmitStage where
  /-- there is no event that is being built -/
  | idle
  /-- `emit`, and options -/
  | options
  /-- `args`, and arguments -/
  | args
  /-- `send` has made the messages (and registered the callback), and has yet to enqueue them -/
  | sending
  deriving DecidableEq

/-- A call panicked. -/
def panicked (evs : List Ev) : Bool := evs.any fun | .userPanic => true | _ => false

/-- One more call: a panic is the end of the event. -/
def EmitStage.after (st : EmitStage) (x : Act × List Ev) : EmitStage :=
  match x.1 with
  | .emitStart _ _ => .options
  | .emitArgs => if panicked x.2 then .idle else .args
  | .emitArg _ => if panicked x.2 then .idle else st
  | .emitSend => if panicked x.2 then .idle else .sending
  | .emitEnqueue => .idle
  | .emitDrop => .idle
  | _ => st

/-- How far the event is that is being built. -/
def stage (log : List (Act × List Ev)) : EmitStage := log.foldl EmitStage.after .idle

end SIO.Spec
