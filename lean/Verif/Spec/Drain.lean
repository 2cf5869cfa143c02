import Verif.Spec.Pair
/-
Two clients that are connected with each other and whose connection tasks do their work while the applications wait.
-/
namespace SIO.Spec

/-- A piece of work of a connection task, when its peer has done `u`: to receive the next message of the peer (the
callback called for it returns), to take a group from the queue, to write a message, to end a group. -/
inductive Chore (cfg : RCfg) (o : Ws) (u : List Ev) (s : Sys) (t : List Ev) : Sys → List Ev → Prop where
  | read {w : Ws} {s' : Sys} {evs : List Ev} : step cfg s (.recv w false) = some (s', evs) →
      dataOf (inbox t) ++ [w] <+: o :: written u → Chore cfg o u s t s' evs
  | take {g : List Ws} {s' : Sys} : step cfg s .dequeue = some (s', [.dequeued g]) → Chore cfg o u s t s' [.dequeued g]
  | write {w : Ws} {s' : Sys} : step cfg s .write = some (s', [.wrote w]) → Chore cfg o u s t s' [.wrote w]
  | finish {s' : Sys} : step cfg s .endGroup = some (s', [.groupDone]) → Chore cfg o u s t s' [.groupDone]

/-- So many pieces of work of two tasks, in any order. -/
inductive Chores (cfgA cfgB : RCfg) (oA oB : Ws) (sA0 : Sys) (tA0 : List Ev) (sB0 : Sys) (tB0 : List Ev) :
    Nat → Sys → List Ev → Sys → List Ev → Prop where
  | now : Chores cfgA cfgB oA oB sA0 tA0 sB0 tB0 0 sA0 tA0 sB0 tB0
  | left {k : Nat} {sA sB sA' : Sys} {tA tB evs : List Ev} : Chores cfgA cfgB oA oB sA0 tA0 sB0 tB0 k sA tA sB tB →
      Chore cfgA oA tB sA tA sA' evs → Chores cfgA cfgB oA oB sA0 tA0 sB0 tB0 (k + 1) sA' (tA ++ evs) sB tB
  | right {k : Nat} {sA sB sB' : Sys} {tA tB evs : List Ev} : Chores cfgA cfgB oA oB sA0 tA0 sB0 tB0 k sA tA sB tB →
      Chore cfgB oB tA sB tB sB' evs → Chores cfgA cfgB oA oB sA0 tA0 sB0 tB0 (k + 1) sA tA sB' (tB ++ evs)

/-- The work that is left: a message on its way has to be received, one that is not written has to be written and
received, a group that is not begun has to be taken and ended, and one that is begun has to be ended. -/
def toSend (s : Sys) : Nat :=
  2 * (s.queue.map fun g => g.length + 1).sum +
    match s.task with
    | .writing l => 2 * l.length + 1
    | _ => 0
def onItsWay (sender receiver : List Ev) : Nat := 1 + (written sender).length - (dataOf (inbox receiver)).length
def workLeft (sA : Sys) (tA : List Ev) (sB : Sys) (tB : List Ev) : Nat :=
  toSend sA + toSend sB + onItsWay tA tB + onItsWay tB tA

/-- The calls for everything that was sent, one after the other; each by some registry. -/
inductive AllTold : List (Sent × List Ws) → List Call → Prop where
  | nil : AllTold [] []
  | pong {g : List Ws} {ss : List (Sent × List Ws)} {cs : List Call} : AllTold ss cs → AllTold ((.pong, g) :: ss) cs
  | told {who : Who} {s : Sent} {g : List Ws} {ss : List (Sent × List Ws)} {now later : List Call} :
      Told who s now → AllTold ss later → AllTold ((s, g) :: ss) (now ++ later)

end SIO.Spec
