import Verif.Spec.Pair
/-
Two clients that are connected with each other by a network that holds only so many messages.
-/
namespace SIO.Spec

/-- How many messages one client has written that the other one, whose first message is an open packet, has not
received yet.  Control frames are not counted. -/
def inFlight (sender receiver : List Ev) : Nat := (dataOf (written sender)).length - ((dataOf (inbox receiver)).length - 1)

/-- What a client can do when its peer has done `u`: the messages it has received are those the peer has written,
after an open packet, and at most `n` of its own ones are on their way. -/
structure Does (n : Nat) (cfg : RCfg) (o : Ws) (u : List Ev) (s : Sys) (t : List Ev) (a : Act) (s' : Sys) (evs : List Ev) : Prop where
  step : step cfg s a = some (s', evs)
  came : dataOf (inbox (t ++ evs)) <+: o :: dataOf (written u)
  room : inFlight (t ++ evs) u ≤ n

/-- Two clients take turns in any order, from one pair of states and histories to another. -/
inductive Later (n : Nat) (cfgA cfgB : RCfg) (oA oB : Ws) (sA0 : Sys) (tA0 : List Ev) (sB0 : Sys) (tB0 : List Ev) :
    Sys → List Ev → Sys → List Ev → Prop where
  | now : Later n cfgA cfgB oA oB sA0 tA0 sB0 tB0 sA0 tA0 sB0 tB0
  | left {sA sB sA' : Sys} {tA tB evs : List Ev} {a : Act} : Later n cfgA cfgB oA oB sA0 tA0 sB0 tB0 sA tA sB tB →
      Does n cfgA oA tB sA tA a sA' evs → Later n cfgA cfgB oA oB sA0 tA0 sB0 tB0 sA' (tA ++ evs) sB tB
  | right {sA sB sB' : Sys} {tA tB evs : List Ev} {b : Act} : Later n cfgA cfgB oA oB sA0 tA0 sB0 tB0 sA tA sB tB →
      Does n cfgB oB tA sB tB b sB' evs → Later n cfgA cfgB oA oB sA0 tA0 sB0 tB0 sA tA sB' (tB ++ evs)

/-- From the start on. -/
abbrev Bounded (n : Nat) (cfgA cfgB : RCfg) (oA oB : Ws) : Sys → List Ev → Sys → List Ev → Prop :=
  Later n cfgA cfgB oA oB Sys.init [] Sys.init []

/-- The work of a connection task: to receive, to take a group from the queue, to write a message, to end a group. -/
inductive Labours : Act → Prop where
  | recv (w : Ws) : Labours (.recv w false)
  | dequeue : Labours .dequeue
  | write : Labours .write
  | endGroup : Labours .endGroup

/-- Nothing is left to do for a connection task: everything the peer has written has come, and there is nothing to
send, or the task has seen the close signal. -/
structure Idle (o : Ws) (u : List Ev) (s : Sys) (t : List Ev) : Prop where
  came : dataOf (inbox t) = o :: dataOf (written u)
  task : (s.task = .running ∧ s.queue = []) ∨ s.task = .closing

/-- Both tasks are writing, and there is no room for their messages. -/
structure Blocked (n : Nat) (sA : Sys) (tA : List Ev) (sB : Sys) (tB : List Ev) : Prop where
  left : ∃ w rest, sA.task = .writing (w :: rest) ∧ dataOf [w] = [w]
  right : ∃ w rest, sB.task = .writing (w :: rest) ∧ dataOf [w] = [w]
  fullA : inFlight tA tB = n
  fullB : inFlight tB tA = n

end SIO.Spec
