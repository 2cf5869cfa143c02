import Verif.Spec.Client
/-
When the connection task runs and whether it is writing, from what was done and seen.
-/
namespace SIO.Spec

/-- How many groups were written to the end. -/
def completed (tr : List Ev) : Nat := tr.countP fun | .groupDone => true | _ => false

/-- The connection task was spawned and has not ended. -/
structure TaskAlive (acts : List Act) (tr : List Ev) : Prop where
  spawned : .handshakeOk ∈ acts
  open_ : ∀ r, .taskEnd r ∉ tr
  kept : .taskDropped ∉ tr

/-- The task waits: it is not inside a group. -/
structure Waits (acts : List Act) (tr : List Ev) : Prop where
  alive : TaskAlive acts tr
  done : completed tr = (taken tr).length

/-- The task is inside a group. -/
structure Writes (acts : List Act) (tr : List Ev) : Prop where
  alive : TaskAlive acts tr
  begun : completed tr ≠ (taken tr).length

end SIO.Spec
