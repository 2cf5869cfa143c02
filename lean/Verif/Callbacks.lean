import Verif.Text
/-
Model of socket-io-client/src/callbacks.rs: the callback registry.
-/
namespace SIO

/-- A callback: its identity only.  (Cloning an `EventCallback` clones an `Arc`, callbacks.rs:13-15;
what the callback does when called is up to the application.) -/
abbrev Cb := Nat

/-- `std::collections::HashMap`, as a list of pairs.  The code uses only `get`, `insert`,
`remove` and `entry`, never the iteration order. -/
abbrev KMap (K V : Type) := List (K × V)

namespace KMap
variable {K V : Type} [DecidableEq K]

/-- `HashMap::get` -/
def get (m : KMap K V) (k : K) : Option V :=
  match m with
  | [] => none
  | (k', v) :: m => if k' = k then some v else get m k

/-- `HashMap::remove` (the map afterwards) -/
def remove (m : KMap K V) (k : K) : KMap K V :=
  match m with
  | [] => []
  | (k', v) :: m => if k' = k then remove m k else (k', v) :: remove m k

/-- `HashMap::insert` -/
def insert (m : KMap K V) (k : K) (v : V) : KMap K V := (k, v) :: remove m k

end KMap

/-- callbacks.rs:81-85 -/
structure Namespace where
  fallback : Option Cb
  events : KMap Str Cb
  acks : KMap Nat Cb
deriving Repr, DecidableEq

/-- callbacks.rs:142-150 -/
def Namespace.new : Namespace := ⟨none, [], []⟩

/-- callbacks.rs:77-79 -/
structure Callbacks where
  namespaces : KMap Str Namespace
deriving Repr, DecidableEq

namespace Callbacks

/-- callbacks.rs:88-92 -/
def new : Callbacks := ⟨[]⟩

/-- callbacks.rs:94-100 -/
def getEvent (c : Callbacks) (ns ev : Str) : Option Cb :=
  match c.namespaces.get ns with
  | none => none
  | some n =>
    match n.events.get ev with
    | some cb => some cb
    | none => n.fallback

/-- callbacks.rs:135-139 (`get_or_create_namespace`), followed by an update of the
namespace. -/
def update (c : Callbacks) (ns : Str) (f : Namespace → Namespace) : Callbacks :=
  ⟨c.namespaces.insert ns (f ((c.namespaces.get ns).getD Namespace.new))⟩

/-- An update through `namespaces.get_mut(ns)`, if the namespace exists. -/
def updateIf (c : Callbacks) (ns : Str) (f : Namespace → Namespace) : Callbacks :=
  match c.namespaces.get ns with
  | none => c
  | some n => ⟨c.namespaces.insert ns (f n)⟩

/-- callbacks.rs:102-106 -/
def setEvent (c : Callbacks) (ns ev : Str) (cb : Cb) : Callbacks :=
  c.update ns fun n => { n with events := n.events.insert ev cb }

/-- callbacks.rs:108-112 -/
def clearEvent (c : Callbacks) (ns ev : Str) : Callbacks :=
  c.updateIf ns fun n => { n with events := n.events.remove ev }

/-- callbacks.rs:114-116 -/
def setFallback (c : Callbacks) (ns : Str) (cb : Cb) : Callbacks :=
  c.update ns fun n => { n with fallback := some cb }

/-- callbacks.rs:118-122 -/
def clearFallback (c : Callbacks) (ns : Str) : Callbacks :=
  c.updateIf ns fun n => { n with fallback := none }

/-- callbacks.rs:124-127 -/
def getAndClearAck (c : Callbacks) (ns : Str) (id : Nat) : Option Cb × Callbacks :=
  match c.namespaces.get ns with
  | none => (none, c)
  | some n => (n.acks.get id, ⟨c.namespaces.insert ns { n with acks := n.acks.remove id }⟩)

/-- callbacks.rs:129-133 -/
def setAck (c : Callbacks) (ns : Str) (id : Nat) (cb : Cb) : Callbacks :=
  c.update ns fun n => { n with acks := n.acks.insert id cb }

end Callbacks

/-- The calls that change the registry.  The first four are public: lib.rs:65-98 and 187-204
forward `set_namespace_event_callback` etc. to the registry, and the variants without
namespace use `"/"`. -/
inductive RegOp where
  | setEvent (ns ev : Str) (cb : Cb)
  | clearEvent (ns ev : Str)
  | setFallback (ns : Str) (cb : Cb)
  | clearFallback (ns : Str)
  | setAck (ns : Str) (id : Nat) (cb : Cb)
  | takeAck (ns : Str) (id : Nat)
deriving Repr, DecidableEq

/-- The registry after a call. -/
def RegOp.run (c : Callbacks) : RegOp → Callbacks
  | .setEvent ns ev cb => c.setEvent ns ev cb
  | .clearEvent ns ev => c.clearEvent ns ev
  | .setFallback ns cb => c.setFallback ns cb
  | .clearFallback ns => c.clearFallback ns
  | .setAck ns id cb => c.setAck ns id cb
  | .takeAck ns id => (c.getAndClearAck ns id).2

end SIO
