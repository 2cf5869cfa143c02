import Verif.Callbacks
/-
Which callback is in charge, told from the history of calls.
-/
namespace SIO.Spec

/-- The namespace a call is about. -/
def RegOp.ns : RegOp → List Char
  | .setEvent ns _ _ => ns
  | .clearEvent ns _ => ns
  | .setFallback ns _ => ns
  | .clearFallback ns => ns
  | .setAck ns _ _ => ns
  | .takeAck ns _ => ns

/-- The callback most recently set for the event, not cleared since. -/
def LastEvent (h : List RegOp) (ns ev : List Char) (cb : Cb) : Prop :=
  ∃ pre post, h = pre ++ .setEvent ns ev cb :: post ∧
    ∀ op ∈ post, (∀ cb', op ≠ .setEvent ns ev cb') ∧ op ≠ .clearEvent ns ev

/-- The fallback most recently set for the namespace, not cleared since. -/
def LastFallback (h : List RegOp) (ns : List Char) (cb : Cb) : Prop :=
  ∃ pre post, h = pre ++ .setFallback ns cb :: post ∧
    ∀ op ∈ post, (∀ cb', op ≠ .setFallback ns cb') ∧ op ≠ .clearFallback ns

/-- The ack callback most recently registered for the id, not taken since. -/
def LastAck (h : List RegOp) (ns : List Char) (id : Nat) (cb : Cb) : Prop :=
  ∃ pre post, h = pre ++ .setAck ns id cb :: post ∧
    ∀ op ∈ post, (∀ cb', op ≠ .setAck ns id cb') ∧ op ≠ .takeAck ns id

/-- Who gets an event. -/
inductive InCharge (h : List RegOp) (ns ev : List Char) : Option Cb → Prop where
  | event (cb : Cb) : LastEvent h ns ev cb → InCharge h ns ev (some cb)
  | fallback (cb : Cb) : (∀ cb', ¬ LastEvent h ns ev cb') → LastFallback h ns cb → InCharge h ns ev (some cb)
  | nobody : (∀ cb', ¬ LastEvent h ns ev cb') → (∀ cb', ¬ LastFallback h ns cb') → InCharge h ns ev none

/-- The registry after a history of calls. -/
def registry (h : List RegOp) : Callbacks := h.foldl RegOp.run Callbacks.new

end SIO.Spec
