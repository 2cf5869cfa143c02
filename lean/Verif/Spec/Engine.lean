import Verif.Engine
/-
Histories of one engine decoder.
-/
namespace SIO.Spec

/-- The results of decoding the messages one after the other with one decoder. -/
def results (st : EState) : List Ws → List (Res EErr EPacket)
  | [] => []
  | w :: ws => (decode st w).2 :: results (decode st w).1 ws

/-- The results on a new connection. -/
def connResults (ws : List Ws) : List (Res EErr EPacket) := results EState.new ws

/-- The `i`-th message of the history was decoded to the packet. -/
def DecodedAt (ws : List Ws) (i : Nat) (p : EPacket) : Prop := (connResults ws)[i]? = some (.ok p)

/-- An open packet was decoded before position `i`. -/
def OpenBefore (ws : List Ws) (i : Nat) : Prop := ∃ j o, j < i ∧ DecodedAt ws j (.opened o)

end SIO.Spec
