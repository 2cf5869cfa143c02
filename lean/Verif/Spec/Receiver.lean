import Verif.Spec.Builder
import Verif.Spec.Value
import Verif.Spec.Callbacks
import Verif.Receiver
/-
What a receiver has to do with a sequence of websocket messages.
-/
namespace SIO.Spec

/-- The text of argument 0 names the event: it is a JSON string denoting the name, or, in a
packet with attachments, a placeholder of an attachment that is the UTF-8 encoding of the
name. -/
inductive NameOf (v : List Char) (bs : List (List UInt8)) (name : List Char) : Prop where
  | string (raw : List Char) : IsVal (.str raw) v → StrDenotes raw name → NameOf v bs name
  | attachment (z : Bool) (i : Nat) : IsVal (.obj [(phKey, .bool z), (numKey, .num (decimal i))]) v → i < 2 ^ 64 →
      bs[i]? = some (name.flatMap String.utf8EncodeChar) → NameOf v bs name

/-- The results of processing the messages one after the other, each with the registry of that
moment. -/
def outs (cfg : RCfg) (st : RState) : List (Callbacks × Ws) → List ROut
  | [] => []
  | (reg, w) :: l => processWs cfg st reg w :: outs cfg (processWs cfg st reg w).st l

/-- The receiver state after the messages. -/
def after (cfg : RCfg) (st : RState) : List (Callbacks × Ws) → RState
  | [] => st
  | (reg, w) :: l => after cfg (processWs cfg st reg w).st l

/-- The contents of an engine message in a websocket message. -/
def payload? : Ws → Option Payload
  | .text ('4' :: r) => some (.text r)
  | .binary (4 :: r) => some (.binary r)
  | _ => none

/-- The engine messages among the websocket messages. -/
def payloads (l : List (Callbacks × Ws)) : List Payload := l.filterMap fun x => payload? x.2

/-- Websocket control frames, engine pings and pongs. -/
def Quiet : Ws → Prop
  | .ping _ => True
  | .pong _ => True
  | .close => True
  | .text ('2' :: _) => True
  | .text ('3' :: _) => True
  | _ => False

/-- The effect runs a callback. -/
def RunsCallback : Eff → Prop
  | .event _ _ _ _ _ => True
  | .ack _ _ _ _ => True
  | _ => False

/-- An engine ping. -/
def IsPing (w : Ws) : Prop := ∃ r, w = .text ('2' :: r)

/-- A websocket message with a readable open packet. -/
def IsOpen (w : Ws) : Prop := ∃ t o, w = .text ('0' :: t) ∧ parseOpen t = .ok o

/-- The groups of messages put into the send queue. -/
def enqueued (effs : List Eff) : List (List Ws) :=
  effs.filterMap fun
    | .enqueue g => some g
    | _ => none

end SIO.Spec
