import Verif.Spec.Stream
import Verif.Spec.Client
import Verif.Props.Builder
/-
What it means that what one client sends reaches another one.
-/
namespace SIO.Spec

/-- What a client sends: events and replies, as the application made them, and the answers to pings. -/
inductive Sent where
  | event (ns name : List Char) (ack : Option (Nat × Cb)) (binary : Bool) (args : List SVal)
  | reply (ns : List Char) (id : Nat) (binary : Bool) (args : List SVal)
  | pong

/-- Who sent it. -/
def Sent.src : Sent → Src
  | .event ns _ ack _ _ => .emit ns ack
  | .reply ns id _ _ => .reply ⟨ns, id⟩
  | .pong => .pong

/-- The documents sent: the event name first, then the arguments that could be serialized. -/
def Sent.docs : Sent → List Doc
  | .event _ name _ _ args => .str name :: args.filterMap docOf
  | .reply _ _ _ args => args.filterMap docOf
  | .pong => []

/-- Binary mode. -/
def Sent.binary : Sent → Bool
  | .event _ _ _ binary _ => binary
  | .reply _ _ binary _ => binary
  | .pong => false

/-- The messages a builder makes of it. -/
def Sent.Group : Sent → List Ws → Prop
  | .event ns name ack binary args, ws =>
    ∃ b, Builder.newEvent name ns (ack.map Prod.fst) binary = .ok b ∧ (adds b args).finish = .ok ws
  | .reply ns id binary args, ws => (adds (Builder.newAck ns id binary) args).finish = .ok ws
  | .pong, ws => ws = [.text ['3']]

/-- Ids of 64 bits, and a namespace a packet can carry. -/
def Sent.Address : Sent → Prop
  | .event ns _ ack _ _ => NsOk ns ∧ ∀ x, ack = some x → x.1 < 2 ^ 64
  | .reply ns id _ _ => NsOk ns ∧ id < 2 ^ 64
  | .pong => True

/-- Ids of 64 bits; and the namespace of a reply is that of a packet that was received. -/
def Sent.Given : Sent → Prop
  | .event _ _ ack _ _ => ∀ x, ack = some x → x.1 < 2 ^ 64
  | .reply ns id _ _ => NsOk ns ∧ id < 2 ^ 64
  | .pong => True

/-- Arguments that can be sent: floats have a JSON text; in binary mode no sequence starts with a byte
and has other elements (C02); replies have a first argument and it can be serialized (C03); less than 2^64 attachments. -/
def Sent.Sendable : Sent → Prop
  | .event _ name _ binary args => (∀ v ∈ args, v.FloatsOk) ∧ (binary = true → ∀ v ∈ args, v.NoMixed) ∧
      (ackBlobs binary (.str name :: args.filterMap docOf)).length < 2 ^ 64
  | .reply _ _ binary args => (∀ v ∈ args, v.FloatsOk) ∧ (binary = true → ∀ v ∈ args, v.NoMixed) ∧
      (ackBlobs binary (args.filterMap docOf)).length < 2 ^ 64 ∧ ∃ arg rest, args = arg :: rest ∧ (docOf arg).isSome
  | .pong => True

/-- The default namespace, or an argument text that cannot be taken for a part of the namespace (C15). -/
def Sent.Clear : Sent → List Ws → Prop
  | .event ns _ _ _ _, ws => Unambiguous ns ws
  | .reply ns _ _ _, ws => Unambiguous ns ws
  | .pong, _ => True

/-- The documents read as values on the other side, and none looks like a placeholder. -/
def Sent.Readable (fin : List Char → Bool) (s : Sent) : Prop :=
  (∀ d ∈ s.docs, DocReadable fin d) ∧ (s.binary = true → ∀ d ∈ s.docs, phKey ∉ d.keys)

/-- What the other side has to call for it: the callback in charge of the event if there is one, or the callback
waiting for the reply, with arguments that are texts of the documents. -/
inductive Told (who : Who) : Sent → List Call → Prop where
  | event {ns name : List Char} {ack : Option (Nat × Cb)} {binary : Bool} {args : List SVal} {cb : Cb}
      {vs : List (List Char)} : who.event ns name (some cb) →
      TextsDenote vs (ackWire binary (.str name :: args.filterMap docOf)) →
      Told who (.event ns name ack binary args)
        [.event ns name cb vs (ackBlobs binary (.str name :: args.filterMap docOf)) (ack.map fun x => ⟨ns, x.1⟩)]
  | nobody {ns name : List Char} {ack : Option (Nat × Cb)} {binary : Bool} {args : List SVal} :
      who.event ns name none → Told who (.event ns name ack binary args) []
  | reply {ns : List Char} {id : Nat} {binary : Bool} {args : List SVal} {cb : Cb} {vs : List (List Char)} :
      who.ack ns id cb → TextsDenote vs (ackWire binary (args.filterMap docOf)) →
      Told who (.reply ns id binary args) [.ack ns id cb vs (ackBlobs binary (args.filterMap docOf))]

/-- The engine messages that have come are those of what was sent, in order, the last one perhaps not complete; and
these are the calls for what has come completely, each by what was registered at its last message. -/
inductive Delivered : List (Who × Payload) → List (Sent × List Ws) → List Call → Prop where
  | nothing (ss : List (Sent × List Ws)) : Delivered [] ss []
  | pong {ms : List (Who × Payload)} {g : List Ws} {ss : List (Sent × List Ws)} {cs : List Call} :
      Delivered ms ss cs → Delivered ms ((.pong, g) :: ss) cs
  | cut {ms : List (Who × Payload)} {s : Sent} {g : List Ws} {ss : List (Sent × List Ws)} {more : List Payload} :
      ms.map Prod.snd ++ more = g.filterMap payload? → more ≠ [] → Delivered ms ((s, g) :: ss) []
  | whole {pre rest : List (Who × Payload)} {who : Who} {pl : Payload} {s : Sent} {g : List Ws}
      {ss : List (Sent × List Ws)} {now later : List Call} :
      (pre ++ [(who, pl)]).map Prod.snd = g.filterMap payload? → Told who s now → Delivered rest ss later →
      Delivered (pre ++ (who, pl) :: rest) ((s, g) :: ss) (now ++ later)

/-- The messages that are no control frames. -/
def dataOf (ws : List Ws) : List Ws :=
  ws.filter fun
    | .text _ => true
    | .binary _ => true
    | _ => false

/-- The groups put into the send queue, with who did it. -/
def sources (tr : List Ev) : List (Src × List Ws) :=
  tr.filterMap fun
    | .enqueued src g => some (src, g)
    | _ => none

end SIO.Spec
