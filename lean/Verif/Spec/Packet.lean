import Verif.Spec.Serde
import Verif.Args
/-
What a packet text means, and what an application sees of a decoded packet through the
public accessors.
-/
namespace SIO.Spec

/-- A packet as sent: kind digit, attachment count, namespace, id, argument text. -/
structure Pkt where
  kind : Char
  att : Option Nat
  ns : Option (List Char)
  id : Option Nat
  args : Option (List Char)

/-- The textual parts of a packet. -/
def Pkt.parts (p : Pkt) : Parts := ⟨p.kind, p.att.map decimal, p.ns, p.id.map decimal, p.args⟩

/-- The text of a packet. -/
def Pkt.text (p : Pkt) : List Char := p.parts.text

/-- The parts have the right shape. -/
structure Pkt.Wf (p : Pkt) : Prop where
  kind : p.kind ∈ ['0', '1', '2', '3', '5', '6']
  ns : ∀ n, p.ns = some n → IsNs n
  args : ∀ g, p.args = some g → IsBracketed g

/-- The packet text has no reading with a longer namespace. -/
def Pkt.Longest (p : Pkt) : Prop := p.parts.Longest

/-- Attachment count and id are 64-bit numbers. -/
structure Pkt.Fits (p : Pkt) : Prop where
  att : ∀ n, p.att = some n → n < 2 ^ 64
  id : ∀ n, p.id = some n → n < 2 ^ 64

/-- Texts of the arguments: the elements of the argument array; none without argument part. -/
def Pkt.ArgTexts (p : Pkt) (vs : List (List Char)) : Prop :=
  match p.args with
  | none => vs = []
  | some g => IsArrayText vs g

/-- Contents of a packet. -/
inductive Body where
  | connect
  | disconnect
  | event (id : Option Nat) (args : List (List Char)) (att : List (List UInt8))
  | ack (id : Nat) (args : List (List Char)) (att : List (List UInt8))

/-- The packet types by name. -/
def typeName : Char → List Char
  | '0' => "connect".toList
  | '1' => "disconnect".toList
  | '2' => "event".toList
  | '3' => "ack".toList
  | '5' => "binary event".toList
  | _ => "binary ack".toList

/-- The contents of a packet with the given argument texts and attachments. -/
inductive Pkt.Means (p : Pkt) (vs : List (List Char)) (atts : List (List UInt8)) : Body → Prop where
  | connect : p.kind = '0' → p.att = none → p.id = none → vs = [] → atts = [] → Means p vs atts .connect
  | disconnect : p.kind = '1' → p.att = none → p.id = none → vs = [] → atts = [] →
      Means p vs atts .disconnect
  | event : (p.kind = '2' ∧ atts = []) ∨ (p.kind = '5' ∧ p.att ≠ none) → vs ≠ [] → atts.length = p.att.getD 0 →
      Means p vs atts (.event p.id vs atts)
  | ack (i : Nat) : (p.kind = '3' ∧ atts = []) ∨ (p.kind = '6' ∧ p.att ≠ none) → p.id = some i → vs ≠ [] →
      atts.length = p.att.getD 0 → Means p vs atts (.ack i vs atts)

/-- What an application sees of an argument list: its length, each index, iteration, and
the attachments behind every argument. -/
structure ArgsShow (A : Args) (ts : List (List Char)) (bs : List (List UInt8)) : Prop where
  len : A.len = ts.length
  empty : A.isEmpty = ts.isEmpty
  get : ∀ i, A.get i = .ok (ts[i]?.map fun t => ⟨t, A.attachments⟩)
  iter : A.iter = .ok (ts.map fun t => ⟨t, A.attachments⟩)
  atts : A.attachments.map OwnedSubslice.deref = bs.map some

/-- What an application sees of a decoded packet. -/
def Shows (p : Packet) (ns : List Char) (body : Body) : Prop :=
  p.namespace_ = .ok ns ∧
    match body with
    | .connect => p.data = .ok .connect
    | .disconnect => p.data = .ok .disconnect
    | .event id ts bs => ∃ A, p.data = .ok (.event id A) ∧ ArgsShow A ts bs
    | .ack id ts bs => ∃ A, p.data = .ok (.ack id A) ∧ ArgsShow A ts bs

/-- A message handed out by the engine decoder. -/
def Received (m : EMsg) : Prop := ∃ st w st', decode st w = (st', .ok (.message m))

/-- The visible contents of an engine message. -/
inductive Payload where
  | text (s : List Char)
  | binary (b : List UInt8)
deriving DecidableEq

/-- The message has the given contents. -/
def HasPayload : EMsg → Payload → Prop
  | .text t, .text s => t.deref = some s
  | .binary b, .binary x => b.deref = some x
  | _, _ => False

/-- The contents of a list of messages. -/
inductive Payloads : List EMsg → List Payload → Prop where
  | nil : Payloads [] []
  | cons {m : EMsg} {pl : Payload} {ms : List EMsg} {pls : List Payload} :
      HasPayload m pl → Payloads ms pls → Payloads (m :: ms) (pl :: pls)

/-- A packet decoded from the text `s` and the attachment messages `ms`. -/
inductive Decoded (s : List Char) (ms : List EMsg) (pk : Packet) : Prop where
  | alone (m : EMsg) : Received m → HasPayload m (.text s) → ms = [] →
      deserialize m = .ok (.packet pk) → Decoded s ms pk
  | withAttachments (m : EMsg) (q : Parse) : Received m → HasPayload m (.text s) →
      deserialize m = .ok (.dataNeeded q) → (∀ x ∈ ms, Received x) →
      deserializePartial q ms = .ok pk → Decoded s ms pk

end SIO.Spec
