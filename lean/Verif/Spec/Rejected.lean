import Verif.Spec.Stream
/-
What is wrong with a message that is not accepted.
-/
namespace SIO.Spec

/-- Why a message cannot be the begin of a packet. -/
inductive Refused : Payload → SErr → Prop where
  | binary (b : List UInt8) : Refused (.binary b) (.nonAttachmentBinary b)
  | form (s : List Char) : (∀ p : Pkt, p.Wf → p.text ≠ s) → Refused (.text s) (.invalidMessage s)
  | json {p : Pkt} {g : List Char} : p.Wf → p.Longest → p.Fits → p.args = some g → (¬ ∃ vs, IsArrayText vs g) →
      Refused (.text p.text) (.invalidDataJson g)
  | extra {p : Pkt} {vs : List (List Char)} : p.Reads vs → p.kind ∈ ['0', '1'] →
      p.att ≠ none ∨ p.id ≠ none ∨ vs ≠ [] → Refused (.text p.text) (.invalidExtraData (typeName p.kind) p.text)
  | missing {p : Pkt} {vs : List (List Char)} : p.Reads vs → p.kind ∈ ['2', '3', '5', '6'] →
      vs = [] ∨ (p.kind ∈ ['3', '6'] ∧ p.id = none) ∨ (p.kind ∈ ['5', '6'] ∧ p.att = none) →
      (p.kind ∈ ['5', '6'] → p.att = none ∨ p.att = some 0) →
      Refused (.text p.text) (.missingData (typeName p.kind) p.text)
  | count {p : Pkt} {vs : List (List Char)} {n : Nat} : p.Reads vs → p.kind ∈ ['2', '3'] → vs ≠ [] →
      (p.kind = '3' → p.id ≠ none) → p.att = some n → n ≠ 0 →
      Refused (.text p.text) (.invalidAttachmentCount 0 n)

/-- A packet of which not all messages have come: its parts, the texts of its arguments, the messages
after its text. -/
structure Begun where
  p : Pkt
  vs : List (List Char)
  got : List Payload

/-- Contents of engine messages cut into packets, each a text and its attachments, and the packet at the end
that is not complete, if there is one. -/
inductive Cut : List Payload → Option Begun → Prop where
  | between : Cut [] none
  | inside {p : Pkt} {vs : List (List Char)} {n : Nat} {ms : List Payload} : p.Reads vs → p.kind ∈ ['5', '6'] →
      p.att = some n → ms.length < n → Cut (.text p.text :: ms) (some ⟨p, vs, ms⟩)
  | packet {p : Pkt} {vs : List (List Char)} {bs : List (List UInt8)} {body : Body} {rest : List Payload}
      {x : Option Begun} : p.Reads vs → p.Means vs bs body → Cut rest x →
      Cut (.text p.text :: (bs.map .binary ++ rest)) x

/-- The message is the last one of a packet of the namespace with these contents. -/
inductive Completes : Option Begun → Payload → List Char → Body → Prop where
  | single {p : Pkt} {vs : List (List Char)} {body : Body} : p.Reads vs → p.Means vs [] body →
      Completes none (.text p.text) (p.ns.getD ['/']) body
  | last {p : Pkt} {vs : List (List Char)} {got : List Payload} {pl : Payload} {bs : List (List UInt8)} {body : Body} :
      got ++ [pl] = bs.map .binary → p.Means vs bs body → Completes (some ⟨p, vs, got⟩) pl (p.ns.getD ['/']) body

/-- What can be wrong. -/
inductive Fault where
  | engine (e : EErr)
  | socket (e : SErr)
  | name (arg : List Char)
  | ack (ns : List Char) (id : Nat) (args : List (List Char)) (att : List (List UInt8))
deriving DecidableEq

/-- The error tells what is wrong: for an ack the error holds the packet. -/
inductive Names : RErr → Fault → Prop where
  | engine (e : EErr) : Names (.engine e) (.engine e)
  | socket (e : SErr) : Names (.socket e) (.socket e)
  | name (v : List Char) : Names (.args (.jsonDeError v)) (.name v)
  | ack {pk : Packet} {ns : List Char} {id : Nat} {vs : List (List Char)} {bs : List (List UInt8)} :
      Shows pk ns (.ack id vs bs) → Names (.unexpectedAck pk) (.ack ns id vs bs)

/-- Why a packet cannot be acted on: an event without a name, an ack that nobody waits for. -/
inductive NoUse (who : Who) (ns : List Char) : Body → Fault → Prop where
  | name {id : Option Nat} {v : List Char} {vs : List (List Char)} {bs : List (List UInt8)} :
      (∀ name, ¬ NameOf v bs name) → NoUse who ns (.event id (v :: vs) bs) (.name v)
  | ack {id : Nat} {vs : List (List Char)} {bs : List (List UInt8)} : (∀ cb, ¬ who.ack ns id cb) →
      NoUse who ns (.ack id vs bs) (.ack ns id vs bs)

/-- What is wrong with an engine message. -/
inductive Faulty (cfg : RCfg) (who : Who) : Option Begun → Payload → Fault → Prop where
  | refused {pl : Payload} {e : SErr} : Refused pl e → Faulty cfg who none pl (.socket e)
  | text {p : Pkt} {vs : List (List Char)} {n : Nat} {got : List Payload} {pl : Payload} {pre : List (List UInt8)}
      {t : List Char} {post : List Payload} : p.att = some n → got.length + 1 = n →
      got ++ [pl] = pre.map .binary ++ .text t :: post →
      Faulty cfg who (some ⟨p, vs, got⟩) pl (.socket (.textAttachment t))
  | missing {p : Pkt} {vs : List (List Char)} {n : Nat} {got : List Payload} {pl : Payload} {bs : List (List UInt8)} :
      p.att = some n → got.length + 1 = n → got ++ [pl] = bs.map .binary → vs = [] ∨ (p.kind = '6' ∧ p.id = none) →
      Faulty cfg who (some ⟨p, vs, got⟩) pl (.socket (.missingData (typeName p.kind) p.text))
  | packet {x : Option Begun} {pl : Payload} {ns : List Char} {body : Body} {f : Fault} : Completes x pl ns body →
      Loggable cfg body → NoUse who ns body f → Faulty cfg who x pl f

/-- The messages that make the receiver panic: a number that is too large (C14), a packet that cannot be put into
the log (C22). -/
inductive Crashes (cfg : RCfg) : Option Begun → Payload → Prop where
  | number {p : Pkt} : p.Wf → p.Longest → ¬ p.Fits → Crashes cfg none (.text p.text)
  | log {x : Option Begun} {pl : Payload} {ns : List Char} {body : Body} : Completes x pl ns body →
      ¬ Loggable cfg body → Crashes cfg x pl

/-- An open packet is among the messages. -/
def Opened (ws : List Ws) : Prop := ∃ w ∈ ws, ∃ o, Wire w (.opened o)

/-- A close packet is among the messages. -/
def Closed (ws : List Ws) : Prop := ∃ w ∈ ws, Wire w .close

/-- What is wrong with a websocket message that comes after the messages `ws`, if their contents are cut
like that. -/
inductive Wrong (cfg : RCfg) (who : Who) (ws : List Ws) (x : Option Begun) (w : Ws) : Fault → Prop where
  | engine {e : EErr} : ¬ IsControl w → Fails (Opened ws) (Closed ws) w e → Wrong cfg who ws x w (.engine e)
  | message {pl : Payload} {f : Fault} : payload? w = some pl → (∀ e, ¬ Fails (Opened ws) (Closed ws) w e) →
      Faulty cfg who x pl f → Wrong cfg who ws x w f

/-- A websocket message after which the receiver panics. -/
def Fatal (cfg : RCfg) (ws : List Ws) (x : Option Begun) (w : Ws) : Prop :=
  ∃ pl, payload? w = some pl ∧ (∀ e, ¬ Fails (Opened ws) (Closed ws) w e) ∧ Crashes cfg x pl

end SIO.Spec
