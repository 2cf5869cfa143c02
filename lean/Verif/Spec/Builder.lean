import Verif.Spec.Packet
import Verif.Spec.Engine
import Verif.Builder
/-
What a packet builder is asked to send, and what it has to send for that.
-/
namespace SIO.Spec

/-- The namespace as it appears in a packet: the default namespace `/` is left out. -/
def nsPart (ns : List Char) : Option (List Char) := if ns = ['/'] then none else some ns

/-- A namespace that can be sent. -/
def NsOk (ns : List Char) : Prop := ns = ['/'] ∨ IsNs ns

/-- Every text is a JSON value that denotes the document at its position. -/
inductive TextsDenote : List (List Char) → List Doc → Prop where
  | nil : TextsDenote [] []
  | cons {v : List Char} {d : Doc} {vs : List (List Char)} {ds : List Doc} :
      TextDenotes v d → TextsDenote vs ds → TextsDenote (v :: vs) (d :: ds)

/-- The four kinds of packets with arguments. -/
def kindDigit (ack binary : Bool) : Char :=
  match ack, binary with
  | false, false => '2'
  | true, false => '3'
  | false, true => '5'
  | true, true => '6'

/-- The attachment message with the given contents: the engine.io message byte first. -/
def attachment (b : List UInt8) : Ws := .binary (4 :: b)

/-- A text packet as websocket message: the engine.io message digit first. -/
def textMessage (p : Pkt) : Ws := .text ('4' :: p.text)

/-- The documents of the values that can be serialized. -/
def docsOf (leak : Bool) (vs : List SVal) : List Doc := vs.filterMap (docWith leak)

/-- The messages of an event or ack in text mode: one text packet whose arguments denote the
documents, byte strings written as arrays of numbers. -/
def SentText (ack : Bool) (ns : List Char) (id : Option Nat) (ds : List Doc) (ws : List Ws) : Prop :=
  ∃ (p : Pkt) (vs : List (List Char)), p.kind = kindDigit ack false ∧ p.att = none ∧ p.ns = nsPart ns ∧ p.id = id ∧
    (p.args = none ↔ ds = []) ∧ p.ArgTexts vs ∧ TextsDenote vs (plains ds) ∧
    (NsOk ns → p.Wf) ∧ ws = [textMessage p]

/-- The messages of an event or ack in binary mode: a text packet announcing the number of
attachments, whose arguments denote the documents with their blobs replaced by placeholders
numbered from 0 in order, followed by the blobs in the same order. -/
def SentBinary (ack : Bool) (ns : List Char) (id : Option Nat) (ds : List Doc) (ws : List Ws) : Prop :=
  ∃ (p : Pkt) (vs : List (List Char)), p.kind = kindDigit ack true ∧ p.att = some (blobsL ds).length ∧ p.ns = nsPart ns ∧
    p.id = id ∧ (p.args = none ↔ ds = []) ∧ p.ArgTexts vs ∧ TextsDenote vs (numberedL 0 ds) ∧
    (NsOk ns → p.Wf) ∧ ws = textMessage p :: (blobsL ds).map attachment

/-- Calls of a builder: after the given additions. -/
def adds (b : Builder) (vs : List SVal) : Builder := vs.foldl (fun b v => (b.serializeArg v).1) b

/-- The outcome of each addition. -/
def addResults (b : Builder) : List SVal → List (Res Unit Unit)
  | [] => []
  | v :: vs => (b.serializeArg v).2 :: addResults (b.serializeArg v).1 vs

/-- A peer whose engine is in state `st` receives the messages: each is an engine message,
and they decode to one packet, completed by the last of them. -/
def PeerReads (st : EState) (ws : List Ws) (pk : Packet) : Prop :=
  ∃ (m : EMsg) (ms : List EMsg), results st ws = (m :: ms).map (fun m => .ok (.message m)) ∧
    ((ms = [] ∧ deserialize m = .ok (.packet pk)) ∨
     (ms ≠ [] ∧ ∃ q, deserialize m = .ok (.dataNeeded q) ∧ partialAttachments q = .ok ms.length ∧
        deserializePartial q ms = .ok pk))

/-- The first of the messages is the given packet text. -/
def FirstText (ws : List Ws) (s : List Char) : Prop := ∃ rest, ws = .text s :: rest

/-- The argument text of the first message, read as JSON array with elements `vs`. -/
def HasArgText (ws : List Ws) (g : List Char) : Prop :=
  ∃ (p : Pkt) (vs : List (List Char)) (rest : List Ws), ws = textMessage p :: rest ∧ p.Wf ∧ p.ArgTexts vs ∧ p.args = some g

/-- The keys of a placeholder object. -/
def phKey : List Char := "_placeholder".toList
def numKey : List Char := "num".toList

mutual
/-- The numbers of the placeholder objects of a document, in order of appearance. -/
def phNums : Doc → List (List Char)
  | .arr ds => phNumsL ds
  | .obj kvs =>
    match kvs with
    | [(k, .bool true), (k', .num n)] =>
      if k = phKey ∧ k' = numKey then [n] else []
    | kvs => phNumsM kvs
  | _ => []
def phNumsL : List Doc → List (List Char)
  | [] => []
  | d :: ds => phNums d ++ phNumsL ds
def phNumsM : List (List Char × Doc) → List (List Char)
  | [] => []
  | (_, d) :: kvs => phNums d ++ phNumsM kvs
end

mutual
/-- The keys of all objects of a document. -/
def Doc.keys : Doc → List (List Char)
  | .arr ds => keysL ds
  | .obj kvs => keysM kvs
  | _ => []
def keysL : List Doc → List (List Char)
  | [] => []
  | d :: ds => d.keys ++ keysL ds
def keysM : List (List Char × Doc) → List (List Char)
  | [] => []
  | (k, d) :: kvs => k :: (d.keys ++ keysM kvs)
end

/-- Consecutive numerals from `n` on. -/
def numerals (n k : Nat) : List (List Char) := (List.range' n k).map decimal

end SIO.Spec
