import Verif.Engine
import Verif.Spec.Serde
/-
serde_json's serializer (external crate, default settings, compact formatter) and
socket-io-protocol/src/socket/args/serialize_attachments.rs.
A serializer writes text as it goes; on failure what was written stays written.
`Serialize` implementations are assumed to stop at the first error and to give honest
length hints.
-/
namespace SIO
open Spec (SVal)

/-- Text written so far, and whether the call succeeded. -/
abbrev W := Str × Bool

/-- `a?; b` -/
def W.app (a b : W) : W := if a.2 then (a.1 ++ b.1, b.2) else a

/-- `write!` of a constant. -/
def W.lit (s : Str) : W := (s, true)

/-- A JSON string literal (`format_escaped_str`). -/
def jsonStr (s : Str) : Str := '"' :: (escape s ++ ['"'])

/-- `itoa` of a signed integer. -/
def intDec (i : Int) : Str := if i < 0 then '-' :: natDec i.natAbs else natDec i.natAbs

/-- The elements of `serialize_bytes` in serde_json: numbers separated by commas. -/
def bytesElems : Bytes → Str
  | [] => []
  | [b] => natDec b.toNat
  | b :: b' :: bs => natDec b.toNat ++ ',' :: bytesElems (b' :: bs)

/-- The text of a boolean. -/
def boolText (b : Bool) : Str := if b then ['t', 'r', 'u', 'e'] else ['f', 'a', 'l', 's', 'e']

/-- serde_json `MapKeySerializer`: strings, characters, unit variants, booleans and
numbers become strings, newtypes and `Some` are transparent, all else is an error
("key must be a string" / "float key must be finite"). -/
def serKey : SVal → W
  | .bool b => W.lit (jsonStr (boolText b))
  | .u8 n => W.lit (jsonStr (natDec n.toNat))
  | .int i => W.lit (jsonStr (intDec i))
  | .float (.some l) => W.lit (jsonStr l)
  | .char c => W.lit (jsonStr [c])
  | .str s => W.lit (jsonStr s)
  | .unitVariant n => W.lit (jsonStr n)
  | .newtype v => serKey v
  | .some v => serKey v
  | _ => ([], false)

mutual
/-- serde_json `Serializer` (also behind args/mod.rs:123-125 `serialize_arg`). -/
def serJ : SVal → W
  | .bool b => W.lit (boolText b)
  | .u8 n => W.lit (natDec n.toNat)
  | .int i => W.lit (intDec i)
  | .float .none => W.lit ['n', 'u', 'l', 'l']
  | .float (.some l) => W.lit l
  | .char c => W.lit (jsonStr [c])
  | .str s => W.lit (jsonStr s)
  | .bytes b => W.lit ('[' :: (bytesElems b ++ [']']))
  | .none => W.lit ['n', 'u', 'l', 'l']
  | .some v => serJ v
  | .unit => W.lit ['n', 'u', 'l', 'l']
  | .unitVariant n => W.lit (jsonStr n)
  | .newtype v => serJ v
  | .newtypeVariant n v =>
    W.app (W.lit ('{' :: (jsonStr n ++ [':']))) (W.app (serJ v) (W.lit ['}']))
  | .seq vs => W.app (W.lit ['[']) (W.app (serElems true vs) (W.lit [']']))
  | .tuple vs => W.app (W.lit ['[']) (W.app (serElems true vs) (W.lit [']']))
  | .tupleVariant n vs =>
    W.app (W.lit ('{' :: (jsonStr n ++ [':', '[']))) (W.app (serElems true vs) (W.lit [']', '}']))
  | .map kvs => W.app (W.lit ['{']) (W.app (serEntries true kvs) (W.lit ['}']))
  | .struct fs => W.app (W.lit ['{']) (W.app (serFields true fs) (W.lit ['}']))
  | .structVariant n fs =>
    W.app (W.lit ('{' :: (jsonStr n ++ [':', '{']))) (W.app (serFields true fs) (W.lit ['}', '}']))
  | .fail => ([], false)
/-- Sequence elements; `first` is serde_json's `State::First`. -/
def serElems (first : Bool) : List SVal → W
  | [] => W.lit []
  | v :: vs => W.app (W.lit (if first then [] else [','])) (W.app (serJ v) (serElems false vs))
def serEntries (first : Bool) : List (SVal × SVal) → W
  | [] => W.lit []
  | (k, v) :: kvs =>
    W.app (W.lit (if first then [] else [',']))
      (W.app (serKey k) (W.app (W.lit [':']) (W.app (serJ v) (serEntries false kvs))))
def serFields (first : Bool) : List (Str × SVal) → W
  | [] => W.lit []
  | (k, v) :: fs =>
    W.app (W.lit (if first then [] else [',']))
      (W.app (W.lit (jsonStr k ++ [':'])) (W.app (serJ v) (serFields false fs)))
end

/-! ### serialize_attachments.rs -/

/-- `RefCell<&mut Vec<WsMessage>>` (serialize_attachments.rs:38-41). -/
structure Cell where
  msgs : List Ws
  borrowed : Bool := false
deriving Repr, DecidableEq

/-- How a serializer call ended. -/
inductive End where
  | ok
  | err
  | panic
deriving Repr, DecidableEq

/-- Text written, state of the cell afterwards, and how the call ended. -/
structure BOut where
  out : Str
  cell : Cell
  fin : End
deriving Repr, DecidableEq

/-- A serializer call with access to the cell. -/
abbrev BM := Cell → BOut

/-- `a?; b` -/
def BM.app (a b : BM) : BM := fun c =>
  match (a c).fin with
  | .ok => ⟨(a c).out ++ (b (a c).cell).out, (b (a c).cell).cell, (b (a c).cell).fin⟩
  | _ => a c

/-- A call that does not use the cell. -/
def BM.lift (w : W) : BM := fun c => ⟨w.1, c, if w.2 then .ok else .err⟩

/-- Writing a constant. -/
def BM.lit (s : Str) : BM := BM.lift (W.lit s)

/-- serialize_attachments.rs:64-78 -/
def placeholder (idx : Nat) : SVal :=
  .struct [("_placeholder".toList, .bool true), ("num".toList, .int idx)]

/-- The common part of serialize_attachments.rs:211-216 and 416-421: take the next index,
push the message and serialize a placeholder while the borrow is held.  `plain` is the
inner serializer (serde_json's, or its key serializer), which does not use the cell. -/
def pushPlaceholder (mk : Res Empty Ws) (plain : SVal → W) : BM := fun c =>
  if c.borrowed then ⟨[], c, .panic⟩
  else
    match mk with
    | .ok m =>
      ⟨(plain (placeholder c.msgs.length)).1, { msgs := c.msgs ++ [m], borrowed := false },
        if (plain (placeholder c.msgs.length)).2 then .ok else .err⟩
    | _ => ⟨[], c, .panic⟩

/-- serialize_attachments.rs:481-544 (`SeqElementSerializer`): succeeds only on
`serialize_u8`. -/
def asU8 : SVal → Option UInt8
  | .u8 n => some n
  | _ => none

/-- The data of a byte sequence with its header (serialize_attachments.rs:382-388). -/
def pushByte (data : Bytes) (b : UInt8) : Bytes := (if data = [] then [4] else data) ++ [b]

/-- The end of a sequence still in state `Bytes` (serialize_attachments.rs:412-422). -/
def endBytes (data : Bytes) : BM :=
  if data = [] then BM.lit ['[', ']'] else pushPlaceholder (packageBinary data) serJ

/-- `SeqWrapper` around the key serializer: every way of ending is an error, since the
key serializer accepts neither sequences nor structs. -/
def serKeySeqB : Bytes → List SVal → BM
  | data, [] =>
    if data = [] then BM.lift ([], false) else pushPlaceholder (packageBinary data) serKey
  | data, v :: vs =>
    match asU8 v with
    | some b => serKeySeqB (pushByte data b) vs
    | none => BM.lift ([], false)

/-- `Wrapper` around the key serializer (serialize_attachments.rs:293-315). -/
def serKeyB : SVal → BM
  | .bytes b => pushPlaceholder (encodeBinary b) serKey
  | .seq vs => serKeySeqB [] vs
  | .newtype v => serKeyB v
  | .some v => serKeyB v
  | v => BM.lift (serKey v)

mutual
/-- `Wrapper` around serde_json's serializer (serialize_attachments.rs:149-368, macros
80-138): scalars are forwarded, `Some` and newtypes wrapped, compounds wrapped element
by element, byte strings and sequences treated specially. -/
def serB : SVal → BM
  | .bytes b => pushPlaceholder (encodeBinary b) serJ
  | .seq vs => serSeqB [] vs
  | .some v => serB v
  | .newtype v => serB v
  | .newtypeVariant n v =>
    BM.app (BM.lit ('{' :: (jsonStr n ++ [':']))) (BM.app (serB v) (BM.lit ['}']))
  | .tuple vs => BM.app (BM.lit ['[']) (BM.app (serElemsB true vs) (BM.lit [']']))
  | .tupleVariant n vs =>
    BM.app (BM.lit ('{' :: (jsonStr n ++ [':', '[']))) (BM.app (serElemsB true vs) (BM.lit [']', '}']))
  | .map kvs => BM.app (BM.lit ['{']) (BM.app (serEntriesB true kvs) (BM.lit ['}']))
  | .struct fs => BM.app (BM.lit ['{']) (BM.app (serFieldsB true fs) (BM.lit ['}']))
  | .structVariant n fs =>
    BM.app (BM.lit ('{' :: (jsonStr n ++ [':', '{']))) (BM.app (serFieldsB true fs) (BM.lit ['}', '}']))
  | .bool b => BM.lift (serJ (.bool b))
  | .u8 n => BM.lift (serJ (.u8 n))
  | .int i => BM.lift (serJ (.int i))
  | .float l => BM.lift (serJ (.float l))
  | .char c => BM.lift (serJ (.char c))
  | .str s => BM.lift (serJ (.str s))
  | .none => BM.lift (serJ .none)
  | .unit => BM.lift (serJ .unit)
  | .unitVariant n => BM.lift (serJ (.unitVariant n))
  | .fail => BM.lift (serJ .fail)
/-- `SeqWrapper` in state `Bytes` (serialize_attachments.rs:379-425).  At the first
element that is not a `u8` the inner sequence is started, *all of `data`* (with the
header byte) is written as elements, and the state becomes `Poisoned`. -/
def serSeqB : Bytes → List SVal → BM
  | data, [] => endBytes data
  | data, v :: vs =>
    match asU8 v with
    | some b => serSeqB (pushByte data b) vs
    | none =>
      BM.app (BM.lit ('[' :: bytesElems data))
        (BM.app (BM.lit (if data = [] then [] else [',']))
          (BM.app (serB v) (BM.app (serElemsB false vs) (BM.lit [']']))))
/-- Elements of tuples, and of a sequence in state `Poisoned`. -/
def serElemsB (first : Bool) : List SVal → BM
  | [] => BM.lit []
  | v :: vs => BM.app (BM.lit (if first then [] else [','])) (BM.app (serB v) (serElemsB false vs))
def serEntriesB (first : Bool) : List (SVal × SVal) → BM
  | [] => BM.lit []
  | (k, v) :: kvs =>
    BM.app (BM.lit (if first then [] else [',']))
      (BM.app (serKeyB k) (BM.app (BM.lit [':']) (BM.app (serB v) (serEntriesB false kvs))))
def serFieldsB (first : Bool) : List (Str × SVal) → BM
  | [] => BM.lit []
  | (k, v) :: fs =>
    BM.app (BM.lit (if first then [] else [',']))
      (BM.app (BM.lit (jsonStr k ++ [':'])) (BM.app (serB v) (serFieldsB false fs)))
end

end SIO
