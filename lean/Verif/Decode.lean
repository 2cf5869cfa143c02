import Verif.Regex
import Verif.Builder
/-
Model of socket-io-protocol/src/socket/de.rs and socket/mod.rs.
-/
namespace SIO

/-- `Range<usize>` -/
abbrev Rng := Nat × Nat

/-- socket/mod.rs:44-60.  The serde_json error in `InvalidDataJson` is not
modelled. -/
inductive SErr where
  | nonAttachmentBinary (b : Bytes)
  | textAttachment (s : Str)
  | invalidMessage (s : Str)
  | invalidExtraData (name s : Str)
  | missingData (name s : Str)
  | invalidDataJson (s : Str)
  | invalidAttachmentCount (got announced : Nat)
deriving Repr, DecidableEq

/-- socket/mod.rs:28-34 -/
inductive Kind where
  | connect
  | disconnect
  | event
  | ack
deriving Repr, DecidableEq

/-- de.rs:20-29 -/
structure Parse where
  message : OwnedSubslice Str
  kind : PKind
  attachments : Option Nat
  ns : Option Rng
  id : Option Nat
  args : List Rng
deriving Repr, DecidableEq

/-- socket/mod.rs:17-26 -/
structure Packet where
  message : OwnedSubslice Str
  kind : Kind
  ns : Option Rng
  id : Option Nat
  args : List Rng
  attachments : List (OwnedSubslice Bytes)
deriving Repr, DecidableEq

/-- de.rs:13-18 (`Partial` wraps a `Parse`) -/
inductive DeResult where
  | packet (p : Packet)
  | dataNeeded (partial_ : Parse)
deriving Repr, DecidableEq

/-- de.rs:31-35 (`Partial::attachments`) -/
def partialAttachments (p : Parse) : Res Empty Nat := Res.unwrap p.attachments

/-- de.rs:37-44 (`DeserializeResult::packet`) -/
def DeResult.packet? : DeResult → Option Packet
  | .packet p => some p
  | .dataNeeded _ => none

/-- `SeqAccess` of serde_json over `&RawValue` elements, from just after `[` up to and
including `]`: the byte range of every element, as computed by the pointer arithmetic of
de.rs:113-119, and the rest.  `total` is the byte length of the whole argument text; a
position is `total` minus the byte length of what follows.  `first` is the `first` flag
of `SeqAccess`; the first argument is fuel (the number of characters left suffices). -/
def rawSeq (total : Nat) : Nat → Bool → Str → Option (List Rng × Str)
  | 0, _, _ => none
  | n + 1, first, s =>
    match skipWs s with
    | ']' :: r => some ([], r)
    | ',' :: r =>
      if first then none
      else
        match pVal (skipWs r).length (skipWs r) with
        | none => none
        | some (_, r') =>
          match rawSeq total n false r' with
          | some (rs, r'') => some ((total - blen (skipWs r), total - blen r') :: rs, r'')
          | none => none
    | s' =>
      if first then
        match pVal s'.length s' with
        | none => none
        | some (_, r') =>
          match rawSeq total n false r' with
          | some (rs, r'') => some ((total - blen s', total - blen r') :: rs, r'')
          | none => none
      else none

/-- de.rs:109-121 (`parse_args`): `from_str::<Vec<&RawValue>>`. -/
def parseArgs (s : Str) : Res SErr (List Rng) :=
  match skipWs s with
  | '[' :: r =>
    match rawSeq (blen s) (s.length + 1) true r with
    | some (rs, r') => if skipWs r' = [] then .ok rs else .err (.invalidDataJson s)
    | none => .err (.invalidDataJson s)
  | _ => .err (.invalidDataJson s)

/-- de.rs:64-82: the kind digit; anything else is `unreachable!`. -/
def kindOfDigit (c : Char) : Res SErr PKind :=
  if c = '0' then .ok .connect
  else if c = '1' then .ok .disconnect
  else if c = '2' then .ok .event
  else if c = '3' then .ok .ack
  else if c = '5' then .ok .binaryEvent
  else if c = '6' then .ok .binaryAck
  else .panic

/-- `Match::as_str` -/
def capStr (s : Str) (r : Rng) : Res SErr Str := Res.unwrap (sliceB s r.1 r.2)

/-- de.rs:83 and 85: an optional number group, `parse::<u64>().unwrap()`. -/
def capU64 (s : Str) : Option Rng → Res SErr (Option Nat)
  | none => .ok none
  | some r => do
    let t ← capStr s r
    let n ← Res.unwrap (parseU64 t)
    return some n

/-- de.rs:86-97 -/
def capArgs (s : Str) : Option Rng → Res SErr (List Rng)
  | none => .ok []
  | some r => do
    let t ← capStr s r
    let rs ← parseArgs t
    return rs.map fun (a, b) => (a + r.1, b + r.1)

/-- de.rs:60-107 (`parse_text`) -/
def parseText (text : OwnedSubslice Str) : Res SErr Parse := do
  let s ← Res.unwrap text.deref
  match deserializeRe.captures s with
  | none => .err (.invalidMessage s)
  | some caps => do
    let g1 ← Res.unwrap (caps.get 1)
    let ks ← capStr s g1
    let k ← Res.unwrap ks.head?
    let kind ← kindOfDigit k
    let attachments ← capU64 s (caps.get 3)
    let id ← capU64 s (caps.get 6)
    let args ← capArgs s (caps.get 7)
    return { message := text, kind := kind, attachments := attachments, ns := caps.get 5, id := id,
             args := args }

/-- `parse.message.to_string()` -/
def msgText (p : Parse) : Res SErr Str := Res.unwrap p.message.deref

/-- de.rs:142-154 (`deserialize_dataless`) -/
def deserializeDataless (p : Parse) (kind : Kind) (name : Str) : Res SErr Packet :=
  if p.attachments.isSome ∨ p.id.isSome ∨ p.args ≠ [] then do
    let t ← msgText p
    .err (.invalidExtraData name t)
  else .ok { message := p.message, kind := kind, ns := p.ns, id := none, args := [], attachments := [] }

/-- de.rs:193-216 (`deserialize_event`) -/
def deserializeEvent (p : Parse) (kind : Kind) (name : Str) (att : List (OwnedSubslice Bytes)) : Res SErr Packet :=
  if (kind = .ack ∧ p.id = none) ∨ p.args = [] then do
    let t ← msgText p
    .err (.missingData name t)
  else if att.length ≠ p.attachments.getD 0 then
    .err (.invalidAttachmentCount att.length (p.attachments.getD 0))
  else .ok { message := p.message, kind := kind, ns := p.ns, id := p.id, args := p.args, attachments := att }

/-- de.rs:156-170 (`deserialize_binary`) -/
def deserializeBinary (p : Parse) (kind : Kind) (name : Str) : Res SErr DeResult :=
  match p.attachments with
  | some n => if n = 0 then (deserializeEvent p kind name []).map .packet else .ok (.dataNeeded p)
  | none => do
    let t ← msgText p
    .err (.missingData name t)

/-- de.rs:123-140 (`deserialize_text`) -/
def deserializeText (text : OwnedSubslice Str) : Res SErr DeResult := do
  let p ← parseText text
  match p.kind with
  | .connect => (deserializeDataless p .connect "connect".toList).map .packet
  | .disconnect => (deserializeDataless p .disconnect "disconnect".toList).map .packet
  | .event => (deserializeEvent p .event "event".toList []).map .packet
  | .ack => (deserializeEvent p .ack "ack".toList []).map .packet
  | .binaryEvent => deserializeBinary p .event "binary event".toList
  | .binaryAck => deserializeBinary p .ack "binary ack".toList

/-- de.rs:53-58 (`deserialize`) -/
def deserialize (m : EMsg) : Res SErr DeResult :=
  match m with
  | .text t => deserializeText t
  | .binary b => do
    let v ← Res.unwrap b.deref
    .err (.nonAttachmentBinary v)

/-- de.rs:177-183: all messages must be binary. -/
def binaries : List EMsg → Res SErr (List (OwnedSubslice Bytes))
  | [] => .ok []
  | .text t :: _ => do
    let s ← Res.unwrap t.deref
    .err (.textAttachment s)
  | .binary b :: ms => do
    let bs ← binaries ms
    return b :: bs

/-- de.rs:172-191 (`deserialize_partial`) -/
def deserializePartial (p : Parse) (ms : List EMsg) : Res SErr Packet := do
  let att ← binaries ms
  match p.kind with
  | .binaryEvent => deserializeEvent p .event "binary event".toList att
  | .binaryAck => deserializeEvent p .ack "binary ack".toList att
  | _ => .panic

/-! ### socket/mod.rs -/

/-- args/mod.rs:13-18 -/
structure Args where
  message : Str
  args : List Rng
  attachments : List (OwnedSubslice Bytes)
deriving Repr, DecidableEq

/-- socket/mod.rs:36-42 -/
inductive Data where
  | connect
  | disconnect
  | event (id : Option Nat) (args : Args)
  | ack (id : Nat) (args : Args)
deriving Repr, DecidableEq

namespace Packet

/-- socket/mod.rs:73-78 (`Packet::namespace`) -/
def namespace_ (p : Packet) : Res Empty Str :=
  match p.ns with
  | none => .ok ['/']
  | some r => do
    let s ← Res.unwrap p.message.deref
    Res.unwrap (sliceB s r.1 r.2)

/-- socket/mod.rs:95-101 (`Packet::args`) -/
def args_ (p : Packet) : Res Empty Args := do
  let s ← Res.unwrap p.message.deref
  return { message := s, args := p.args, attachments := p.attachments }

/-- socket/mod.rs:80-93 (`Packet::data`) -/
def data (p : Packet) : Res Empty Data :=
  match p.kind with
  | .connect => .ok .connect
  | .disconnect => .ok .disconnect
  | .event => do
    let a ← p.args_
    return .event p.id a
  | .ack => do
    let i ← Res.unwrap p.id
    let a ← p.args_
    return .ack i a

end Packet
end SIO
