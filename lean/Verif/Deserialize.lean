import Verif.Args
/-
Model of `Arg::deserialize` (args/mod.rs:75-85) and of
socket-io-protocol/src/socket/args/deserialize_attachments.rs, for a universe of target
types.  serde, serde_derive and serde_json are external; what their deserializers and
visitors do with a complete syntax tree is modelled here per target type.  Only success
and the resulting value are modelled, not the text of an error.
-/
namespace SIO
open Spec (JTree)

/-- Target types.  `wide` is `i128` or `u128`, `bytes` is an owned byte buffer
(`serde_bytes::ByteBuf`), `bstr` and `bbytes` are `&str` and `&[u8]`, which borrow from the packet,
`map` is a map with string keys, `imap` a map with `u64` keys, `value` is `serde_json::Value`,
`ignored` is `IgnoredAny`, `newtype` a newtype struct.  The payload of an enum variant is `unit`,
`newtype`, `tuple` or `struct`. -/
inductive Ty where
  | bool
  | uint (bits : Nat)
  | int (bits : Nat)
  | wide (signed : Bool)
  | float
  | char
  | str
  | bytes
  | bstr
  | bbytes
  | unit
  | ignored
  | value
  | option (t : Ty)
  | newtype (t : Ty)
  | seq (t : Ty)
  | map (t : Ty)
  | imap (t : Ty)
  | tuple (ts : List Ty)
  | struct (fs : List (Str × Ty))
  | enum (vs : List (Str × Ty))

/-- Values of the target types.  A float is represented by a literal of it. -/
inductive DVal where
  | bool (b : Bool)
  | uint (n : Nat)
  | int (n : Int)
  | float (lex : Str)
  | char (c : Char)
  | str (s : Str)
  | bytes (b : Bytes)
  | unit
  | value (v : Value)
  | none
  | some (v : DVal)
  | seq (vs : List DVal)
  | map (kvs : List (Str × DVal))
  | imap (kvs : List (Nat × DVal))
  | struct (vs : List DVal)
  | variant (name : Str) (v : DVal)

/-- All results, if all succeed. -/
def allSome {α β : Type} (f : α → Option β) : List α → Option (List β)
  | [] => some []
  | a :: as =>
    match f a with
    | none => none
    | some b => (allSome f as).map (b :: ·)

/-- `str::from_utf8` -/
def utf8OfBytes (b : Bytes) : Option Str := (ByteArray.mk b.toArray).utf8Decode?.map Array.toList

/-- The UTF-8 encoding of a text. -/
def utf8Bytes (s : Str) : Bytes := s.flatMap String.utf8EncodeChar

/-- Entering an array or object: serde_json's recursion limit. -/
def enter {α : Type} (d : Nat) (f : Nat → Option α) : Option α := if d ≤ 1 then none else f (d - 1)

/-- A number as unsigned integer of the given width. -/
def numUint (bits : Nat) : Num → Option DVal
  | .pos n => if n < 2 ^ bits then some (.uint n) else none
  | _ => none

/-- A number as signed integer of the given width. -/
def numInt (bits : Nat) : Num → Option DVal
  | .pos n => if n < 2 ^ (bits - 1) then some (.int n) else none
  | .neg n => if n ≤ 2 ^ (bits - 1) then some (.int (-(n : Int))) else none
  | .float _ => none

/-- A 128-bit integer of that many digits, if it is in range. -/
def wideNum (signed neg : Bool) (ds : Str) : Option DVal :=
  if ds.all Char.isDigit then
    match signed, neg with
    | true, true => if decVal ds ≤ 2 ^ 127 then some (.int (-(decVal ds : Int))) else none
    | true, false => if decVal ds < 2 ^ 127 then some (.int (decVal ds : Int)) else none
    | false, true => none
    | false, false => if decVal ds < 2 ^ 128 then some (.uint (decVal ds)) else none
  else none

/-- A number as 128-bit integer.  serde_json reads an integer and stops there; a fraction or an
exponent that follows is an error of what comes next. -/
def wideOf (signed : Bool) (l : Str) : Option DVal :=
  wideNum signed (decide ((scanMinus l).1 ≠ [])) (scanMinus l).2

/-- The only character of a string. -/
def oneChar : Str → Option DVal
  | [c] => some (.char c)
  | _ => none

/-- The targets that are read by the same code with and without attachments (the forwarded
methods of deserialize_attachments.rs:152-176 that never see an array or object). -/
def deScalar (fin : Str → Bool) : Ty → JTree → Option DVal
  | .bool, .bool b => some (.bool b)
  | .uint w, .num l => (readNum fin l).bind (numUint w)
  | .int w, .num l => (readNum fin l).bind (numInt w)
  | .wide s, .num l => wideOf s l
  | .float, .num l => (readNum fin l).map fun _ => .float l
  | .char, .str raw => (unescape raw).bind oneChar
  | .unit, .null => some .unit
  | .ignored, _ => some .unit
  | _, _ => none

/-- A `u64` map key (simplification: only in the form the serializer prints it). -/
def keyU64 (k : Str) : Option Nat :=
  if k = natDec (decVal k) ∧ decVal k < u64Bound then some (decVal k) else none

/-- `BTreeMap<u64, _>::insert` on the sorted association list. -/
def nmapInsert {α : Type} (k : Nat) (v : α) : List (Nat × α) → List (Nat × α)
  | [] => [(k, v)]
  | (k', v') :: m =>
    if k < k' then (k, v) :: (k', v') :: m
    else if k' < k then (k', v') :: nmapInsert k v m
    else (k, v) :: m

/-- The members of an object with their keys decoded. -/
def keyed (kts : List (Str × JTree)) : Option (List (Str × JTree)) :=
  allSome (fun kt => (unescape kt.1).map fun k => (k, kt.2)) kts

/-- `missing_field`: absent fields of an option type are `None`. -/
def missing : Ty → Option DVal
  | .option _ => some .none
  | _ => none

/-- The unit variant of that name. -/
def unitVariant : List (Str × Ty) → Str → Option DVal
  | [], _ => none
  | (n, t) :: vs, k =>
    if n = k then
      match t with
      | .unit => some (.variant k .unit)
      | _ => none
    else unitVariant vs k

/-- A byte buffer out of the elements of an array. -/
def bytesOfArr (fin : Str → Bool) (ts : List JTree) : Option Bytes :=
  allSome (fun t => match t with
    | .num l => (readNum fin l).bind fun n => match n with
      | .pos n => if n < 256 then some (UInt8.ofNat n) else none
      | _ => none
    | _ => none) ts

/-- A string that needs no decoding: only such a one can be borrowed from the text. -/
def unescaped : JTree → Option Str
  | .str raw => if '\\' ∈ raw then none else some raw
  | _ => none

/-- What serde_json's own deserializer makes of a tree.  `wtf8` is
what it makes of a string with lone surrogates when asked for bytes. -/
structure Ext where
  fin : Str → Bool
  wtf8 : Str → Bytes

mutual
def de (x : Ext) (d : Nat) : Ty → JTree → Option DVal
  | .str, t =>
    match t with
    | .str raw => (unescape raw).map .str
    | _ => none
  | .bytes, t =>
    match t with
    | .str raw =>
      match unescape raw with
      | some s => some (.bytes (utf8Bytes s))
      | none => some (.bytes (x.wtf8 raw))
    | .arr ts => enter d fun _ => (bytesOfArr x.fin ts).map .bytes
    | _ => none
  | .bstr, t => (unescaped t).map .str
  | .bbytes, t => (unescaped t).map fun s => .bytes (utf8Bytes s)
  | .value, t => (toValue x.fin d t).map .value
  | .option ty, t =>
    match t with
    | .null => some .none
    | t => (de x d ty t).map .some
  | .newtype ty, t => de x d ty t
  | .seq ty, t =>
    match t with
    | .arr ts => enter d fun d => (allSome (fun t => de x d ty t) ts).map .seq
    | _ => none
  | .map ty, t =>
    match t with
    | .obj kts => enter d fun d => (keyed kts).bind fun kts =>
        (allSome (fun kt => (de x d ty kt.2).map fun v => (kt.1, v)) kts).map fun kvs =>
          .map (kvs.foldl (fun m kv => mapInsert kv.1 kv.2 m) [])
    | _ => none
  | .imap ty, t =>
    match t with
    | .obj kts => enter d fun d => (keyed kts).bind fun kts =>
        (allSome (fun kt => (keyU64 kt.1).bind fun k => (de x d ty kt.2).map fun v => (k, v)) kts).map fun kvs =>
          .imap (kvs.foldl (fun m kv => nmapInsert kv.1 kv.2 m) [])
    | _ => none
  | .tuple tys, t =>
    match t with
    | .arr ts => enter d fun d => (deTuple x d tys ts).map .seq
    | _ => none
  | .struct fs, t =>
    match t with
    | .arr ts => enter d fun d => (deSeqFields x d fs ts).map .struct
    | .obj kts => enter d fun d => (keyed kts).bind fun kts => (deFields x d fs kts).map .struct
    | _ => none
  | .enum vs, t =>
    match t with
    | .str raw => (unescape raw).bind (unitVariant vs)
    | .obj [(k, t)] => enter d fun d => (unescape k).bind fun k => (deVariant x d vs k t).map (.variant k)
    | _ => none
  | ty, t => deScalar x.fin ty t
/-- The elements of an array, exactly as many as expected. -/
def deTuple (x : Ext) (d : Nat) : List Ty → List JTree → Option (List DVal)
  | [], ts => if ts.isEmpty then some [] else none
  | ty :: tys, ts =>
    match ts with
    | [] => none
    | t :: ts =>
      match de x d ty t with
      | none => none
      | some v => (deTuple x d tys ts).map (v :: ·)
/-- The fields of a struct given as an array. -/
def deSeqFields (x : Ext) (d : Nat) : List (Str × Ty) → List JTree → Option (List DVal)
  | [], ts => if ts.isEmpty then some [] else none
  | (_, ty) :: fs, ts =>
    match ts with
    | [] => none
    | t :: ts =>
      match de x d ty t with
      | none => none
      | some v => (deSeqFields x d fs ts).map (v :: ·)
/-- The fields of a struct given as an object: every field at most once, unknown keys are
ignored. -/
def deFields (x : Ext) (d : Nat) : List (Str × Ty) → List (Str × JTree) → Option (List DVal)
  | [], _ => some []
  | (n, ty) :: fs, kts =>
    match (match kts.filter (fun kt => kt.1 = n) with
      | [] => missing ty
      | [kt] => de x d ty kt.2
      | _ => none) with
    | none => none
    | some v => (deFields x d fs kts).map (v :: ·)
/-- The payload of the variant of that name. -/
def deVariant (x : Ext) (d : Nat) : List (Str × Ty) → Str → JTree → Option DVal
  | [], _, _ => none
  | (n, ty) :: vs, k, t => if n = k then de x d ty t else deVariant x d vs k t
end

/-- `serde_json::from_str` -/
def fromStr (x : Ext) (ty : Ty) (s : Str) : Option DVal := (parseTree s).bind (de x 128 ty)

/-! ### With attachments -/

/-- deserialize_attachments.rs:287-320: what `visit_map` finds. -/
inductive MapView where
  | err
  | placeholder (b : Bytes)
  | plain

/-- deserialize_attachments.rs:287-320 (`BinaryVisitor::visit_map`), together with the check
of serde_json after it that no member is left.  The first key is read as `&'de str`, which
fails if it has escapes; so does the second one if the first is `_placeholder`. -/
def mapView (fin : Str → Bool) (bufs : List Bytes) : List (Str × JTree) → MapView
  | [] => .plain
  | (k, t) :: rest =>
    if '\\' ∈ k then .err
    else if k = "_placeholder".toList then
      match t, rest with
      | .bool _, [(k', .num l)] =>
        if k' = "num".toList then
          match readNum fin l with
          | some (.pos n) =>
            match bufs[n]? with
            | some b => .placeholder b
            | none => .err
          | _ => .err
        else .err
      | _, _ => .err
    else .plain

/-- `T::deserialize` on serde's deserializer for a `u8`: every request ends in `visit_u8`. -/
def deByte : Ty → UInt8 → Option DVal
  | .uint w, b => numUint w (.pos b.toNat)
  | .int w, b => numInt w (.pos b.toNat)
  | .wide true, b => some (.int b.toNat)
  | .wide false, b => some (.uint b.toNat)
  | .float, b => some (.float (natDec b.toNat))
  | .value, b => some (.value (.num (.pos b.toNat)))
  | .ignored, _ => some .unit
  | _, _ => none

/-- `visit_seq` of a tuple visitor on `SeqDeserializer` (deserialize_attachments.rs:308-310):
bytes that are left over are not an error. -/
def deBytes : List Ty → Bytes → Option (List DVal)
  | [], _ => some []
  | _ :: _, [] => none
  | ty :: tys, b :: bs =>
    match deByte ty b with
    | none => none
    | some v => (deBytes tys bs).map (v :: ·)

mutual
/-- `Value::deserialize` on the wrapped deserializer: `any` (deserialize_attachments.rs:153)
with its `visit_seq` and `visit_map`. -/
def deValueA (fin : Str → Bool) (bufs : List Bytes) (d : Nat) : JTree → Option Value
  | .arr ts => if d ≤ 1 then none else (deValuesA fin bufs (d - 1) ts).map .arr
  | .obj kts =>
    if d ≤ 1 then none
    else
      match mapView fin bufs kts with
      | .err => none
      | .placeholder b => some (bytesValue b)
      | .plain =>
        match rawView kts with
        | .plain => (deMapA fin bufs (d - 1) kts []).map .obj
        | .err => none
        | .raw s => valueOfText fin s
  | t => toValue fin d t
def deValuesA (fin : Str → Bool) (bufs : List Bytes) (d : Nat) : List JTree → Option (List Value)
  | [] => some []
  | t :: ts =>
    match deValueA fin bufs d t with
    | none => none
    | some v => (deValuesA fin bufs d ts).map (v :: ·)
def deMapA (fin : Str → Bool) (bufs : List Bytes) (d : Nat) :
    List (Str × JTree) → List (Str × Value) → Option (List (Str × Value))
  | [], m => some m
  | (k, t) :: kts, m =>
    match unescape k with
    | none => none
    | some k' =>
      match deValueA fin bufs d t with
      | none => none
      | some v => deMapA fin bufs d kts (mapInsert k' v m)
end

mutual
/-- deserialize_attachments.rs:146-466: `T::deserialize` on a `BinaryDeserializer`. -/
def deA (x : Ext) (bufs : List Bytes) (d : Nat) : Ty → JTree → Option DVal
  | .str, t =>
    -- 179-180: any with access type `Bytes`
    match t with
    | .str raw => (unescape raw).map .str
    | .obj kts => enter d fun _ =>
      match mapView x.fin bufs kts with
      | .placeholder b => (utf8OfBytes b).map .str
      | _ => none
    | _ => none
  | .bytes, t =>
    -- 181-182: any with access type `Bytes`
    match t with
    | .str raw => (unescape raw).map fun s => .bytes (utf8Bytes s)
    | .arr ts => enter d fun _ => (bytesOfArr x.fin ts).map .bytes
    | .obj kts => enter d fun _ =>
      match mapView x.fin bufs kts with
      | .placeholder b => some (.bytes b)
      | _ => none
    | _ => none
  | .bstr, t =>
    -- 179: any with access type `Bytes`; the attachment itself is borrowed
    match t with
    | .obj kts => enter d fun _ =>
      match mapView x.fin bufs kts with
      | .placeholder b => (utf8OfBytes b).map .str
      | _ => none
    | t => (unescaped t).map .str
  | .bbytes, t =>
    -- 181: any with access type `Bytes`
    match t with
    | .obj kts => enter d fun _ =>
      match mapView x.fin bufs kts with
      | .placeholder b => some (.bytes b)
      | _ => none
    | t => (unescaped t).map fun s => .bytes (utf8Bytes s)
  | .value, t => (deValueA x.fin bufs d t).map .value
  | .option ty, t =>
    match t with
    | .null => some .none
    | t => (deA x bufs d ty t).map .some
  | .newtype ty, t => deA x bufs d ty t
  | .seq ty, t =>
    -- 183: any with access type `Seq`
    match t with
    | .arr ts => enter d fun d => (allSome (fun t => deA x bufs d ty t) ts).map .seq
    | .obj kts => enter d fun _ =>
      match mapView x.fin bufs kts with
      | .placeholder b => (allSome (deByte ty) b).map .seq
      | _ => none
    | _ => none
  | .map ty, t =>
    match t with
    | .obj kts => enter d fun d =>
      match mapView x.fin bufs kts with
      | .plain => (keyed kts).bind fun kts =>
          (allSome (fun kt => (deA x bufs d ty kt.2).map fun v => (kt.1, v)) kts).map fun kvs =>
            .map (kvs.foldl (fun m kv => mapInsert kv.1 kv.2 m) [])
      | _ => none
    | _ => none
  | .imap _, t =>
    -- 421-431: the first key is replayed as a string, which an integer visitor refuses
    match t with
    | .obj [] => enter d fun _ => some (.imap [])
    | _ => none
  | .tuple tys, t =>
    -- 184-185: any with access type `Seq`
    match t with
    | .arr ts => enter d fun d => (deTupleA x bufs d tys ts).map .seq
    | .obj kts => enter d fun _ =>
      match mapView x.fin bufs kts with
      | .placeholder b => (deBytes tys b).map .seq
      | _ => none
    | _ => none
  | .struct fs, t =>
    -- 186: any with access type `Seq`
    match t with
    | .arr ts => enter d fun d => (deSeqFieldsA x bufs d fs ts).map .struct
    | .obj kts => enter d fun d =>
      match mapView x.fin bufs kts with
      | .err => none
      | .placeholder b => (deBytes (fs.map Prod.snd) b).map .struct
      | .plain => (keyed kts).bind fun kts => (deFieldsA x bufs d fs kts).map .struct
    | _ => none
  | .enum vs, t =>
    match t with
    | .str raw => (unescape raw).bind (unitVariant vs)
    | .obj [(k, t)] => enter d fun d => (unescape k).bind fun k => (deVariantA x bufs d vs k t).map (.variant k)
    | _ => none
  | ty, t => deScalar x.fin ty t
def deTupleA (x : Ext) (bufs : List Bytes) (d : Nat) : List Ty → List JTree → Option (List DVal)
  | [], ts => if ts.isEmpty then some [] else none
  | ty :: tys, ts =>
    match ts with
    | [] => none
    | t :: ts =>
      match deA x bufs d ty t with
      | none => none
      | some v => (deTupleA x bufs d tys ts).map (v :: ·)
def deSeqFieldsA (x : Ext) (bufs : List Bytes) (d : Nat) : List (Str × Ty) → List JTree → Option (List DVal)
  | [], ts => if ts.isEmpty then some [] else none
  | (_, ty) :: fs, ts =>
    match ts with
    | [] => none
    | t :: ts =>
      match deA x bufs d ty t with
      | none => none
      | some v => (deSeqFieldsA x bufs d fs ts).map (v :: ·)
def deFieldsA (x : Ext) (bufs : List Bytes) (d : Nat) : List (Str × Ty) → List (Str × JTree) → Option (List DVal)
  | [], _ => some []
  | (n, ty) :: fs, kts =>
    match (match kts.filter (fun kt => kt.1 = n) with
      | [] => missing ty
      | [kt] => deA x bufs d ty kt.2
      | _ => none) with
    | none => none
    | some v => (deFieldsA x bufs d fs kts).map (v :: ·)
/-- 340-413: variants.  A tuple variant is read with serde_json's own `deserialize_seq`, so
it must be an array (386). -/
def deVariantA (x : Ext) (bufs : List Bytes) (d : Nat) : List (Str × Ty) → Str → JTree → Option DVal
  | [], _, _ => none
  | (n, ty) :: vs, k, t =>
    if n = k then
      match ty, t with
      | .tuple _, .obj _ => none
      | _, _ => deA x bufs d ty t
    else deVariantA x bufs d vs k t
end

/-- The sign and the digits a number starts with. -/
def intPart (l : Str) : Str := (scanMinus l).1 ++ (spanDigits (scanMinus l).2).1

/-- The part of a value that is read: a 128-bit integer is read up to the end of its digits. -/
def readPart : Ty → JTree → JTree
  | .wide _, .num l => .num (intPart l)
  | .option ty, t => readPart ty t
  | .newtype ty, t => readPart ty t
  | _, t => t

/-- deserialize_attachments.rs:30-37.  The code does not check that nothing follows what it has
read.  The text of an argument is always exactly one value; so this can be observed only if the
target stops before the end of the value. -/
def fromStrA (x : Ext) (bufs : List Bytes) (ty : Ty) (s : Str) : Option DVal :=
  (parseTree s).bind fun t => deA x bufs 128 ty (readPart ty t)

/-- args/mod.rs:75-85.  (The attachments are dereferenced at once; the code does so when a
placeholder designates one.) -/
def Arg.deserialize (x : Ext) (ty : Ty) (a : Arg) : Res AErr DVal :=
  match allSome OwnedSubslice.deref a.attachments with
  | none => .panic
  | some bufs =>
    Res.ofOption (.jsonDeError a.arg) (if a.attachments ≠ [] then fromStrA x bufs ty a.arg else fromStr x ty a.arg)

end SIO
