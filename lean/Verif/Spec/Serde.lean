import Verif.Spec.Json
/-
The values of serde's data model and the JSON document each stands for; which
documents a JSON text stands for.
-/
namespace SIO.Spec

/-- What a `Serialize` implementation hands to the serializer.  `u8` is kept apart
from the other integers, `seq` from tuples and byte strings.  Unit structs are `unit`,
tuple structs are `tuple`.  A float is the literal serde_json prints for it, `none` if
it is not finite.  `fail` is an implementation that reports an error of its own. -/
inductive SVal where
  | bool (b : Bool)
  | u8 (n : UInt8)
  | int (i : Int)
  | float (lex : Option (List Char))
  | char (c : Char)
  | str (s : List Char)
  | bytes (b : List UInt8)
  | none
  | some (v : SVal)
  | unit
  | unitVariant (name : List Char)
  | newtype (v : SVal)
  | newtypeVariant (name : List Char) (v : SVal)
  | seq (vs : List SVal)
  | tuple (vs : List SVal)
  | tupleVariant (name : List Char) (vs : List SVal)
  | map (kvs : List (SVal × SVal))
  | struct (fs : List (List Char × SVal))
  | structVariant (name : List Char) (fs : List (List Char × SVal))
  | fail
deriving Repr

/-- A JSON document, with byte strings as an additional kind of leaf.  Strings are
contents (not escaped), numbers are literals, objects are ordered. -/
inductive Doc where
  | null
  | bool (b : Bool)
  | num (lex : List Char)
  | str (s : List Char)
  | blob (b : List UInt8)
  | arr (ds : List Doc)
  | obj (kvs : List (List Char × Doc))
deriving Repr

/-- Decimal digits of a natural number. -/
def decimal (n : Nat) : List Char := Nat.toDigits 10 n

/-- Decimal text of an integer. -/
def intText (i : Int) : List Char := if i < 0 then '-' :: decimal i.natAbs else decimal i.natAbs

/-- The text of a value used as a map key; `none` if JSON cannot have it as a key. -/
def keyOf : SVal → Option (List Char)
  | .bool b => .some (if b then "true".toList else "false".toList)
  | .u8 n => .some (decimal n.toNat)
  | .int i => .some (intText i)
  | .float l => l
  | .char c => .some [c]
  | .str s => .some s
  | .unitVariant n => .some n
  | .newtype v => keyOf v
  | .some v => keyOf v
  | _ => .none

/-- A `u8` value. -/
def asByte : SVal → Option UInt8
  | .u8 n => .some n
  | _ => .none

/-- The bytes of a list of values that are all `u8`. -/
def allU8 : List SVal → Option (List UInt8)
  | [] => .some []
  | v :: vs =>
    match asByte v, allU8 vs with
    | .some b, .some bs => .some (b :: bs)
    | _, _ => .none

mutual
/-- The document of a value: byte strings and non-empty sequences of `u8` only are
blobs.  `none` if the value cannot be serialized.  With `leak`, a sequence that starts
with a `u8` but is not all `u8` gets a spurious first element `4` (which is what the
code does, see C07). -/
def docWith (leak : Bool) : SVal → Option Doc
  | .bool b => .some (.bool b)
  | .u8 n => .some (.num (decimal n.toNat))
  | .int i => .some (.num (intText i))
  | .float .none => .some .null
  | .float (.some l) => .some (.num l)
  | .char c => .some (.str [c])
  | .str s => .some (.str s)
  | .bytes b => .some (.blob b)
  | .none => .some .null
  | .some v => docWith leak v
  | .unit => .some .null
  | .unitVariant n => .some (.str n)
  | .newtype v => docWith leak v
  | .newtypeVariant n v => (docWith leak v).map fun d => .obj [(n, d)]
  | .seq [] => .some (.arr [])
  | .seq (v :: vs) =>
    match allU8 (v :: vs) with
    | .some b => .some (.blob b)
    | .none =>
      if leak = true ∧ (asByte v).isSome then
        (docsWith leak (v :: vs)).map fun ds => .arr (.num (decimal 4) :: ds)
      else (docsWith leak (v :: vs)).map .arr
  | .tuple vs => (docsWith leak vs).map .arr
  | .tupleVariant n vs => (docsWith leak vs).map fun ds => .obj [(n, .arr ds)]
  | .map kvs => (entriesWith leak kvs).map .obj
  | .struct fs => (fieldsWith leak fs).map .obj
  | .structVariant n fs => (fieldsWith leak fs).map fun kvs => .obj [(n, .obj kvs)]
  | .fail => .none
def docsWith (leak : Bool) : List SVal → Option (List Doc)
  | [] => .some []
  | v :: vs =>
    match docWith leak v, docsWith leak vs with
    | .some d, .some ds => .some (d :: ds)
    | _, _ => .none
def entriesWith (leak : Bool) : List (SVal × SVal) → Option (List (List Char × Doc))
  | [] => .some []
  | (k, v) :: kvs =>
    match keyOf k, docWith leak v, entriesWith leak kvs with
    | .some k, .some d, .some ds => .some ((k, d) :: ds)
    | _, _, _ => .none
def fieldsWith (leak : Bool) : List (List Char × SVal) → Option (List (List Char × Doc))
  | [] => .some []
  | (k, v) :: kvs =>
    match docWith leak v, fieldsWith leak kvs with
    | .some d, .some ds => .some ((k, d) :: ds)
    | _, _ => .none
end

/-- The document of a value. -/
def docOf (v : SVal) : Option Doc := docWith false v

/-- A byte string as a JSON array of numbers. -/
def byteNums (b : List UInt8) : List Doc := b.map fun x => .num (decimal x.toNat)

mutual
/-- The document with blobs written as arrays of numbers. -/
def Doc.plain : Doc → Doc
  | .blob b => .arr (byteNums b)
  | .arr ds => .arr (plains ds)
  | .obj kvs => .obj (plainMs kvs)
  | .null => .null
  | .bool b => .bool b
  | .num l => .num l
  | .str s => .str s
def plains : List Doc → List Doc
  | [] => []
  | d :: ds => d.plain :: plains ds
def plainMs : List (List Char × Doc) → List (List Char × Doc)
  | [] => []
  | (k, d) :: kvs => (k, d.plain) :: plainMs kvs
end

/-- The object that stands for attachment number `n`. -/
def placeholderDoc (n : Nat) : Doc :=
  .obj [("_placeholder".toList, .bool true), ("num".toList, .num (decimal n))]

mutual
/-- The blobs of a document in order of appearance. -/
def Doc.blobs : Doc → List (List UInt8)
  | .blob b => [b]
  | .arr ds => blobsL ds
  | .obj kvs => blobsM kvs
  | _ => []
def blobsL : List Doc → List (List UInt8)
  | [] => []
  | d :: ds => d.blobs ++ blobsL ds
def blobsM : List (List Char × Doc) → List (List UInt8)
  | [] => []
  | (_, d) :: kvs => d.blobs ++ blobsM kvs
end

mutual
/-- The document with its blobs replaced by placeholders numbered from `n` in order of
appearance. -/
def Doc.numbered (n : Nat) : Doc → Doc
  | .blob _ => placeholderDoc n
  | .arr ds => .arr (numberedL n ds)
  | .obj kvs => .obj (numberedM n kvs)
  | .null => .null
  | .bool b => .bool b
  | .num l => .num l
  | .str s => .str s
def numberedL (n : Nat) : List Doc → List Doc
  | [] => []
  | d :: ds => d.numbered n :: numberedL (n + d.blobs.length) ds
def numberedM (n : Nat) : List (List Char × Doc) → List (List Char × Doc)
  | [] => []
  | (k, d) :: kvs => (k, d.numbered n) :: numberedM (n + d.blobs.length) kvs
end

/-- Value of a hexadecimal digit. -/
def hexDigit (c : Char) : Nat :=
  if c.isDigit then c.toNat - 48
  else if c ∈ ['a', 'b', 'c', 'd', 'e', 'f'] then c.toNat - 87 else c.toNat - 55

/-- Value of four hexadecimal digits. -/
def hexQuad (a b c d : Char) : Nat :=
  hexDigit a * 4096 + hexDigit b * 256 + hexDigit c * 16 + hexDigit d

/-- The two-character escapes. -/
def escTable : List (Char × Char) :=
  [('"', '"'), ('\\', '\\'), ('/', '/'), ('b', '\x08'), ('f', '\x0c'), ('n', '\n'), ('r', '\r'), ('t', '\t')]

/-- The source text between the quotes denotes the string (RFC 8259, with `\u` pairs for
characters outside the basic plane; a lone surrogate denotes nothing). -/
inductive StrDenotes : List Char → List Char → Prop where
  | nil : StrDenotes [] []
  | char (c : Char) (r s : List Char) : c ≠ '"' → c ≠ '\\' → 0x20 ≤ c.toNat →
      StrDenotes r s → StrDenotes (c :: r) (c :: s)
  | esc (e c : Char) (r s : List Char) : (e, c) ∈ escTable →
      StrDenotes r s → StrDenotes ('\\' :: e :: r) (c :: s)
  | uni (a b c d x : Char) (r s : List Char) : IsHex a → IsHex b → IsHex c → IsHex d →
      x.toNat = hexQuad a b c d →
      StrDenotes r s → StrDenotes ('\\' :: 'u' :: a :: b :: c :: d :: r) (x :: s)
  | pair (a b c d a' b' c' d' x : Char) (r s : List Char) :
      IsHex a → IsHex b → IsHex c → IsHex d → IsHex a' → IsHex b' → IsHex c' → IsHex d' →
      0xD800 ≤ hexQuad a b c d → hexQuad a b c d ≤ 0xDBFF →
      0xDC00 ≤ hexQuad a' b' c' d' → hexQuad a' b' c' d' ≤ 0xDFFF →
      x.toNat = 0x10000 + (hexQuad a b c d - 0xD800) * 0x400 + (hexQuad a' b' c' d' - 0xDC00) →
      StrDenotes r s →
      StrDenotes ('\\' :: 'u' :: a :: b :: c :: d :: '\\' :: 'u' :: a' :: b' :: c' :: d' :: r) (x :: s)

mutual
/-- A syntax tree denotes a document (without blobs). -/
def Denotes : JTree → Doc → Prop
  | .null, d => d = .null
  | .bool b, d => d = .bool b
  | .num l, d => d = .num l
  | .str raw, d => ∃ s, d = .str s ∧ StrDenotes raw s
  | .arr ts, d => ∃ ds, d = .arr ds ∧ DenotesL ts ds
  | .obj kts, d => ∃ kds, d = .obj kds ∧ DenotesM kts kds
def DenotesL : List JTree → List Doc → Prop
  | [], ds => ds = []
  | t :: ts, ds => ∃ d ds', ds = d :: ds' ∧ Denotes t d ∧ DenotesL ts ds'
def DenotesM : List (List Char × JTree) → List (List Char × Doc) → Prop
  | [], ds => ds = []
  | (k, t) :: ts, ds => ∃ k' d ds', ds = (k', d) :: ds' ∧ StrDenotes k k' ∧ Denotes t d ∧ DenotesM ts ds'
end

/-- The text is a JSON value that denotes the document. -/
def TextDenotes (s : List Char) (d : Doc) : Prop := ∃ t, IsVal t s ∧ Denotes t d

mutual
/-- All float literals of the value, outside map keys, are JSON numbers (true of what
serde_json prints). -/
def SVal.FloatsOk : SVal → Prop
  | .float (.some l) => IsNum l
  | .some v => v.FloatsOk
  | .newtype v => v.FloatsOk
  | .newtypeVariant _ v => v.FloatsOk
  | .seq vs => FloatsOkL vs
  | .tuple vs => FloatsOkL vs
  | .tupleVariant _ vs => FloatsOkL vs
  | .map kvs => FloatsOkM kvs
  | .struct fs => FloatsOkF fs
  | .structVariant _ fs => FloatsOkF fs
  | _ => True
def FloatsOkL : List SVal → Prop
  | [] => True
  | v :: vs => v.FloatsOk ∧ FloatsOkL vs
def FloatsOkM : List (SVal × SVal) → Prop
  | [] => True
  | (_, v) :: kvs => v.FloatsOk ∧ FloatsOkM kvs
def FloatsOkF : List (List Char × SVal) → Prop
  | [] => True
  | (_, v) :: kvs => v.FloatsOk ∧ FloatsOkF kvs
end

/-- A sequence is mixed if it starts with a `u8` but is not all `u8`. -/
def Mixed (vs : List SVal) : Prop := (∃ n vs', vs = .u8 n :: vs') ∧ ∃ v ∈ vs, ∀ n, v ≠ .u8 n

mutual
/-- No sequence inside the value is mixed. -/
def SVal.NoMixed : SVal → Prop
  | .some v => v.NoMixed
  | .newtype v => v.NoMixed
  | .newtypeVariant _ v => v.NoMixed
  | .seq vs => ¬ Mixed vs ∧ NoMixedL vs
  | .tuple vs => NoMixedL vs
  | .tupleVariant _ vs => NoMixedL vs
  | .map kvs => NoMixedM kvs
  | .struct fs => NoMixedF fs
  | .structVariant _ fs => NoMixedF fs
  | _ => True
def NoMixedL : List SVal → Prop
  | [] => True
  | v :: vs => v.NoMixed ∧ NoMixedL vs
def NoMixedM : List (SVal × SVal) → Prop
  | [] => True
  | (_, v) :: kvs => v.NoMixed ∧ NoMixedM kvs
def NoMixedF : List (List Char × SVal) → Prop
  | [] => True
  | (_, v) :: kvs => v.NoMixed ∧ NoMixedF kvs
end

end SIO.Spec
