import Verif.Text
import Verif.Spec.Json
/-
The parts of serde_json used by the code base: the scanner behind `RawValue`
(`Deserializer::ignore_value`), the parser of `Value`, and the compact printer.
serde_json is an external crate (its source is not in /repo); the model follows
its documented behaviour with default features plus `raw_value`
(socket-io-protocol/Cargo.toml).
-/
namespace SIO
open Spec (JTree)

/-! ### Scanner -/

/-- serde_json whitespace: space, `\n`, `\t`, `\r`. -/
def isWs (c : Char) : Bool := c == ' ' || c == '\n' || c == '\t' || c == '\r'

/-- `Deserializer::parse_whitespace` -/
def skipWs : Str → Str
  | [] => []
  | c :: cs => if isWs c then skipWs cs else c :: cs

/-- Longest prefix of digits and the rest. -/
def spanDigits : Str → Str × Str
  | [] => ([], [])
  | c :: cs => if c.isDigit then ((c :: (spanDigits cs).1), (spanDigits cs).2) else ([], c :: cs)

/-- `ignore_integer`, integer part: a single `0`, or a non-zero digit and digits; a
leading zero followed by a digit is an error. -/
def scanInt (s : Str) : Option (Str × Str) :=
  match s with
  | [] => none
  | c :: cs =>
    if c = '0' then
      match cs with
      | [] => some (['0'], [])
      | d :: ds => if d.isDigit then none else some (['0'], d :: ds)
    else if c.isDigit then some (c :: (spanDigits cs).1, (spanDigits cs).2)
    else none

/-- `ignore_decimal`: optional `.` and at least one digit. -/
def scanFrac (s : Str) : Option (Str × Str) :=
  match s with
  | [] => some ([], [])
  | c :: cs =>
    if c = '.' then
      if (spanDigits cs).1 = [] then none else some ('.' :: (spanDigits cs).1, (spanDigits cs).2)
    else some ([], c :: cs)

/-- Optional sign of an exponent. -/
def scanSign (s : Str) : Str × Str :=
  match s with
  | [] => ([], [])
  | c :: cs => if c = '+' ∨ c = '-' then ([c], cs) else ([], c :: cs)

/-- `ignore_exponent`: optional `e`/`E`, optional sign, at least one digit. -/
def scanExp (s : Str) : Option (Str × Str) :=
  match s with
  | [] => some ([], [])
  | c :: cs =>
    if c = 'e' ∨ c = 'E' then
      if (spanDigits (scanSign cs).2).1 = [] then none
      else some (c :: ((scanSign cs).1 ++ (spanDigits (scanSign cs).2).1),
        (spanDigits (scanSign cs).2).2)
    else some ([], c :: cs)

/-- Optional leading minus. -/
def scanMinus (s : Str) : Str × Str :=
  match s with
  | [] => ([], [])
  | c :: cs => if c = '-' then (['-'], cs) else ([], c :: cs)

/-- A whole number: lexeme and rest. -/
def scanNum (s : Str) : Option (Str × Str) :=
  match scanInt (scanMinus s).2 with
  | none => none
  | some (i, r1) =>
    match scanFrac r1 with
    | none => none
    | some (f, r2) =>
      match scanExp r2 with
      | none => none
      | some (e, r3) => some ((scanMinus s).1 ++ (i ++ (f ++ e)), r3)

/-- A hexadecimal digit's value. -/
def hexVal (c : Char) : Option Nat :=
  if c.isDigit then some (c.toNat - 48)
  else if 97 ≤ c.toNat ∧ c.toNat ≤ 102 then some (c.toNat - 87)
  else if 65 ≤ c.toNat ∧ c.toNat ≤ 70 then some (c.toNat - 55)
  else none

def isHex (c : Char) : Bool := (hexVal c).isSome

/-- Characters allowed after a backslash, other than `u`. -/
def isSimpleEsc (c : Char) : Bool :=
  c == '"' || c == '\\' || c == '/' || c == 'b' || c == 'f' || c == 'n' || c == 'r' || c == 't'

/-- `ignore_str` after the opening quote: raw content and the rest after the closing
quote.  Control characters are rejected; `\u` needs four hex digits, surrogates are
*not* checked here. -/
def scanStr : Str → Option (Str × Str)
  | [] => none
  | '"' :: r => some ([], r)
  | '\\' :: 'u' :: a :: b :: c :: d :: r =>
    if isHex a && isHex b && isHex c && isHex d then
      (scanStr r).map fun (x, y) => ('\\' :: 'u' :: a :: b :: c :: d :: x, y)
    else none
  | '\\' :: e :: r =>
    if isSimpleEsc e then (scanStr r).map fun (x, y) => ('\\' :: e :: x, y) else none
  | c :: r =>
    if c = '\\' ∨ c.toNat < 0x20 then none else (scanStr r).map fun (x, y) => (c :: x, y)

mutual
/-- `ignore_value`, at a non-whitespace position: the syntax tree of the value read and
the rest.  (serde_json's scanner is iterative and has no depth limit; here it is
recursive with fuel, enough fuel being the length of the text.) -/
def pVal : Nat → Str → Option (JTree × Str)
  | 0, _ => none
  | n + 1, s =>
    match s with
    | 'n' :: 'u' :: 'l' :: 'l' :: r => some (.null, r)
    | 't' :: 'r' :: 'u' :: 'e' :: r => some (.bool true, r)
    | 'f' :: 'a' :: 'l' :: 's' :: 'e' :: r => some (.bool false, r)
    | '"' :: r =>
      match scanStr r with
      | some (raw, r') => some (.str raw, r')
      | none => none
    | '[' :: r =>
      match skipWs r with
      | ']' :: r' => some (.arr [], r')
      | r' =>
        match pElems n r' with
        | some (xs, r'') => some (.arr xs, r'')
        | none => none
    | '{' :: r =>
      match skipWs r with
      | '}' :: r' => some (.obj [], r')
      | r' =>
        match pMembers n r' with
        | some (xs, r'') => some (.obj xs, r'')
        | none => none
    | s =>
      match scanNum s with
      | some (lex, r) => some (.num lex, r)
      | none => none
/-- Elements of an array from a value position up to and including `]`. -/
def pElems : Nat → Str → Option (List JTree × Str)
  | 0, _ => none
  | n + 1, s =>
    match pVal n s with
    | none => none
    | some (x, r) =>
      match skipWs r with
      | ',' :: r' =>
        match pElems n (skipWs r') with
        | some (xs, r'') => some (x :: xs, r'')
        | none => none
      | ']' :: r' => some ([x], r')
      | _ => none
/-- Members of an object from a key position up to and including `}`. -/
def pMembers : Nat → Str → Option (List (Str × JTree) × Str)
  | 0, _ => none
  | n + 1, s =>
    match s with
    | '"' :: r0 =>
      match scanStr r0 with
      | none => none
      | some (k, r1) =>
        match skipWs r1 with
        | ':' :: r2 =>
          match pVal n (skipWs r2) with
          | none => none
          | some (x, r) =>
            match skipWs r with
            | ',' :: r' =>
              match pMembers n (skipWs r') with
              | some (xs, r'') => some ((k, x) :: xs, r'')
              | none => none
            | '}' :: r' => some ([(k, x)], r')
            | _ => none
        | _ => none
    | _ => none
end

/-- The syntax tree of a complete JSON text (`from_str` up to and including
`Deserializer::end`: surrounding whitespace allowed, nothing else). -/
def parseTree (s : Str) : Option JTree :=
  match pVal (s.length + 1) (skipWs s) with
  | some (t, r) => if skipWs r = [] then some t else none
  | none => none

/-! ### Semantics: dynamic values -/

/-- serde_json `Number` (default features): a `u64`, a negative `i64`, or an `f64`.
A float is represented by the literal it was read from. -/
inductive Num where
  | pos (n : Nat)
  | neg (n : Nat)
  | float (lex : Str)
deriving Repr, DecidableEq

/-- serde_json `Value`; objects are `BTreeMap`s: strictly increasing keys. -/
inductive Value where
  | null
  | bool (b : Bool)
  | num (n : Num)
  | str (s : Str)
  | arr (xs : List Value)
  | obj (kvs : List (Str × Value))
deriving Repr

/-- Reading a number literal: integers that fit become `u64`/`i64`; `-0`, literals
with fraction or exponent and integers out of range become `f64` if that is finite
(`fin`, not modelled further), otherwise "number out of range". -/
def readNum (fin : Str → Bool) (lex : Str) : Option Num :=
  if lex ≠ [] ∧ lex.all Char.isDigit ∧ decVal lex < u64Bound then some (.pos (decVal lex))
  else
    match lex with
    | '-' :: ds =>
      if ds ≠ [] ∧ ds.all Char.isDigit ∧ 0 < decVal ds ∧ decVal ds ≤ 9223372036854775808 then
        some (.neg (decVal ds))
      else if fin lex then some (.float lex) else none
    | _ => if fin lex then some (.float lex) else none

/-- The character a simple escape stands for. -/
def simpleEsc (c : Char) : Char :=
  if c = 'b' then '\x08' else if c = 'f' then '\x0c' else if c = 'n' then '\n'
  else if c = 'r' then '\r' else if c = 't' then '\t' else c

/-- Value of four hex digits. -/
def hex4 (a b c d : Char) : Option Nat := do
  let a ← hexVal a
  let b ← hexVal b
  let c ← hexVal c
  let d ← hexVal d
  return ((a * 16 + b) * 16 + c) * 16 + d

/-- `parse_str`: decoding of the raw content of a string; lone surrogates are errors. -/
def unescape : Str → Option Str
  | [] => some []
  | '\\' :: 'u' :: a :: b :: c :: d :: r =>
    match hex4 a b c d with
    | none => none
    | some n =>
      if 0xDC00 ≤ n ∧ n ≤ 0xDFFF then none
      else if 0xD800 ≤ n ∧ n ≤ 0xDBFF then
        match r with
        | '\\' :: 'u' :: a' :: b' :: c' :: d' :: r' =>
          match hex4 a' b' c' d' with
          | none => none
          | some n2 =>
            if 0xDC00 ≤ n2 ∧ n2 ≤ 0xDFFF then
              (unescape r').map (Char.ofNat ((n - 0xD800) * 1024 + (n2 - 0xDC00) + 0x10000) :: ·)
            else none
        | _ => none
      else (unescape r).map (Char.ofNat n :: ·)
  | '\\' :: e :: r =>
    if isSimpleEsc e then (unescape r).map (simpleEsc e :: ·) else none
  | c :: r => if c = '\\' ∨ c = '"' ∨ c.toNat < 0x20 then none else (unescape r).map (c :: ·)

/-- `String`'s order: byte-wise, which for UTF-8 is the order of code points. -/
def strLt : Str → Str → Bool
  | _, [] => false
  | [], _ :: _ => true
  | a :: as, b :: bs => if a.toNat < b.toNat then true else if b.toNat < a.toNat then false else strLt as bs

/-- `BTreeMap::insert` on the sorted association list. -/
def mapInsert {α : Type} (k : Str) (v : α) : List (Str × α) → List (Str × α)
  | [] => [(k, v)]
  | (k', v') :: m =>
    if strLt k k' then (k, v) :: (k', v') :: m
    else if strLt k' k then (k', v') :: mapInsert k v m
    else (k, v) :: m

/-- `BTreeMap::get` -/
def mapGet {α : Type} (k : Str) (m : List (Str × α)) : Option α := m.lookup k

/-- serde_json's `raw::TOKEN`, the name under which it passes raw values around. -/
def rawKey : Str := "$serde_json::private::RawValue".toList

/-- What the reader for `Value`s finds in an object. -/
inductive RawView where
  | plain
  | err
  | raw (s : Str)

/-- `ValueVisitor::visit_map` of serde_json with its feature `raw_value`
(socket-io-protocol/Cargo.toml:16): an object that starts with the key `raw::TOKEN` is taken for a raw
value.  The value of the key must be a string, and there must be no other member. -/
def rawView : List (Str × JTree) → RawView
  | [] => .plain
  | (k, t) :: rest =>
    if unescape k = some rawKey then
      match t, rest with
      | .str raw, [] =>
        match unescape raw with
        | some s => .raw s
        | none => .err
      | _, _ => .err
    else .plain

mutual
/-- `Value::deserialize` on a syntax tree; `d` is the remaining recursion depth
(serde_json starts at 128 and refuses to enter a container when one is left), `nest` what is made of
the text of a raw value. -/
def toValueW (nest : Str → Option Value) (fin : Str → Bool) (d : Nat) : JTree → Option Value
  | .null => some .null
  | .bool b => some (.bool b)
  | .num lex => (readNum fin lex).map .num
  | .str raw => (unescape raw).map .str
  | .arr xs => if d ≤ 1 then none else (toValuesW nest fin (d - 1) xs).map .arr
  | .obj kvs =>
    if d ≤ 1 then none
    else
      match rawView kvs with
      | .plain => (toMapW nest fin (d - 1) kvs []).map .obj
      | .err => none
      | .raw s => nest s
def toValuesW (nest : Str → Option Value) (fin : Str → Bool) (d : Nat) : List JTree → Option (List Value)
  | [] => some []
  | x :: xs =>
    match toValueW nest fin d x with
    | none => none
    | some v => (toValuesW nest fin d xs).map (v :: ·)
/-- Members are inserted into the map in source order: the last duplicate wins. -/
def toMapW (nest : Str → Option Value) (fin : Str → Bool) (d : Nat) :
    List (Str × JTree) → List (Str × Value) → Option (List (Str × Value))
  | [], m => some m
  | (k, x) :: kvs, m =>
    match unescape k with
    | none => none
    | some k' =>
      match toValueW nest fin d x with
      | none => none
      | some v => toMapW nest fin d kvs (mapInsert k' v m)
end

/-- `serde_json::from_str::<Value>` on a text shorter than the bound.  The text of a raw value is
read by another call of it, with its own recursion depth; it is shorter than the text around it. -/
def rawText (fin : Str → Bool) : Nat → Str → Option Value
  | 0, _ => none
  | n + 1, s => (parseTree s).bind (toValueW (rawText fin n) fin 128)

/-- What is made of the text of a raw value. -/
def nested (fin : Str → Bool) (s : Str) : Option Value := rawText fin (s.length + 1) s

/-- `Value::deserialize` on a syntax tree. -/
def toValue (fin : Str → Bool) (d : Nat) (t : JTree) : Option Value := toValueW (nested fin) fin d t

/-- The elements of an array. -/
def toValues (fin : Str → Bool) (d : Nat) (ts : List JTree) : Option (List Value) := toValuesW (nested fin) fin d ts

/-- The members of an object. -/
def toMap (fin : Str → Bool) (d : Nat) (kts : List (Str × JTree)) (m : List (Str × Value)) : Option (List (Str × Value)) :=
  toMapW (nested fin) fin d kts m

/-- `serde_json::from_str::<Value>` -/
def valueOfText (fin : Str → Bool) (s : Str) : Option Value :=
  (parseTree s).bind (toValue fin 128)

/-! ### Printer -/

/-- Lower-case hex digit. -/
def hexChar (d : Nat) : Char := if d < 10 then Char.ofNat (48 + d) else Char.ofNat (87 + d)

/-- serde_json's escape of one character. -/
def escapeChar (c : Char) : Str :=
  if c = '"' then ['\\', '"']
  else if c = '\\' then ['\\', '\\']
  else if c = '\x08' then ['\\', 'b']
  else if c = '\t' then ['\\', 't']
  else if c = '\n' then ['\\', 'n']
  else if c = '\x0c' then ['\\', 'f']
  else if c = '\r' then ['\\', 'r']
  else if c.toNat < 0x20 then ['\\', 'u', '0', '0', hexChar (c.toNat / 16), hexChar (c.toNat % 16)]
  else [c]

/-- `format_escaped_str_contents` -/
def escape : Str → Str
  | [] => []
  | c :: s => escapeChar c ++ escape s

mutual
/-- The compact formatter on a syntax tree. -/
def render : JTree → Str
  | .null => ['n', 'u', 'l', 'l']
  | .bool true => ['t', 'r', 'u', 'e']
  | .bool false => ['f', 'a', 'l', 's', 'e']
  | .num lex => lex
  | .str raw => '"' :: (raw ++ ['"'])
  | .arr xs => '[' :: (renderElems xs ++ [']'])
  | .obj kvs => '{' :: (renderMembers kvs ++ ['}'])
def renderElems : List JTree → Str
  | [] => []
  | [x] => render x
  | x :: y :: xs => render x ++ ',' :: renderElems (y :: xs)
def renderMembers : List (Str × JTree) → Str
  | [] => []
  | [(k, x)] => '"' :: (k ++ '"' :: ':' :: render x)
  | (k, x) :: y :: xs => '"' :: (k ++ '"' :: ':' :: (render x ++ ',' :: renderMembers (y :: xs)))
end

/-- Printing a number (integers via `itoa`; a float prints as the text it stands for). -/
def numText : Num → Str
  | .pos n => natDec n
  | .neg n => '-' :: natDec n
  | .float lex => lex

mutual
/-- The syntax tree a `Value` serializes to. -/
def ofValue : Value → JTree
  | .null => .null
  | .bool b => .bool b
  | .num n => .num (numText n)
  | .str s => .str (escape s)
  | .arr xs => .arr (ofValues xs)
  | .obj kvs => .obj (ofMembers kvs)
def ofValues : List Value → List JTree
  | [] => []
  | x :: xs => ofValue x :: ofValues xs
def ofMembers : List (Str × Value) → List (Str × JTree)
  | [] => []
  | (k, x) :: kvs => (escape k, ofValue x) :: ofMembers kvs
end

/-- `Display for Value` (compact). -/
def valueText (v : Value) : Str := render (ofValue v)

end SIO
