import Verif.Spec.Header
/-
JSON syntax trees and the RFC 8259 grammar, independent of any parser.
`raw` parts are the source characters: of a number, or between the quotes of a string.
-/
namespace SIO.Spec

/-- JSON syntax tree: numbers and strings keep their source text, objects keep the
order and repetition of their members. -/
inductive JTree where
  | null
  | bool (b : Bool)
  | num (lex : List Char)
  | str (raw : List Char)
  | arr (xs : List JTree)
  | obj (kvs : List (List Char × JTree))
deriving Repr

/-- JSON whitespace. -/
def IsWs (s : List Char) : Prop := ∀ c ∈ s, c = ' ' ∨ c = '\n' ∨ c = '\t' ∨ c = '\r'

/-- A hexadecimal digit. -/
def IsHex (c : Char) : Prop :=
  c.isDigit = true ∨ c ∈ ['a', 'b', 'c', 'd', 'e', 'f'] ∨ c ∈ ['A', 'B', 'C', 'D', 'E', 'F']

/-- Text between the quotes of a JSON string. -/
inductive IsStrBody : List Char → Prop where
  | nil : IsStrBody []
  | char (c : Char) (s : List Char) : c ≠ '"' → c ≠ '\\' → 0x20 ≤ c.toNat →
      IsStrBody s → IsStrBody (c :: s)
  | esc (c : Char) (s : List Char) : c ∈ ['"', '\\', '/', 'b', 'f', 'n', 'r', 't'] →
      IsStrBody s → IsStrBody ('\\' :: c :: s)
  | uni (a b c d : Char) (s : List Char) : IsHex a → IsHex b → IsHex c → IsHex d →
      IsStrBody s → IsStrBody ('\\' :: 'u' :: a :: b :: c :: d :: s)

/-- Non-empty digit string. -/
def IsDigits (s : List Char) : Prop := s ≠ [] ∧ ∀ c ∈ s, c.isDigit = true

/-- A JSON number. -/
def IsNum (s : List Char) : Prop :=
  ∃ sign int frac exp, s = sign ++ (int ++ (frac ++ exp)) ∧
    (sign = [] ∨ sign = ['-']) ∧ IsDec int ∧
    (frac = [] ∨ ∃ d, frac = '.' :: d ∧ IsDigits d) ∧
    (exp = [] ∨ ∃ e sg d, exp = e :: (sg ++ d) ∧ (e = 'e' ∨ e = 'E') ∧
      (sg = [] ∨ sg = ['+'] ∨ sg = ['-']) ∧ IsDigits d)

mutual
/-- `IsVal t s`: the text `s` is a JSON value, without surrounding whitespace, with
syntax tree `t`. -/
def IsVal : JTree → List Char → Prop
  | .null, s => s = ['n', 'u', 'l', 'l']
  | .bool true, s => s = ['t', 'r', 'u', 'e']
  | .bool false, s => s = ['f', 'a', 'l', 's', 'e']
  | .num lex, s => s = lex ∧ IsNum lex
  | .str raw, s => s = '"' :: (raw ++ ['"']) ∧ IsStrBody raw
  | .arr xs, s => ∃ b, s = '[' :: (b ++ [']']) ∧ IsElems xs b
  | .obj kvs, s => ∃ b, s = '{' :: (b ++ ['}']) ∧ IsMembers kvs b
/-- Comma separated values, each with surrounding whitespace (whitespace only if none). -/
def IsElems : List JTree → List Char → Prop
  | [], b => IsWs b
  | x :: xs, b => ∃ w1 v w2 b', b = w1 ++ (v ++ (w2 ++ b')) ∧ IsWs w1 ∧ IsWs w2 ∧ IsVal x v ∧
      ((xs = [] ∧ b' = []) ∨ (xs ≠ [] ∧ ∃ b'', b' = ',' :: b'' ∧ IsElems xs b''))
/-- Comma separated `"key" : value` members. -/
def IsMembers : List (List Char × JTree) → List Char → Prop
  | [], b => IsWs b
  | (k, x) :: xs, b => ∃ w1 w2 w3 v w4 b',
      b = w1 ++ ('"' :: (k ++ ('"' :: (w2 ++ (':' :: (w3 ++ (v ++ (w4 ++ b')))))))) ∧
      IsWs w1 ∧ IsWs w2 ∧ IsWs w3 ∧ IsWs w4 ∧ IsStrBody k ∧ IsVal x v ∧
      ((xs = [] ∧ b' = []) ∨ (xs ≠ [] ∧ ∃ b'', b' = ',' :: b'' ∧ IsMembers xs b''))
end

/-- A JSON text: a value with surrounding whitespace. -/
def IsText (t : JTree) (s : List Char) : Prop :=
  ∃ w1 v w2, s = w1 ++ (v ++ w2) ∧ IsWs w1 ∧ IsWs w2 ∧ IsVal t v

/-- Comma separated values, each with surrounding whitespace, given by their texts. -/
def IsElemTexts : List (List Char) → List Char → Prop
  | [], b => IsWs b
  | v :: vs, b => ∃ w1 w2 b', b = w1 ++ (v ++ (w2 ++ b')) ∧ IsWs w1 ∧ IsWs w2 ∧ (∃ t, IsVal t v) ∧
      ((vs = [] ∧ b' = []) ∨ (vs ≠ [] ∧ ∃ b'', b' = ',' :: b'' ∧ IsElemTexts vs b''))

/-- A JSON array text (with surrounding whitespace) whose elements have the given texts. -/
def IsArrayText (vs : List (List Char)) (s : List Char) : Prop :=
  ∃ w1 b w2, s = w1 ++ ('[' :: (b ++ (']' :: w2))) ∧ IsWs w1 ∧ IsWs w2 ∧ IsElemTexts vs b

end SIO.Spec
