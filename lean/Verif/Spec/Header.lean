/-
Specification of the socket.io packet header grammar, independent of the regular
expression used by the code.  Text is a list of characters.
-/
namespace SIO.Spec

/-- A canonical decimal numeral: `0`, or a non-zero digit followed by digits. -/
def IsDec (s : List Char) : Prop :=
  s = ['0'] ∨ ∃ c cs, s = c :: cs ∧ c.isDigit = true ∧ c ≠ '0' ∧ ∀ x ∈ cs, x.isDigit = true

/-- A namespace as it can occur on the wire: `/`, at least one more character, no newline. -/
def IsNs (s : List Char) : Prop :=
  ∃ c cs, s = '/' :: c :: cs ∧ c ≠ '\n' ∧ ∀ x ∈ cs, x ≠ '\n'

/-- A bracketed text without newline. -/
def IsBracketed (s : List Char) : Prop :=
  ∃ w, s = '[' :: (w ++ [']']) ∧ ∀ x ∈ w, x ≠ '\n'

/-- The parts of a packet text. -/
structure Parts where
  kind : Char
  att : Option (List Char)
  ns : Option (List Char)
  id : Option (List Char)
  args : Option (List Char)

/-- An optional part, with a terminator character if present. -/
def part (t : List Char) : Option (List Char) → List Char
  | none => []
  | some s => s ++ t

/-- The packet text made of the given parts: kind, `att-`, `ns,`, id, args. -/
def Parts.text (p : Parts) : List Char :=
  p.kind :: (part ['-'] p.att ++ (part [','] p.ns ++ (part [] p.id ++ part [] p.args)))

/-- All parts have the right shape. -/
structure Parts.Wf (p : Parts) : Prop where
  kind : p.kind ∈ ['0', '1', '2', '3', '5', '6']
  att : ∀ a, p.att = some a → IsDec a
  ns : ∀ n, p.ns = some n → IsNs n
  id : ∀ i, p.id = some i → IsDec i
  args : ∀ g, p.args = some g → IsBracketed g

/-- Number of characters of the namespace part (0 if absent). -/
def Parts.nsLen (p : Parts) : Nat := (p.ns.getD []).length

/-- Among all decompositions of the same text, `p` has the longest namespace. -/
def Parts.Longest (p : Parts) : Prop :=
  ∀ q : Parts, q.Wf → q.text = p.text → q.nsLen ≤ p.nsLen

/-- A text in which some comma is directly followed by `[`, or by a numeral and `[`. -/
def Ambiguous (g : List Char) : Prop :=
  ∃ u d r, g = u ++ (',' :: (d ++ ('[' :: r))) ∧ (d = [] ∨ IsDec d)

end SIO.Spec
