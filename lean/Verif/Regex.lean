import Verif.Text
/-
Leftmost-first (Perl-like) matching with captures, as documented for the `regex`
crate, for the operators used in the code base, and the one pattern it uses.
-/
namespace SIO

/-- Regular expressions over characters: a character class, a greedy star of a
class, concatenation, ordered alternative, greedy option, numbered capture group. -/
inductive Re where
  | cls (p : Char → Bool)
  | star (p : Char → Bool)
  | seq (a b : Re)
  | alt (a b : Re)
  | opt (a : Re)
  | grp (n : Nat) (a : Re)

/-- Captured groups, latest first: group number and byte range. -/
abbrev Caps := List (Nat × (Nat × Nat))

/-- Greedy star with backtracking: longest first. -/
def runStar {β : Type} (p : Char → Bool) :
    Str → Nat → (Str → Nat → Option β) → Option β
  | [], pos, k => k [] pos
  | c :: cs, pos, k =>
    if p c then
      match runStar p cs (pos + c.utf8Size) k with
      | some b => some b
      | none => k (c :: cs) pos
    else k (c :: cs) pos

/-- Backtracking matcher in continuation-passing style; `pos` is the byte offset. -/
def Re.run {β : Type} : Re → Str → Nat → Caps → (Str → Nat → Caps → Option β) → Option β
  | .cls p, s, pos, caps, k =>
    match s with
    | c :: cs => if p c then k cs (pos + c.utf8Size) caps else none
    | [] => none
  | .star p, s, pos, caps, k => runStar p s pos (fun s' pos' => k s' pos' caps)
  | .seq a b, s, pos, caps, k =>
    a.run s pos caps (fun s' pos' caps' => b.run s' pos' caps' k)
  | .alt a b, s, pos, caps, k =>
    match a.run s pos caps k with
    | some r => some r
    | none => b.run s pos caps k
  | .opt a, s, pos, caps, k =>
    match a.run s pos caps k with
    | some r => some r
    | none => k s pos caps
  | .grp n a, s, pos, caps, k =>
    a.run s pos caps (fun s' pos' caps' => k s' pos' ((n, (pos, pos')) :: caps'))

/-- End-of-text anchor `$` (non multi-line mode): succeed only at the end. -/
def atEnd (s : Str) (_ : Nat) (caps : Caps) : Option Caps :=
  if s.isEmpty then some caps else none

/-- `Regex::captures` for a pattern of the form `^re$`. -/
def Re.captures (re : Re) (s : Str) : Option Caps := re.run s 0 [] atEnd

/-- `Captures::get` -/
def Caps.get (c : Caps) (n : Nat) : Option (Nat × Nat) := c.lookup n

/-- `.`: any character except `\n`. -/
def dotCls (c : Char) : Bool := c != '\n'

/-- `[012356]` -/
def kindCls (c : Char) : Bool :=
  c == '0' || c == '1' || c == '2' || c == '3' || c == '5' || c == '6'

/-- `[1-9]` -/
def nzCls (c : Char) : Bool := c.isDigit && c != '0'

/-- `0|[1-9][0-9]*` -/
def reNum : Re := .alt (.cls (· == '0')) (.seq (.cls nzCls) (.star Char.isDigit))

/-- `((0|[1-9][0-9]*)-)?`: groups 2 and 3 -/
def reAtt : Re := .opt (.grp 2 (.seq (.grp 3 reNum) (.cls (· == '-'))))

/-- `((/.+),)?`: groups 4 and 5 -/
def reNs : Re :=
  .opt (.grp 4 (.seq (.grp 5 (.seq (.cls (· == '/')) (.seq (.cls dotCls) (.star dotCls))))
    (.cls (· == ','))))

/-- `(0|[1-9][0-9]*)?`: group 6 -/
def reId : Re := .opt (.grp 6 reNum)

/-- `(\[.*\])?`: group 7 -/
def reArgs : Re :=
  .opt (.grp 7 (.seq (.cls (· == '[')) (.seq (.star dotCls) (.cls (· == ']')))))

/-- socket-io-protocol/src/socket/de.rs:48, the pattern
`^([012356])((0|[1-9][0-9]*)-)?((/.+),)?(0|[1-9][0-9]*)?(\[.*\])?$`. -/
def deserializeRe : Re :=
  .seq (.grp 1 (.cls kindCls)) (.seq reAtt (.seq reNs (.seq reId reArgs)))

end SIO
