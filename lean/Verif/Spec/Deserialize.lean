import Verif.Deserialize
import Verif.Spec.Value
import Verif.Spec.Builder
/-
The JSON syntax tree in which placeholders are replaced by byte arrays, and the class of
targets and trees on which the attachment-aware deserializer is expected to read a tree like
a plain JSON deserializer reads the filled tree.
-/
namespace SIO.Spec

/-- Some member of the object has the key `k`. -/
def HasKey (k : List Char) (kts : List (List Char × JTree)) : Prop := ∃ kt ∈ kts, StrDenotes kt.1 k

/-- A placeholder object: it has the key `_placeholder`. -/
def PhTree (kts : List (List Char × JTree)) : Prop := HasKey phKey kts

/-- The number of a placeholder object: the last member `num`, if it is an unsigned integer. -/
def PhTreeNum (kts : List (List Char × JTree)) (i : Nat) : Prop :=
  ∃ pre k post, kts = pre ++ (k, .num (decimal i)) :: post ∧ StrDenotes k numKey ∧ i < 2 ^ 64 ∧
    ¬ HasKey numKey post

/-- The array of the bytes. -/
def bytesTree (b : List UInt8) : JTree := .arr (b.map fun x => .num (decimal x.toNat))

mutual
/-- `t'` is `t` with every placeholder object replaced by the array of the bytes of the
attachment it designates, and nothing else changed. -/
def FilledTree (bs : List (List UInt8)) : JTree → JTree → Prop
  | .arr ts, t' => ∃ ts', t' = .arr ts' ∧ FilledTrees bs ts ts'
  | .obj kts, t' =>
    (PhTree kts ∧ ∃ i b, PhTreeNum kts i ∧ bs[i]? = some b ∧ t' = bytesTree b) ∨
    (¬ PhTree kts ∧ ∃ kts', t' = .obj kts' ∧ FilledMembers bs kts kts')
  | t, t' => t' = t
def FilledTrees (bs : List (List UInt8)) : List JTree → List JTree → Prop
  | [], ts' => ts' = []
  | t :: ts, ts' => ∃ u us, ts' = u :: us ∧ FilledTree bs t u ∧ FilledTrees bs ts us
def FilledMembers (bs : List (List UInt8)) : List (List Char × JTree) → List (List Char × JTree) → Prop
  | [], ts' => ts' = []
  | (k, t) :: ts, ts' => ∃ u us, ts' = (k, u) :: us ∧ FilledTree bs t u ∧ FilledMembers bs ts us
end

mutual
/-- No object has the key `_placeholder`. -/
def PhFree : JTree → Prop
  | .arr ts => PhFreeL ts
  | .obj kts => ¬ PhTree kts ∧ PhFreeM kts
  | _ => True
def PhFreeL : List JTree → Prop
  | [] => True
  | t :: ts => PhFree t ∧ PhFreeL ts
def PhFreeM : List (List Char × JTree) → Prop
  | [] => True
  | (_, t) :: ts => PhFree t ∧ PhFreeM ts
end

/-- A placeholder as it is usually written: `_placeholder` with a boolean, then `num`, and
nothing else, no escapes in the keys. -/
def UsualPh (kts : List (List Char × JTree)) : Prop :=
  ∃ b l, kts = [(phKey, .bool b), (numKey, .num l)]

/-- The first key of the object is written without escapes. -/
def FirstKeyPlain (kts : List (List Char × JTree)) : Prop := ∀ k t rest, kts = (k, t) :: rest → '\\' ∉ k

/-- A usual placeholder, or an object that is none, with a plain first key. -/
def UsualObj (kts : List (List Char × JTree)) : Prop :=
  (PhTree kts → UsualPh kts) ∧ (¬ PhTree kts → FirstKeyPlain kts)

mutual
/-- All objects outside placeholders are as usual. -/
def UsualTree : JTree → Prop
  | .arr ts => UsualTrees ts
  | .obj kts => UsualObj kts ∧ (¬ PhTree kts → UsualMembers kts)
  | _ => True
def UsualTrees : List JTree → Prop
  | [] => True
  | t :: ts => UsualTree t ∧ UsualTrees ts
def UsualMembers : List (List Char × JTree) → Prop
  | [] => True
  | (_, t) :: ts => UsualTree t ∧ UsualMembers ts
end

/-- The tree is a placeholder. -/
def IsPhTree (t : JTree) : Prop := ∃ kts, t = .obj kts ∧ PhTree kts

/-- Element types a byte is read into directly: no options or newtypes. -/
def ByteElem : Ty → Prop
  | .option _ => False
  | .newtype _ => False
  | _ => True

/-- A placeholder read as fixed number of elements: it is usual, bytes are read directly, and
the attachment is not longer than the target. -/
def FitsTuple (bs : List (List UInt8)) (tys : List Ty) (kts : List (List Char × JTree)) : Prop :=
  UsualPh kts ∧ (∀ ty ∈ tys, ByteElem ty) ∧ ∀ i b, PhTreeNum kts i → bs[i]? = some b → b.length ≤ tys.length

mutual
/-- The target and the tree are in the class on which reading with attachments is reading the
filled tree. -/
def Alike (bs : List (List UInt8)) : Ty → JTree → Prop
  -- an attachment is not an array of numbers for a text target
  | .str, t => ¬ IsPhTree t
  | .bstr, t => ¬ IsPhTree t
  -- an attachment can be borrowed, an array of numbers cannot
  | .bbytes, t => ¬ IsPhTree t
  | .bytes, t =>
    match t with
    | .str raw => ∃ s, StrDenotes raw s
    | .obj kts => PhTree kts → UsualPh kts
    | _ => True
  | .value, t => UsualTree t
  | .option ty, t => Alike bs ty t
  | .newtype ty, t => Alike bs ty t
  | .seq ty, t =>
    match t with
    | .arr ts => ∀ u ∈ ts, Alike bs ty u
    | .obj kts => PhTree kts → UsualPh kts ∧ ByteElem ty
    | _ => True
  | .map ty, t =>
    match t with
    | .obj kts => UsualObj kts ∧ (¬ PhTree kts → ∀ kt ∈ kts, Alike bs ty kt.2)
    | _ => True
  -- integer keys are not read with attachments
  | .imap _, t =>
    match t with
    | .obj kts => ¬ PhTree kts → kts = []
    | _ => True
  | .tuple tys, t =>
    match t with
    | .arr ts => AlikeL bs tys ts
    | .obj kts => PhTree kts → FitsTuple bs tys kts
    | _ => True
  | .struct fs, t =>
    match t with
    | .arr ts => AlikeF bs fs ts
    | .obj kts => (PhTree kts → FitsTuple bs (fs.map Prod.snd) kts) ∧
        (¬ PhTree kts → FirstKeyPlain kts ∧ AlikeM bs fs kts)
    | _ => True
  | .enum vs, t =>
    match t with
    | .obj [(k, t)] => AlikeV bs vs k t
    | _ => True
  | _, _ => True
/-- Elements of an array, one by one. -/
def AlikeL (bs : List (List UInt8)) : List Ty → List JTree → Prop
  | [], _ => True
  | ty :: tys, ts =>
    match ts with
    | [] => True
    | t :: ts => Alike bs ty t ∧ AlikeL bs tys ts
/-- Fields given as array. -/
def AlikeF (bs : List (List UInt8)) : List (List Char × Ty) → List JTree → Prop
  | [], _ => True
  | (_, ty) :: fs, ts =>
    match ts with
    | [] => True
    | t :: ts => Alike bs ty t ∧ AlikeF bs fs ts
/-- Fields given as object: only the members that are fields matter. -/
def AlikeM (bs : List (List UInt8)) : List (List Char × Ty) → List (List Char × JTree) → Prop
  | [], _ => True
  | (n, ty) :: fs, kts => (∀ kt ∈ kts, StrDenotes kt.1 n → Alike bs ty kt.2) ∧ AlikeM bs fs kts
/-- The variant with the key `k`; a tuple variant does not take an attachment. -/
def AlikeV (bs : List (List UInt8)) : List (List Char × Ty) → List Char → JTree → Prop
  | [], _, _ => True
  | (n, ty) :: vs, k, t =>
    (StrDenotes k n → Alike bs ty t ∧ ((∃ tys, ty = .tuple tys) → ¬ IsPhTree t)) ∧ AlikeV bs vs k t
end

/-- If the whole argument is read as a 128-bit integer, it is a number without fraction and
exponent. -/
def WholeInt : Ty → JTree → Prop
  | .wide _, .num l => '.' ∉ l ∧ 'e' ∉ l ∧ 'E' ∉ l
  | .option ty, t => WholeInt ty t
  | .newtype ty, t => WholeInt ty t
  | _, _ => True

end SIO.Spec
