import Verif.Spec.Serde
import Verif.Json
/-
The dynamic value a JSON document stands for, and the replacement of placeholders in it.
-/
namespace SIO.Spec

/-- The number a literal stands for: unsigned and negative integers of 64 bits are
integers, everything else is the float of the literal if that is finite. -/
def NumReads (fin : List Char → Bool) (l : List Char) (n : Num) : Prop :=
  (∃ k, l = decimal k ∧ k < 2 ^ 64 ∧ n = .pos k) ∨
  (∃ k, l = '-' :: decimal k ∧ 0 < k ∧ k ≤ 2 ^ 63 ∧ n = .neg k) ∨
  ((¬ ∃ k, l = decimal k ∧ k < 2 ^ 64) ∧ (¬ ∃ k, l = '-' :: decimal k ∧ 0 < k ∧ k ≤ 2 ^ 63) ∧
    fin l = true ∧ n = .float l)

/-- `m` is the map with the bindings `w`, later ones replacing earlier ones; keys of `m`
are sorted. -/
def IsMap {α : Type} (w m : List (List Char × α)) : Prop :=
  m.Pairwise (fun a b => a.1 < b.1) ∧ ∀ k, m.lookup k = w.reverse.lookup k

mutual
/-- Nesting depth of arrays and objects. -/
def treeDepth : JTree → Nat
  | .arr ts => treesDepth ts + 1
  | .obj kts => membersDepth kts + 1
  | _ => 0
def treesDepth : List JTree → Nat
  | [] => 0
  | t :: ts => max (treeDepth t) (treesDepth ts)
def membersDepth : List (List Char × JTree) → Nat
  | [] => 0
  | (_, t) :: ts => max (treeDepth t) (membersDepth ts)
end

mutual
/-- The value of a document without blobs. -/
def Reads (fin : List Char → Bool) : Doc → Value → Prop
  | .null, v => v = .null
  | .bool b, v => v = .bool b
  | .num l, v => ∃ n, v = .num n ∧ NumReads fin l n
  | .str s, v => v = .str s
  | .blob _, _ => False
  | .arr ds, v => ∃ xs, v = .arr xs ∧ ReadsL fin ds xs
  | .obj kvs, v => ∃ w m, v = .obj m ∧ ReadsM fin kvs w ∧ IsMap w m
def ReadsL (fin : List Char → Bool) : List Doc → List Value → Prop
  | [], xs => xs = []
  | d :: ds, xs => ∃ y ys, xs = y :: ys ∧ Reads fin d y ∧ ReadsL fin ds ys
def ReadsM (fin : List Char → Bool) : List (List Char × Doc) → List (List Char × Value) → Prop
  | [], xs => xs = []
  | (k, d) :: ds, xs => ∃ y ys, xs = (k, y) :: ys ∧ Reads fin d y ∧ ReadsM fin ds ys
end

mutual
/-- Nesting depth of arrays and objects; byte strings count as arrays. -/
def docDepth : Doc → Nat
  | .blob _ => 1
  | .arr ds => docDepthL ds + 1
  | .obj kvs => docDepthM kvs + 1
  | _ => 0
def docDepthL : List Doc → Nat
  | [] => 0
  | d :: ds => max (docDepth d) (docDepthL ds)
def docDepthM : List (List Char × Doc) → Nat
  | [] => 0
  | (_, d) :: ds => max (docDepth d) (docDepthM ds)
end

mutual
/-- The number literals of a document. -/
def docNums : Doc → List (List Char)
  | .num l => [l]
  | .arr ds => docNumsL ds
  | .obj kvs => docNumsM kvs
  | _ => []
def docNumsL : List Doc → List (List Char)
  | [] => []
  | d :: ds => docNums d ++ docNumsL ds
def docNumsM : List (List Char × Doc) → List (List Char)
  | [] => []
  | (_, d) :: ds => docNums d ++ docNumsM ds
end

/-- The object starts with the key under which serde_json passes raw values around. -/
def StartsRaw {α : Type} (kvs : List (List Char × α)) : Prop := ∃ x r, kvs = ("$serde_json::private::RawValue".toList, x) :: r

mutual
/-- The value serde_json reads for a document without blobs.  It is the value of the document,
except that an object that starts with serde_json's private key for raw values stands for the
value of the text in it, and must have nothing else. -/
inductive Gets (fin : List Char → Bool) : Doc → Value → Prop where
  | null : Gets fin .null .null
  | bool (b : Bool) : Gets fin (.bool b) (.bool b)
  | num (l : List Char) (n : Num) : NumReads fin l n → Gets fin (.num l) (.num n)
  | str (s : List Char) : Gets fin (.str s) (.str s)
  | arr (ds : List Doc) (xs : List Value) : GetsL fin ds xs → Gets fin (.arr ds) (.arr xs)
  | obj (kvs : List (List Char × Doc)) (w m : List (List Char × Value)) : ¬ StartsRaw kvs → GetsM fin kvs w → IsMap w m →
      Gets fin (.obj kvs) (.obj m)
  | raw (s : List Char) (t : JTree) (d : Doc) (v : Value) : IsText t s → treeDepth t < 128 → Denotes t d → Gets fin d v →
      Gets fin (.obj [("$serde_json::private::RawValue".toList, .str s)]) v
inductive GetsL (fin : List Char → Bool) : List Doc → List Value → Prop where
  | nil : GetsL fin [] []
  | cons (d : Doc) (v : Value) (ds : List Doc) (vs : List Value) : Gets fin d v → GetsL fin ds vs →
      GetsL fin (d :: ds) (v :: vs)
inductive GetsM (fin : List Char → Bool) : List (List Char × Doc) → List (List Char × Value) → Prop where
  | nil : GetsM fin [] []
  | cons (k : List Char) (d : Doc) (v : Value) (ds : List (List Char × Doc)) (vs : List (List Char × Value)) :
      Gets fin d v → GetsM fin ds vs → GetsM fin ((k, d) :: ds) ((k, v) :: vs)
end

mutual
/-- No object starts with the private key of serde_json. -/
def NoRaw : Doc → Prop
  | .arr ds => NoRawL ds
  | .obj kvs => ¬ StartsRaw kvs ∧ NoRawM kvs
  | _ => True
def NoRawL : List Doc → Prop
  | [] => True
  | d :: ds => NoRaw d ∧ NoRawL ds
def NoRawM : List (List Char × Doc) → Prop
  | [] => True
  | (_, d) :: ds => NoRaw d ∧ NoRawM ds
end

/-- Numbers are in range, and objects that start with the private key of serde_json have nothing
else than a text that is readable in turn. -/
inductive Reading (fin : List Char → Bool) : Doc → Prop where
  | null : Reading fin .null
  | bool (b : Bool) : Reading fin (.bool b)
  | num (l : List Char) (n : Num) : NumReads fin l n → Reading fin (.num l)
  | str (s : List Char) : Reading fin (.str s)
  | arr (ds : List Doc) : (∀ d ∈ ds, Reading fin d) → Reading fin (.arr ds)
  | obj (kvs : List (List Char × Doc)) : ¬ StartsRaw kvs → (∀ kv ∈ kvs, Reading fin kv.2) → Reading fin (.obj kvs)
  | raw (s : List Char) (t : JTree) (d : Doc) : IsText t s → treeDepth t < 128 → Denotes t d → Reading fin d →
      Reading fin (.obj [("$serde_json::private::RawValue".toList, .str s)])

/-- The tree can be read as a value: all its strings and keys denote something (no lone
surrogates), it is nested less than 128 deep, and its document is readable. -/
def Readable (fin : List Char → Bool) (t : JTree) : Prop :=
  treeDepth t < 128 ∧ ∃ d, Denotes t d ∧ Reading fin d

/-- The document reads as a value on the other side: nested less than 128 deep, numbers in
range, and no object starts with serde_json's private key. -/
def DocReadable (fin : List Char → Bool) (d : Doc) : Prop :=
  docDepth d < 128 ∧ (∀ l ∈ docNums d, ∃ n, NumReads fin l n) ∧ NoRaw d

/-- A placeholder object: it has the key `_placeholder`. -/
def IsPh (kvs : List (List Char × Value)) : Prop := ("_placeholder".toList) ∈ kvs.map Prod.fst

/-- The unsigned number of a placeholder object. -/
def PhNum (kvs : List (List Char × Value)) (i : Nat) : Prop := kvs.lookup "num".toList = some (.num (.pos i))

mutual
/-- `v'` is `v` with every placeholder object replaced by the array of the bytes of the
attachment it designates, and nothing else changed. -/
def Filled (bs : List (List UInt8)) : Value → Value → Prop
  | .arr xs, v' => ∃ ys, v' = .arr ys ∧ FilledL bs xs ys
  | .obj kvs, v' =>
    (IsPh kvs ∧ ∃ i b, PhNum kvs i ∧ bs[i]? = some b ∧ v' = .arr (b.map fun x => .num (.pos x.toNat))) ∨
    (¬ IsPh kvs ∧ ∃ m, v' = .obj m ∧ FilledM bs kvs m)
  | v, v' => v' = v
def FilledL (bs : List (List UInt8)) : List Value → List Value → Prop
  | [], ys => ys = []
  | x :: xs, ys => ∃ y ys', ys = y :: ys' ∧ Filled bs x y ∧ FilledL bs xs ys'
def FilledM (bs : List (List UInt8)) : List (List Char × Value) → List (List Char × Value) → Prop
  | [], ys => ys = []
  | (k, x) :: xs, ys => ∃ y ys', ys = (k, y) :: ys' ∧ Filled bs x y ∧ FilledM bs xs ys'
end

open Classical in
mutual
/-- The placeholder objects of a value in order of appearance (those inside other
placeholder objects do not count). -/
noncomputable def phObjs : Value → List (List (List Char × Value))
  | .arr xs => phObjsL xs
  | .obj kvs => if IsPh kvs then [kvs] else phObjsM kvs
  | _ => []
noncomputable def phObjsL : List Value → List (List (List Char × Value))
  | [] => []
  | x :: xs => phObjs x ++ phObjsL xs
noncomputable def phObjsM : List (List Char × Value) → List (List (List Char × Value))
  | [] => []
  | (_, x) :: xs => phObjs x ++ phObjsM xs
end

/-- What is wrong with a placeholder object, for the given number of attachments. -/
inductive PhBad (n : Nat) (kvs : List (List Char × Value)) : Option Nat → Prop where
  | noNum : (∀ i, ¬ PhNum kvs i) → PhBad n kvs none
  | range (i : Nat) : PhNum kvs i → n ≤ i → PhBad n kvs (some i)

/-- The placeholder object is fine. -/
def PhGood (n : Nat) (kvs : List (List Char × Value)) : Prop := ∃ i, PhNum kvs i ∧ i < n

end SIO.Spec
