import Verif.Spec.WireText
import Verif.Spec.Deserialize
/-
What the `Serialize` implementation of a type hands over for a value of the type.
-/
namespace SIO.Spec

/-- In the range of `i128` or `u128`. -/
def InWide (signed : Bool) (i : Int) : Prop :=
  if signed then - 2 ^ 127 ≤ i ∧ i < 2 ^ 127 else 0 ≤ i ∧ i < 2 ^ 128

mutual
/-- `Gives fin ty v s`: `v` is a value of the type `ty`, and `s` is what its `Serialize`
implementation (derived, or the one of serde, serde_bytes or serde_json) hands over.  Floats
are finite and represented by the literal printed for them, maps by their entries in order.
Objects of dynamic values do not start with serde_json's private key for raw values: serde_json
does not read them back as they are.  128-bit
integers are within the range of floats (`NumReads`). -/
inductive Gives (fin : List Char → Bool) : Ty → DVal → SVal → Prop where
  | bool (b : Bool) : Gives fin .bool (.bool b) (.bool b)
  | byte (n : UInt8) : Gives fin (.uint 8) (.uint n.toNat) (.u8 n)
  | uint (w n : Nat) : w ≠ 8 → w ≤ 64 → n < 2 ^ w → Gives fin (.uint w) (.uint n) (.int n)
  | int (w : Nat) (i : Int) : w ≤ 64 → - 2 ^ (w - 1) ≤ i → i < 2 ^ (w - 1) → Gives fin (.int w) (.int i) (.int i)
  | wideInt (i : Int) : InWide true i → (∃ n, NumReads fin (intText i) n) →
      Gives fin (.wide true) (.int i) (.int i)
  | wideNat (n : Nat) : InWide false n → (∃ m, NumReads fin (intText n) m) → Gives fin (.wide false) (.uint n) (.int n)
  | char (c : Char) : Gives fin .char (.char c) (.char c)
  | float (l : List Char) (n : Num) : IsNum l → NumReads fin l n → Gives fin .float (.float l) (.float (some l))
  | str (s : List Char) : Gives fin .str (.str s) (.str s)
  | bytes (b : List UInt8) : Gives fin .bytes (.bytes b) (.bytes b)
  | unit : Gives fin .unit .unit .unit
  | valNull : Gives fin .value (.value .null) .unit
  | valBool (b : Bool) : Gives fin .value (.value (.bool b)) (.bool b)
  | valPos (n : Nat) : n < 2 ^ 64 → Gives fin .value (.value (.num (.pos n))) (.int n)
  | valNeg (n : Nat) : 0 < n → n ≤ 2 ^ 63 → Gives fin .value (.value (.num (.neg n))) (.int (-n))
  | valFloat (l : List Char) : IsNum l → NumReads fin l (.float l) →
      Gives fin .value (.value (.num (.float l))) (.float (some l))
  | valStr (s : List Char) : Gives fin .value (.value (.str s)) (.str s)
  | valArr (vs : List Value) (ss : List SVal) : GivesL fin .value (vs.map .value) ss →
      Gives fin .value (.value (.arr vs)) (.seq ss)
  | valObj (kvs : List (List Char × Value)) (ss : List (SVal × SVal)) :
      GivesM fin .value (kvs.map fun kv => (kv.1, .value kv.2)) ss → kvs.Pairwise (fun a b => a.1 < b.1) →
      ¬ StartsRaw kvs → Gives fin .value (.value (.obj kvs)) (.map ss)
  | none (ty : Ty) : Gives fin (.option ty) .none .none
  | some (ty : Ty) (v : DVal) (s : SVal) : Gives fin ty v s → Gives fin (.option ty) (.some v) (.some s)
  | newtype (ty : Ty) (v : DVal) (s : SVal) : Gives fin ty v s → Gives fin (.newtype ty) v (.newtype s)
  | seq (ty : Ty) (vs : List DVal) (ss : List SVal) : GivesL fin ty vs ss → Gives fin (.seq ty) (.seq vs) (.seq ss)
  | map (ty : Ty) (kvs : List (List Char × DVal)) (ss : List (SVal × SVal)) : GivesM fin ty kvs ss →
      kvs.Pairwise (fun a b => a.1 < b.1) → Gives fin (.map ty) (.map kvs) (.map ss)
  | imap (ty : Ty) (kvs : List (Nat × DVal)) (ss : List (SVal × SVal)) : GivesI fin ty kvs ss →
      kvs.Pairwise (fun a b => a.1 < b.1) → Gives fin (.imap ty) (.imap kvs) (.map ss)
  | tuple (tys : List Ty) (vs : List DVal) (ss : List SVal) : GivesT fin tys vs ss →
      Gives fin (.tuple tys) (.seq vs) (.tuple ss)
  | struct (fs : List (List Char × Ty)) (vs : List DVal) (ss : List (List Char × SVal)) : GivesF fin fs vs ss →
      (fs.map Prod.fst).Nodup → Gives fin (.struct fs) (.struct vs) (.struct ss)
  | unitVariant (vs : List (List Char × Ty)) (n : List Char) : vs.lookup n = some .unit →
      Gives fin (.enum vs) (.variant n .unit) (.unitVariant n)
  | newtypeVariant (vs : List (List Char × Ty)) (n : List Char) (ty : Ty) (v : DVal) (s : SVal) :
      vs.lookup n = some (.newtype ty) → Gives fin ty v s →
      Gives fin (.enum vs) (.variant n v) (.newtypeVariant n s)
  | tupleVariant (vs : List (List Char × Ty)) (n : List Char) (tys : List Ty) (v : List DVal) (s : List SVal) :
      vs.lookup n = some (.tuple tys) → GivesT fin tys v s →
      Gives fin (.enum vs) (.variant n (.seq v)) (.tupleVariant n s)
  | structVariant (vs : List (List Char × Ty)) (n : List Char) (fs : List (List Char × Ty)) (v : List DVal)
      (s : List (List Char × SVal)) :
      vs.lookup n = some (.struct fs) → GivesF fin fs v s → (fs.map Prod.fst).Nodup →
      Gives fin (.enum vs) (.variant n (.struct v)) (.structVariant n s)
/-- Elements of one type. -/
inductive GivesL (fin : List Char → Bool) : Ty → List DVal → List SVal → Prop where
  | nil (ty : Ty) : GivesL fin ty [] []
  | cons (ty : Ty) (v : DVal) (s : SVal) (vs : List DVal) (ss : List SVal) : Gives fin ty v s → GivesL fin ty vs ss →
      GivesL fin ty (v :: vs) (s :: ss)
/-- Entries with text keys. -/
inductive GivesM (fin : List Char → Bool) : Ty → List (List Char × DVal) → List (SVal × SVal) → Prop where
  | nil (ty : Ty) : GivesM fin ty [] []
  | cons (ty : Ty) (k : List Char) (v : DVal) (s : SVal) (vs : List (List Char × DVal)) (ss : List (SVal × SVal)) :
      Gives fin ty v s → GivesM fin ty vs ss → GivesM fin ty ((k, v) :: vs) ((.str k, s) :: ss)
/-- Entries with unsigned 64-bit keys. -/
inductive GivesI (fin : List Char → Bool) : Ty → List (Nat × DVal) → List (SVal × SVal) → Prop where
  | nil (ty : Ty) : GivesI fin ty [] []
  | cons (ty : Ty) (k : Nat) (v : DVal) (s : SVal) (vs : List (Nat × DVal)) (ss : List (SVal × SVal)) :
      k < 2 ^ 64 → Gives fin ty v s → GivesI fin ty vs ss → GivesI fin ty ((k, v) :: vs) ((.int k, s) :: ss)
/-- Elements of a tuple. -/
inductive GivesT (fin : List Char → Bool) : List Ty → List DVal → List SVal → Prop where
  | nil : GivesT fin [] [] []
  | cons (ty : Ty) (tys : List Ty) (v : DVal) (s : SVal) (vs : List DVal) (ss : List SVal) : Gives fin ty v s →
      GivesT fin tys vs ss → GivesT fin (ty :: tys) (v :: vs) (s :: ss)
/-- Fields of a struct. -/
inductive GivesF (fin : List Char → Bool) : List (List Char × Ty) → List DVal → List (List Char × SVal) → Prop where
  | nil : GivesF fin [] [] []
  | cons (n : List Char) (ty : Ty) (fs : List (List Char × Ty)) (v : DVal) (s : SVal) (vs : List DVal)
      (ss : List (List Char × SVal)) : Gives fin ty v s →
      GivesF fin fs vs ss → GivesF fin ((n, ty) :: fs) (v :: vs) ((n, s) :: ss)
end

mutual
/-- Nothing inside `Some` is written as `null` (as `Some(None)` and `Some(())` are). -/
def SVal.NoSomeNull : SVal → Prop
  | .some v => docOf v ≠ some .null ∧ v.NoSomeNull
  | .newtype v => v.NoSomeNull
  | .newtypeVariant _ v => v.NoSomeNull
  | .seq vs => NoSomeNullL vs
  | .tuple vs => NoSomeNullL vs
  | .tupleVariant _ vs => NoSomeNullL vs
  | .map kvs => NoSomeNullM kvs
  | .struct fs => NoSomeNullF fs
  | .structVariant _ fs => NoSomeNullF fs
  | _ => True
def NoSomeNullL : List SVal → Prop
  | [] => True
  | v :: vs => v.NoSomeNull ∧ NoSomeNullL vs
def NoSomeNullM : List (SVal × SVal) → Prop
  | [] => True
  | (_, v) :: kvs => v.NoSomeNull ∧ NoSomeNullM kvs
def NoSomeNullF : List (List Char × SVal) → Prop
  | [] => True
  | (_, v) :: kvs => v.NoSomeNull ∧ NoSomeNullF kvs
end

/-- A key that is written without escapes and is not `_placeholder`. -/
def PlainKey (k : List Char) : Prop := k ≠ phKey ∧ quotedBody k = k

mutual
/-- The first key of every map and struct is a plain text. -/
def SVal.FirstKeys : SVal → Prop
  | .some v => v.FirstKeys
  | .newtype v => v.FirstKeys
  | .newtypeVariant _ v => v.FirstKeys
  | .seq vs => FirstKeysL vs
  | .tuple vs => FirstKeysL vs
  | .tupleVariant _ vs => FirstKeysL vs
  | .map kvs => (∀ k v r, kvs = (k, v) :: r → ∃ s, k = .str s ∧ PlainKey s) ∧ FirstKeysM kvs
  | .struct fs => (∀ k v r, fs = (k, v) :: r → PlainKey k) ∧ FirstKeysF fs
  | .structVariant _ fs => (∀ k v r, fs = (k, v) :: r → PlainKey k) ∧ FirstKeysF fs
  | _ => True
def FirstKeysL : List SVal → Prop
  | [] => True
  | v :: vs => v.FirstKeys ∧ FirstKeysL vs
def FirstKeysM : List (SVal × SVal) → Prop
  | [] => True
  | (_, v) :: kvs => v.FirstKeys ∧ FirstKeysM kvs
def FirstKeysF : List (List Char × SVal) → Prop
  | [] => True
  | (_, v) :: kvs => v.FirstKeys ∧ FirstKeysF kvs
end

end SIO.Spec
