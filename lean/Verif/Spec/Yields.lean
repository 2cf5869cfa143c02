import Verif.Spec.Typed
/-
What reading an argument into a type gives: for every target type, which trees are accepted and
what the value is, without and with attachments.
-/
namespace SIO.Spec

/-- Two lists of the same length, related element by element. -/
def Each {α β : Type} (R : α → β → Prop) : List α → List β → Prop
  | [], [] => True
  | a :: as, b :: bs => R a b ∧ Each R as bs
  | _, _ => False

/-- The attachments of the packet, if it has any. -/
abbrev Atts := Option (List (List UInt8))

/-- The tree is a placeholder in the usual form, and the attachment with its number is `b`.  (`d` is
what is left of serde_json's recursion limit.) -/
def Attached (att : Atts) (d : Nat) (t : JTree) (b : List UInt8) : Prop :=
  1 < d ∧ ∃ bs z i, att = some bs ∧ t = .obj [(phKey, .bool z), (numKey, .num (decimal i))] ∧ i < 2 ^ 64 ∧ bs[i]? = some b

/-- The object is read as an object: if there are attachments, its first key is written without
escapes and is not `_placeholder`. -/
def Ordinary (att : Atts) (kts : List (List Char × JTree)) : Prop :=
  att ≠ none → ∀ k t rest, kts = (k, t) :: rest → '\\' ∉ k ∧ k ≠ phKey

/-- The object starts with serde_json's private key for raw values. -/
def RawFirst (kts : List (List Char × JTree)) : Prop :=
  ∃ k t rest, kts = (k, t) :: rest ∧ StrDenotes k "$serde_json::private::RawValue".toList

mutual
/-- The dynamic value of a tree, with attachments. -/
def YieldsV (fin : List Char → Bool) (att : Atts) (d : Nat) : JTree → Value → Prop
  | .null, v => v = .null
  | .bool b, v => v = .bool b
  | .num l, v => ∃ n, NumReads fin l n ∧ v = .num n
  | .str raw, v => ∃ s, StrDenotes raw s ∧ v = .str s
  | .arr ts, v => 1 < d ∧ ∃ vs, v = .arr vs ∧ YieldsVL fin att (d - 1) ts vs
  | .obj kts, v =>
    -- a placeholder: the array of the bytes
    (∃ b, Attached att d (.obj kts) b ∧ v = .arr (b.map fun n => .num (.pos n.toNat))) ∨
    -- an object: later members replace earlier ones with the same key
    (1 < d ∧ Ordinary att kts ∧ ¬ RawFirst kts ∧ ∃ w m, YieldsVM fin att (d - 1) kts w ∧ IsMap w m ∧ v = .obj m) ∨
    -- the private key: the value of the text
    (1 < d ∧ Ordinary att kts ∧ ∃ k raw s u doc, kts = [(k, .str raw)] ∧
      StrDenotes k "$serde_json::private::RawValue".toList ∧ StrDenotes raw s ∧ IsText u s ∧ Denotes u doc ∧
      treeDepth u < 128 ∧ Gets fin doc v)
def YieldsVL (fin : List Char → Bool) (att : Atts) (d : Nat) : List JTree → List Value → Prop
  | [], vs => vs = []
  | t :: ts, vs => ∃ v vs', vs = v :: vs' ∧ YieldsV fin att d t v ∧ YieldsVL fin att d ts vs'
def YieldsVM (fin : List Char → Bool) (att : Atts) (d : Nat) : List (List Char × JTree) → List (List Char × Value) → Prop
  | [], vs => vs = []
  | (k, t) :: ts, vs => ∃ n v vs', vs = (n, v) :: vs' ∧ StrDenotes k n ∧ YieldsV fin att d t v ∧ YieldsVM fin att d ts vs'
end

/-- What a byte of an attachment gives as element of a list or tuple. -/
def YieldsByte : Ty → UInt8 → DVal → Prop
  | .uint w, b, v => b.toNat < 2 ^ w ∧ v = .uint b.toNat
  | .int w, b, v => b.toNat < 2 ^ (w - 1) ∧ v = .int b.toNat
  | .wide true, b, v => v = .int b.toNat
  | .wide false, b, v => v = .uint b.toNat
  | .float, b, v => v = .float (decimal b.toNat)
  | .value, b, v => v = .value (.num (.pos b.toNat))
  | .ignored, _, v => v = .unit
  | _, _, _ => False

/-- The first bytes of an attachment as the elements of a tuple; it may be longer. -/
def YieldsBytes : List Ty → List UInt8 → List DVal → Prop
  | [], _, vs => vs = []
  | ty :: tys, b, vs => ∃ n b' v vs', b = n :: b' ∧ vs = v :: vs' ∧ YieldsByte ty n v ∧ YieldsBytes tys b' vs'

/-- A member with the name `n` is the only one with that name. -/
def OnlyMember (kts : List (List Char × JTree)) (n : List Char) (t : JTree) : Prop :=
  ∃ pre k post, kts = pre ++ (k, t) :: post ∧ StrDenotes k n ∧ ¬ HasKey n pre ∧ ¬ HasKey n post

mutual
/-- Reading the tree into the type gives the value. -/
def Yields (x : Ext) (att : Atts) (d : Nat) : Ty → JTree → DVal → Prop
  | .bool, t, v => ∃ b, t = .bool b ∧ v = .bool b
  | .uint w, t, v => ∃ n, t = .num (decimal n) ∧ n < 2 ^ 64 ∧ n < 2 ^ w ∧ v = .uint n
  | .int w, t, v => ∃ i : Int, t = .num (intText i) ∧ - 2 ^ 63 ≤ i ∧ i < 2 ^ 64 ∧ - 2 ^ (w - 1) ≤ i ∧ i < 2 ^ (w - 1) ∧
      v = .int i
  | .wide true, t, v => ∃ i : Int, (t = .num (intText i) ∨ t = .num ['-', '0'] ∧ i = 0) ∧ InWide true i ∧ v = .int i
  | .wide false, t, v => ∃ n : Nat, t = .num (decimal n) ∧ InWide false n ∧ v = .uint n
  | .float, t, v => ∃ l n, t = .num l ∧ NumReads x.fin l n ∧ v = .float l
  | .char, t, v => ∃ raw c, t = .str raw ∧ StrDenotes raw [c] ∧ v = .char c
  | .str, t, v =>
    (∃ raw s, t = .str raw ∧ StrDenotes raw s ∧ v = .str s) ∨
    ∃ s, Attached att d t (s.flatMap String.utf8EncodeChar) ∧ v = .str s
  | .bstr, t, v =>
    (∃ raw, t = .str raw ∧ '\\' ∉ raw ∧ v = .str raw) ∨
    ∃ s, Attached att d t (s.flatMap String.utf8EncodeChar) ∧ v = .str s
  | .bytes, t, v =>
    (∃ raw s, t = .str raw ∧ StrDenotes raw s ∧ v = .bytes (s.flatMap String.utf8EncodeChar)) ∨
    -- lone surrogates, only without attachments
    (∃ raw, t = .str raw ∧ (∀ s, ¬ StrDenotes raw s) ∧ att = none ∧ v = .bytes (x.wtf8 raw)) ∨
    (∃ b, 1 < d ∧ t = bytesTree b ∧ v = .bytes b) ∨
    ∃ b, Attached att d t b ∧ v = .bytes b
  | .bbytes, t, v =>
    (∃ raw, t = .str raw ∧ '\\' ∉ raw ∧ v = .bytes (raw.flatMap String.utf8EncodeChar)) ∨
    ∃ b, Attached att d t b ∧ v = .bytes b
  | .unit, t, v => t = .null ∧ v = .unit
  | .ignored, _, v => v = .unit
  | .value, t, v => ∃ w, v = .value w ∧ YieldsV x.fin att d t w
  | .option ty, t, v => (t = .null ∧ v = .none) ∨ (t ≠ .null ∧ ∃ w, v = .some w ∧ Yields x att d ty t w)
  | .newtype ty, t, v => Yields x att d ty t v
  | .seq ty, t, v =>
    (∃ ts vs, 1 < d ∧ t = .arr ts ∧ v = .seq vs ∧ Each (fun t v => Yields x att (d - 1) ty t v) ts vs) ∨
    ∃ b vs, Attached att d t b ∧ v = .seq vs ∧ Each (YieldsByte ty) b vs
  | .map ty, t, v => ∃ kts w m, 1 < d ∧ t = .obj kts ∧ Ordinary att kts ∧
      Each (fun kt e => StrDenotes kt.1 e.1 ∧ Yields x att (d - 1) ty kt.2 e.2) kts w ∧ IsMap w m ∧ v = .map m
  | .imap ty, t, v =>
    -- not with attachments, except an empty one
    ∃ kts w m, 1 < d ∧ t = .obj kts ∧ (att ≠ none → kts = []) ∧
      Each (fun kt (e : Nat × DVal) => e.1 < 2 ^ 64 ∧ StrDenotes kt.1 (decimal e.1) ∧ Yields x att (d - 1) ty kt.2 e.2) kts w ∧
      m.Pairwise (fun a b => a.1 < b.1) ∧ (∀ k, m.lookup k = w.reverse.lookup k) ∧ v = .imap m
  | .tuple tys, t, v =>
    (∃ ts vs, 1 < d ∧ t = .arr ts ∧ v = .seq vs ∧ YieldsL x att (d - 1) tys ts vs) ∨
    ∃ b vs, Attached att d t b ∧ v = .seq vs ∧ YieldsBytes tys b vs
  | .struct fs, t, v =>
    (∃ ts vs, 1 < d ∧ t = .arr ts ∧ v = .struct vs ∧ YieldsF x att (d - 1) fs ts vs) ∨
    (∃ kts vs, 1 < d ∧ t = .obj kts ∧ Ordinary att kts ∧ (∀ kt ∈ kts, ∃ k, StrDenotes kt.1 k) ∧ v = .struct vs ∧
      YieldsM x att (d - 1) fs kts vs) ∨
    ∃ b vs, Attached att d t b ∧ v = .struct vs ∧ YieldsBytes (fs.map Prod.snd) b vs
  | .enum vs, t, v =>
    (∃ raw n, t = .str raw ∧ StrDenotes raw n ∧ vs.lookup n = some .unit ∧ v = .variant n .unit) ∨
    ∃ k u n w, 1 < d ∧ t = .obj [(k, u)] ∧ StrDenotes k n ∧ v = .variant n w ∧ YieldsE x att (d - 1) vs n u w
/-- The elements of an array, exactly as many as expected. -/
def YieldsL (x : Ext) (att : Atts) (d : Nat) : List Ty → List JTree → List DVal → Prop
  | [], ts, vs => ts = [] ∧ vs = []
  | ty :: tys, ts, vs => ∃ t ts' v vs', ts = t :: ts' ∧ vs = v :: vs' ∧ Yields x att d ty t v ∧ YieldsL x att d tys ts' vs'
/-- The fields of a struct given as an array. -/
def YieldsF (x : Ext) (att : Atts) (d : Nat) : List (List Char × Ty) → List JTree → List DVal → Prop
  | [], ts, vs => ts = [] ∧ vs = []
  | (_, ty) :: fs, ts, vs => ∃ t ts' v vs', ts = t :: ts' ∧ vs = v :: vs' ∧ Yields x att d ty t v ∧ YieldsF x att d fs ts' vs'
/-- The fields of a struct given as an object: each at most once; only an `Option` may be absent,
and is then `None`; other members are ignored. -/
def YieldsM (x : Ext) (att : Atts) (d : Nat) : List (List Char × Ty) → List (List Char × JTree) → List DVal → Prop
  | [], _, vs => vs = []
  | (n, ty) :: fs, kts, vs => ∃ v vs', vs = v :: vs' ∧
      ((∃ t, OnlyMember kts n t ∧ Yields x att d ty t v) ∨ (¬ HasKey n kts ∧ (∃ ty', ty = .option ty') ∧ v = .none)) ∧
      YieldsM x att d fs kts vs'
/-- The payload of the (first) variant with the name.  Next to attachments the payload of a tuple variant
must be an array. -/
def YieldsE (x : Ext) (att : Atts) (d : Nat) : List (List Char × Ty) → List Char → JTree → DVal → Prop
  | [], _, _, _ => False
  | (n, ty) :: vs, k, t, v =>
    (n = k ∧ Yields x att d ty t v ∧ (att ≠ none → (∃ tys, ty = .tuple tys) → ∃ ts, t = .arr ts)) ∨
    (n ≠ k ∧ YieldsE x att d vs k t v)
end

/-- What is read of the tree if it is the whole argument and there are attachments: of a number that is
to be a 128-bit integer, only the part before a fraction or exponent. -/
def ReadPart : Ty → JTree → JTree → Prop
  | .wide _, .num l, u => ∃ i rest, l = i ++ rest ∧ u = .num i ∧ '.' ∉ i ∧ 'e' ∉ i ∧ 'E' ∉ i ∧
      (∀ c r, rest = c :: r → c = '.' ∨ c = 'e' ∨ c = 'E')
  | .option ty, t, u => ReadPart ty t u
  | .newtype ty, t, u => ReadPart ty t u
  | _, t, u => u = t

end SIO.Spec
