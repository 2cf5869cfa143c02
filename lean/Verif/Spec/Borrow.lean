import Verif.Spec.Deserialize
/-
Targets that borrow from the packet: the owned target of the same shape, and when a tree can be
borrowed from.
-/
namespace SIO.Spec

mutual
/-- The type with `String` for `&str` and an owned byte buffer for `&[u8]`. -/
def owned : Ty → Ty
  | .bstr => .str
  | .bbytes => .bytes
  | .option ty => .option (owned ty)
  | .newtype ty => .newtype (owned ty)
  | .seq ty => .seq (owned ty)
  | .map ty => .map (owned ty)
  | .imap ty => .imap (owned ty)
  | .tuple tys => .tuple (ownedL tys)
  | .struct fs => .struct (ownedF fs)
  | .enum vs => .enum (ownedF vs)
  | ty => ty
def ownedL : List Ty → List Ty
  | [] => []
  | ty :: tys => owned ty :: ownedL tys
def ownedF : List (List Char × Ty) → List (List Char × Ty)
  | [] => []
  | (n, ty) :: fs => (n, owned ty) :: ownedF fs
end

/-- If it is a string, it is written without escapes. -/
def PlainText (t : JTree) : Prop := ∀ raw, t = .str raw → '\\' ∉ raw

mutual
/-- Where the type borrows text, the tree has no string with escapes; where it borrows bytes, it
has neither such a string nor an array. -/
def Borrows : Ty → JTree → Prop
  | .bstr, t => PlainText t
  | .bbytes, t => PlainText t ∧ ∀ ts, t ≠ .arr ts
  | .option ty, t => Borrows ty t
  | .newtype ty, t => Borrows ty t
  | .seq ty, t => ∀ ts, t = .arr ts → ∀ u ∈ ts, Borrows ty u
  | .map ty, t => ∀ kts, t = .obj kts → ∀ kt ∈ kts, Borrows ty kt.2
  | .imap ty, t => ∀ kts, t = .obj kts → ∀ kt ∈ kts, Borrows ty kt.2
  | .tuple tys, t => ∀ ts, t = .arr ts → BorrowsL tys ts
  | .struct fs, t => (∀ ts, t = .arr ts → BorrowsF fs ts) ∧ ∀ kts, t = .obj kts → BorrowsM fs kts
  | .enum vs, t => ∀ k u, t = .obj [(k, u)] → BorrowsV vs k u
  | _, _ => True
/-- Elements of an array, one by one. -/
def BorrowsL : List Ty → List JTree → Prop
  | ty :: tys, t :: ts => Borrows ty t ∧ BorrowsL tys ts
  | _, _ => True
/-- Fields given as array. -/
def BorrowsF : List (List Char × Ty) → List JTree → Prop
  | (_, ty) :: fs, t :: ts => Borrows ty t ∧ BorrowsF fs ts
  | _, _ => True
/-- Fields given as object: only the members that are fields matter. -/
def BorrowsM : List (List Char × Ty) → List (List Char × JTree) → Prop
  | [], _ => True
  | (n, ty) :: fs, kts => (∀ kt ∈ kts, StrDenotes kt.1 n → Borrows ty kt.2) ∧ BorrowsM fs kts
/-- The (first) variant with the key `k`. -/
def BorrowsV : List (List Char × Ty) → List Char → JTree → Prop
  | [], _, _ => True
  | (n, ty) :: vs, k, t => (StrDenotes k n → Borrows ty t) ∧ (¬ StrDenotes k n → BorrowsV vs k t)
end

end SIO.Spec
