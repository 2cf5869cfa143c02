import Verif.Text
/-
Model of owned_subslice/src/lib.rs.
-/
namespace SIO

/-- Rust's `Index<Range<usize>>` on the two owners used by the code base (`String`
and `Vec<u8>`); `none` is the index panic.  `len` is `String::len`/`Vec::len`. -/
class Sliceable (S : Type) where
  slice : S → Nat → Nat → Option S
  len : S → Nat

/-- `String: Index<Range<usize>>` (byte offsets, character boundaries). -/
instance : Sliceable (List Char) := ⟨sliceB, blen⟩

/-- `Vec<u8>: Index<Range<usize>>`. -/
instance : Sliceable (List UInt8) := ⟨sliceV, List.length⟩

/-- owned_subslice/src/lib.rs:8-14.  (`usize` arithmetic is modelled by `Nat`:
overflow of an offset past 2^64 is not modelled.) -/
structure OwnedSubslice (S : Type) where
  data : S
  start : Nat
  stop : Nat
deriving Repr, DecidableEq

namespace OwnedSubslice
variable {S : Type} [Sliceable S]

/-- owned_subslice/src/lib.rs:21-23 -/
def new (data : S) (start stop : Nat) : OwnedSubslice S := ⟨data, start, stop⟩

/-- owned_subslice/src/lib.rs:25-32: the end is clamped to the outer end, the start is not. -/
def subslice (o : OwnedSubslice S) (a b : Nat) : OwnedSubslice S :=
  ⟨o.data, o.start + a, min (o.start + b) o.stop⟩

/-- owned_subslice/src/lib.rs:41-43: `none` is the index panic. -/
def deref (o : OwnedSubslice S) : Option S := Sliceable.slice o.data o.start o.stop

/-- owned_subslice/src/lib.rs:55-63 and 65-73 (`From<String>`, `From<Vec<T>>`). -/
def ofWhole (data : S) : OwnedSubslice S := ⟨data, 0, Sliceable.len data⟩

/-- owned_subslice/src/lib.rs:95-103 (`PartialEq` between subslices): compares the
dereferenced values; `none` if dereferencing panics. -/
def eqv [DecidableEq S] (o p : OwnedSubslice S) : Option Bool :=
  o.deref.bind fun x => p.deref.map fun y => decide (x = y)

/-- owned_subslice/src/lib.rs:105-113 (`PartialEq<&S::Output>`). -/
def eqvVal [DecidableEq S] (o : OwnedSubslice S) (y : S) : Option Bool :=
  o.deref.map fun x => decide (x = y)

/-- owned_subslice/src/lib.rs:46-53 (`DerefMut`) followed by writing `v` (of the
same length) through the reference: the visible part of the data is replaced.
Only the `Vec<u8>` instance supports element writes. -/
def write (o : OwnedSubslice Bytes) (v : Bytes) : Option (OwnedSubslice Bytes) :=
  match o.deref with
  | some x =>
    if v.length = x.length then
      some ⟨o.data.take o.start ++ v ++ o.data.drop o.stop, o.start, o.stop⟩
    else none
  | none => none

end OwnedSubslice

/-! ### Lemmas on slicing parts -/

theorem dropB_append_add (u x : Str) (a : Nat) : dropB (u ++ x) (blen u + a) = dropB x a := by
  induction u with
  | nil => simp
  | cons c u ih =>
    have h := utf8Size_pos c
    show dropB (c :: (u ++ x)) (c.utf8Size + blen u + a) = dropB x a
    obtain ⟨k, hk⟩ : ∃ k, c.utf8Size + blen u + a = k + 1 :=
      ⟨c.utf8Size + blen u + a - 1, by omega⟩
    rw [hk, dropB, if_pos (by omega), show k + 1 - c.utf8Size = blen u + a by omega, ih]
    simp

theorem dropB_prefix (v w : Str) (a : Nat) (h : a ≤ blen v) :
    dropB (v ++ w) a = (dropB v a).map (· ++ w) := by
  induction v generalizing a with
  | nil => simp at h; subst h; cases w <;> simp [dropB]
  | cons c v ih =>
    cases a with
    | zero => simp [dropB]
    | succ a =>
      simp only [List.cons_append]
      rw [dropB, dropB]
      · simp at h
        split
        · exact ih _ (by omega)
        · rfl
      · simp
      · simp

theorem takeB_prefix (v w : Str) (a : Nat) (h : a ≤ blen v) :
    takeB (v ++ w) a = takeB v a := by
  induction v generalizing a with
  | nil => simp at h; subst h; cases w <;> simp [takeB]
  | cons c v ih =>
    cases a with
    | zero => simp [takeB]
    | succ a =>
      simp only [List.cons_append]
      rw [takeB, takeB]
      · simp at h
        split
        · rw [ih _ (by omega)]
        · rfl
      · simp
      · simp

theorem sliceB_inner (u v w : Str) (a b : Nat) (hb : b ≤ blen v) :
    sliceB (u ++ (v ++ w)) (blen u + a) (blen u + b) = sliceB v a b := by
  unfold sliceB
  by_cases hab : a ≤ b
  · rw [if_pos (by omega), if_pos hab, dropB_append_add, dropB_prefix _ _ _ (by omega)]
    cases h : dropB v a with
    | none => simp
    | some r =>
      simp
      obtain ⟨x, hx, hl⟩ := dropB_some h
      rw [show blen u + b - (blen u + a) = b - a by omega]
      apply takeB_prefix
      subst hx
      simp at hb
      omega
  · rw [if_neg (by omega), if_neg hab]

theorem sliceB_len {s : Str} {a b : Nat} {v : Str} (h : sliceB s a b = some v) :
    blen v = b - a ∧ a ≤ b ∧ b ≤ blen s := by
  obtain ⟨u, w, rfl, h1, h2⟩ := sliceB_some h
  simp
  omega

theorem sliceV_inner {α : Type} (d : List α) (s e a b : Nat) (v : List α)
    (h : sliceV d s e = some v) (hb : b ≤ v.length) :
    sliceV d (s + a) (s + b) = sliceV v a b := by
  unfold sliceV at h ⊢
  split at h
  · rename_i hse
    simp at h
    subst h
    simp at hb
    by_cases hab : a ≤ b
    · rw [if_pos (by omega), if_pos (by simp; omega)]
      congr 1
      rw [List.drop_take, List.drop_drop, List.take_take]
      congr 1
      omega
    · rw [if_neg (by omega), if_neg (by omega)]
  · simp at h

theorem sliceV_len {α : Type} {d : List α} {s e : Nat} {v : List α}
    (h : sliceV d s e = some v) : v.length = e - s ∧ s ≤ e ∧ e ≤ d.length := by
  unfold sliceV at h
  split at h
  · simp at h; subst h; simp; omega
  · simp at h

end SIO
