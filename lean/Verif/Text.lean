/-
Rust strings, byte offsets, decimal integers and the outcome type shared by all
modules of the model.
-/
namespace SIO

/-- Outcome of a Rust call: `Ok`, `Err`, or a panic (`unwrap`, `assert!`, slice
index, `unreachable!`).  Panics are never totalised away in this model. -/
inductive Res (ε α : Type) where
  | ok (a : α)
  | err (e : ε)
  | panic
deriving Repr, DecidableEq

namespace Res
variable {ε ε' α β : Type}

/-- `?` / `and_then` sequencing: errors and panics propagate. -/
def bind (r : Res ε α) (f : α → Res ε β) : Res ε β :=
  match r with
  | ok a => f a
  | err e => err e
  | panic => panic

instance : Monad (Res ε) where
  pure := ok
  bind := bind

@[simp] theorem bind_ok (a : α) (f : α → Res ε β) : (Res.ok a >>= f) = f a := rfl
@[simp] theorem bind_err (e : ε) (f : α → Res ε β) : (Res.err e >>= f) = Res.err e := rfl
@[simp] theorem bind_panic (f : α → Res ε β) : ((Res.panic : Res ε α) >>= f) = Res.panic := rfl
@[simp] theorem pure_eq (a : α) : (pure a : Res ε α) = Res.ok a := rfl

/-- `Result::map` -/
def map (f : α → β) : Res ε α → Res ε β
  | ok a => ok (f a)
  | err e => err e
  | panic => panic

/-- `Result::map_err` -/
def mapErr (f : ε → ε') : Res ε α → Res ε' α
  | ok a => ok a
  | err e => err (f e)
  | panic => panic

/-- `Option::ok_or` -/
def ofOption (e : ε) : Option α → Res ε α
  | some a => ok a
  | none => err e

/-- `Option::unwrap` -/
def unwrap : Option α → Res ε α
  | some a => ok a
  | none => panic

/-- Test for a success with a property (used to state concrete cases). -/
def okWith (r : Res ε α) (f : α → Bool) : Bool :=
  match r with
  | ok a => f a
  | _ => false

theorem okWith_spec {r : Res ε α} {f : α → Bool} (h : r.okWith f = true) : ∃ a, r = .ok a ∧ f a = true := by
  cases r with
  | ok a => exact ⟨a, rfl, h⟩
  | err e => simp [okWith] at h
  | panic => simp [okWith] at h

@[simp] theorem unwrap_some (a : α) : (Res.unwrap (some a) : Res ε α) = .ok a := rfl
@[simp] theorem unwrap_none : (Res.unwrap (none : Option α) : Res ε α) = .panic := rfl
@[simp] theorem map_ok (f : α → β) (a : α) : (Res.ok a : Res ε α).map f = .ok (f a) := rfl
@[simp] theorem map_err (f : α → β) (e : ε) : (Res.err e : Res ε α).map f = .err e := rfl
@[simp] theorem map_panic (f : α → β) : (Res.panic : Res ε α).map f = .panic := rfl

end Res

/-- A Rust `String`/`&str`: its sequence of unicode scalar values.  (Lean's `Char`
is exactly Rust's `char`.) -/
abbrev Str := List Char

/-- A Rust `Vec<u8>`/`&[u8]`. -/
abbrev Bytes := List UInt8

/-- `str::len`: length of the UTF-8 encoding in bytes. -/
def blen : Str → Nat
  | [] => 0
  | c :: cs => c.utf8Size + blen cs

/-- `&s[n..]` by byte offset; `none` is the panic of an out-of-range index or of
one that is not on a character boundary. -/
def dropB : Str → Nat → Option Str
  | s, 0 => some s
  | [], _ + 1 => none
  | c :: cs, n => if c.utf8Size ≤ n then dropB cs (n - c.utf8Size) else none

/-- `&s[..n]` by byte offset; `none` is a panic, as for `dropB`. -/
def takeB : Str → Nat → Option Str
  | _, 0 => some []
  | [], _ + 1 => none
  | c :: cs, n => if c.utf8Size ≤ n then (takeB cs (n - c.utf8Size)).map (c :: ·) else none

/-- `&s[a..b]` on a Rust `str` (byte offsets); `none` is a panic. -/
def sliceB (s : Str) (a b : Nat) : Option Str :=
  if a ≤ b then (dropB s a).bind (fun r => takeB r (b - a)) else none

/-- `&v[a..b]` on a Rust slice; `none` is a panic. -/
def sliceV {α : Type} (v : List α) (a b : Nat) : Option (List α) :=
  if a ≤ b ∧ b ≤ v.length then some ((v.drop a).take (b - a)) else none

/-- Digit `d < 10` as a character. -/
def digitChar (d : Nat) : Char := Char.ofNat (48 + d)

/-- Decimal digits of `n`, with fuel (any fuel `≥ n` gives the same result). -/
def natDecF : Nat → Nat → Str
  | 0, n => [digitChar n]
  | f + 1, n => if n < 10 then [digitChar n] else natDecF f (n / 10) ++ [digitChar (n % 10)]

/-- `format!("{}", n)` for an unsigned integer. -/
def natDec (n : Nat) : Str := natDecF n n

/-- Value of a string of decimal digits. -/
def decVal (s : Str) : Nat := s.foldl (fun a c => a * 10 + (c.toNat - 48)) 0

/-- Number of values of a `u64`. -/
def u64Bound : Nat := 18446744073709551616

/-- `str::parse::<u64>` on a non-empty string of decimal digits: fails exactly on
overflow. -/
def parseU64 (s : Str) : Option Nat :=
  if decVal s < u64Bound then some (decVal s) else none

/-- A canonical decimal: `0|[1-9][0-9]*`. -/
def canonDec : Str → Bool
  | [] => false
  | ['0'] => true
  | c :: cs => c.isDigit && c != '0' && cs.all Char.isDigit

/-! ### Lemmas -/

theorem utf8Size_pos (c : Char) : 0 < c.utf8Size := Char.utf8Size_pos c

@[simp] theorem blen_nil : blen [] = 0 := rfl
@[simp] theorem blen_cons (c : Char) (s : Str) : blen (c :: s) = c.utf8Size + blen s := rfl
@[simp] theorem blen_append (s t : Str) : blen (s ++ t) = blen s + blen t := by
  induction s with
  | nil => simp
  | cons c s ih => simp [ih, Nat.add_assoc]

theorem dropB_append (u v : Str) : dropB (u ++ v) (blen u) = some v := by
  induction u with
  | nil => cases v <;> rfl
  | cons c u ih =>
    have h := utf8Size_pos c
    show dropB (c :: (u ++ v)) (c.utf8Size + blen u) = some v
    obtain ⟨k, hk⟩ : ∃ k, c.utf8Size + blen u = k + 1 := ⟨c.utf8Size + blen u - 1, by omega⟩
    rw [hk, dropB, if_pos (by omega), show k + 1 - c.utf8Size = blen u by omega, ih]
    simp

theorem takeB_append (u v : Str) : takeB (u ++ v) (blen u) = some u := by
  induction u with
  | nil => cases v <;> rfl
  | cons c u ih =>
    have h := utf8Size_pos c
    show takeB (c :: (u ++ v)) (c.utf8Size + blen u) = some (c :: u)
    obtain ⟨k, hk⟩ : ∃ k, c.utf8Size + blen u = k + 1 := ⟨c.utf8Size + blen u - 1, by omega⟩
    rw [hk, takeB, if_pos (by omega), show k + 1 - c.utf8Size = blen u by omega, ih]
    · rfl
    · simp

/-- Slicing at the byte offsets of a decomposition returns the middle part. -/
theorem sliceB_mid (u v w : Str) : sliceB (u ++ (v ++ w)) (blen u) (blen u + blen v) = some v := by
  unfold sliceB
  rw [if_pos (by omega), dropB_append]
  simp [Nat.add_sub_cancel_left, takeB_append]

theorem sliceB_mid' (u v w : Str) (a b : Nat) (ha : a = blen u) (hb : b = blen u + blen v) :
    sliceB (u ++ (v ++ w)) a b = some v := by subst ha hb; exact sliceB_mid u v w

/-- Slicing a whole string. -/
theorem sliceB_full (s : Str) : sliceB s 0 (blen s) = some s := by
  have := sliceB_mid [] s []; simpa using this

theorem dropB_some {s : Str} {n : Nat} {r : Str} (h : dropB s n = some r) :
    ∃ u, s = u ++ r ∧ blen u = n := by
  induction s generalizing n with
  | nil =>
    cases n with
    | zero => simp [dropB] at h; exact ⟨[], by simp [h]⟩
    | succ n => simp [dropB] at h
  | cons c s ih =>
    cases n with
    | zero => simp [dropB] at h; exact ⟨[], by simp [h]⟩
    | succ n =>
      rw [dropB] at h
      · split at h
        · obtain ⟨u, hu, hl⟩ := ih h
          exact ⟨c :: u, by simp [hu], by simp [hl]; omega⟩
        · simp at h
      · simp

theorem takeB_some {s : Str} {n : Nat} {r : Str} (h : takeB s n = some r) :
    ∃ w, s = r ++ w ∧ blen r = n := by
  induction s generalizing n r with
  | nil =>
    cases n with
    | zero => simp [takeB] at h; subst h; exact ⟨[], by simp⟩
    | succ n => simp [takeB] at h
  | cons c s ih =>
    cases n with
    | zero => simp [takeB] at h; subst h; exact ⟨c :: s, by simp⟩
    | succ n =>
      rw [takeB] at h
      · split at h
        · cases h' : takeB s (n + 1 - c.utf8Size) with
          | none => simp [h'] at h
          | some q =>
            simp [h'] at h; subst h
            obtain ⟨w, hw, hl⟩ := ih h'
            exact ⟨w, by simp [hw], by simp [hl]; omega⟩
        · simp at h
      · simp

/-- A slice that does not panic is a part of the string at the given offsets. -/
theorem sliceB_some {s : Str} {a b : Nat} {v : Str} (h : sliceB s a b = some v) :
    ∃ u w, s = u ++ (v ++ w) ∧ blen u = a ∧ blen u + blen v = b := by
  unfold sliceB at h
  split at h
  · cases h' : dropB s a with
    | none => simp [h'] at h
    | some r =>
      simp [h'] at h
      obtain ⟨u, hu, hl⟩ := dropB_some h'
      obtain ⟨w, hw, hl'⟩ := takeB_some h
      exact ⟨u, w, by rw [hu, hw], hl, by omega⟩
  · simp at h

theorem digitChar_toNat {d : Nat} (h : d < 10) : (digitChar d).toNat = 48 + d := by
  have : d = 0 ∨ d = 1 ∨ d = 2 ∨ d = 3 ∨ d = 4 ∨ d = 5 ∨ d = 6 ∨ d = 7 ∨ d = 8 ∨ d = 9 := by omega
  rcases this with h | h | h | h | h | h | h | h | h | h <;> subst h <;> decide

theorem digitChar_isDigit {d : Nat} (h : d < 10) : (digitChar d).isDigit = true := by
  have : d = 0 ∨ d = 1 ∨ d = 2 ∨ d = 3 ∨ d = 4 ∨ d = 5 ∨ d = 6 ∨ d = 7 ∨ d = 8 ∨ d = 9 := by omega
  rcases this with h | h | h | h | h | h | h | h | h | h <;> subst h <;> decide

theorem digitChar_ne_zero {d : Nat} (h : d < 10) (h0 : d ≠ 0) : digitChar d ≠ '0' := by
  intro hc
  have := digitChar_toNat h
  rw [hc] at this
  have : (48 : Nat) = 48 + d := this
  omega

theorem isDigit_toNat {c : Char} (h : c.isDigit = true) : 48 ≤ c.toNat ∧ c.toNat ≤ 57 := by
  simp [Char.isDigit, UInt32.le_iff_toNat_le] at h
  exact h

theorem digitChar_of_isDigit {c : Char} (h : c.isDigit = true) : digitChar (c.toNat - 48) = c := by
  have := isDigit_toNat h
  unfold digitChar
  rw [show 48 + (c.toNat - 48) = c.toNat by omega, Char.ofNat_toNat]

theorem natDecF_eq (f g n : Nat) (hf : n ≤ f) (hg : n ≤ g) : natDecF f n = natDecF g n := by
  induction f generalizing g n with
  | zero =>
    have : n = 0 := by omega
    subst this
    cases g <;> rfl
  | succ f ih =>
    cases g with
    | zero =>
      have : n = 0 := by omega
      subst this
      rfl
    | succ g =>
      simp only [natDecF]
      split
      · rfl
      · rw [ih g (n / 10) (by omega) (by omega)]

/-- The defining recursion of decimal printing. -/
theorem natDec_eq (n : Nat) :
    natDec n = if n < 10 then [digitChar n] else natDec (n / 10) ++ [digitChar (n % 10)] := by
  unfold natDec
  cases n with
  | zero => rfl
  | succ n =>
    rw [natDecF]
    split
    · rfl
    · rw [natDecF_eq n ((n + 1) / 10) ((n + 1) / 10) (by omega) (Nat.le_refl _)]

theorem decVal_append (s : Str) (c : Char) : decVal (s ++ [c]) = decVal s * 10 + (c.toNat - 48) := by
  simp [decVal]

theorem decVal_natDec (n : Nat) : decVal (natDec n) = n := by
  induction n using Nat.strongRecOn with
  | _ n ih =>
    rw [natDec_eq]
    split
    · rename_i h
      simp [decVal, digitChar_toNat h]
    · rename_i h
      rw [decVal_append, ih (n / 10) (by omega), digitChar_toNat (by omega)]
      omega

theorem natDec_digits (n : Nat) : ∀ c ∈ natDec n, c.isDigit = true := by
  induction n using Nat.strongRecOn with
  | _ n ih =>
    rw [natDec_eq]
    split
    · rename_i h
      simp [digitChar_isDigit h]
    · intro c hc
      rw [List.mem_append] at hc
      rcases hc with hc | hc
      · exact ih (n / 10) (by omega) c hc
      · simp at hc; subst hc; exact digitChar_isDigit (by omega)

theorem natDec_ne_nil (n : Nat) : natDec n ≠ [] := by
  rw [natDec_eq]; split <;> simp

theorem natDec_head (n : Nat) (h : 0 < n) : ∃ c cs, natDec n = c :: cs ∧ c ≠ '0' := by
  induction n using Nat.strongRecOn with
  | _ n ih =>
    rw [natDec_eq]
    split
    · rename_i h'
      exact ⟨_, [], rfl, digitChar_ne_zero h' (by omega)⟩
    · obtain ⟨c, cs, hc, h0⟩ := ih (n / 10) (by omega) (by omega)
      exact ⟨c, cs ++ [digitChar (n % 10)], by simp [hc], h0⟩

theorem canonDec_cons {c : Char} {cs : Str} (hc : c.isDigit = true) (h0 : c ≠ '0')
    (hs : ∀ x ∈ cs, x.isDigit = true) : canonDec (c :: cs) = true := by
  unfold canonDec
  split <;> simp_all

theorem natDec_canon (n : Nat) : canonDec (natDec n) = true := by
  by_cases h : n = 0
  · subst h; decide
  · obtain ⟨c, cs, hc, h0⟩ := natDec_head n (by omega)
    have hd := natDec_digits n
    rw [hc] at hd ⊢
    exact canonDec_cons (hd c (by simp)) h0 (fun x hx => hd x (by simp [hx]))

theorem canonDec_digits {s : Str} (h : canonDec s = true) : ∀ c ∈ s, c.isDigit = true := by
  unfold canonDec at h
  split at h
  · simp at h
  · intro c hc; simp at hc; subst hc; decide
  · simp at h
    intro c hc
    simp at hc
    rcases hc with hc | hc
    · subst hc; exact h.1.1
    · exact h.2 c hc

theorem canonDec_ne_nil {s : Str} (h : canonDec s = true) : s ≠ [] := by
  intro h'; subst h'; simp [canonDec] at h

theorem canonDec_cases {s : Str} (h : canonDec s = true) :
    s = ['0'] ∨ ∃ c cs, s = c :: cs ∧ c.isDigit = true ∧ c ≠ '0' ∧ ∀ x ∈ cs, x.isDigit = true := by
  unfold canonDec at h
  split at h
  · simp at h
  · exact Or.inl rfl
  · simp at h
    exact Or.inr ⟨_, _, rfl, h.1.1, h.1.2, h.2⟩

/-- Auxiliary: printing the value of a digit string with a non-zero accumulator. -/
theorem natDec_foldl (s : Str) (a : Nat) (ha : 0 < a) (hs : ∀ x ∈ s, x.isDigit = true) :
    natDec (s.foldl (fun a c => a * 10 + (c.toNat - 48)) a) = natDec a ++ s := by
  induction s generalizing a with
  | nil => simp
  | cons c s ih =>
    have hc := isDigit_toNat (hs c (by simp))
    simp only [List.foldl_cons]
    rw [ih _ (by omega) (fun x hx => hs x (by simp [hx]))]
    conv => lhs; rw [natDec_eq]
    rw [if_neg (by omega)]
    have h1 : (a * 10 + (c.toNat - 48)) / 10 = a := by omega
    have h2 : (a * 10 + (c.toNat - 48)) % 10 = c.toNat - 48 := by omega
    rw [h1, h2, digitChar_of_isDigit (hs c (by simp))]
    simp

theorem natDec_decVal {s : Str} (h : canonDec s = true) : natDec (decVal s) = s := by
  rcases canonDec_cases h with h | ⟨c, cs, rfl, hc, h0, hs⟩
  · subst h; decide
  · have hn := isDigit_toNat hc
    have hp : 0 < c.toNat - 48 := by
      rcases Nat.lt_or_ge 48 c.toNat with h | h
      · omega
      · exfalso
        apply h0
        have : c.toNat = 48 := by omega
        rw [← Char.ofNat_toNat c, this]
    unfold decVal
    simp only [List.foldl_cons]
    rw [show 0 * 10 + (c.toNat - 48) = c.toNat - 48 by omega, natDec_foldl _ _ hp hs]
    rw [natDec_eq, if_pos (by omega), digitChar_of_isDigit hc]
    simp

theorem natDec_injective {m n : Nat} (h : natDec m = natDec n) : m = n := by
  rw [← decVal_natDec m, h, decVal_natDec]

theorem parseU64_natDec {n : Nat} (h : n < u64Bound) : parseU64 (natDec n) = some n := by
  simp [parseU64, decVal_natDec, h]

end SIO
