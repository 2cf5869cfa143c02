import Verif.Spec.Value
import Verif.Lemmas.DecodeOut
/-
Reading JSON texts as dynamic values.
-/
namespace SIO
open Spec

/-! ### Maps -/

theorem strLt_iff (a b : Str) : strLt a b = true ↔ a < b := by
  induction a generalizing b with
  | nil =>
    cases b with
    | nil => simp [strLt]
    | cons y b => simp [strLt]
  | cons x a ih =>
    cases b with
    | nil => simp [strLt]
    | cons y b =>
      rw [strLt, List.cons_lt_cons_iff]
      have hx : x < y ↔ x.toNat < y.toNat := Iff.rfl
      have he : x = y ↔ x.toNat = y.toNat := by
        constructor
        · intro h; rw [h]
        · intro h; exact Char.toNat_inj.1 h
      rw [hx, he]
      by_cases h1 : x.toNat < y.toNat
      · simp [h1]
      · by_cases h2 : y.toNat < x.toNat
        · simp [h1, h2]; omega
        · have : x.toNat = y.toNat := by omega
          simp [ih, this]

theorem strLt_total {a b : Str} (h1 : strLt a b = false) (h2 : strLt b a = false) : a = b := by
  have h1 : ¬ a < b := by rw [← strLt_iff]; simp [h1]
  have h2 : ¬ b < a := by rw [← strLt_iff]; simp [h2]
  exact List.le_antisymm (List.not_lt.1 h2) (List.not_lt.1 h1)

theorem str_ne_of_lt {a b : Str} (h : a < b) : a ≠ b := by
  rintro rfl
  exact List.lt_irrefl _ h

/-- Sorted by keys. -/
abbrev SortedM {α : Type} (m : List (Str × α)) : Prop := m.Pairwise fun a b => a.1 < b.1

theorem mapInsert_mem {α : Type} {k : Str} {v : α} {m : List (Str × α)} {x : Str × α} (h : x ∈ mapInsert k v m) :
    x = (k, v) ∨ x ∈ m := by
  induction m with
  | nil => simp [mapInsert] at h; exact Or.inl h
  | cons y m ih =>
    obtain ⟨k', v'⟩ := y
    unfold mapInsert at h
    split at h
    · simpa using h
    · split at h
      · simp only [List.mem_cons] at h ⊢
        rcases h with h | h
        · exact Or.inr (Or.inl h)
        · rcases ih h with h | h
          · exact Or.inl h
          · exact Or.inr (Or.inr h)
      · simp only [List.mem_cons] at h ⊢
        rcases h with h | h
        · exact Or.inl h
        · exact Or.inr (Or.inr h)

theorem mapInsert_sorted {α : Type} (k : Str) (v : α) {m : List (Str × α)} (h : SortedM m) :
    SortedM (mapInsert k v m) := by
  induction m with
  | nil => simp [mapInsert, SortedM]
  | cons y m ih =>
    obtain ⟨k', v'⟩ := y
    have hm := List.pairwise_cons.1 h
    unfold mapInsert
    split
    · rename_i hlt
      refine List.pairwise_cons.2 ⟨?_, h⟩
      intro x hx
      have hkk : k < k' := (strLt_iff _ _).1 hlt
      simp only [List.mem_cons] at hx
      rcases hx with rfl | hx
      · exact hkk
      · exact List.lt_trans hkk (hm.1 x hx)
    · rename_i hnlt
      split
      · rename_i hlt
        refine List.pairwise_cons.2 ⟨?_, ih hm.2⟩
        intro x hx
        rcases mapInsert_mem hx with rfl | hx
        · exact (strLt_iff _ _).1 hlt
        · exact hm.1 x hx
      · rename_i hlt
        have : k = k' := strLt_total (by simpa using hnlt) (by simpa using hlt)
        subst this
        exact List.pairwise_cons.2 ⟨hm.1, hm.2⟩

theorem mapInsert_lookup {α : Type} (k : Str) (v : α) (j : Str) (m : List (Str × α)) :
    (mapInsert k v m).lookup j = if j = k then some v else m.lookup j := by
  induction m with
  | nil =>
    by_cases hj : j = k
    · simp [mapInsert, hj]
    · have : (j == k) = false := by simpa using hj
      simp [mapInsert, List.lookup_cons, this, hj]
  | cons y m ih =>
    obtain ⟨k', v'⟩ := y
    unfold mapInsert
    split
    · by_cases hj : j = k
      · simp [hj]
      · have : (j == k) = false := by simpa using hj
        simp [List.lookup_cons, this, hj]
    · rename_i hnlt
      split
      · rename_i hlt
        have hne : k' ≠ k := str_ne_of_lt ((strLt_iff _ _).1 hlt)
        rw [List.lookup_cons, List.lookup_cons, ih]
        by_cases hj : j = k'
        · subst hj; simp [hne]
        · have : (j == k') = false := by simpa using hj
          simp [this]
      · rename_i hlt
        have : k = k' := strLt_total (by simpa using hnlt) (by simpa using hlt)
        subst this
        rw [List.lookup_cons, List.lookup_cons]
        by_cases hj : j = k
        · simp [hj]
        · have : (j == k) = false := by simpa using hj
          simp [this, hj]

theorem isMap_nil {α : Type} : IsMap ([] : List (Str × α)) [] := by simp [IsMap]

theorem isMap_insert {α : Type} {w m : List (Str × α)} (h : IsMap w m) (k : Str) (v : α) :
    IsMap (w ++ [(k, v)]) (mapInsert k v m) := by
  refine ⟨mapInsert_sorted k v h.1, ?_⟩
  intro j
  rw [mapInsert_lookup, h.2 j]
  simp only [List.reverse_append, List.reverse_cons, List.reverse_nil, List.nil_append, List.cons_append,
    List.lookup_cons]
  by_cases hj : j = k
  · simp [hj]
  · have : (j == k) = false := by simpa using hj
    simp [this, hj]

theorem lookup_none_of_lt {α : Type} {m : List (Str × α)} {k : Str} (h : ∀ x ∈ m, k < x.1) : m.lookup k = none := by
  rw [List.lookup_eq_none_iff]
  intro x hx
  have := str_ne_of_lt (h x hx)
  simpa using this

/-- Two sorted maps with the same bindings are equal. -/
theorem sorted_ext {α : Type} {m m' : List (Str × α)} (h : SortedM m) (h' : SortedM m')
    (he : ∀ k, m.lookup k = m'.lookup k) : m = m' := by
  induction m generalizing m' with
  | nil =>
    cases m' with
    | nil => rfl
    | cons y m' =>
      obtain ⟨k, v⟩ := y
      have := he k
      simp at this
  | cons x m ih =>
    obtain ⟨k, v⟩ := x
    cases m' with
    | nil =>
      have := he k
      simp at this
    | cons y m' =>
      obtain ⟨k', v'⟩ := y
      have hm := List.pairwise_cons.1 h
      have hm' := List.pairwise_cons.1 h'
      have hk : k = k' := by
        apply Decidable.byContradiction
        intro hne
        have h1 := he k
        have h2 := he k'
        have e1 : (k == k') = false := by simpa using hne
        have e2 : (k' == k) = false := by simpa using Ne.symm hne
        simp only [List.lookup_cons, beq_self_eq_true, e1, e2] at h1 h2
        cases hl : strLt k k' with
        | true =>
          have hlt := (strLt_iff _ _).1 hl
          rw [lookup_none_of_lt fun x hx => List.lt_trans hlt (hm'.1 x hx)] at h1
          simp at h1
        | false =>
          cases hl' : strLt k' k with
          | true =>
            have hlt := (strLt_iff _ _).1 hl'
            rw [lookup_none_of_lt fun x hx => List.lt_trans hlt (hm.1 x hx)] at h2
            simp at h2
          | false => exact hne (strLt_total hl hl')
      subst hk
      have hv := he k
      simp at hv
      subst hv
      have : m = m' := by
        apply ih hm.2 hm'.2
        intro j
        have := he j
        rw [List.lookup_cons, List.lookup_cons] at this
        by_cases hj : j = k
        · subst hj
          rw [lookup_none_of_lt hm.1, lookup_none_of_lt hm'.1]
        · have e : (j == k) = false := by simpa using hj
          simpa [e] using this
      rw [this]

theorem isMap_unique {α : Type} {w m m' : List (Str × α)} (h : IsMap w m) (h' : IsMap w m') : m = m' :=
  sorted_ext h.1 h'.1 fun k => by rw [h.2, h'.2]

/-! ### Numbers -/

theorem isNum_digits {l : Str} (h : IsNum l) (hd : ∀ c ∈ l, c.isDigit = true) : IsDec l := by
  obtain ⟨sg, i, f, e, rfl, hs, hi, hf, he⟩ := h
  have hs' : sg = [] := by
    rcases hs with hs | hs
    · exact hs
    · subst hs
      have := hd '-' (by simp)
      simp at this
  have hf' : f = [] := by
    rcases hf with hf | ⟨d, hf, _⟩
    · exact hf
    · subst hf
      have := hd '.' (by simp)
      simp at this
  have he' : e = [] := by
    rcases he with he | ⟨c, sg', d, he, hc, _⟩
    · exact he
    · subst he
      have := hd c (by simp)
      rcases hc with rfl | rfl <;> simp at this
  subst hs' hf' he'
  simpa using hi

theorem isNum_neg_digits {l : Str} (h : IsNum ('-' :: l)) (hd : ∀ c ∈ l, c.isDigit = true) : IsDec l := by
  obtain ⟨sg, i, f, e, heq, hs, hi, hf, he⟩ := h
  have hs' : sg = ['-'] := by
    rcases hs with hs | hs
    · subst hs
      exfalso
      rcases hi with rfl | ⟨c, cs, rfl, hc, _⟩
      · simp at heq
      · simp at heq
        rw [← heq.1] at hc
        simp at hc
    · exact hs
  subst hs'
  simp only [List.cons_append, List.nil_append, List.cons.injEq, true_and] at heq
  exact isNum_digits ⟨[], i, f, e, by simpa using heq, Or.inl rfl, hi, hf, he⟩ hd

theorem decimal_digits (n : Nat) : ∀ c ∈ decimal n, c.isDigit = true := by
  rw [← natDec_decimal]; exact natDec_digits n

theorem decimal_ne_nil (n : Nat) : decimal n ≠ [] := by
  rw [← natDec_decimal]; exact natDec_ne_nil n

theorem readNum_iff {fin : Str → Bool} {l : Str} (hl : IsNum l) (n : Num) : readNum fin l = some n ↔ NumReads fin l n := by
  have hu : u64Bound = 2 ^ 64 := rfl
  by_cases h1 : ∃ k, l = decimal k ∧ k < 2 ^ 64
  · obtain ⟨k, rfl, hk⟩ := h1
    have hc : decimal k ≠ [] ∧ (decimal k).all Char.isDigit ∧ decVal (decimal k) < u64Bound :=
      ⟨decimal_ne_nil k, by simpa using decimal_digits k, by rw [decVal_decimal, hu]; exact hk⟩
    have hr : readNum fin (decimal k) = some (.pos k) := by
      unfold readNum
      rw [if_pos hc, decVal_decimal]
    rw [hr]
    constructor
    · intro h
      exact Or.inl ⟨k, rfl, hk, by simpa using h.symm⟩
    · rintro (⟨j, hj, _, rfl⟩ | ⟨j, hj, _⟩ | ⟨h, _⟩)
      · rw [decimal_injective hj]
      · exfalso
        have := decimal_digits k '-' (by rw [hj]; simp)
        simp at this
      · exact absurd ⟨k, rfl, hk⟩ h
  · have hc : ¬ (l ≠ [] ∧ l.all Char.isDigit ∧ decVal l < u64Bound) := by
      rintro ⟨_, hd, hb⟩
      have := isNum_digits hl (by simpa using hd)
      exact h1 ⟨decVal l, isDec_decimal this, hb⟩
    unfold readNum
    rw [if_neg hc]
    by_cases h2 : ∃ k, l = '-' :: decimal k ∧ 0 < k ∧ k ≤ 2 ^ 63
    · obtain ⟨k, rfl, hk, hk'⟩ := h2
      have hc2 : decimal k ≠ [] ∧ (decimal k).all Char.isDigit ∧ 0 < decVal (decimal k) ∧
          decVal (decimal k) ≤ 9223372036854775808 :=
        ⟨decimal_ne_nil k, by simpa using decimal_digits k, by rw [decVal_decimal]; exact hk, by
          rw [decVal_decimal]; simpa using hk'⟩
      show (if _ then _ else _) = _ ↔ _
      rw [if_pos hc2, decVal_decimal]
      constructor
      · intro h
        exact Or.inr (Or.inl ⟨k, rfl, hk, hk', by simpa using h.symm⟩)
      · rintro (⟨j, hj, hb, _⟩ | ⟨j, hj, _, _, rfl⟩ | ⟨_, h, _⟩)
        · exact absurd ⟨j, hj, hb⟩ h1
        · simp only [List.cons.injEq, true_and] at hj
          rw [decimal_injective hj]
        · exact absurd ⟨k, rfl, hk, hk'⟩ h
    · have hgoal : (if fin l then some (Num.float l) else none) = some n ↔ NumReads fin l n := by
        constructor
        · intro h
          split at h
          · rename_i hf
            exact Or.inr (Or.inr ⟨h1, h2, hf, by simpa using h.symm⟩)
          · simp at h
        · rintro (⟨j, hj, hb, _⟩ | ⟨j, hj, hb, hb', _⟩ | ⟨_, _, hf, rfl⟩)
          · exact absurd ⟨j, hj, hb⟩ h1
          · exact absurd ⟨j, hj, hb, hb'⟩ h2
          · simp [hf]
      split
      · rename_i ds
        rw [if_neg]
        · exact hgoal
        · rintro ⟨_, hd, h0, hb⟩
          have := isNum_neg_digits hl (by simpa using hd)
          exact h2 ⟨decVal ds, by rw [← isDec_decimal this], h0, by simpa using hb⟩
      · exact hgoal

theorem numReads_unique {fin : Str → Bool} {l : Str} {n n' : Num} (h : NumReads fin l n) (h' : NumReads fin l n') :
    n = n' := by
  rcases h with ⟨k, rfl, hk, rfl⟩ | ⟨k, rfl, hk, hk', rfl⟩ | ⟨h1, h2, _, rfl⟩ <;>
    rcases h' with ⟨j, hj, hj', rfl⟩ | ⟨j, hj, hj', hj'', rfl⟩ | ⟨g1, g2, _, rfl⟩
  · rw [decimal_injective hj]
  · exfalso
    have := decimal_digits k '-' (by rw [hj]; simp)
    simp at this
  · exact absurd ⟨k, rfl, hk⟩ g1
  · exfalso
    have := decimal_digits j '-' (by rw [← hj]; simp)
    simp at this
  · simp only [List.cons.injEq, true_and] at hj
    rw [decimal_injective hj]
  · exact absurd ⟨k, rfl, hk, hk'⟩ g2
  · exact absurd ⟨j, hj, hj'⟩ h1
  · exact absurd ⟨j, hj, hj', hj''⟩ h2
  · rfl

/-! ### Values -/

mutual
/-- All number literals of the tree are JSON numbers. -/
def NumsOk : JTree → Prop
  | .num l => IsNum l
  | .arr ts => NumsOkL ts
  | .obj kts => NumsOkM kts
  | _ => True
def NumsOkL : List JTree → Prop
  | [] => True
  | t :: ts => NumsOk t ∧ NumsOkL ts
def NumsOkM : List (Str × JTree) → Prop
  | [] => True
  | (_, t) :: ts => NumsOk t ∧ NumsOkM ts
end

mutual
theorem isVal_numsOk : ∀ (t : JTree) (s : Str), IsVal t s → NumsOk t
  | .null, _, _ | .bool _, _, _ | .str _, _, _ => by simp [NumsOk]
  | .num l, s, h => by
    unfold IsVal at h
    exact h.1 ▸ h.2
  | .arr ts, s, h => by
    unfold IsVal at h
    obtain ⟨b, _, hb⟩ := h
    exact isElems_numsOk ts b hb
  | .obj kts, s, h => by
    unfold IsVal at h
    obtain ⟨b, _, hb⟩ := h
    exact isMembers_numsOk kts b hb
theorem isElems_numsOk : ∀ (ts : List JTree) (s : Str), IsElems ts s → NumsOkL ts
  | [], _, _ => by simp [NumsOkL]
  | t :: ts, s, h => by
    unfold IsElems at h
    obtain ⟨w1, v, w2, b', _, _, _, hv, h⟩ := h
    refine ⟨isVal_numsOk t v hv, ?_⟩
    rcases h with ⟨rfl, _⟩ | ⟨_, b'', _, h⟩
    · simp [NumsOkL]
    · exact isElems_numsOk ts b'' h
theorem isMembers_numsOk : ∀ (ts : List (Str × JTree)) (s : Str), IsMembers ts s → NumsOkM ts
  | [], _, _ => by simp [NumsOkM]
  | (k, t) :: ts, s, h => by
    unfold IsMembers at h
    obtain ⟨w1, w2, w3, v, w4, b', _, _, _, _, _, _, hv, h⟩ := h
    refine ⟨isVal_numsOk t v hv, ?_⟩
    rcases h with ⟨rfl, _⟩ | ⟨_, b'', _, h⟩
    · simp [NumsOkM]
    · exact isMembers_numsOk ts b'' h
end

/-- Inserting bindings one after the other. -/
def insertAll {α : Type} : List (Str × α) → List (Str × α) → List (Str × α)
  | m, [] => m
  | m, (k, v) :: w => insertAll (mapInsert k v m) w

theorem isMap_insertAll {α : Type} (w : List (Str × α)) : ∀ {w0 m0 : List (Str × α)}, IsMap w0 m0 →
    IsMap (w0 ++ w) (insertAll m0 w) := by
  induction w with
  | nil => intro w0 m0 h; simpa [insertAll] using h
  | cons x w ih =>
    intro w0 m0 h
    obtain ⟨k, v⟩ := x
    have := ih (isMap_insert h k v)
    simpa [insertAll] using this

theorem isMap_iff {α : Type} (w m : List (Str × α)) : IsMap w m ↔ m = insertAll [] w := by
  have h : IsMap w (insertAll [] w) := by simpa using isMap_insertAll w isMap_nil
  constructor
  · intro h'; exact isMap_unique h' h
  · rintro rfl; exact h

mutual
/-- All string literals of the tree are shorter. -/
def StrsLt (n : Nat) : JTree → Prop
  | .str raw => raw.length < n
  | .arr ts => StrsLtL n ts
  | .obj kts => StrsLtM n kts
  | _ => True
def StrsLtL (n : Nat) : List JTree → Prop
  | [] => True
  | t :: ts => StrsLt n t ∧ StrsLtL n ts
def StrsLtM (n : Nat) : List (Str × JTree) → Prop
  | [] => True
  | (_, t) :: ts => StrsLt n t ∧ StrsLtM n ts
end

mutual
theorem isVal_strsLt (n : Nat) : ∀ (t : JTree) (s : Str), IsVal t s → s.length ≤ n → StrsLt n t
  | .null, _, _, _ | .bool _, _, _, _ | .num _, _, _, _ => by simp [StrsLt]
  | .str raw, s, h, hn => by
    unfold IsVal at h
    rw [h.1] at hn
    simp at hn
    simp only [StrsLt]
    omega
  | .arr ts, s, h, hn => by
    unfold IsVal at h
    obtain ⟨b, rfl, hb⟩ := h
    exact isElems_strsLt n ts b hb (by simp at hn; omega)
  | .obj kts, s, h, hn => by
    unfold IsVal at h
    obtain ⟨b, rfl, hb⟩ := h
    exact isMembers_strsLt n kts b hb (by simp at hn; omega)
theorem isElems_strsLt (n : Nat) : ∀ (ts : List JTree) (s : Str), IsElems ts s → s.length ≤ n → StrsLtL n ts
  | [], _, _, _ => by simp [StrsLtL]
  | t :: ts, s, h, hn => by
    unfold IsElems at h
    obtain ⟨w1, v, w2, b', rfl, _, _, hv, h⟩ := h
    simp at hn
    refine ⟨isVal_strsLt n t v hv (by omega), ?_⟩
    rcases h with ⟨rfl, _⟩ | ⟨_, b'', rfl, h⟩
    · simp [StrsLtL]
    · exact isElems_strsLt n ts b'' h (by simp at hn; omega)
theorem isMembers_strsLt (n : Nat) : ∀ (ts : List (Str × JTree)) (s : Str), IsMembers ts s → s.length ≤ n → StrsLtM n ts
  | [], _, _, _ => by simp [StrsLtM]
  | (k, t) :: ts, s, h, hn => by
    unfold IsMembers at h
    obtain ⟨w1, w2, w3, v, w4, b', rfl, _, _, _, _, _, hv, h⟩ := h
    simp at hn
    refine ⟨isVal_strsLt n t v hv (by omega), ?_⟩
    rcases h with ⟨rfl, _⟩ | ⟨_, b'', rfl, h⟩
    · simp [StrsLtM]
    · exact isMembers_strsLt n ts b'' h (by simp at hn; omega)
end

theorem unescape_length (raw s : Str) (h : unescape raw = some s) : s.length ≤ raw.length := by
  replace h := (unescape_iff raw s).1 h
  induction h <;> simp only [List.length_cons, List.length_nil] <;> omega

theorem gets_null {fin : Str → Bool} {v : Value} : Gets fin .null v ↔ v = .null :=
  ⟨fun h => by cases h; rfl, fun h => h ▸ .null⟩

theorem gets_bool {fin : Str → Bool} {b : Bool} {v : Value} : Gets fin (.bool b) v ↔ v = .bool b :=
  ⟨fun h => by cases h; rfl, fun h => h ▸ .bool b⟩

theorem gets_num {fin : Str → Bool} {l : Str} {v : Value} : Gets fin (.num l) v ↔ ∃ n, v = .num n ∧ NumReads fin l n :=
  ⟨fun h => by cases h with | num _ n h => exact ⟨n, rfl, h⟩, fun ⟨n, e, h⟩ => e ▸ .num l n h⟩

theorem gets_str {fin : Str → Bool} {s : Str} {v : Value} : Gets fin (.str s) v ↔ v = .str s :=
  ⟨fun h => by cases h; rfl, fun h => h ▸ .str s⟩

theorem gets_blob {fin : Str → Bool} {b : Bytes} {v : Value} : ¬ Gets fin (.blob b) v := fun h => by cases h

theorem gets_arr {fin : Str → Bool} {ds : List Doc} {v : Value} : Gets fin (.arr ds) v ↔ ∃ xs, v = .arr xs ∧ GetsL fin ds xs :=
  ⟨fun h => by cases h with | arr _ xs h => exact ⟨xs, rfl, h⟩, fun ⟨xs, e, h⟩ => e ▸ .arr ds xs h⟩

theorem getsL_nil {fin : Str → Bool} {xs : List Value} : GetsL fin [] xs ↔ xs = [] :=
  ⟨fun h => by cases h; rfl, fun h => h ▸ .nil⟩

theorem getsL_cons {fin : Str → Bool} {d : Doc} {ds : List Doc} {xs : List Value} :
    GetsL fin (d :: ds) xs ↔ ∃ y ys, xs = y :: ys ∧ Gets fin d y ∧ GetsL fin ds ys :=
  ⟨fun h => by cases h with | cons _ v _ vs h1 h2 => exact ⟨v, vs, rfl, h1, h2⟩,
    fun ⟨y, ys, e, h1, h2⟩ => e ▸ .cons d y ds ys h1 h2⟩

theorem getsM_nil {fin : Str → Bool} {xs : List (Str × Value)} : GetsM fin [] xs ↔ xs = [] :=
  ⟨fun h => by cases h; rfl, fun h => h ▸ .nil⟩

theorem getsM_cons {fin : Str → Bool} {k : Str} {d : Doc} {ds : List (Str × Doc)} {xs : List (Str × Value)} :
    GetsM fin ((k, d) :: ds) xs ↔ ∃ y ys, xs = (k, y) :: ys ∧ Gets fin d y ∧ GetsM fin ds ys :=
  ⟨fun h => by cases h with | cons _ _ v _ vs h1 h2 => exact ⟨v, vs, rfl, h1, h2⟩,
    fun ⟨y, ys, e, h1, h2⟩ => e ▸ .cons k d y ds ys h1 h2⟩

/-- What serde_json reads from a text. -/
def TextGets (fin : Str → Bool) (s : Str) (v : Value) : Prop :=
  ∃ t doc, IsText t s ∧ Denotes t doc ∧ treeDepth t < 128 ∧ Gets fin doc v

theorem gets_plain {fin : Str → Bool} {kvs : List (Str × Doc)} {v : Value} (h : ¬ StartsRaw kvs) :
    Gets fin (.obj kvs) v ↔ ∃ w m, v = .obj m ∧ GetsM fin kvs w ∧ IsMap w m := by
  constructor
  · intro hg
    cases hg with
    | obj _ w m _ h1 h2 => exact ⟨w, m, rfl, h1, h2⟩
    | raw s t d v => exact absurd ⟨_, _, rfl⟩ h
  · rintro ⟨w, m, rfl, h1, h2⟩
    exact .obj kvs w m h h1 h2

theorem gets_raw {fin : Str → Bool} {s : Str} {v : Value} : Gets fin (.obj [(rawKey, .str s)]) v ↔ TextGets fin s v := by
  constructor
  · intro hg
    cases hg with
    | obj _ w m h _ _ => exact absurd ⟨_, _, rfl⟩ h
    | raw s t d v h1 h2 h3 h4 => exact ⟨t, d, h1, h3, h2, h4⟩
  · rintro ⟨t, d, h1, h3, h2, h4⟩
    exact .raw s t d v h1 h2 h3 h4

theorem gets_starts {fin : Str → Bool} {kvs : List (Str × Doc)} {v : Value} (h : StartsRaw kvs) (hg : Gets fin (.obj kvs) v) :
    ∃ s, kvs = [(rawKey, .str s)] := by
  cases hg with
  | obj _ w m h' _ _ => exact absurd h h'
  | raw s t d v h1 h2 h3 h4 => exact ⟨s, rfl⟩

theorem rawView_plain {kts : List (Str × JTree)} (h : rawView kts = .plain) {ds : List (Str × Doc)} (hd : DenotesM kts ds) :
    ¬ StartsRaw ds := by
  rintro ⟨x, r, rfl⟩
  cases kts with
  | nil => simp [DenotesM] at hd
  | cons kt rest =>
    obtain ⟨k, t⟩ := kt
    simp only [DenotesM, List.cons.injEq, Prod.mk.injEq] at hd
    obtain ⟨k', d, ds', ⟨⟨rfl, _⟩, _⟩, hk, _⟩ := hd
    have hk : unescape k = some rawKey := (unescape_iff _ _).2 hk
    simp only [rawView, hk, if_true] at h
    split at h
    · split at h <;> simp at h
    · simp at h

theorem rawView_raw {kts : List (Str × JTree)} {s : Str} (h : rawView kts = .raw s) :
    ∃ k raw, kts = [(k, .str raw)] ∧ unescape k = some rawKey ∧ unescape raw = some s := by
  cases kts with
  | nil => simp [rawView] at h
  | cons kt rest =>
    obtain ⟨k, t⟩ := kt
    simp only [rawView] at h
    split at h
    · rename_i hk
      split at h
      · rename_i raw
        cases hr : unescape raw with
        | none => rw [hr] at h; simp at h
        | some s' =>
          rw [hr] at h
          simp at h
          subst h
          exact ⟨k, raw, rfl, hk, hr⟩
      · simp at h
    · simp at h

theorem rawView_err {kts : List (Str × JTree)} (h : rawView kts = .err) {ds : List (Str × Doc)} (hd : DenotesM kts ds) :
    StartsRaw ds ∧ ∀ s, ds ≠ [(rawKey, .str s)] := by
  cases kts with
  | nil => simp [rawView] at h
  | cons kt rest =>
    obtain ⟨k, t⟩ := kt
    simp only [DenotesM] at hd
    obtain ⟨k', d, ds', rfl, hk, ht, hr⟩ := hd
    have hk' := (unescape_iff _ _).2 hk
    simp only [rawView, hk', Option.some.injEq] at h
    split at h
    · rename_i he
      subst he
      refine ⟨⟨_, _, rfl⟩, ?_⟩
      intro s hs
      simp only [List.cons.injEq, Prod.mk.injEq, true_and] at hs
      obtain ⟨rfl, rfl⟩ := hs
      have hrest : rest = [] := by
        cases rest with
        | nil => rfl
        | cons a b => simp [DenotesM] at hr
      subst hrest
      cases t with
      | str raw =>
        simp only [Denotes] at ht
        obtain ⟨s', he, hraw⟩ := ht
        simp only [(unescape_iff _ _).2 hraw] at h
        simp at h
      | arr ts => simp [Denotes] at ht
      | obj ts => simp [Denotes] at ht
      | null => simp [Denotes] at ht
      | bool b => simp [Denotes] at ht
      | num l => simp [Denotes] at ht
    · simp at h

mutual
theorem toValueW_iff (fin : Str → Bool) (nest : Str → Option Value) (n : Nat)
    (hnest : ∀ s v, s.length < n → (nest s = some v ↔ TextGets fin s v)) : ∀ (t : JTree) (d : Nat) (v : Value), 0 < d →
    NumsOk t → StrsLt n t →
    (toValueW nest fin d t = some v ↔ ∃ doc, Denotes t doc ∧ treeDepth t < d ∧ Gets fin doc v)
  | .null, d, v, hd, _, _ => by
    simp only [toValueW, Denotes, treeDepth]
    constructor
    · intro h; exact ⟨.null, rfl, hd, gets_null.2 (by simpa using h.symm)⟩
    · rintro ⟨_, rfl, _, h⟩; rw [gets_null.1 h]
  | .bool b, d, v, hd, _, _ => by
    simp only [toValueW, Denotes, treeDepth]
    constructor
    · intro h; exact ⟨.bool b, rfl, hd, gets_bool.2 (by simpa using h.symm)⟩
    · rintro ⟨_, rfl, _, h⟩; rw [gets_bool.1 h]
  | .num l, d, v, hd, hn, hs => by
    have hn : IsNum l := by simpa [NumsOk] using hn
    simp only [toValueW, Denotes, treeDepth, Option.map_eq_some_iff]
    constructor
    · rintro ⟨n, h, rfl⟩; exact ⟨.num l, rfl, hd, by simpa [gets_num] using (readNum_iff hn n).1 h⟩
    · rintro ⟨_, rfl, _, h⟩
      simp only [gets_num] at h
      obtain ⟨n, rfl, h⟩ := h
      exact ⟨n, (readNum_iff hn n).2 h, rfl⟩
  | .str raw, d, v, hd, _, _ => by
    simp only [toValueW, Denotes, treeDepth, Option.map_eq_some_iff]
    constructor
    · rintro ⟨s, h, rfl⟩
      exact ⟨.str s, ⟨s, rfl, (unescape_iff raw s).1 h⟩, hd, gets_str.2 rfl⟩
    · rintro ⟨_, ⟨s, rfl, h⟩, _, h'⟩
      simp only [gets_str] at h'
      exact ⟨s, (unescape_iff raw s).2 h, h'.symm⟩
  | .arr ts, d, v, hd, hn, hs => by
    have hn : NumsOkL ts := by simpa [NumsOk] using hn
    have hs : StrsLtL n ts := by simpa [StrsLt] using hs
    simp only [toValueW, Denotes, treeDepth]
    by_cases h1 : d ≤ 1
    · simp only [h1, if_true]
      constructor
      · simp
      · rintro ⟨_, _, h, _⟩; omega
    · simp only [h1, if_false, Option.map_eq_some_iff, toValuesW_iff fin nest n hnest ts (d - 1) _ (by omega) hn hs]
      constructor
      · rintro ⟨xs, ⟨ds, h2, h3, h4⟩, rfl⟩
        exact ⟨.arr ds, ⟨ds, rfl, h2⟩, by omega, by simpa [gets_arr] using h4⟩
      · rintro ⟨_, ⟨ds, rfl, h2⟩, h3, h4⟩
        simp only [gets_arr] at h4
        obtain ⟨xs, rfl, h4⟩ := h4
        exact ⟨xs, ⟨ds, h2, by omega, h4⟩, rfl⟩
  | .obj kts, d, v, hd, hn, hs => by
    have hn : NumsOkM kts := by simpa [NumsOk] using hn
    have hs : StrsLtM n kts := by simpa [StrsLt] using hs
    simp only [toValueW, Denotes, treeDepth]
    by_cases h1 : d ≤ 1
    · simp only [h1, if_true]
      constructor
      · simp
      · rintro ⟨_, _, h, _⟩; omega
    · simp only [h1, if_false]
      cases hr : rawView kts with
      | plain =>
        simp only [Option.map_eq_some_iff, toMapW_iff fin nest n hnest kts (d - 1) _ _ (by omega) hn hs]
        constructor
        · rintro ⟨m, ⟨ds, w, h2, h3, h4, h5⟩, rfl⟩
          exact ⟨.obj ds, ⟨ds, rfl, h2⟩, by omega, (gets_plain (rawView_plain hr h2)).2 ⟨w, m, rfl, h4, (isMap_iff w m).2 h5⟩⟩
        · rintro ⟨_, ⟨ds, rfl, h2⟩, h3, h4⟩
          obtain ⟨w, m, rfl, h4, h5⟩ := (gets_plain (rawView_plain hr h2)).1 h4
          exact ⟨m, ⟨ds, w, h2, by omega, h4, (isMap_iff w m).1 h5⟩, rfl⟩
      | err =>
        constructor
        · simp
        · rintro ⟨_, ⟨ds, rfl, h2⟩, _, h4⟩
          obtain ⟨h5, h6⟩ := rawView_err hr h2
          obtain ⟨s, hs⟩ := gets_starts h5 h4
          exact absurd hs (h6 s)
      | raw s =>
        obtain ⟨k, raw, rfl, hk, hraw⟩ := rawView_raw hr
        simp only [StrsLtM, StrsLt, and_true] at hs
        have hl := unescape_length raw s hraw
        have hk := (unescape_iff _ _).1 hk
        have hraw := (unescape_iff _ _).1 hraw
        simp only [hnest s v (by omega)]
        constructor
        · intro h
          exact ⟨_, ⟨[(rawKey, .str s)], rfl, by simp only [DenotesM, Denotes]; exact ⟨_, _, _, rfl, hk, ⟨s, rfl, hraw⟩, rfl⟩⟩,
            by simp only [membersDepth, treeDepth]; omega, gets_raw.2 h⟩
        · rintro ⟨_, ⟨ds, rfl, h2⟩, _, h4⟩
          simp only [DenotesM, Denotes] at h2
          obtain ⟨k', d', ds', rfl, hk', ⟨s', rfl, hraw'⟩, rfl⟩ := h2
          rw [StrDenotes.unique hk' hk, StrDenotes.unique hraw' hraw] at h4
          exact gets_raw.1 h4
theorem toValuesW_iff (fin : Str → Bool) (nest : Str → Option Value) (n : Nat)
    (hnest : ∀ s v, s.length < n → (nest s = some v ↔ TextGets fin s v)) : ∀ (ts : List JTree) (d : Nat) (vs : List Value),
    0 < d → NumsOkL ts → StrsLtL n ts →
    (toValuesW nest fin d ts = some vs ↔ ∃ ds, DenotesL ts ds ∧ treesDepth ts < d ∧ GetsL fin ds vs)
  | [], d, vs, hd, _, _ => by
    simp only [toValuesW, DenotesL, treesDepth]
    constructor
    · intro h; exact ⟨[], rfl, hd, getsL_nil.2 (by simpa using h.symm)⟩
    · rintro ⟨_, rfl, _, h⟩; rw [getsL_nil.1 h]
  | t :: ts, d, vs, hd, hn, hs => by
    have ih1 := toValueW_iff fin nest n hnest t d
    have ih2 := toValuesW_iff fin nest n hnest ts d
    simp only [NumsOkL] at hn
    simp only [StrsLtL] at hs
    simp only [toValuesW, DenotesL, treesDepth]
    cases hv : toValueW nest fin d t with
    | none =>
      constructor
      · simp
      · rintro ⟨_, ⟨e, es, rfl, h1, h2⟩, h3, h4⟩
        simp only [getsL_cons] at h4
        obtain ⟨y, ys, rfl, h4, h5⟩ := h4
        have := (ih1 y hd hn.1 hs.1).2 ⟨e, h1, by omega, h4⟩
        rw [hv] at this
        simp at this
    | some v =>
      simp only [Option.map_eq_some_iff, ih2 _ hd hn.2 hs.2]
      obtain ⟨e, h1, h2, h3⟩ := (ih1 v hd hn.1 hs.1).1 hv
      constructor
      · rintro ⟨ys, ⟨es, h4, h5, h6⟩, rfl⟩
        exact ⟨e :: es, ⟨e, es, rfl, h1, h4⟩, by omega, by simp only [getsL_cons]; exact ⟨v, ys, rfl, h3, h6⟩⟩
      · rintro ⟨_, ⟨e', es, rfl, h1', h2'⟩, h3', h4⟩
        simp only [getsL_cons] at h4
        obtain ⟨y, ys, rfl, h4, h5⟩ := h4
        have := (ih1 y hd hn.1 hs.1).2 ⟨e', h1', by omega, h4⟩
        rw [hv] at this
        cases this
        exact ⟨ys, ⟨es, h2', by omega, h5⟩, rfl⟩
theorem toMapW_iff (fin : Str → Bool) (nest : Str → Option Value) (n : Nat)
    (hnest : ∀ s v, s.length < n → (nest s = some v ↔ TextGets fin s v)) : ∀ (kts : List (Str × JTree)) (d : Nat)
    (m0 m : List (Str × Value)), 0 < d → NumsOkM kts → StrsLtM n kts →
    (toMapW nest fin d kts m0 = some m ↔
      ∃ ds w, DenotesM kts ds ∧ membersDepth kts < d ∧ GetsM fin ds w ∧ m = insertAll m0 w)
  | [], d, m0, m, hd, _, _ => by
    simp only [toMapW, DenotesM, membersDepth]
    constructor
    · intro h; exact ⟨[], [], rfl, hd, getsM_nil.2 rfl, by simpa [insertAll] using h.symm⟩
    · rintro ⟨_, w, rfl, _, h, h'⟩
      simp only [getsM_nil] at h
      subst h
      simpa [insertAll] using h'.symm
  | (k, t) :: kts, d, m0, m, hd, hn, hs => by
    have ih1 := toValueW_iff fin nest n hnest t d
    have ih2 := toMapW_iff fin nest n hnest kts d
    simp only [NumsOkM] at hn
    simp only [StrsLtM] at hs
    simp only [toMapW, DenotesM, membersDepth]
    cases hk : unescape k with
    | none =>
      constructor
      · simp
      · rintro ⟨_, w, ⟨k', e, es, rfl, h1, h2⟩, h3, h4⟩
        rw [(unescape_iff k k').2 h1] at hk
        simp at hk
    | some k' =>
      have hk' := (unescape_iff k k').1 hk
      cases hv : toValueW nest fin d t with
      | none =>
        constructor
        · simp
        · rintro ⟨_, w, ⟨k', e, es, rfl, h0, h1, h2⟩, h3, h4, _⟩
          simp only [getsM_cons] at h4
          obtain ⟨y, ys, rfl, h4, h5⟩ := h4
          have := (ih1 y hd hn.1 hs.1).2 ⟨e, h1, by omega, h4⟩
          rw [hv] at this
          simp at this
      | some v =>
        simp only [ih2 _ _ hd hn.2 hs.2]
        obtain ⟨e, h1, h2, h3⟩ := (ih1 v hd hn.1 hs.1).1 hv
        constructor
        · rintro ⟨es, w, h4, h5, h6, h7⟩
          exact ⟨(k', e) :: es, (k', v) :: w, ⟨k', e, es, rfl, hk', h1, h4⟩, by omega,
            by simp only [getsM_cons]; exact ⟨v, w, rfl, h3, h6⟩, by simpa [insertAll] using h7⟩
        · rintro ⟨_, w, ⟨k'', e', es, rfl, h0', h1', h2'⟩, h3', h4, h7⟩
          simp only [getsM_cons] at h4
          obtain ⟨y, ys, rfl, h4, h5⟩ := h4
          have := (ih1 y hd hn.1 hs.1).2 ⟨e', h1', by omega, h4⟩
          rw [hv] at this
          cases this
          have : k' = k'' := StrDenotes.unique hk' h0'
          subst this
          exact ⟨es, ys, h2', by omega, h5, by simpa [insertAll] using h7⟩
end

theorem isText_bounds {t : JTree} {s : Str} (h : IsText t s) : NumsOk t ∧ StrsLt s.length t := by
  obtain ⟨w1, x, w2, rfl, _, _, hx⟩ := h
  exact ⟨isVal_numsOk t x hx, isVal_strsLt _ t x hx (by simp; omega)⟩

theorem rawText_iff (fin : Str → Bool) (n : Nat) : ∀ s v, s.length < n → (rawText fin n s = some v ↔ TextGets fin s v) := by
  induction n with
  | zero => simp
  | succ n ih =>
    intro s v hs
    simp only [rawText, Option.bind_eq_some_iff, parseTree_iff]
    constructor
    · rintro ⟨t, ht, hv⟩
      obtain ⟨h1, h2⟩ := isText_bounds ht
      obtain ⟨doc, h3, h4, h5⟩ := (toValueW_iff fin (rawText fin n) s.length (fun s' v h => ih s' v (by omega)) t 128 v (by omega) h1 h2).1 hv
      exact ⟨t, doc, ht, h3, h4, h5⟩
    · rintro ⟨t, doc, ht, h3, h4, h5⟩
      obtain ⟨h1, h2⟩ := isText_bounds ht
      exact ⟨t, ht, (toValueW_iff fin (rawText fin n) s.length (fun s' v h => ih s' v (by omega)) t 128 v (by omega) h1 h2).2
        ⟨doc, h3, h4, h5⟩⟩

theorem nested_iff (fin : Str → Bool) (s : Str) (v : Value) : nested fin s = some v ↔ TextGets fin s v :=
  rawText_iff fin (s.length + 1) s v (by omega)

mutual
theorem strsLt_mono {m n : Nat} (h : m ≤ n) : ∀ t : JTree, StrsLt m t → StrsLt n t
  | .null, _ | .bool _, _ | .num _, _ => by simp [StrsLt]
  | .str raw, h' => by simp only [StrsLt] at h' ⊢; omega
  | .arr ts, h' => strsLtL_mono h ts h'
  | .obj ts, h' => strsLtM_mono h ts h'
theorem strsLtL_mono {m n : Nat} (h : m ≤ n) : ∀ t : List JTree, StrsLtL m t → StrsLtL n t
  | [], _ => trivial
  | t :: ts, h' => ⟨strsLt_mono h t h'.1, strsLtL_mono h ts h'.2⟩
theorem strsLtM_mono {m n : Nat} (h : m ≤ n) : ∀ t : List (Str × JTree), StrsLtM m t → StrsLtM n t
  | [], _ => trivial
  | (_, t) :: ts, h' => ⟨strsLt_mono h t h'.1, strsLtM_mono h ts h'.2⟩
end

mutual
theorem strsLt_exists : ∀ t : JTree, ∃ n, StrsLt n t
  | .null | .bool _ | .num _ => ⟨0, trivial⟩
  | .str raw => ⟨raw.length + 1, by simp [StrsLt]⟩
  | .arr ts => strsLtL_exists ts
  | .obj ts => strsLtM_exists ts
theorem strsLtL_exists : ∀ t : List JTree, ∃ n, StrsLtL n t
  | [] => ⟨0, trivial⟩
  | t :: ts =>
    let ⟨a, ha⟩ := strsLt_exists t
    let ⟨b, hb⟩ := strsLtL_exists ts
    ⟨max a b, strsLt_mono (by omega) t ha, strsLtL_mono (by omega) ts hb⟩
theorem strsLtM_exists : ∀ t : List (Str × JTree), ∃ n, StrsLtM n t
  | [] => ⟨0, trivial⟩
  | (_, t) :: ts =>
    let ⟨a, ha⟩ := strsLt_exists t
    let ⟨b, hb⟩ := strsLtM_exists ts
    ⟨max a b, strsLt_mono (by omega) t ha, strsLtM_mono (by omega) ts hb⟩
end

theorem toValue_iff (fin : Str → Bool) (t : JTree) (d : Nat) (v : Value) (hd : 0 < d) (hn : NumsOk t) :
    toValue fin d t = some v ↔ ∃ doc, Denotes t doc ∧ treeDepth t < d ∧ Gets fin doc v := by
  obtain ⟨n, hs⟩ := strsLt_exists t
  exact toValueW_iff fin (nested fin) n (fun s v _ => nested_iff fin s v) t d v hd hn hs

/-- What is read from a JSON text. -/
theorem valueOfText_iff (fin : Str → Bool) (s : Str) (v : Value) : valueOfText fin s = some v ↔
    TextGets fin s v := by
  unfold valueOfText TextGets
  simp only [Option.bind_eq_some_iff, parseTree_iff]
  constructor
  · rintro ⟨t, ht, hv⟩
    have hn : NumsOk t := by
      obtain ⟨w1, x, w2, _, _, _, hx⟩ := ht
      exact isVal_numsOk t x hx
    obtain ⟨doc, h1, h2, h3⟩ := (toValue_iff fin t 128 v (by omega) hn).1 hv
    exact ⟨t, doc, ht, h1, h2, h3⟩
  · rintro ⟨t, doc, ht, h1, h2, h3⟩
    have hn : NumsOk t := by
      obtain ⟨w1, x, w2, _, _, _, hx⟩ := ht
      exact isVal_numsOk t x hx
    exact ⟨t, ht, (toValue_iff fin t 128 v (by omega) hn).2 ⟨doc, h1, h2, h3⟩⟩

theorem nested_eq (fin : Str → Bool) : nested fin = valueOfText fin := by
  funext s
  cases h : nested fin s with
  | none =>
    cases h' : valueOfText fin s with
    | none => rfl
    | some v => rw [(nested_iff fin s v).2 ((valueOfText_iff fin s v).1 h')] at h; simp at h
  | some v => exact ((valueOfText_iff fin s v).2 ((nested_iff fin s v).1 h)).symm

theorem toValue_null (fin : Str → Bool) (d : Nat) : toValue fin d .null = some .null := by simp only [toValue, toValueW]

theorem toValue_bool (fin : Str → Bool) (d : Nat) (b : Bool) : toValue fin d (.bool b) = some (.bool b) := by
  simp only [toValue, toValueW]

theorem toValue_num (fin : Str → Bool) (d : Nat) (l : Str) : toValue fin d (.num l) = (readNum fin l).map .num := by
  simp only [toValue, toValueW]

theorem toValue_str (fin : Str → Bool) (d : Nat) (raw : Str) : toValue fin d (.str raw) = (unescape raw).map .str := by
  simp only [toValue, toValueW]

theorem toValue_arr (fin : Str → Bool) (d : Nat) (ts : List JTree) :
    toValue fin d (.arr ts) = if d ≤ 1 then none else (toValues fin (d - 1) ts).map .arr := by
  simp only [toValue, toValueW, toValues]

theorem toValue_obj (fin : Str → Bool) (d : Nat) (kts : List (Str × JTree)) :
    toValue fin d (.obj kts) =
      if d ≤ 1 then none
      else match rawView kts with
        | .plain => (toMap fin (d - 1) kts []).map .obj
        | .err => none
        | .raw s => valueOfText fin s := by
  simp only [toValue, toValueW, toMap, nested_eq]
  split <;> first | rfl | (cases rawView kts <;> rfl)

theorem toValues_nil (fin : Str → Bool) (d : Nat) : toValues fin d [] = some [] := by simp only [toValues, toValuesW]

theorem toValues_cons (fin : Str → Bool) (d : Nat) (t : JTree) (ts : List JTree) :
    toValues fin d (t :: ts) = match toValue fin d t with
      | none => none
      | some v => (toValues fin d ts).map (v :: ·) := by
  simp only [toValues, toValuesW, toValue]
  cases toValueW (nested fin) fin d t <;> rfl

theorem toMap_nil (fin : Str → Bool) (d : Nat) (m : List (Str × Value)) : toMap fin d [] m = some m := by
  simp only [toMap, toMapW]

theorem toMap_cons (fin : Str → Bool) (d : Nat) (k : Str) (t : JTree) (ts : List (Str × JTree)) (m : List (Str × Value)) :
    toMap fin d ((k, t) :: ts) m = match unescape k with
      | none => none
      | some k' =>
        match toValue fin d t with
        | none => none
        | some v => toMap fin d ts (mapInsert k' v m) := by
  simp only [toMap, toMapW, toValue]
  cases unescape k <;> cases toValueW (nested fin) fin d t <;> rfl

mutual
theorem gets_unique (fin : Str → Bool) : ∀ {d : Doc} {v v' : Value}, Gets fin d v → Gets fin d v' → v = v'
  | _, _, _, .null, h' => (gets_null.1 h').symm
  | _, _, _, .bool _, h' => (gets_bool.1 h').symm
  | _, _, _, .str _, h' => (gets_str.1 h').symm
  | _, _, _, .num _ _ h, h' => by
    obtain ⟨n', rfl, h2⟩ := gets_num.1 h'
    rw [numReads_unique h h2]
  | _, _, _, .arr _ _ h, h' => by
    obtain ⟨n', rfl, h2⟩ := gets_arr.1 h'
    rw [getsL_unique fin h h2]
  | _, _, _, .obj _ _ _ hs h hm, h' => by
    obtain ⟨w', m', rfl, h2, hm'⟩ := (gets_plain hs).1 h'
    have := getsM_unique fin h h2
    subst this
    rw [isMap_unique hm hm']
  | _, _, _, .raw _ _ _ _ h1 h2 h3 h4, h' => by
    have e := (valueOfText_iff fin _ _).2 ⟨_, _, h1, h3, h2, h4⟩
    rw [(valueOfText_iff fin _ _).2 (gets_raw.1 h')] at e
    exact (Option.some.inj e).symm
theorem getsL_unique (fin : Str → Bool) : ∀ {d : List Doc} {v v' : List Value}, GetsL fin d v → GetsL fin d v' → v = v'
  | _, _, _, .nil, h' => (getsL_nil.1 h').symm
  | _, _, _, .cons _ _ _ _ h1 h2, h' => by
    obtain ⟨y', ys', rfl, h1', h2'⟩ := getsL_cons.1 h'
    rw [gets_unique fin h1 h1', getsL_unique fin h2 h2']
theorem getsM_unique (fin : Str → Bool) : ∀ {d : List (Str × Doc)} {v v' : List (Str × Value)},
    GetsM fin d v → GetsM fin d v' → v = v'
  | _, _, _, .nil, h' => (getsM_nil.1 h').symm
  | _, _, _, .cons _ _ _ _ _ h1 h2, h' => by
    obtain ⟨y', ys', rfl, h1', h2'⟩ := getsM_cons.1 h'
    rw [gets_unique fin h1 h1', getsM_unique fin h2 h2']
end

mutual
/-- Without the private key, serde_json reads the value of the document. -/
theorem gets_iff_reads (fin : Str → Bool) : ∀ (d : Doc) (v : Value), NoRaw d → (Gets fin d v ↔ Reads fin d v)
  | .null, v, _ => by simp only [gets_null, Reads]
  | .bool _, v, _ => by simp only [gets_bool, Reads]
  | .num _, v, _ => by simp only [gets_num, Reads]
  | .str _, v, _ => by simp only [gets_str, Reads]
  | .blob _, v, _ => by simp only [gets_blob, Reads]
  | .arr ds, v, h => by
    simp only [NoRaw] at h
    simp only [gets_arr, Reads, fun xs => getsL_iff_reads fin ds xs h]
  | .obj kvs, v, h => by
    simp only [NoRaw] at h
    simp only [gets_plain h.1, Reads, fun xs => getsM_iff_reads fin kvs xs h.2]
theorem getsL_iff_reads (fin : Str → Bool) : ∀ (d : List Doc) (v : List Value), NoRawL d → (GetsL fin d v ↔ ReadsL fin d v)
  | [], v, _ => by simp only [getsL_nil, ReadsL]
  | d :: ds, v, h => by
    simp only [NoRawL] at h
    simp only [getsL_cons, ReadsL, fun xs => gets_iff_reads fin d xs h.1, fun xs => getsL_iff_reads fin ds xs h.2]
theorem getsM_iff_reads (fin : Str → Bool) : ∀ (d : List (Str × Doc)) (v : List (Str × Value)), NoRawM d →
    (GetsM fin d v ↔ ReadsM fin d v)
  | [], v, _ => by simp only [getsM_nil, ReadsM]
  | (k, d) :: ds, v, h => by
    simp only [NoRawM] at h
    simp only [getsM_cons, ReadsM, fun xs => gets_iff_reads fin d xs h.1, fun xs => getsM_iff_reads fin ds xs h.2]
end

mutual
theorem gets_reading (fin : Str → Bool) : ∀ {d : Doc} {v : Value}, Gets fin d v → Reading fin d
  | _, _, .null => .null
  | _, _, .bool b => .bool b
  | _, _, .str s => .str s
  | _, _, .num l n h => .num l n h
  | _, _, .arr ds _ h => .arr ds (getsL_reading fin h)
  | _, _, .obj kvs _ _ hs h _ => .obj kvs hs (getsM_reading fin h)
  | _, _, .raw s t d _ h1 h2 h3 h4 => .raw s t d h1 h2 h3 (gets_reading fin h4)
theorem getsL_reading (fin : Str → Bool) : ∀ {ds : List Doc} {v : List Value}, GetsL fin ds v → ∀ d ∈ ds, Reading fin d
  | _, _, .nil => by simp
  | _, _, .cons _ _ _ _ h1 h2 => by
    simp only [List.mem_cons, forall_eq_or_imp]
    exact ⟨gets_reading fin h1, getsL_reading fin h2⟩
theorem getsM_reading (fin : Str → Bool) : ∀ {ds : List (Str × Doc)} {v : List (Str × Value)}, GetsM fin ds v →
    ∀ kv ∈ ds, Reading fin kv.2
  | _, _, .nil => by simp
  | _, _, .cons _ _ _ _ _ h1 h2 => by
    simp only [List.mem_cons, forall_eq_or_imp]
    exact ⟨gets_reading fin h1, getsM_reading fin h2⟩
end

theorem getsL_exists {fin : Str → Bool} : ∀ {ds : List Doc}, (∀ d ∈ ds, ∃ v, Gets fin d v) → ∃ v, GetsL fin ds v
  | [], _ => ⟨[], .nil⟩
  | d :: ds, h => by
    simp only [List.mem_cons, forall_eq_or_imp] at h
    obtain ⟨v, hv⟩ := h.1
    obtain ⟨vs, hvs⟩ := getsL_exists h.2
    exact ⟨_, .cons d v ds vs hv hvs⟩

theorem getsM_exists {fin : Str → Bool} : ∀ {ds : List (Str × Doc)}, (∀ d ∈ ds, ∃ v, Gets fin d.2 v) → ∃ v, GetsM fin ds v
  | [], _ => ⟨[], .nil⟩
  | (k, d) :: ds, h => by
    simp only [List.mem_cons, forall_eq_or_imp] at h
    obtain ⟨v, hv⟩ := h.1
    obtain ⟨vs, hvs⟩ := getsM_exists h.2
    exact ⟨_, .cons k d v ds vs hv hvs⟩

theorem gets_exists {fin : Str → Bool} {d : Doc} : (∃ v, Gets fin d v) ↔ Reading fin d := by
  refine ⟨fun ⟨v, h⟩ => gets_reading fin h, fun h => ?_⟩
  induction h with
  | null => exact ⟨_, .null⟩
  | bool b => exact ⟨_, .bool b⟩
  | str s => exact ⟨_, .str s⟩
  | num l n h => exact ⟨_, .num l n h⟩
  | arr ds _ ih =>
    obtain ⟨v, hv⟩ := getsL_exists ih
    exact ⟨_, .arr ds v hv⟩
  | obj kvs hs _ ih =>
    obtain ⟨v, hv⟩ := getsM_exists ih
    exact ⟨_, .obj kvs v _ hs hv ((isMap_iff v _).2 rfl)⟩
  | raw s t d h1 h2 h3 _ ih =>
    obtain ⟨v, hv⟩ := ih
    exact ⟨v, .raw s t d v h1 h2 h3 hv⟩

mutual
theorem reads_unique (fin : Str → Bool) : ∀ (d : Doc) (v v' : Value), Reads fin d v → Reads fin d v' → v = v'
  | .null, v, v', h, h' | .bool _, v, v', h, h' | .str _, v, v', h, h' => by
    simp only [Reads] at h h'; rw [h, h']
  | .blob _, v, v', h, h' => by simp [Reads] at h
  | .num l, v, v', h, h' => by
    simp only [Reads] at h h'
    obtain ⟨n, rfl, h⟩ := h
    obtain ⟨n', rfl, h'⟩ := h'
    rw [numReads_unique h h']
  | .arr ds, v, v', h, h' => by
    simp only [Reads] at h h'
    obtain ⟨n, rfl, h⟩ := h
    obtain ⟨n', rfl, h'⟩ := h'
    rw [readsL_unique fin ds n n' h h']
  | .obj kvs, v, v', h, h' => by
    simp only [Reads] at h h'
    obtain ⟨w, m, rfl, h, hm⟩ := h
    obtain ⟨w', m', rfl, h', hm'⟩ := h'
    have := readsM_unique fin kvs w w' h h'
    subst this
    rw [isMap_unique hm hm']
theorem readsL_unique (fin : Str → Bool) : ∀ (d : List Doc) (v v' : List Value), ReadsL fin d v → ReadsL fin d v' → v = v'
  | [], v, v', h, h' => by simp only [ReadsL] at h h'; rw [h, h']
  | d :: ds, v, v', h, h' => by
    simp only [ReadsL] at h h'
    obtain ⟨y, ys, rfl, h1, h2⟩ := h
    obtain ⟨y', ys', rfl, h1', h2'⟩ := h'
    rw [reads_unique fin d y y' h1 h1', readsL_unique fin ds ys ys' h2 h2']
theorem readsM_unique (fin : Str → Bool) : ∀ (d : List (Str × Doc)) (v v' : List (Str × Value)),
    ReadsM fin d v → ReadsM fin d v' → v = v'
  | [], v, v', h, h' => by simp only [ReadsM] at h h'; rw [h, h']
  | (k, d) :: ds, v, v', h, h' => by
    simp only [ReadsM] at h h'
    obtain ⟨y, ys, rfl, h1, h2⟩ := h
    obtain ⟨y', ys', rfl, h1', h2'⟩ := h'
    rw [reads_unique fin d y y' h1 h1', readsM_unique fin ds ys ys' h2 h2']
end

mutual
/-- Equality test of values. -/
def veq : Value → Value → Bool
  | .null, .null => true
  | .bool a, .bool b => a == b
  | .num a, .num b => decide (a = b)
  | .str a, .str b => decide (a = b)
  | .arr a, .arr b => veqL a b
  | .obj a, .obj b => veqM a b
  | _, _ => false
def veqL : List Value → List Value → Bool
  | [], [] => true
  | a :: as, b :: bs => veq a b && veqL as bs
  | _, _ => false
def veqM : List (Str × Value) → List (Str × Value) → Bool
  | [], [] => true
  | (k, a) :: as, (l, b) :: bs => decide (k = l) && (veq a b && veqM as bs)
  | _, _ => false
end

mutual
theorem veq_iff : ∀ a b : Value, veq a b = true ↔ a = b
  | .null, b | .bool _, b | .num _, b | .str _, b => by cases b <;> simp [veq]
  | .arr a, b => by cases b <;> simp [veq, veqL_iff a]
  | .obj a, b => by cases b <;> simp [veq, veqM_iff a]
theorem veqL_iff : ∀ a b : List Value, veqL a b = true ↔ a = b
  | [], b => by cases b <;> simp [veqL]
  | x :: a, b => by cases b <;> simp [veqL, veq_iff x, veqL_iff a]
theorem veqM_iff : ∀ a b : List (Str × Value), veqM a b = true ↔ a = b
  | [], b => by cases b <;> simp [veqM]
  | (k, x) :: a, b => by
    cases b with
    | nil => simp [veqM]
    | cons y b => obtain ⟨l, y⟩ := y; simp [veqM, veq_iff x, veqM_iff a, and_assoc]
end

instance : DecidableEq Value := fun a b => decidable_of_iff _ (veq_iff a b)
deriving instance DecidableEq for AErr

end SIO
