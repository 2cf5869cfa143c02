import Verif.Spec.Yields
import Verif.Lemmas.Borrow
import Verif.Lemmas.Typed
/-
What reading into a type gives.
-/
namespace SIO
open Spec

/-! ### Lists -/

theorem map_some' {α β : Type} {o : Option α} {f : α → β} {v : β} : o.map f = some v ↔ ∃ a, o = some a ∧ v = f a := by
  simp only [Option.map_eq_some_iff, eq_comm]

theorem allSome_each {α β : Type} {f : α → Option β} {R : α → β → Prop} : ∀ {l : List α} {vs : List β},
    (∀ a ∈ l, ∀ v, f a = some v ↔ R a v) → (allSome f l = some vs ↔ Each R l vs)
  | [], [], _ => by simp [allSome, Each]
  | [], _ :: _, _ => by simp [allSome, Each]
  | a :: l, [], h => by
    simp only [allSome, Each, iff_false]
    cases f a <;> simp
  | a :: l, v :: vs, h => by
    have ih := allSome_each (l := l) (vs := vs) (fun b hb => h b (List.mem_cons_of_mem _ hb))
    simp only [allSome, Each, ← h a List.mem_cons_self v, ← ih]
    cases hf : f a with
    | none => simp
    | some w => cases hl : allSome f l <;> simp

theorem each_congr {α β : Type} {R R' : α → β → Prop} : ∀ {l : List α} {vs : List β},
    (∀ a ∈ l, ∀ v, R a v ↔ R' a v) → (Each R l vs ↔ Each R' l vs)
  | [], [], _ => by simp [Each]
  | [], _ :: _, _ => by simp [Each]
  | a :: l, [], h => by simp [Each]
  | a :: l, v :: vs, h => by
    simp only [Each]
    rw [h a List.mem_cons_self v, each_congr fun b hb => h b (List.mem_cons_of_mem _ hb)]

/-- The members of an object, with their keys decoded. -/
theorem keyed_each {β : Type} {f : Str × JTree → Option β} {R : Str × JTree → β → Prop} :
    ∀ {kts : List (Str × JTree)} {w : List β},
    (∀ kt ∈ kts, ∀ v, R kt v ↔ ∃ k, StrDenotes kt.1 k ∧ f (k, kt.2) = some v) →
    ((keyed kts).bind (allSome f) = some w ↔ Each R kts w)
  | [], w, _ => by cases w <;> simp [keyed, allSome, Each]
  | (k, t) :: kts, w, h => by
    have ih := fun w' => keyed_each (kts := kts) (w := w') (fun b hb => h b (List.mem_cons_of_mem _ hb))
    have hr := h (k, t) List.mem_cons_self
    simp only at hr
    have hk : keyed ((k, t) :: kts) = match unescape k with
      | none => none
      | some k' => (keyed kts).map ((k', t) :: ·) := by
      simp only [keyed, allSome]
      cases unescape k <;> rfl
    rw [hk]
    cases hu : unescape k with
    | none =>
      simp only [Option.bind_none, reduceCtorEq, false_iff]
      cases w with
      | nil => simp [Each]
      | cons v w =>
        simp only [Each, hr]
        rintro ⟨⟨k', hk', _⟩, _⟩
        rw [unescape_complete hk'] at hu
        simp at hu
    | some k' =>
      have hk' := (unescape_iff _ _).1 hu
      have hr' : ∀ v, R (k, t) v ↔ f (k', t) = some v := fun v => by
        rw [hr]
        constructor
        · rintro ⟨k2, h2, h3⟩
          rw [SIO.StrDenotes.unique hk' h2]; exact h3
        · exact fun h => ⟨k', hk', h⟩
      cases w with
      | nil =>
        simp only [Each, iff_false]
        cases keyed kts with
        | none => simp
        | some w =>
          simp only [Option.map_some, Option.bind_some, allSome]
          cases f (k', t) <;> simp
      | cons v w =>
        simp only [Each, hr', ← ih]
        cases keyed kts with
        | none => simp
        | some ws =>
          simp only [Option.map_some, Option.bind_some, allSome]
          cases f (k', t) with
          | none => simp
          | some v' => cases allSome f ws <;> simp

/-! ### Maps with numbers as keys -/

theorem nmapInsert_mem {α : Type} {k : Nat} {v : α} {m : List (Nat × α)} {x : Nat × α} (h : x ∈ nmapInsert k v m) :
    x = (k, v) ∨ x ∈ m := by
  induction m with
  | nil => simp [nmapInsert] at h; exact Or.inl h
  | cons y m ih =>
    obtain ⟨k', v'⟩ := y
    unfold nmapInsert at h
    split at h
    · simpa using h
    · split at h
      · simp only [List.mem_cons] at h ⊢
        rcases h with h | h
        · exact Or.inr (Or.inl h)
        · rcases ih h with h | h
          · exact Or.inl h
          · exact Or.inr (Or.inr h)
      · simp only [List.mem_cons] at h ⊢
        rcases h with h | h
        · exact Or.inl h
        · exact Or.inr (Or.inr h)

/-- Sorted by keys. -/
abbrev SortedN {α : Type} (m : List (Nat × α)) : Prop := m.Pairwise fun a b => a.1 < b.1

theorem nmapInsert_sorted {α : Type} (k : Nat) (v : α) {m : List (Nat × α)} (h : SortedN m) :
    SortedN (nmapInsert k v m) := by
  induction m with
  | nil => simp [nmapInsert, SortedN]
  | cons y m ih =>
    obtain ⟨k', v'⟩ := y
    have hm := List.pairwise_cons.1 h
    unfold nmapInsert
    split
    · rename_i hlt
      refine List.pairwise_cons.2 ⟨?_, h⟩
      intro x hx
      simp only [List.mem_cons] at hx
      rcases hx with rfl | hx
      · exact hlt
      · exact Nat.lt_trans hlt (hm.1 x hx)
    · split
      · rename_i hlt
        refine List.pairwise_cons.2 ⟨?_, ih hm.2⟩
        intro x hx
        rcases nmapInsert_mem hx with rfl | hx
        · exact hlt
        · exact hm.1 x hx
      · have : k = k' := by omega
        subst this
        exact List.pairwise_cons.2 ⟨hm.1, hm.2⟩

theorem nmapInsert_lookup {α : Type} (k : Nat) (v : α) (j : Nat) (m : List (Nat × α)) :
    (nmapInsert k v m).lookup j = if j = k then some v else m.lookup j := by
  induction m with
  | nil =>
    by_cases hj : j = k
    · simp [nmapInsert, hj]
    · have : (j == k) = false := by simpa using hj
      simp [nmapInsert, List.lookup_cons, this, hj]
  | cons y m ih =>
    obtain ⟨k', v'⟩ := y
    unfold nmapInsert
    split
    · by_cases hj : j = k
      · simp [hj]
      · have : (j == k) = false := by simpa using hj
        simp [List.lookup_cons, this, hj]
    · split
      · rename_i hlt
        have hne : k' ≠ k := by omega
        rw [List.lookup_cons, List.lookup_cons, ih]
        by_cases hj : j = k'
        · subst hj; simp [hne]
        · have : (j == k') = false := by simpa using hj
          simp [this]
      · have : k = k' := by omega
        subst this
        rw [List.lookup_cons, List.lookup_cons]
        by_cases hj : j = k
        · simp [hj]
        · have : (j == k) = false := by simpa using hj
          simp [this, hj]

theorem nlookup_none_of_lt {α : Type} {m : List (Nat × α)} {k : Nat} (h : ∀ x ∈ m, k < x.1) : m.lookup k = none := by
  rw [List.lookup_eq_none_iff]
  intro x hx
  have := h x hx
  simp
  omega

theorem nsorted_ext {α : Type} {m m' : List (Nat × α)} (h : SortedN m) (h' : SortedN m')
    (he : ∀ k, m.lookup k = m'.lookup k) : m = m' := by
  induction m generalizing m' with
  | nil =>
    cases m' with
    | nil => rfl
    | cons y m' =>
      obtain ⟨k, v⟩ := y
      have := he k
      simp at this
  | cons x m ih =>
    obtain ⟨k, v⟩ := x
    cases m' with
    | nil =>
      have := he k
      simp at this
    | cons y m' =>
      obtain ⟨k', v'⟩ := y
      have hm := List.pairwise_cons.1 h
      have hm' := List.pairwise_cons.1 h'
      have hk : k = k' := by
        apply Decidable.byContradiction
        intro hne
        have h1 := he k
        have h2 := he k'
        have e1 : (k == k') = false := by simpa using hne
        have e2 : (k' == k) = false := by simpa using Ne.symm hne
        simp only [List.lookup_cons, beq_self_eq_true, e1, e2] at h1 h2
        rcases Nat.lt_or_ge k k' with hlt | hge
        · rw [nlookup_none_of_lt fun x hx => Nat.lt_trans hlt (hm'.1 x hx)] at h1
          simp at h1
        · rw [nlookup_none_of_lt fun x hx => Nat.lt_trans (by omega : k' < k) (hm.1 x hx)] at h2
          simp at h2
      subst hk
      have hv := he k
      simp at hv
      subst hv
      have : m = m' := by
        apply ih hm.2 hm'.2
        intro j
        have := he j
        rw [List.lookup_cons, List.lookup_cons] at this
        by_cases hj : j = k
        · subst hj
          rw [nlookup_none_of_lt hm.1, nlookup_none_of_lt hm'.1]
        · have e : (j == k) = false := by simpa using hj
          simpa [e] using this
      rw [this]

theorem nmap_foldl {α : Type} : ∀ (w w0 m0 : List (Nat × α)), SortedN m0 → (∀ k, m0.lookup k = w0.reverse.lookup k) →
    SortedN (w.foldl (fun m kv => nmapInsert kv.1 kv.2 m) m0) ∧
    ∀ k, (w.foldl (fun m kv => nmapInsert kv.1 kv.2 m) m0).lookup k = (w0 ++ w).reverse.lookup k
  | [], w0, m0, h, h' => by simpa using ⟨h, h'⟩
  | (k, v) :: w, w0, m0, h, h' => by
    have := nmap_foldl w (w0 ++ [(k, v)]) (nmapInsert k v m0) (nmapInsert_sorted k v h) (fun j => by
      rw [nmapInsert_lookup, h' j]
      simp only [List.reverse_append, List.reverse_cons, List.reverse_nil, List.nil_append, List.cons_append,
        List.lookup_cons]
      by_cases hj : j = k
      · simp [hj]
      · have : (j == k) = false := by simpa using hj
        simp [this, hj])
    simpa using this

/-- The map with the bindings, later ones replacing earlier ones. -/
theorem nmap_iff {α : Type} (w m : List (Nat × α)) :
    m = w.foldl (fun m kv => nmapInsert kv.1 kv.2 m) [] ↔ SortedN m ∧ ∀ k, m.lookup k = w.reverse.lookup k := by
  have h := nmap_foldl w [] [] (by simp) (by simp)
  simp only [List.nil_append] at h
  constructor
  · rintro rfl
    exact h
  · rintro ⟨h1, h2⟩
    exact nsorted_ext h1 h.1 fun k => by rw [h2, h.2]

theorem smap_foldl {α : Type} : ∀ (w m : List (Str × α)), w.foldl (fun m kv => mapInsert kv.1 kv.2 m) m = insertAll m w
  | [], m => rfl
  | (k, v) :: w, m => by rw [List.foldl_cons, smap_foldl w]; rfl

theorem keyU64_iff (k : Str) (n : Nat) : keyU64 k = some n ↔ n < 2 ^ 64 ∧ k = decimal n := by
  constructor
  · intro h
    unfold keyU64 at h
    split at h
    · rename_i hk
      simp only [Option.some.injEq] at h
      subst h
      exact ⟨hk.2, by rw [← natDec_decimal]; exact hk.1⟩
    · simp at h
  · rintro ⟨h, rfl⟩
    exact keyU64_decimal h

/-! ### Numbers -/

theorem num_written {l : Str} (h : Written (.num l)) : IsNum l := by
  obtain ⟨s, h⟩ := h
  simp only [IsVal] at h
  exact h.1 ▸ h.2

theorem numReads_pos {fin : Str → Bool} {l : Str} {n : Nat} : NumReads fin l (.pos n) ↔ l = decimal n ∧ n < 2 ^ 64 := by
  constructor
  · rintro (⟨k, rfl, hk, he⟩ | ⟨_, _, _, _, he⟩ | ⟨_, _, _, he⟩)
    · cases he; exact ⟨rfl, hk⟩
    · cases he
    · cases he
  · rintro ⟨rfl, h⟩
    exact .inl ⟨n, rfl, h, rfl⟩

theorem numReads_neg {fin : Str → Bool} {l : Str} {n : Nat} :
    NumReads fin l (.neg n) ↔ l = '-' :: decimal n ∧ 0 < n ∧ n ≤ 2 ^ 63 := by
  constructor
  · rintro (⟨k, rfl, hk, he⟩ | ⟨k, rfl, h1, h2, he⟩ | ⟨_, _, _, he⟩)
    · cases he
    · cases he; exact ⟨rfl, h1, h2⟩
    · cases he
  · rintro ⟨rfl, h⟩
    exact .inr (.inl ⟨n, rfl, h.1, h.2, rfl⟩)

theorem uint_yields {fin : Str → Bool} {l : Str} (hl : IsNum l) (w : Nat) (v : DVal) :
    (readNum fin l).bind (numUint w) = some v ↔ ∃ n, l = decimal n ∧ n < 2 ^ 64 ∧ n < 2 ^ w ∧ v = .uint n := by
  simp only [Option.bind_eq_some_iff, readNum_iff hl]
  constructor
  · rintro ⟨n, hn, h⟩
    cases n with
    | pos n =>
      simp only [numUint] at h
      split at h
      · simp only [Option.some.injEq] at h
        obtain ⟨h1, h2⟩ := numReads_pos.1 hn
        exact ⟨n, h1, h2, by assumption, h.symm⟩
      · simp at h
    | _ => simp [numUint] at h
  · rintro ⟨n, rfl, h1, h2, rfl⟩
    exact ⟨.pos n, numReads_pos.2 ⟨rfl, h1⟩, by simp [numUint, h2]⟩

theorem intText_nat (n : Nat) : intText (n : Int) = decimal n := by simp [intText]

theorem intText_neg {n : Nat} (h : 0 < n) : intText (-(n : Int)) = '-' :: decimal n := by
  simp [intText]
  omega

theorem int_yields {fin : Str → Bool} {l : Str} (hl : IsNum l) (w : Nat) (v : DVal) :
    (readNum fin l).bind (numInt w) = some v ↔ ∃ i : Int, l = intText i ∧ - 2 ^ 63 ≤ i ∧ i < 2 ^ 64 ∧ - 2 ^ (w - 1) ≤ i ∧
      i < 2 ^ (w - 1) ∧ v = .int i := by
  have hp : ∀ k : Nat, ((2 : Int) ^ k) = ((2 ^ k : Nat) : Int) := fun k => by simp
  simp only [Option.bind_eq_some_iff, readNum_iff hl]
  constructor
  · rintro ⟨n, hn, h⟩
    cases n with
    | pos n =>
      simp only [numInt] at h
      split at h
      · rename_i hw
        simp only [Option.some.injEq] at h
        obtain ⟨rfl, h2⟩ := numReads_pos.1 hn
        refine ⟨n, (intText_nat n).symm, ?_, ?_, ?_, ?_, h.symm⟩
        · omega
        · omega
        · rw [hp]; omega
        · rw [hp]; omega
      · simp at h
    | neg n =>
      simp only [numInt] at h
      split at h
      · rename_i hw
        simp only [Option.some.injEq] at h
        obtain ⟨rfl, h2, h3⟩ := numReads_neg.1 hn
        refine ⟨-(n : Int), (intText_neg h2).symm, ?_, ?_, ?_, ?_, h.symm⟩
        · omega
        · omega
        · rw [hp]; omega
        · rw [hp]; omega
      · simp at h
    | float => simp [numInt] at h
  · rintro ⟨i, rfl, h1, h2, h3, h4, rfl⟩
    rw [hp] at h3 h4
    rcases (by omega : i < 0 ∨ 0 ≤ i) with hi | hi
    · obtain ⟨n, rfl⟩ : ∃ n : Nat, i = -(n : Int) := ⟨i.natAbs, by omega⟩
      refine ⟨.neg n, numReads_neg.2 ⟨intText_neg (by omega), by omega, by omega⟩, ?_⟩
      have : n ≤ 2 ^ (w - 1) := by omega
      simp [numInt, this]
    · obtain ⟨n, rfl⟩ : ∃ n : Nat, i = (n : Int) := ⟨i.natAbs, by omega⟩
      refine ⟨.pos n, numReads_pos.2 ⟨intText_nat n, by omega⟩, ?_⟩
      have : n < 2 ^ (w - 1) := by omega
      simp [numInt, this]

/-- A number is an integer in decimal, or `-0`, or has a fraction or exponent. -/
theorem wide_yields {l : Str} (hl : IsNum l) (s : Bool) (v : DVal) : wideOf s l = some v ↔
    (s = true ∧ ∃ i : Int, (l = intText i ∨ l = ['-', '0'] ∧ i = 0) ∧ InWide true i ∧ v = .int i) ∨
    (s = false ∧ ∃ n : Nat, l = decimal n ∧ InWide false n ∧ v = .uint n) := by
  constructor
  · intro h
    unfold wideOf at h
    have hsplit : (∃ ds, l = '-' :: ds ∧ wideNum s true ds = some v) ∨ ((∀ ds, l ≠ '-' :: ds) ∧ wideNum s false l = some v) := by
      cases l with
      | nil => exact .inr ⟨by simp, h⟩
      | cons c cs =>
        by_cases hc : c = '-'
        · subst hc
          exact .inl ⟨cs, rfl, by simpa [scanMinus] using h⟩
        · exact .inr ⟨by simp [hc], by simpa [scanMinus, hc] using h⟩
    clear h
    rcases hsplit with ⟨ds, rfl, h⟩ | ⟨hn, h⟩
    · have hd : ds.all Char.isDigit = true := by
        unfold wideNum at h
        split at h
        · assumption
        · simp at h
      have hdec := isDec_decimal (isNum_neg_digits hl (by simpa using hd))
      rw [hdec, wideNum_decimal] at h
      cases s with
      | false => simp at h
      | true =>
        simp only at h
        split at h
        · rename_i hb
          simp only [Option.some.injEq] at h
          refine .inl ⟨rfl, -(decVal ds : Int), ?_, ?_, h.symm⟩
          · rcases Nat.eq_zero_or_pos (decVal ds) with h0 | h0
            · refine .inr ⟨?_, by omega⟩
              rw [hdec, h0]
              decide
            · refine .inl ?_
              rw [intText_neg h0, ← hdec]
          · simp only [InWide, if_true]
            omega
        · simp at h
    · have hd : l.all Char.isDigit = true := by
        unfold wideNum at h
        split at h
        · assumption
        · simp at h
      have hdec := isDec_decimal (isNum_digits hl (by simpa using hd))
      rw [hdec, wideNum_decimal] at h
      cases s with
      | false =>
        simp only at h
        split at h
        · simp only [Option.some.injEq] at h
          refine .inr ⟨rfl, decVal l, hdec, ?_, h.symm⟩
          simp only [InWide, Bool.false_eq_true, if_false]
          omega
        · simp at h
      | true =>
        simp only at h
        split at h
        · simp only [Option.some.injEq] at h
          refine .inl ⟨rfl, decVal l, .inl (by rw [intText_nat, ← hdec]), ?_, h.symm⟩
          simp only [InWide, if_true]
          omega
        · simp at h
  · rintro (⟨rfl, i, h, hw, rfl⟩ | ⟨rfl, n, rfl, hw, rfl⟩)
    · simp only [InWide, if_true] at hw
      rcases h with rfl | ⟨rfl, rfl⟩
      · rcases (by omega : i < 0 ∨ 0 ≤ i) with hi | hi
        · obtain ⟨n, rfl⟩ : ∃ n : Nat, i = -(n : Int) := ⟨i.natAbs, by omega⟩
          rw [intText_neg (by omega)]
          have : n ≤ 2 ^ 127 := by omega
          show wideNum true true (decimal n) = _
          rw [wideNum_decimal]
          simp only [this, if_true]
        · obtain ⟨n, rfl⟩ : ∃ n : Nat, i = (n : Int) := ⟨i.natAbs, by omega⟩
          rw [intText_nat, wideOf_decimal, wideNum_decimal]
          have : n < 2 ^ 127 := by omega
          simp only [this, if_true]
      · rfl
    · simp only [InWide, Bool.false_eq_true, if_false] at hw
      rw [wideOf_decimal, wideNum_decimal]
      have : n < 2 ^ 128 := by omega
      simp only [this, if_true]

theorem oneChar_iff (s : Str) (v : DVal) : oneChar s = some v ↔ ∃ c, s = [c] ∧ v = .char c := by
  match s with
  | [] => simp [oneChar]
  | [c] => simp [oneChar, eq_comm]
  | _ :: _ :: _ => simp [oneChar]

theorem bytesOfArr_iff {fin : Str → Bool} : ∀ {ts : List JTree} {b : Bytes}, (∀ t ∈ ts, Written t) →
    (bytesOfArr fin ts = some b ↔ .arr ts = bytesTree b)
  | [], b, _ => by
    cases b <;> simp [bytesOfArr, allSome, bytesTree]
  | t :: ts, b, h => by
    have ih := fun b => bytesOfArr_iff (fin := fin) (ts := ts) (b := b) fun u hu => h u (List.mem_cons_of_mem _ hu)
    simp only [bytesTree, JTree.arr.injEq] at ih ⊢
    constructor
    · intro hb
      simp only [bytesOfArr, allSome] at hb ih
      split at hb
      · simp at hb
      · rename_i u hu
        simp only [Option.map_eq_some_iff] at hb
        obtain ⟨b', hb, rfl⟩ := hb
        rw [(ih b').1 hb]
        cases t with
        | num l =>
          simp only [Option.bind_eq_some_iff, readNum_iff (num_written (h _ List.mem_cons_self))] at hu
          obtain ⟨n, hn, hu⟩ := hu
          cases n with
          | pos n =>
            simp only at hu
            split at hu
            · rename_i hlt
              simp only [Option.some.injEq] at hu
              subst hu
              rw [(numReads_pos.1 hn).1]
              simp [Nat.mod_eq_of_lt hlt]
            · simp at hu
          | _ => simp at hu
        | _ => simp at hu
    · intro hb
      rw [hb]
      exact bytesOfArr_bytes fin b

/-! ### Attachments -/

theorem attached_none {d : Nat} {t : JTree} {b : Bytes} : ¬ Attached none d t b := by simp [Attached]

theorem attached_obj {att : Atts} {d : Nat} {t : JTree} {b : Bytes} (h : Attached att d t b) : ∃ kts, t = .obj kts := by
  obtain ⟨_, _, _, _, _, h, _⟩ := h
  exact ⟨_, h⟩

theorem attached_iff (fin : Str → Bool) {bs : List Bytes} {d : Nat} {kts : List (Str × JTree)} {b : Bytes} (h : Written (.obj kts)) :
    Attached (some bs) d (.obj kts) b ↔ 1 < d ∧ mapView fin bs kts = .placeholder b := by
  obtain ⟨s, h⟩ := h
  rw [mapView_iff h]
  simp only [Attached, Option.some.injEq, JTree.obj.injEq]
  constructor
  · rintro ⟨h1, bs, z, i, rfl, rfl, h2, h3⟩
    exact ⟨h1, z, i, rfl, h2, h3⟩
  · rintro ⟨h1, z, i, rfl, h2, h3⟩
    exact ⟨h1, bs, z, i, rfl, rfl, h2, h3⟩

theorem ordinary_none (kts : List (Str × JTree)) : Ordinary none kts := by simp [Ordinary]

theorem ordinary_iff (fin : Str → Bool) (bs : List Bytes) (kts : List (Str × JTree)) :
    Ordinary (some bs) kts ↔ mapView fin bs kts = .plain := by
  cases kts with
  | nil => simp [Ordinary, mapView]
  | cons kt rest =>
    obtain ⟨k, t⟩ := kt
    have : Ordinary (some bs) ((k, t) :: rest) ↔ '\\' ∉ k ∧ k ≠ phKey := by
      constructor
      · exact fun h => h (by simp) k t rest rfl
      · intro h _ k' t' rest' he
        simp only [List.cons.injEq, Prod.mk.injEq] at he
        rw [← he.1.1]
        exact h
    rw [this]
    simp only [mapView]
    by_cases h1 : '\\' ∈ k
    · rw [if_pos h1]
      exact ⟨fun h => absurd h1 h.1, fun h => by cases h⟩
    · rw [if_neg h1]
      by_cases h2 : k = "_placeholder".toList
      · rw [if_pos h2]
        refine ⟨fun h => absurd h2 h.2, fun h => ?_⟩
        exfalso
        split at h
        · split at h
          · split at h
            · split at h <;> cases h
            · cases h
          · cases h
        · cases h
      · rw [if_neg h2]
        exact ⟨fun _ => rfl, fun _ => ⟨h1, h2⟩⟩

theorem deByte_yields (ty : Ty) (b : UInt8) (v : DVal) : deByte ty b = some v ↔ YieldsByte ty b v := by
  cases ty with
  | uint w =>
    simp only [deByte, numUint, YieldsByte]
    split
    · simp [*, eq_comm]
    · simp [*]
  | int w =>
    simp only [deByte, numInt, YieldsByte]
    split
    · simp [*, eq_comm]
    · simp [*]
  | wide s => cases s <;> simp [deByte, YieldsByte, eq_comm]
  | float => simp [deByte, YieldsByte, natDec_decimal, eq_comm]
  | _ => simp [deByte, YieldsByte, eq_comm]

theorem deBytes_yields : ∀ (tys : List Ty) (b : Bytes) (vs : List DVal), deBytes tys b = some vs ↔ YieldsBytes tys b vs
  | [], b, vs => by simp [deBytes, YieldsBytes, eq_comm]
  | ty :: tys, [], vs => by simp [deBytes, YieldsBytes]
  | ty :: tys, n :: b, vs => by
    simp only [deBytes, YieldsBytes, List.cons.injEq]
    constructor
    · intro h
      split at h
      · simp at h
      · rename_i v hv
        simp only [Option.map_eq_some_iff] at h
        obtain ⟨vs', h, rfl⟩ := h
        exact ⟨n, b, v, vs', ⟨rfl, rfl⟩, rfl, (deByte_yields ty n v).1 hv, (deBytes_yields tys b vs').1 h⟩
    · rintro ⟨n', b', v, vs', ⟨rfl, rfl⟩, rfl, h1, h2⟩
      simp [(deByte_yields ty n v).2 h1, (deBytes_yields tys b vs').2 h2]

/-! ### Variants and members -/

theorem unitVariant_yields (n : Str) (v : DVal) : ∀ vs : List (Str × Ty),
    unitVariant vs n = some v ↔ vs.lookup n = some .unit ∧ v = .variant n .unit
  | [] => by simp [unitVariant]
  | (k, ty) :: vs => by
    simp only [unitVariant, List.lookup_cons]
    by_cases h : k = n
    · subst h
      simp only [if_true, beq_self_eq_true]
      cases ty <;> simp [eq_comm]
    · have : (n == k) = false := by simpa using Ne.symm h
      simp only [h, if_false, this]
      exact unitVariant_yields n v vs

theorem filter_none {kts w : List (Str × JTree)} (hw : keyed kts = some w) (n : Str) :
    w.filter (fun kt => kt.1 = n) = [] ↔ ¬ HasKey n kts := by
  obtain ⟨h1, h2⟩ := keyed_mem hw
  constructor
  · rintro h ⟨kt, hkt, hd⟩
    obtain ⟨k, hk, hd'⟩ := h2 kt hkt
    rw [SIO.StrDenotes.unique hd' hd] at hk
    have : (n, kt.2) ∈ w.filter (fun kt => kt.1 = n) := List.mem_filter.2 ⟨hk, by simp⟩
    rw [h] at this
    simp at this
  · intro h
    rw [List.filter_eq_nil_iff]
    intro kt hkt he
    obtain ⟨raw, hr, hd⟩ := h1 kt hkt
    have he : kt.1 = n := by simpa using he
    rw [he] at hd
    exact h ⟨_, hr, hd⟩

theorem keyed_cons {k : Str} {t : JTree} {kts w : List (Str × JTree)} (h : keyed ((k, t) :: kts) = some w) :
    ∃ k' w', w = (k', t) :: w' ∧ StrDenotes k k' ∧ keyed kts = some w' := by
  simp only [keyed, allSome] at h
  cases hu : unescape k with
  | none => simp [hu] at h
  | some k' =>
    simp only [hu, Option.map_some, Option.map_eq_some_iff] at h
    obtain ⟨w', hw, rfl⟩ := h
    exact ⟨k', w', rfl, (unescape_iff _ _).1 hu, hw⟩

theorem onlyMember_cons {k : Str} {u t : JTree} {n : Str} {kts : List (Str × JTree)} :
    OnlyMember ((k, u) :: kts) n t ↔
      (StrDenotes k n ∧ u = t ∧ ¬ HasKey n kts) ∨ (¬ StrDenotes k n ∧ OnlyMember kts n t) := by
  constructor
  · rintro ⟨pre, k', post, he, hd, h1, h2⟩
    cases pre with
    | nil =>
      simp only [List.nil_append, List.cons.injEq, Prod.mk.injEq] at he
      obtain ⟨⟨rfl, rfl⟩, rfl⟩ := he
      exact .inl ⟨hd, rfl, h2⟩
    | cons a pre =>
      simp only [List.cons_append, List.cons.injEq] at he
      obtain ⟨rfl, rfl⟩ := he
      refine .inr ⟨fun h => h1 ⟨_, List.mem_cons_self, h⟩, pre, k', post, rfl, hd, ?_, h2⟩
      rintro ⟨kt, hkt, h⟩
      exact h1 ⟨kt, List.mem_cons_of_mem _ hkt, h⟩
  · rintro (⟨h1, rfl, h2⟩ | ⟨h1, pre, k', post, rfl, hd, h2, h3⟩)
    · exact ⟨[], k, kts, rfl, h1, by rintro ⟨_, h, _⟩; simp at h, h2⟩
    · refine ⟨(k, u) :: pre, k', post, rfl, hd, ?_, h3⟩
      rintro ⟨kt, hkt, h⟩
      rcases List.mem_cons.1 hkt with rfl | hkt
      · exact h1 h
      · exact h2 ⟨kt, hkt, h⟩

theorem filter_one (n : Str) (t : JTree) : ∀ {kts w : List (Str × JTree)}, keyed kts = some w →
    ((∃ k, w.filter (fun kt => kt.1 = n) = [(k, t)]) ↔ OnlyMember kts n t)
  | [], w, h => by
    simp [keyed, allSome] at h
    subst h
    simp [OnlyMember]
  | (k, u) :: kts, w, h => by
    obtain ⟨k', w', rfl, hk, hw⟩ := keyed_cons h
    rw [onlyMember_cons, ← filter_one n t hw, ← filter_none hw n]
    by_cases he : k' = n
    · subst he
      simp [hk]
    · have : ¬ StrDenotes k n := fun h => he (SIO.StrDenotes.unique hk h)
      simp [he, this]

/-- What is read of the member of that name. -/
theorem member_yields {kts w : List (Str × JTree)} (hw : keyed kts = some w) {n : Str} {ty : Ty} {f : JTree → Option DVal}
    {P : JTree → DVal → Prop} (h : ∀ kt ∈ kts, ∀ v, f kt.2 = some v ↔ P kt.2 v) (v : DVal) :
    (match w.filter (fun kt => kt.1 = n) with
      | [] => missing ty
      | [kt] => f kt.2
      | _ => none) = some v ↔
    (∃ t, OnlyMember kts n t ∧ P t v) ∨ (¬ HasKey n kts ∧ (∃ ty', ty = .option ty') ∧ v = .none) := by
  have h0 := filter_none hw n
  have h1 := fun t => filter_one n t hw
  have hin : ∀ t, OnlyMember kts n t → (f t = some v ↔ P t v) := by
    rintro t ⟨pre, k, post, rfl, _⟩
    exact h (k, t) (by simp) v
  match hf : w.filter (fun kt => kt.1 = n) with
  | [] =>
    rw [hf] at h0
    simp only [true_iff] at h0
    have hno : ∀ t, ¬ OnlyMember kts n t := by
      intro t ht
      obtain ⟨k, hk⟩ := (h1 t).2 ht
      rw [hf] at hk
      simp at hk
    rw [hf]
    simp only [hno, false_and, exists_false, h0, not_false_eq_true, true_and, false_or]
    cases ty <;> simp [missing, eq_comm]
  | [kt] =>
    rw [hf] at h0
    simp only [List.cons_ne_nil, false_iff, Classical.not_not] at h0
    have hone : OnlyMember kts n kt.2 := (h1 kt.2).1 ⟨kt.1, hf⟩
    rw [hf]
    simp only [h0, not_true_eq_false, false_and, or_false, hin kt.2 hone]
    constructor
    · exact fun h => ⟨kt.2, hone, h⟩
    · rintro ⟨t, ht, hp⟩
      obtain ⟨k, hk⟩ := (h1 t).2 ht
      rw [hf] at hk
      simp only [List.cons.injEq, and_true] at hk
      rw [hk]
      exact hp
  | a :: b :: r =>
    rw [hf] at h0
    simp only [List.cons_ne_nil, false_iff, Classical.not_not] at h0
    rw [hf]
    simp only [reduceCtorEq, h0, not_true_eq_false, false_and, or_false, false_iff]
    rintro ⟨t, ht, hp⟩
    obtain ⟨k, hk⟩ := (h1 t).2 ht
    rw [hf] at hk
    simp at hk

/-! ### Dynamic values -/

theorem rawFirst_iff (kts : List (Str × JTree)) : RawFirst kts ↔ ∃ k t rest, kts = (k, t) :: rest ∧ StrDenotes k rawKey := Iff.rfl

theorem rawFirst_plain (kts : List (Str × JTree)) : rawView kts = .plain ↔ ¬ RawFirst kts := by
  rw [rawFirst_iff]
  cases kts with
  | nil => simp [rawView]
  | cons kt rest =>
    obtain ⟨k, t⟩ := kt
    simp only [rawView]
    by_cases h : unescape k = some rawKey
    · rw [if_pos h]
      constructor
      · intro he
        split at he
        · split at he <;> cases he
        · cases he
      · exact fun hn => absurd ⟨k, t, rest, rfl, (unescape_iff _ _).1 h⟩ hn
    · rw [if_neg h]
      refine ⟨fun _ => ?_, fun _ => rfl⟩
      rintro ⟨k', t', rest', he, hd⟩
      simp only [List.cons.injEq, Prod.mk.injEq] at he
      rw [← he.1.1] at hd
      exact h (unescape_complete hd)

theorem rawView_raw_iff (kts : List (Str × JTree)) (s : Str) : rawView kts = .raw s ↔
    ∃ k raw, kts = [(k, .str raw)] ∧ StrDenotes k rawKey ∧ StrDenotes raw s := by
  constructor
  · intro h
    obtain ⟨k, raw, h1, h2, h3⟩ := rawView_raw h
    exact ⟨k, raw, h1, (unescape_iff _ _).1 h2, (unescape_iff _ _).1 h3⟩
  · rintro ⟨k, raw, rfl, h2, h3⟩
    simp only [rawView, unescape_complete h2, unescape_complete h3, if_true]

/-- An object that is read as an object. -/
theorem objV {fin : Str → Bool} {att : Atts} {d : Nat} {kts : List (Str × JTree)} {v : Value}
    {M : Option (List (Str × Value))} (hm : ∀ m, M = some m ↔ ∃ w, YieldsVM fin att (d - 1) kts w ∧ m = insertAll [] w) :
    (1 < d ∧ Ordinary att kts ∧ (match rawView kts with
      | .plain => M.map .obj
      | .err => none
      | .raw s => valueOfText fin s) = some v) ↔
    (1 < d ∧ Ordinary att kts ∧ ¬ RawFirst kts ∧ ∃ w m, YieldsVM fin att (d - 1) kts w ∧ IsMap w m ∧ v = .obj m) ∨
    (1 < d ∧ Ordinary att kts ∧ ∃ k raw s u doc, kts = [(k, .str raw)] ∧
      StrDenotes k "$serde_json::private::RawValue".toList ∧ StrDenotes raw s ∧ IsText u s ∧ Denotes u doc ∧
      treeDepth u < 128 ∧ Gets fin doc v) := by
  rw [← and_or_left, ← and_or_left]
  refine and_congr_right fun _ => and_congr_right fun _ => ?_
  constructor
  · intro h
    split at h
    · rename_i hr
      simp only [Option.map_eq_some_iff, hm] at h
      obtain ⟨m, ⟨w, hw, rfl⟩, rfl⟩ := h
      exact .inl ⟨(rawFirst_plain kts).1 hr, w, _, hw, (isMap_iff w _).2 rfl, rfl⟩
    · simp at h
    · rename_i s hr
      obtain ⟨k, raw, h1, h2, h3⟩ := (rawView_raw_iff kts s).1 hr
      obtain ⟨u, doc, h4, h5, h6, h7⟩ := (valueOfText_iff fin s v).1 h
      exact .inr ⟨k, raw, s, u, doc, h1, h2, h3, h4, h5, h6, h7⟩
  · rintro (⟨h1, w, m, h2, h3, rfl⟩ | ⟨k, raw, s, u, doc, h1, h2, h3, h4, h5, h6, h7⟩)
    · rw [(rawFirst_plain kts).2 h1]
      simp only [Option.map_eq_some_iff, hm]
      exact ⟨m, ⟨w, h2, (isMap_iff w m).1 h3⟩, rfl⟩
    · rw [(rawView_raw_iff kts s).2 ⟨k, raw, h1, h2, h3⟩]
      exact (valueOfText_iff fin s v).2 ⟨u, doc, h4, h5, h6, h7⟩

theorem consV {fin : Str → Bool} {att : Atts} {d : Nat} {t : JTree} {ts : List JTree} {vs : List Value} {a : Option Value}
    {b : Option (List Value)} : (∀ v, a = some v ↔ YieldsV fin att d t v) → (∀ v, b = some v ↔ YieldsVL fin att d ts v) →
    ((match a with
      | none => none
      | some v => b.map (v :: ·)) = some vs ↔ YieldsVL fin att d (t :: ts) vs) := by
  intro ha hb
  simp only [YieldsVL, ← ha, ← hb]
  cases a <;> cases b <;> simp [eq_comm]

theorem memberV {fin : Str → Bool} {att : Atts} {d : Nat} {k : Str} {t : JTree} {kts : List (Str × JTree)}
    {m m' : List (Str × Value)} {a : Option Value} {f : List (Str × Value) → Option (List (Str × Value))} :
    (∀ v, a = some v ↔ YieldsV fin att d t v) → (∀ m m', f m = some m' ↔ ∃ w, YieldsVM fin att d kts w ∧ m' = insertAll m w) →
    ((match unescape k with
      | none => none
      | some k' =>
        match a with
        | none => none
        | some v => f (mapInsert k' v m)) = some m' ↔ ∃ w, YieldsVM fin att d ((k, t) :: kts) w ∧ m' = insertAll m w) := by
  intro ha hf
  simp only [YieldsVM]
  constructor
  · intro h
    split at h
    · simp at h
    · rename_i k' hk
      split at h
      · simp at h
      · rename_i v
        obtain ⟨w, hw, rfl⟩ := (hf _ _).1 h
        exact ⟨(k', v) :: w, ⟨k', v, w, rfl, (unescape_iff _ _).1 hk, (ha v).1 rfl, hw⟩, rfl⟩
  · rintro ⟨_, ⟨n, v, w, rfl, hk, hv, hw⟩, rfl⟩
    rw [unescape_complete hk, (ha v).2 hv]
    exact (hf _ _).2 ⟨w, hw, rfl⟩

mutual
theorem toValue_yields (fin : Str → Bool) : ∀ (t : JTree) (d : Nat) (_ : Written t) (v : Value),
    toValue fin d t = some v ↔ YieldsV fin none d t v
  | .null, d, _, v => by simp [toValue_null, YieldsV, eq_comm]
  | .bool b, d, _, v => by simp [toValue_bool, YieldsV, eq_comm]
  | .num l, d, ht, v => by simp only [toValue_num, YieldsV, map_some', readNum_iff (num_written ht)]
  | .str raw, d, _, v => by simp only [toValue_str, YieldsV, map_some', unescape_iff]
  | .arr ts, d, ht, v => by
    simp only [toValue_arr, YieldsV, ← toValues_yields fin ts (d - 1) (arr_written ht)]
    split
    · simp; omega
    · have : 1 < d := by omega
      simp only [map_some', this, true_and, and_comm]
  | .obj kts, d, ht, v => by
    simp only [toValue_obj, YieldsV, attached_none, false_and, exists_false, false_or]
    rw [← objV (M := toMap fin (d - 1) kts []) fun m => toMap_yields fin kts (d - 1) (obj_written ht) [] m]
    split
    · simp; omega
    · have : 1 < d := by omega
      simp only [this, ordinary_none, true_and]
      cases rawView kts <;> exact Iff.rfl
theorem toValues_yields (fin : Str → Bool) : ∀ (ts : List JTree) (d : Nat) (_ : ∀ t ∈ ts, Written t) (vs : List Value),
    toValues fin d ts = some vs ↔ YieldsVL fin none d ts vs
  | [], d, _, vs => by simp [toValues_nil, YieldsVL, eq_comm]
  | t :: ts, d, h, vs => by
    rw [toValues_cons]
    exact consV (toValue_yields fin t d (h t (by simp))) (toValues_yields fin ts d fun u hu => h u (by simp [hu]))
theorem toMap_yields (fin : Str → Bool) : ∀ (kts : List (Str × JTree)) (d : Nat) (_ : ∀ kt ∈ kts, Written kt.2)
    (m m' : List (Str × Value)), toMap fin d kts m = some m' ↔ ∃ w, YieldsVM fin none d kts w ∧ m' = insertAll m w
  | [], d, _, m, m' => by simp [toMap_nil, YieldsVM, insertAll, eq_comm]
  | (k, t) :: kts, d, h, m, m' => by
    rw [toMap_cons]
    exact memberV (toValue_yields fin t d (h (k, t) (by simp))) (toMap_yields fin kts d fun u hu => h u (by simp [hu]))
end

mutual
theorem deValueA_yields (fin : Str → Bool) (bs : List Bytes) : ∀ (t : JTree) (d : Nat) (_ : Written t) (v : Value),
    deValueA fin bs d t = some v ↔ YieldsV fin (some bs) d t v
  | .null, d, _, v => by simp [deValueA, toValue_null, YieldsV, eq_comm]
  | .bool b, d, _, v => by simp [deValueA, toValue_bool, YieldsV, eq_comm]
  | .num l, d, ht, v => by simp only [deValueA, toValue_num, YieldsV, map_some', readNum_iff (num_written ht)]
  | .str raw, d, _, v => by simp only [deValueA, toValue_str, YieldsV, map_some', unescape_iff]
  | .arr ts, d, ht, v => by
    simp only [deValueA, YieldsV, ← deValuesA_yields fin bs ts (d - 1) (arr_written ht)]
    split
    · simp; omega
    · have : 1 < d := by omega
      simp only [map_some', this, true_and, and_comm]
  | .obj kts, d, ht, v => by
    simp only [deValueA, YieldsV, attached_iff fin ht]
    rw [← objV (M := deMapA fin bs (d - 1) kts []) fun m => deMapA_yields fin bs kts (d - 1) (obj_written ht) [] m]
    rw [ordinary_iff fin]
    split
    · have : ¬ 1 < d := by omega
      simp [this]
    · have : 1 < d := by omega
      simp only [this, true_and]
      cases mapView fin bs kts with
      | err => simp
      | placeholder b => simp [bytesValue, eq_comm]
      | plain =>
        simp only [reduceCtorEq, false_and, exists_false, true_and, false_or]
        cases rawView kts <;> exact Iff.rfl
theorem deValuesA_yields (fin : Str → Bool) (bs : List Bytes) : ∀ (ts : List JTree) (d : Nat) (_ : ∀ t ∈ ts, Written t)
    (vs : List Value), deValuesA fin bs d ts = some vs ↔ YieldsVL fin (some bs) d ts vs
  | [], d, _, vs => by simp [deValuesA, YieldsVL, eq_comm]
  | t :: ts, d, h, vs => by
    simp only [deValuesA]
    exact consV (deValueA_yields fin bs t d (h t (by simp))) (deValuesA_yields fin bs ts d fun u hu => h u (by simp [hu]))
theorem deMapA_yields (fin : Str → Bool) (bs : List Bytes) : ∀ (kts : List (Str × JTree)) (d : Nat)
    (_ : ∀ kt ∈ kts, Written kt.2) (m m' : List (Str × Value)),
    deMapA fin bs d kts m = some m' ↔ ∃ w, YieldsVM fin (some bs) d kts w ∧ m' = insertAll m w
  | [], d, _, m, m' => by simp [deMapA, YieldsVM, insertAll, eq_comm]
  | (k, t) :: kts, d, h, m, m' => by
    simp only [deMapA]
    exact memberV (deValueA_yields fin bs t d (h (k, t) (by simp))) (deMapA_yields fin bs kts d fun u hu => h u (by simp [hu]))
end

/-! ### Types -/

theorem scalar_yields (x : Ext) (att : Atts) (d : Nat) {t : JTree} (ht : Written t) (v : DVal) : ∀ {ty : Ty},
    (ty = .bool ∨ (∃ w, ty = .uint w) ∨ (∃ w, ty = .int w) ∨ (∃ s, ty = .wide s) ∨ ty = .float ∨ ty = .char ∨ ty = .unit ∨
      ty = .ignored) → (deScalar x.fin ty t = some v ↔ Yields x att d ty t v) := by
  rintro ty (rfl | ⟨w, rfl⟩ | ⟨w, rfl⟩ | ⟨s, rfl⟩ | rfl | rfl | rfl | rfl)
  · cases t <;> simp [deScalar, Yields, eq_comm]
  · cases t with
    | num l => simp only [deScalar, Yields, JTree.num.injEq, uint_yields (num_written ht)]
    | _ => simp [deScalar, Yields]
  · cases t with
    | num l => simp only [deScalar, Yields, JTree.num.injEq, int_yields (num_written ht)]
    | _ => simp [deScalar, Yields]
  · cases t with
    | num l => cases s <;> simp [deScalar, Yields, wide_yields (num_written ht)]
    | _ => cases s <;> simp [deScalar, Yields]
  · cases t with
    | num l =>
      simp only [deScalar, Yields, JTree.num.injEq, map_some', readNum_iff (num_written ht)]
      constructor
      · rintro ⟨n, h, rfl⟩
        exact ⟨l, n, rfl, h, rfl⟩
      · rintro ⟨_, n, rfl, h, rfl⟩
        exact ⟨n, h, rfl⟩
    | _ => simp [deScalar, Yields]
  · cases t with
    | str raw =>
      simp only [deScalar, Yields, JTree.str.injEq, Option.bind_eq_some_iff, unescape_iff, oneChar_iff]
      constructor
      · rintro ⟨_, h, c, rfl, rfl⟩
        exact ⟨raw, c, rfl, h, rfl⟩
      · rintro ⟨_, c, rfl, h, rfl⟩
        exact ⟨[c], h, c, rfl, rfl⟩
    | _ => simp [deScalar, Yields]
  · cases t <;> simp [deScalar, Yields, eq_comm]
  · cases t <;> simp [deScalar, Yields, eq_comm]

theorem consL {x : Ext} {att : Atts} {d : Nat} {ty : Ty} {tys : List Ty} {t : JTree} {ts : List JTree} {vs : List DVal}
    {a : Option DVal} {b : Option (List DVal)} : (∀ v, a = some v ↔ Yields x att d ty t v) →
    (∀ v, b = some v ↔ YieldsL x att d tys ts v) → ((match a with
      | none => none
      | some v => b.map (v :: ·)) = some vs ↔ YieldsL x att d (ty :: tys) (t :: ts) vs) := by
  intro ha hb
  simp only [YieldsL, List.cons.injEq]
  constructor
  · intro h
    cases a with
    | none => simp at h
    | some v =>
      obtain ⟨vs', h', rfl⟩ := map_some'.1 h
      exact ⟨t, ts, v, vs', ⟨rfl, rfl⟩, rfl, (ha v).1 rfl, (hb vs').1 h'⟩
  · rintro ⟨_, _, v, vs', ⟨rfl, rfl⟩, rfl, h1, h2⟩
    rw [(ha v).2 h1, (hb vs').2 h2]
    rfl

theorem consF {x : Ext} {att : Atts} {d : Nat} {n : Str} {ty : Ty} {fs : List (Str × Ty)} {t : JTree} {ts : List JTree}
    {vs : List DVal} {a : Option DVal} {b : Option (List DVal)} : (∀ v, a = some v ↔ Yields x att d ty t v) →
    (∀ v, b = some v ↔ YieldsF x att d fs ts v) → ((match a with
      | none => none
      | some v => b.map (v :: ·)) = some vs ↔ YieldsF x att d ((n, ty) :: fs) (t :: ts) vs) := by
  intro ha hb
  simp only [YieldsF, List.cons.injEq]
  constructor
  · intro h
    cases a with
    | none => simp at h
    | some v =>
      obtain ⟨vs', h', rfl⟩ := map_some'.1 h
      exact ⟨t, ts, v, vs', ⟨rfl, rfl⟩, rfl, (ha v).1 rfl, (hb vs').1 h'⟩
  · rintro ⟨_, _, v, vs', ⟨rfl, rfl⟩, rfl, h1, h2⟩
    rw [(ha v).2 h1, (hb vs').2 h2]
    rfl

theorem consM {x : Ext} {att : Atts} {d : Nat} {n : Str} {ty : Ty} {fs : List (Str × Ty)} {kts : List (Str × JTree)}
    {vs : List DVal} {a : Option DVal} {b : Option (List DVal)} :
    (∀ v, a = some v ↔ (∃ t, OnlyMember kts n t ∧ Yields x att d ty t v) ∨
      (¬ HasKey n kts ∧ (∃ ty', ty = .option ty') ∧ v = .none)) →
    (∀ v, b = some v ↔ YieldsM x att d fs kts v) → ((match a with
      | none => none
      | some v => b.map (v :: ·)) = some vs ↔ YieldsM x att d ((n, ty) :: fs) kts vs) := by
  intro ha hb
  simp only [YieldsM]
  constructor
  · intro h
    cases a with
    | none => simp at h
    | some v =>
      obtain ⟨vs', h', rfl⟩ := map_some'.1 h
      exact ⟨v, vs', rfl, (ha v).1 rfl, (hb vs').1 h'⟩
  · rintro ⟨v, vs', rfl, h1, h2⟩
    rw [(ha v).2 h1, (hb vs').2 h2]
    rfl

/-- All keys of the object can be decoded. -/
theorem keyed_bind {β : Type} {kts : List (Str × JTree)} {f : List (Str × JTree) → Option β} {v : β} :
    (keyed kts).bind f = some v ↔ ∃ w, keyed kts = some w ∧ f w = some v := Option.bind_eq_some_iff

theorem keyed_some : ∀ {kts : List (Str × JTree)}, (∃ w, keyed kts = some w) ↔ ∀ kt ∈ kts, ∃ k, StrDenotes kt.1 k
  | [] => by simp [keyed, allSome]
  | (k, t) :: kts => by
    have ih := keyed_some (kts := kts)
    constructor
    · rintro ⟨w, hw⟩ kt hkt
      obtain ⟨k', _, h⟩ := (keyed_mem hw).2 kt hkt
      exact ⟨k', h⟩
    · intro h
      obtain ⟨k', hk⟩ := h (k, t) (by simp)
      obtain ⟨w, hw⟩ := ih.2 fun kt hkt => h kt (by simp [hkt])
      refine ⟨(k', t) :: w, ?_⟩
      simp only [keyed] at hw
      simp [keyed, allSome, unescape_complete hk, hw]

theorem keyed_fields {x : Ext} {att : Atts} {d : Nat} {fs : List (Str × Ty)} {kts : List (Str × JTree)}
    {f : List (Str × JTree) → Option (List DVal)} {v : DVal}
    (h : ∀ w, keyed kts = some w → ∀ vs, f w = some vs ↔ YieldsM x att d fs kts vs) :
    ((keyed kts).bind fun kts => (f kts).map .struct) = some v ↔
      ∃ vs, (∀ kt ∈ kts, ∃ k, StrDenotes kt.1 k) ∧ v = .struct vs ∧ YieldsM x att d fs kts vs := by
  rw [keyed_bind]
  constructor
  · rintro ⟨w, hw, hv⟩
    obtain ⟨vs, hv', rfl⟩ := map_some'.1 hv
    exact ⟨vs, keyed_some.1 ⟨w, hw⟩, rfl, (h w hw vs).1 hv'⟩
  · rintro ⟨vs, hk, rfl, hv⟩
    obtain ⟨w, hw⟩ := keyed_some.2 hk
    exact ⟨w, hw, map_some'.2 ⟨vs, (h w hw vs).2 hv, rfl⟩⟩

/-- The members of an object as map with strings as keys. -/
theorem smap_yields {kts : List (Str × JTree)} {f : JTree → Option DVal} {P : JTree → DVal → Prop}
    (h : ∀ kt ∈ kts, ∀ v, f kt.2 = some v ↔ P kt.2 v) (v : DVal) :
    ((keyed kts).bind fun kts => (allSome (fun kt => (f kt.2).map fun v => (kt.1, v)) kts).map fun kvs =>
      .map (kvs.foldl (fun m kv => mapInsert kv.1 kv.2 m) [])) = some v ↔
    ∃ w m, Each (fun kt e => StrDenotes kt.1 e.1 ∧ P kt.2 e.2) kts w ∧ IsMap w m ∧ v = .map m := by
  have hb : ((keyed kts).bind fun kts => (allSome (fun kt => (f kt.2).map fun v => (kt.1, v)) kts).map fun kvs =>
      DVal.map (kvs.foldl (fun m kv => mapInsert kv.1 kv.2 m) [])) =
    ((keyed kts).bind (allSome (fun kt => (f kt.2).map fun v => (kt.1, v)))).map fun kvs =>
      .map (kvs.foldl (fun m kv => mapInsert kv.1 kv.2 m) []) := by
    cases keyed kts <;> rfl
  have he : ∀ w, (keyed kts).bind (allSome (fun kt => (f kt.2).map fun v => (kt.1, v))) = some w ↔
      Each (fun kt e => StrDenotes kt.1 e.1 ∧ P kt.2 e.2) kts w := by
    intro w
    refine keyed_each fun kt hkt e => ?_
    simp only [map_some', h kt hkt]
    constructor
    · rintro ⟨h1, h2⟩
      exact ⟨e.1, h1, e.2, h2, rfl⟩
    · rintro ⟨k, h1, v, h2, rfl⟩
      exact ⟨h1, h2⟩
  rw [hb, map_some']
  simp only [he, smap_foldl, isMap_iff]
  constructor
  · rintro ⟨w, h1, rfl⟩
    exact ⟨w, _, h1, rfl, rfl⟩
  · rintro ⟨w, _, h1, rfl, rfl⟩
    exact ⟨w, h1, rfl⟩

/-- The members of an object as map with numbers as keys. -/
theorem imap_yields {kts : List (Str × JTree)} {f : JTree → Option DVal} {P : JTree → DVal → Prop}
    (h : ∀ kt ∈ kts, ∀ v, f kt.2 = some v ↔ P kt.2 v) (v : DVal) :
    ((keyed kts).bind fun kts => (allSome (fun kt => (keyU64 kt.1).bind fun k => (f kt.2).map fun v => (k, v)) kts).map fun kvs =>
      .imap (kvs.foldl (fun m kv => nmapInsert kv.1 kv.2 m) [])) = some v ↔
    ∃ w m, Each (fun kt (e : Nat × DVal) => e.1 < 2 ^ 64 ∧ StrDenotes kt.1 (decimal e.1) ∧ P kt.2 e.2) kts w ∧
      m.Pairwise (fun a b => a.1 < b.1) ∧ (∀ k, m.lookup k = w.reverse.lookup k) ∧ v = .imap m := by
  have hb : ((keyed kts).bind fun kts => (allSome (fun kt => (keyU64 kt.1).bind fun k => (f kt.2).map fun v => (k, v)) kts).map fun kvs =>
      DVal.imap (kvs.foldl (fun m kv => nmapInsert kv.1 kv.2 m) [])) =
    ((keyed kts).bind (allSome (fun kt => (keyU64 kt.1).bind fun k => (f kt.2).map fun v => (k, v)))).map fun kvs =>
      .imap (kvs.foldl (fun m kv => nmapInsert kv.1 kv.2 m) []) := by
    cases keyed kts <;> rfl
  have he : ∀ w, (keyed kts).bind (allSome (fun kt => (keyU64 kt.1).bind fun k => (f kt.2).map fun v => (k, v))) = some w ↔
      Each (fun kt (e : Nat × DVal) => e.1 < 2 ^ 64 ∧ StrDenotes kt.1 (decimal e.1) ∧ P kt.2 e.2) kts w := by
    intro w
    refine keyed_each fun kt hkt e => ?_
    simp only [Option.bind_eq_some_iff, keyU64_iff, map_some', h kt hkt]
    constructor
    · rintro ⟨h1, h2, h3⟩
      exact ⟨_, h2, e.1, ⟨h1, rfl⟩, e.2, h3, rfl⟩
    · rintro ⟨_, h1, n, ⟨h2, rfl⟩, v, h3, rfl⟩
      exact ⟨h2, h1, h3⟩
  rw [hb, map_some']
  simp only [he]
  constructor
  · rintro ⟨w, h1, rfl⟩
    obtain ⟨h2, h3⟩ := (nmap_iff w _).1 rfl
    exact ⟨w, _, h1, h2, h3, rfl⟩
  · rintro ⟨w, m, h1, h2, h3, rfl⟩
    exact ⟨w, h1, by rw [← (nmap_iff w m).2 ⟨h2, h3⟩]⟩

theorem plain_yields (t : JTree) (s : Str) : unescaped t = some s ↔ ∃ raw, t = .str raw ∧ '\\' ∉ raw ∧ s = raw := by
  cases t with
  | str raw =>
    simp only [unescaped, JTree.str.injEq]
    by_cases h : '\\' ∈ raw
    · rw [if_pos h]
      constructor
      · intro h; cases h
      · rintro ⟨_, rfl, h', _⟩
        exact absurd h h'
    · rw [if_neg h]
      constructor
      · intro he
        cases he
        exact ⟨s, rfl, h, rfl⟩
      · rintro ⟨_, rfl, _, rfl⟩
        rfl
  | _ => simp [unescaped]

mutual
theorem de_yields (x : Ext) : ∀ (ty : Ty) (d : Nat) (t : JTree) (_ : Written t) (v : DVal),
    de x d ty t = some v ↔ Yields x none d ty t v
  | .str, d, t, ht, v => by
    simp only [de, Yields, attached_none, false_and, exists_false, or_false]
    cases t with
    | str raw => simp [unescape_iff, @eq_comm _ v]
    | _ => simp
  | .bstr, d, t, ht, v => by
    simp only [de, Yields, attached_none, false_and, exists_false, or_false, map_some', plain_yields]
    constructor
    · rintro ⟨_, ⟨raw, h1, h2, rfl⟩, rfl⟩
      exact ⟨_, h1, h2, rfl⟩
    · rintro ⟨raw, h1, h2, rfl⟩
      exact ⟨raw, ⟨raw, h1, h2, rfl⟩, rfl⟩
  | .bbytes, d, t, ht, v => by
    simp only [de, Yields, attached_none, false_and, exists_false, or_false, map_some', plain_yields]
    constructor
    · rintro ⟨_, ⟨raw, h1, h2, rfl⟩, rfl⟩
      exact ⟨_, h1, h2, rfl⟩
    · rintro ⟨raw, h1, h2, rfl⟩
      exact ⟨raw, ⟨raw, h1, h2, rfl⟩, rfl⟩
  | .bytes, d, t, ht, v => by
    simp only [de, Yields, attached_none, false_and, exists_false, or_false, true_and]
    cases t with
    | str raw =>
      simp only [JTree.str.injEq, bytesTree, reduceCtorEq, false_and, and_false, exists_false, or_false, ← unescape_iff, utf8Bytes]
      cases hu : unescape raw with
      | none =>
        have : ∀ r, raw = r → unescape r = none := fun r h => h ▸ hu
        constructor
        · intro h
          cases h
          exact .inr ⟨raw, rfl, by simp [hu], rfl⟩
        · rintro (⟨_, s, rfl, h, _⟩ | ⟨_, rfl, _, rfl⟩)
          · rw [hu] at h; cases h
          · rfl
      | some s =>
        constructor
        · intro h
          cases h
          exact .inl ⟨raw, s, rfl, hu, rfl⟩
        · rintro (⟨_, s', rfl, h, rfl⟩ | ⟨_, rfl, h, _⟩)
          · rw [hu] at h; cases h; rfl
          · exact absurd hu (h s)
    | arr ts =>
      simp only [enter_some, map_some', bytesOfArr_iff (arr_written ht), reduceCtorEq, false_and, exists_false, false_or]
      constructor
      · rintro ⟨h1, b, h2, h3⟩
        exact ⟨b, h1, h2, h3⟩
      · rintro ⟨b, h1, h2, h3⟩
        exact ⟨h1, b, h2, h3⟩
    | _ => simp [bytesTree]
  | .value, d, t, ht, v => by
    simp only [de, Yields, map_some', toValue_yields x.fin t d ht, and_comm]
  | .option ty, d, t, ht, v => by
    cases t with
    | null => simp [de, Yields, eq_comm]
    | _ =>
      simp only [de, Yields, map_some', de_yields x ty d _ ht, reduceCtorEq, false_and, false_or, ne_eq, not_false_eq_true,
        true_and, and_comm]
  | .newtype ty, d, t, ht, v => by
    simp only [de, Yields]
    exact de_yields x ty d _ ht v
  | .seq ty, d, t, ht, v => by
    simp only [de, Yields]
    cases t with
    | arr ts =>
      have hno : ∀ b, ¬ Attached none d (.arr ts) b := fun b => attached_none
      simp only [enter_some, map_some', JTree.arr.injEq, hno, false_and, exists_false, or_false,
        allSome_each fun t ht' v => de_yields x ty (d - 1) t (arr_written ht t ht') v]
      constructor
      · rintro ⟨h1, vs, h2, rfl⟩
        exact ⟨ts, vs, h1, rfl, rfl, h2⟩
      · rintro ⟨_, vs, h1, rfl, rfl, h2⟩
        exact ⟨h1, vs, h2, rfl⟩
    | _ => simp [Attached]
  | .map ty, d, t, ht, v => by
    simp only [de, Yields]
    cases t with
    | obj kts =>
      have hs := smap_yields (fun kt hkt v => de_yields x ty (d - 1) kt.2 (obj_written ht kt hkt) v) v
      simp only [enter_some, JTree.obj.injEq, hs]
      constructor
      · rintro ⟨h1, w, m, h3, h4, rfl⟩
        exact ⟨kts, w, m, h1, rfl, ordinary_none kts, h3, h4, rfl⟩
      · rintro ⟨_, w, m, h1, rfl, h2, h3, h4, rfl⟩
        exact ⟨h1, w, m, h3, h4, rfl⟩
    | _ => simp
  | .imap ty, d, t, ht, v => by
    simp only [de, Yields]
    cases t with
    | obj kts =>
      have hs := imap_yields (fun kt hkt v => de_yields x ty (d - 1) kt.2 (obj_written ht kt hkt) v) v
      simp only [enter_some, JTree.obj.injEq, hs]
      constructor
      · rintro ⟨h1, w, m, h3, h4, h5, rfl⟩
        exact ⟨kts, w, m, h1, rfl, by simp, h3, h4, h5, rfl⟩
      · rintro ⟨_, w, m, h1, rfl, h2, h3, h4, h5, rfl⟩
        exact ⟨h1, w, m, h3, h4, h5, rfl⟩
    | _ => simp
  | .tuple tys, d, t, ht, v => by
    simp only [de, Yields]
    cases t with
    | arr ts =>
      have hno : ∀ b, ¬ Attached none d (.arr ts) b := fun b => attached_none
      simp only [enter_some, map_some', JTree.arr.injEq, hno, false_and, exists_false, or_false,
        deTuple_yields x tys (d - 1) ts (arr_written ht)]
      constructor
      · rintro ⟨h1, vs, h2, rfl⟩
        exact ⟨ts, vs, h1, rfl, rfl, h2⟩
      · rintro ⟨_, vs, h1, rfl, rfl, h2⟩
        exact ⟨h1, vs, h2, rfl⟩
    | _ => simp [Attached]
  | .struct fs, d, t, ht, v => by
    simp only [de, Yields]
    cases t with
    | arr ts =>
      have hno : ∀ b, ¬ Attached none d (.arr ts) b := fun b => attached_none
      simp only [enter_some, map_some', JTree.arr.injEq, hno, reduceCtorEq, false_and, and_false, exists_false, or_false,
        deSeqFields_yields x fs (d - 1) ts (arr_written ht)]
      constructor
      · rintro ⟨h1, vs, h2, rfl⟩
        exact ⟨ts, vs, h1, rfl, rfl, h2⟩
      · rintro ⟨_, vs, h1, rfl, rfl, h2⟩
        exact ⟨h1, vs, h2, rfl⟩
    | obj kts =>
      have hs := keyed_fields (v := v) fun w hw vs => deFields_yields x hw (obj_written ht) fs (d - 1) vs
      simp only [enter_some, JTree.obj.injEq, hs, attached_none, reduceCtorEq, false_and, and_false, exists_false, false_or,
        or_false]
      constructor
      · rintro ⟨h1, vs, h3, rfl, h4⟩
        exact ⟨kts, vs, h1, rfl, ordinary_none kts, h3, rfl, h4⟩
      · rintro ⟨_, vs, h1, rfl, h2, h3, rfl, h4⟩
        exact ⟨h1, vs, h3, rfl, h4⟩
    | _ => simp [Attached]
  | .enum vs, d, t, ht, v => by
    simp only [de, Yields]
    cases t with
    | str raw =>
      simp only [Option.bind_eq_some_iff, unescape_iff, unitVariant_yields, JTree.str.injEq, reduceCtorEq, false_and, and_false,
        exists_false, or_false]
      constructor
      · rintro ⟨n, h1, h2, h3⟩
        exact ⟨raw, n, rfl, h1, h2, h3⟩
      · rintro ⟨_, n, rfl, h1, h2, h3⟩
        exact ⟨n, h1, h2, h3⟩
    | obj kts =>
      match kts with
      | [] => simp
      | (k, u) :: _ :: _ => simp
      | [(k, u)] =>
        simp only [enter_some, Option.bind_eq_some_iff, map_some', unescape_iff, JTree.obj.injEq, List.cons.injEq, Prod.mk.injEq,
          and_true, reduceCtorEq, false_and, exists_false, false_or,
          deVariant_yields x vs (d - 1) _ u (obj_written ht (k, u) (by simp))]
        constructor
        · rintro ⟨h1, n, h2, w, h3, rfl⟩
          exact ⟨k, u, n, w, h1, ⟨rfl, rfl⟩, h2, rfl, h3⟩
        · rintro ⟨_, _, n, w, h1, ⟨rfl, rfl⟩, h2, rfl, h3⟩
          exact ⟨h1, n, h2, w, h3, rfl⟩
    | _ => simp
  | .wide _, d, t, ht, v | .bool, d, t, ht, v | .uint _, d, t, ht, v | .int _, d, t, ht, v | .char, d, t, ht, v
  | .float, d, t, ht, v | .unit, d, t, ht, v | .ignored, d, t, ht, v => by
    simp only [de]
    exact scalar_yields x none d ht v (by simp)
theorem deTuple_yields (x : Ext) : ∀ (tys : List Ty) (d : Nat) (ts : List JTree) (_ : ∀ t ∈ ts, Written t)
    (vs : List DVal), deTuple x d tys ts = some vs ↔ YieldsL x none d tys ts vs
  | [], d, ts, _, vs => by cases ts <;> simp [deTuple, YieldsL, eq_comm]
  | ty :: tys, d, [], _, vs => by simp [deTuple, YieldsL]
  | ty :: tys, d, t :: ts, ht, vs => by
    simp only [deTuple]
    exact consL (de_yields x ty d t (ht t (by simp))) (deTuple_yields x tys d ts fun u hu => ht u (by simp [hu]))
theorem deSeqFields_yields (x : Ext) : ∀ (fs : List (Str × Ty)) (d : Nat) (ts : List JTree) (_ : ∀ t ∈ ts, Written t)
    (vs : List DVal), deSeqFields x d fs ts = some vs ↔ YieldsF x none d fs ts vs
  | [], d, ts, _, vs => by cases ts <;> simp [deSeqFields, YieldsF, eq_comm]
  | (n, ty) :: fs, d, [], _, vs => by simp [deSeqFields, YieldsF]
  | (n, ty) :: fs, d, t :: ts, ht, vs => by
    simp only [deSeqFields]
    exact consF (de_yields x ty d t (ht t (by simp))) (deSeqFields_yields x fs d ts fun u hu => ht u (by simp [hu]))
theorem deFields_yields (x : Ext) {kts w : List (Str × JTree)} (hw : keyed kts = some w)
    (ht : ∀ kt ∈ kts, Written kt.2) : ∀ (fs : List (Str × Ty)) (d : Nat) (vs : List DVal),
    deFields x d fs w = some vs ↔ YieldsM x none d fs kts vs
  | [], d, vs => by simp [deFields, YieldsM, eq_comm]
  | (n, ty) :: fs, d, vs => by
    simp only [deFields]
    exact consM (fun v => member_yields hw (fun kt hkt v => de_yields x ty d kt.2 (ht kt hkt) v) v)
      (deFields_yields x hw ht fs d)
theorem deVariant_yields (x : Ext) : ∀ (vs : List (Str × Ty)) (d : Nat) (k : Str) (t : JTree)
    (_ : Written t) (v : DVal), deVariant x d vs k t = some v ↔ YieldsE x none d vs k t v
  | [], d, k, t, ht, v => by simp [deVariant, YieldsE]
  | (n, ty) :: vs, d, k, t, ht, v => by
    simp only [deVariant, YieldsE]
    by_cases h : n = k
    · simp only [h, if_true, true_and, ne_eq, not_true_eq_false, false_and, or_false, false_implies, and_true]
      exact de_yields x ty d t ht v
    · simp only [h, if_false, false_and, ne_eq, not_false_eq_true, true_and, false_or]
      exact deVariant_yields x vs d k t ht v
end

mutual
theorem deA_yields (x : Ext) (bs : List Bytes) : ∀ (ty : Ty) (d : Nat) (t : JTree) (_ : Written t) (v : DVal),
    deA x bs d ty t = some v ↔ Yields x (some bs) d ty t v
  | .str, d, t, ht, v => by
    simp only [deA, Yields]
    cases t with
    | str raw =>
      have : ∀ b, ¬ Attached (some bs) d (.str raw) b := fun b h => by simpa using attached_obj h
      simp [unescape_iff, this, @eq_comm _ v]
    | obj kts =>
      simp only [enter_some, attached_iff x.fin ht, reduceCtorEq, false_and, exists_false, false_or]
      cases mapView x.fin bs kts with
      | placeholder b =>
        simp only [map_some', utf8OfBytes_iff, MapView.placeholder.injEq, utf8Bytes]
        constructor
        · rintro ⟨h1, s, h2, h3⟩
          exact ⟨s, ⟨h1, h2⟩, h3⟩
        · rintro ⟨s, ⟨h1, h2⟩, h3⟩
          exact ⟨h1, s, h2, h3⟩
      | _ => simp
    | _ => simp [Attached]
  | .bstr, d, t, ht, v => by
    simp only [deA, Yields]
    cases t with
    | str raw =>
      have : ∀ b, ¬ Attached (some bs) d (.str raw) b := fun b h => by simpa using attached_obj h
      simp only [map_some', plain_yields, this, false_and, exists_false, or_false]
      constructor
      · rintro ⟨_, ⟨raw, h1, h2, rfl⟩, rfl⟩
        exact ⟨_, h1, h2, rfl⟩
      · rintro ⟨raw, h1, h2, rfl⟩
        exact ⟨raw, ⟨raw, h1, h2, rfl⟩, rfl⟩
    | obj kts =>
      simp only [enter_some, attached_iff x.fin ht, reduceCtorEq, false_and, exists_false, false_or]
      cases mapView x.fin bs kts with
      | placeholder b =>
        simp only [map_some', utf8OfBytes_iff, MapView.placeholder.injEq, utf8Bytes]
        constructor
        · rintro ⟨h1, s, h2, h3⟩
          exact ⟨s, ⟨h1, h2⟩, h3⟩
        · rintro ⟨s, ⟨h1, h2⟩, h3⟩
          exact ⟨h1, s, h2, h3⟩
      | _ => simp
    | _ => simp [unescaped, Attached]
  | .bbytes, d, t, ht, v => by
    simp only [deA, Yields]
    cases t with
    | str raw =>
      have : ∀ b, ¬ Attached (some bs) d (.str raw) b := fun b h => by simpa using attached_obj h
      simp only [map_some', plain_yields, this, false_and, exists_false, or_false]
      constructor
      · rintro ⟨_, ⟨raw, h1, h2, rfl⟩, rfl⟩
        exact ⟨_, h1, h2, rfl⟩
      · rintro ⟨raw, h1, h2, rfl⟩
        exact ⟨raw, ⟨raw, h1, h2, rfl⟩, rfl⟩
    | obj kts =>
      simp only [enter_some, attached_iff x.fin ht, reduceCtorEq, false_and, exists_false, false_or]
      cases mapView x.fin bs kts <;> simp [@eq_comm _ v, and_assoc]
    | _ => simp [unescaped, Attached]
  | .bytes, d, t, ht, v => by
    simp only [deA, Yields]
    cases t with
    | str raw =>
      have : ∀ b, ¬ Attached (some bs) d (.str raw) b := fun b h => by simpa using attached_obj h
      simp [unescape_iff, this, bytesTree, utf8Bytes, @eq_comm _ v]
    | arr ts =>
      have : ∀ b, ¬ Attached (some bs) d (.arr ts) b := fun b h => by simpa using attached_obj h
      simp only [enter_some, map_some', bytesOfArr_iff (arr_written ht), reduceCtorEq, false_and, exists_false, false_or,
        this, or_false]
      constructor
      · rintro ⟨h1, b, h2, h3⟩
        exact ⟨b, h1, h2, h3⟩
      · rintro ⟨b, h1, h2, h3⟩
        exact ⟨h1, b, h2, h3⟩
    | obj kts =>
      simp only [enter_some, attached_iff x.fin ht, reduceCtorEq, false_and, and_false, exists_false, false_or, bytesTree]
      cases mapView x.fin bs kts <;> simp [@eq_comm _ v, and_assoc]
    | _ => simp [bytesTree, Attached]
  | .value, d, t, ht, v => by
    simp only [deA, Yields, map_some', deValueA_yields x.fin bs t d ht, and_comm]
  | .option ty, d, t, ht, v => by
    cases t with
    | null => simp [deA, Yields, eq_comm]
    | _ =>
      simp only [deA, Yields, map_some', deA_yields x bs ty d _ ht, reduceCtorEq, false_and, false_or, ne_eq, not_false_eq_true,
        true_and, and_comm]
  | .newtype ty, d, t, ht, v => by
    simp only [deA, Yields]
    exact deA_yields x bs ty d _ ht v
  | .seq ty, d, t, ht, v => by
    simp only [deA, Yields]
    cases t with
    | arr ts =>
      have hno : ∀ b, ¬ Attached (some bs) d (.arr ts) b := fun b h => by simpa using attached_obj h
      simp only [enter_some, map_some', JTree.arr.injEq, hno, false_and, exists_false, or_false,
        allSome_each fun t ht' v => deA_yields x bs ty (d - 1) t (arr_written ht t ht') v]
      constructor
      · rintro ⟨h1, vs, h2, rfl⟩
        exact ⟨ts, vs, h1, rfl, rfl, h2⟩
      · rintro ⟨_, vs, h1, rfl, rfl, h2⟩
        exact ⟨h1, vs, h2, rfl⟩
    | obj kts =>
      simp only [enter_some, attached_iff x.fin ht, reduceCtorEq, false_and, and_false, exists_false, false_or]
      cases mapView x.fin bs kts with
      | placeholder b =>
        simp only [map_some', MapView.placeholder.injEq, allSome_each fun b _ v => deByte_yields ty b v]
        constructor
        · rintro ⟨h1, vs, h2, h3⟩
          exact ⟨b, vs, ⟨h1, rfl⟩, h3, h2⟩
        · rintro ⟨_, vs, ⟨h1, rfl⟩, h3, h2⟩
          exact ⟨h1, vs, h2, h3⟩
      | _ => simp
    | _ => simp [Attached]
  | .map ty, d, t, ht, v => by
    simp only [deA, Yields]
    cases t with
    | obj kts =>
      have hs := smap_yields (fun kt hkt v => deA_yields x bs ty (d - 1) kt.2 (obj_written ht kt hkt) v) v
      simp only [enter_some, JTree.obj.injEq]
      constructor
      · rintro ⟨h1, h2⟩
        split at h2
        · rename_i hm
          obtain ⟨w, m, h3, h4, rfl⟩ := hs.1 h2
          exact ⟨kts, w, m, h1, rfl, (ordinary_iff x.fin bs kts).2 hm, h3, h4, rfl⟩
        · simp at h2
      · rintro ⟨_, w, m, h1, rfl, h2, h3, h4, rfl⟩
        rw [(ordinary_iff x.fin bs kts).1 h2]
        exact ⟨h1, hs.2 ⟨w, m, h3, h4, rfl⟩⟩
    | _ => simp
  | .imap ty, d, t, ht, v => by
    simp only [deA, Yields]
    cases t with
    | obj kts =>
      cases kts with
      | nil =>
        simp only [enter_some, JTree.obj.injEq, Option.some.injEq]
        constructor
        · rintro ⟨h1, rfl⟩
          exact ⟨[], [], [], h1, rfl, fun _ => rfl, by simp [Each], by simp, by simp, rfl⟩
        · rintro ⟨_, w, m, h1, rfl, _, h2, h3, h4, rfl⟩
          cases w with
          | nil =>
            refine ⟨h1, ?_⟩
            rw [(nmap_iff [] m).2 ⟨h3, h4⟩]
            rfl
          | cons => simp [Each] at h2
      | cons kt kts =>
        simp only [JTree.obj.injEq, reduceCtorEq, false_iff]
        rintro ⟨_, w, m, h1, rfl, h, _⟩
        simp at h
    | _ => simp
  | .tuple tys, d, t, ht, v => by
    simp only [deA, Yields]
    cases t with
    | arr ts =>
      have hno : ∀ b, ¬ Attached (some bs) d (.arr ts) b := fun b h => by simpa using attached_obj h
      simp only [enter_some, map_some', JTree.arr.injEq, hno, false_and, exists_false, or_false,
        deTupleA_yields x bs tys (d - 1) ts (arr_written ht)]
      constructor
      · rintro ⟨h1, vs, h2, rfl⟩
        exact ⟨ts, vs, h1, rfl, rfl, h2⟩
      · rintro ⟨_, vs, h1, rfl, rfl, h2⟩
        exact ⟨h1, vs, h2, rfl⟩
    | obj kts =>
      simp only [enter_some, attached_iff x.fin ht, reduceCtorEq, false_and, and_false, exists_false, false_or]
      cases mapView x.fin bs kts with
      | placeholder b =>
        simp only [map_some', MapView.placeholder.injEq, deBytes_yields]
        constructor
        · rintro ⟨h1, vs, h2, h3⟩
          exact ⟨b, vs, ⟨h1, rfl⟩, h3, h2⟩
        · rintro ⟨_, vs, ⟨h1, rfl⟩, h3, h2⟩
          exact ⟨h1, vs, h2, h3⟩
      | _ => simp
    | _ => simp [Attached]
  | .struct fs, d, t, ht, v => by
    simp only [deA, Yields]
    cases t with
    | arr ts =>
      have hno : ∀ b, ¬ Attached (some bs) d (.arr ts) b := fun b h => by simpa using attached_obj h
      simp only [enter_some, map_some', JTree.arr.injEq, hno, reduceCtorEq, false_and, and_false, exists_false, or_false,
        deSeqFieldsA_yields x bs fs (d - 1) ts (arr_written ht)]
      constructor
      · rintro ⟨h1, vs, h2, rfl⟩
        exact ⟨ts, vs, h1, rfl, rfl, h2⟩
      · rintro ⟨_, vs, h1, rfl, rfl, h2⟩
        exact ⟨h1, vs, h2, rfl⟩
    | obj kts =>
      have hs := keyed_fields (v := v) fun w hw vs => deFieldsA_yields x bs hw (obj_written ht) fs (d - 1) vs
      simp only [enter_some, JTree.obj.injEq, attached_iff x.fin ht, reduceCtorEq, false_and, and_false, exists_false, false_or]
      constructor
      · rintro ⟨h1, h2⟩
        split at h2
        · simp at h2
        · rename_i b hb
          obtain ⟨vs, h3, rfl⟩ := map_some'.1 h2
          exact .inr ⟨b, vs, ⟨h1, hb⟩, rfl, (deBytes_yields _ b vs).1 h3⟩
        · rename_i hp
          obtain ⟨vs, h3, rfl, h4⟩ := hs.1 h2
          exact .inl ⟨kts, vs, h1, rfl, (ordinary_iff x.fin bs kts).2 hp, h3, rfl, h4⟩
      · rintro (⟨_, vs, h1, rfl, h2, h3, rfl, h4⟩ | ⟨b, vs, ⟨h1, hb⟩, rfl, h2⟩)
        · rw [(ordinary_iff x.fin bs kts).1 h2]
          exact ⟨h1, hs.2 ⟨vs, h3, rfl, h4⟩⟩
        · rw [hb]
          exact ⟨h1, map_some'.2 ⟨vs, (deBytes_yields _ b vs).2 h2, rfl⟩⟩
    | _ => simp [Attached]
  | .enum vs, d, t, ht, v => by
    simp only [deA, Yields]
    cases t with
    | str raw =>
      simp only [Option.bind_eq_some_iff, unescape_iff, unitVariant_yields, JTree.str.injEq, reduceCtorEq, false_and, and_false,
        exists_false, or_false]
      constructor
      · rintro ⟨n, h1, h2, h3⟩
        exact ⟨raw, n, rfl, h1, h2, h3⟩
      · rintro ⟨_, n, rfl, h1, h2, h3⟩
        exact ⟨n, h1, h2, h3⟩
    | obj kts =>
      match kts with
      | [] => simp
      | (k, u) :: _ :: _ => simp
      | [(k, u)] =>
        simp only [enter_some, Option.bind_eq_some_iff, map_some', unescape_iff, JTree.obj.injEq, List.cons.injEq, Prod.mk.injEq,
          and_true, reduceCtorEq, false_and, exists_false, false_or,
          deVariantA_yields x bs vs (d - 1) _ u (obj_written ht (k, u) (by simp))]
        constructor
        · rintro ⟨h1, n, h2, w, h3, rfl⟩
          exact ⟨k, u, n, w, h1, ⟨rfl, rfl⟩, h2, rfl, h3⟩
        · rintro ⟨_, _, n, w, h1, ⟨rfl, rfl⟩, h2, rfl, h3⟩
          exact ⟨h1, n, h2, w, h3, rfl⟩
    | _ => simp
  | .wide _, d, t, ht, v | .bool, d, t, ht, v | .uint _, d, t, ht, v | .int _, d, t, ht, v | .char, d, t, ht, v
  | .float, d, t, ht, v | .unit, d, t, ht, v | .ignored, d, t, ht, v => by
    simp only [deA]
    exact scalar_yields x (some bs) d ht v (by simp)
theorem deTupleA_yields (x : Ext) (bs : List Bytes) : ∀ (tys : List Ty) (d : Nat) (ts : List JTree) (_ : ∀ t ∈ ts, Written t)
    (vs : List DVal), deTupleA x bs d tys ts = some vs ↔ YieldsL x (some bs) d tys ts vs
  | [], d, ts, _, vs => by cases ts <;> simp [deTupleA, YieldsL, eq_comm]
  | ty :: tys, d, [], _, vs => by simp [deTupleA, YieldsL]
  | ty :: tys, d, t :: ts, ht, vs => by
    simp only [deTupleA]
    exact consL (deA_yields x bs ty d t (ht t (by simp))) (deTupleA_yields x bs tys d ts fun u hu => ht u (by simp [hu]))
theorem deSeqFieldsA_yields (x : Ext) (bs : List Bytes) : ∀ (fs : List (Str × Ty)) (d : Nat) (ts : List JTree) (_ : ∀ t ∈ ts, Written t)
    (vs : List DVal), deSeqFieldsA x bs d fs ts = some vs ↔ YieldsF x (some bs) d fs ts vs
  | [], d, ts, _, vs => by cases ts <;> simp [deSeqFieldsA, YieldsF, eq_comm]
  | (n, ty) :: fs, d, [], _, vs => by simp [deSeqFieldsA, YieldsF]
  | (n, ty) :: fs, d, t :: ts, ht, vs => by
    simp only [deSeqFieldsA]
    exact consF (deA_yields x bs ty d t (ht t (by simp))) (deSeqFieldsA_yields x bs fs d ts fun u hu => ht u (by simp [hu]))
theorem deFieldsA_yields (x : Ext) (bs : List Bytes) {kts w : List (Str × JTree)} (hw : keyed kts = some w)
    (ht : ∀ kt ∈ kts, Written kt.2) : ∀ (fs : List (Str × Ty)) (d : Nat) (vs : List DVal),
    deFieldsA x bs d fs w = some vs ↔ YieldsM x (some bs) d fs kts vs
  | [], d, vs => by simp [deFieldsA, YieldsM, eq_comm]
  | (n, ty) :: fs, d, vs => by
    simp only [deFieldsA]
    exact consM (fun v => member_yields hw (fun kt hkt v => deA_yields x bs ty d kt.2 (ht kt hkt) v) v)
      (deFieldsA_yields x bs hw ht fs d)
theorem deVariantA_yields (x : Ext) (bs : List Bytes) : ∀ (vs : List (Str × Ty)) (d : Nat) (k : Str) (t : JTree)
    (_ : Written t) (v : DVal), deVariantA x bs d vs k t = some v ↔ YieldsE x (some bs) d vs k t v
  | [], d, k, t, ht, v => by simp [deVariantA, YieldsE]
  | (n, ty) :: vs, d, k, t, ht, v => by
    simp only [deVariantA, YieldsE]
    by_cases h : n = k
    · simp only [h, if_true, true_and, ne_eq, not_true_eq_false, false_and, or_false, reduceCtorEq, not_false_eq_true,
        true_implies, ← deA_yields x bs ty d t ht v]
      cases ty with
      | tuple tys =>
        cases t with
        | arr ts => simp
        | _ => simp [deA]
      | _ => simp
    · simp only [h, if_false, false_and, ne_eq, not_false_eq_true, true_and, false_or]
      exact deVariantA_yields x bs vs d k t ht v
end

end SIO
