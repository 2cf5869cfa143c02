import Verif.Spec.Deserialize
import Verif.Lemmas.Receiver
/-
Reading a tree with attachments and reading the filled tree.
-/
namespace SIO
open Spec

theorem phKey_denotes : StrDenotes phKey phKey := (unescape_iff _ _).1 (by decide +kernel)

theorem numKey_denotes : StrDenotes numKey numKey := (unescape_iff _ _).1 (by decide +kernel)

theorem mapView_plain (fin : Str → Bool) (bs : List Bytes) {kts : List (Str × JTree)} (h : ¬ PhTree kts)
    (hk : FirstKeyPlain kts) : mapView fin bs kts = .plain := by
  cases kts with
  | nil => rfl
  | cons kt rest =>
    obtain ⟨k, t⟩ := kt
    unfold mapView
    rw [if_neg (hk k t rest rfl), if_neg]
    rintro rfl
    exact h ⟨_, List.mem_cons_self, phKey_denotes⟩

/-- The view of a usual placeholder that designates an attachment. -/
theorem mapView_usual (fin : Str → Bool) (bs : List Bytes) {kts : List (Str × JTree)} {i : Nat} {b : Bytes}
    (h : UsualPh kts) (hn : PhTreeNum kts i) (hb : bs[i]? = some b) : mapView fin bs kts = .placeholder b := by
  obtain ⟨z, l, rfl⟩ := h
  obtain ⟨pre, k, post, he, hk, hi, hp⟩ := hn
  have hl : l = decimal i := by
    cases pre with
    | nil => simp at he
    | cons p pre =>
      cases pre with
      | nil => simp at he; exact he.2.1.2
      | cons q pre => simp at he
  subst hl
  rw [mapView_ph, readNum_decimal fin hi]
  simp only [hb]

/-- A member list that is not a placeholder is never seen as one. -/
theorem mapView_not_placeholder (fin : Str → Bool) (bs : List Bytes) {kts : List (Str × JTree)} (h : ¬ PhTree kts) (b : Bytes) :
    mapView fin bs kts ≠ .placeholder b := by
  cases kts with
  | nil => simp [mapView]
  | cons kt rest =>
    obtain ⟨k, t⟩ := kt
    unfold mapView
    split
    · simp
    · rw [if_neg]
      · simp
      · rintro rfl
        exact h ⟨_, List.mem_cons_self, phKey_denotes⟩

theorem readNum_byte (fin : Str → Bool) (b : UInt8) : readNum fin (decimal b.toNat) = some (.pos b.toNat) :=
  readNum_decimal fin (Nat.lt_trans b.toNat_lt (by decide))

theorem toValues_bytes (fin : Str → Bool) (d : Nat) (b : Bytes) :
    toValues fin d (b.map fun x => .num (decimal x.toNat)) = some (b.map fun x => .num (.pos x.toNat)) := by
  induction b with
  | nil => exact toValues_nil fin d
  | cons x b ih => simp [toValues_cons, toValue_num, readNum_byte, ih]

theorem bytesOfArr_bytes (fin : Str → Bool) (b : Bytes) :
    bytesOfArr fin (b.map fun x => .num (decimal x.toNat)) = some b := by
  induction b with
  | nil => rfl
  | cons x b ih =>
    simp only [bytesOfArr] at ih
    simp [bytesOfArr, allSome, readNum_byte, ih, x.toNat_lt]

theorem scanMinus_digits {l : Str} (h : ∀ c ∈ l, c.isDigit = true) : scanMinus l = ([], l) := by
  cases l with
  | nil => rfl
  | cons c l =>
    have : c ≠ '-' := by
      rintro rfl
      exact absurd (h '-' List.mem_cons_self) (by decide)
    simp [scanMinus, this]

theorem wideOf_decimal (signed : Bool) (n : Nat) : wideOf signed (decimal n) = wideNum signed false (decimal n) := by
  rw [wideOf, scanMinus_digits (decimal_isDec n).digits]
  rfl

theorem wideNum_decimal (signed neg : Bool) (n : Nat) : wideNum signed neg (decimal n) =
    match signed, neg with
    | true, true => if n ≤ 2 ^ 127 then some (.int (-(n : Int))) else none
    | true, false => if n < 2 ^ 127 then some (.int (n : Int)) else none
    | false, true => none
    | false, false => if n < 2 ^ 128 then some (.uint n) else none := by
  have h : (decimal n).all Char.isDigit = true := List.all_eq_true.2 (decimal_isDec n).digits
  simp only [wideNum, h, if_true, decVal_decimal]
  cases signed <;> cases neg <;> rfl

theorem wideOf_byte (signed : Bool) (b : UInt8) : wideOf signed (decimal b.toNat) = deByte (.wide signed) b := by
  have h := b.toNat_lt
  rw [wideOf_decimal, wideNum_decimal]
  cases signed with
  | true => simp only [deByte]; rw [if_pos (Nat.lt_trans h (by decide))]
  | false => simp only [deByte]; rw [if_pos (Nat.lt_trans h (by decide))]

theorem de_byte (x : Ext) (d : Nat) {ty : Ty} (h : ByteElem ty) (b : UInt8) :
    de x d ty (.num (decimal b.toNat)) = deByte ty b := by
  cases ty <;>
    simp [ByteElem] at h <;> simp [de, deByte, deScalar, unescaped, wideOf_byte, readNum_byte, toValue_num, natDec_decimal]

theorem de_bytes_seq (x : Ext) (d : Nat) {ty : Ty} (h : ByteElem ty) (b : Bytes) :
    allSome (fun t => de x d ty t) (b.map fun x => .num (decimal x.toNat)) = allSome (deByte ty) b := by
  induction b with
  | nil => rfl
  | cons y b ih => simp [allSome, de_byte x d h, ih]

theorem de_bytes_tuple (x : Ext) (d : Nat) : ∀ (tys : List Ty) (b : Bytes), (∀ ty ∈ tys, ByteElem ty) →
    b.length ≤ tys.length →
    deTuple x d tys (b.map fun x => .num (decimal x.toNat)) = deBytes tys b
  | [], b, _, hl => by
    have : b = [] := by simpa using hl
    subst this; simp [deTuple, deBytes]
  | ty :: tys, [], _, _ => by simp [deTuple, deBytes]
  | ty :: tys, y :: b, h, hl => by
    have ih := de_bytes_tuple x d tys b (fun t ht => h t (List.mem_cons_of_mem _ ht)) (by simpa using hl)
    simp only [List.map_cons, deTuple, deBytes, de_byte x d (h ty List.mem_cons_self), ih]

theorem de_bytes_fields (x : Ext) (d : Nat) : ∀ (fs : List (Str × Ty)) (b : Bytes),
    (∀ ty ∈ fs.map Prod.snd, ByteElem ty) → b.length ≤ fs.length →
    deSeqFields x d fs (b.map fun x => .num (decimal x.toNat)) = deBytes (fs.map Prod.snd) b
  | [], b, _, hl => by
    have : b = [] := by simpa using hl
    subst this; simp [deSeqFields, deBytes]
  | (n, ty) :: fs, [], _, _ => by simp [deSeqFields, deBytes]
  | (n, ty) :: fs, y :: b, h, hl => by
    have ih := de_bytes_fields x d fs b (fun t ht => h t (by simp only [List.map_cons]; exact List.mem_cons_of_mem _ ht))
      (by simpa using hl)
    simp only [List.map_cons, deSeqFields, deBytes, de_byte x d (h ty (by simp)), ih]

/-! ### Dynamic values -/

theorem rawView_filled {bs : List Bytes} {kts kts' : List (Str × JTree)} (h : FilledMembers bs kts kts') :
    rawView kts' = rawView kts := by
  cases kts with
  | nil => simp only [FilledMembers] at h; rw [h]
  | cons kt rest =>
    obtain ⟨k, t⟩ := kt
    simp only [FilledMembers] at h
    obtain ⟨u, us, rfl, h1, h2⟩ := h
    simp only [rawView]
    split
    · have hr : us = [] ↔ rest = [] := by
        cases rest with
        | nil => simp only [FilledMembers] at h2; simp [h2]
        | cons a b =>
          obtain ⟨a, a'⟩ := a
          simp only [FilledMembers] at h2
          obtain ⟨_, _, rfl, _⟩ := h2
          simp
      cases t with
      | str raw =>
        simp only [FilledTree] at h1
        subst h1
        cases rest with
        | nil => rw [hr.2 rfl]
        | cons a b =>
          cases us with
          | nil => simp at hr
          | cons => rfl
      | obj kts =>
        simp only [FilledTree] at h1
        rcases h1 with ⟨_, _, _, _, _, rfl⟩ | ⟨_, _, rfl, _⟩ <;> rfl
      | arr ts =>
        simp only [FilledTree] at h1
        obtain ⟨_, rfl, _⟩ := h1
        rfl
      | null => simp only [FilledTree] at h1; rw [h1]
      | bool => simp only [FilledTree] at h1; rw [h1]
      | num => simp only [FilledTree] at h1; rw [h1]
    · rfl

mutual
theorem deValueA_filled (fin : Str → Bool) (bs : List Bytes) : ∀ (d : Nat) (t t' : JTree), UsualTree t → FilledTree bs t t' →
    deValueA fin bs d t = toValue fin d t'
  | _, .null, _, _, hf => by simp [FilledTree] at hf; subst hf; simp [deValueA]
  | _, .bool _, _, _, hf => by simp [FilledTree] at hf; subst hf; simp [deValueA]
  | _, .num _, _, _, hf => by simp [FilledTree] at hf; subst hf; simp [deValueA]
  | _, .str _, _, _, hf => by simp [FilledTree] at hf; subst hf; simp [deValueA]
  | d, .arr ts, t', hu, hf => by
    simp only [FilledTree] at hf
    obtain ⟨ts', rfl, hf⟩ := hf
    simp only [UsualTree] at hu
    rw [deValueA, toValue_arr, deValuesA_filled fin bs (d - 1) ts ts' hu hf]
  | d, .obj kts, t', hu, hf => by
    simp only [FilledTree] at hf
    simp only [UsualTree] at hu
    rcases hf with ⟨hp, i, b, hn, hb, rfl⟩ | ⟨hp, kts', rfl, hf⟩
    · rw [deValueA, mapView_usual fin bs (hu.1.1 hp) hn hb, bytesTree, toValue_arr, toValues_bytes]
      rfl
    · rw [deValueA, mapView_plain fin bs hp (hu.1.2 hp), toValue_obj, rawView_filled hf]
      simp only [deMapA_filled fin bs (d - 1) kts kts' [] (hu.2 hp) hf]
      cases rawView kts <;> rfl
theorem deValuesA_filled (fin : Str → Bool) (bs : List Bytes) : ∀ (d : Nat) (ts ts' : List JTree), UsualTrees ts →
    FilledTrees bs ts ts' → deValuesA fin bs d ts = toValues fin d ts'
  | _, [], _, _, hf => by simp [FilledTrees] at hf; subst hf; simp [deValuesA, toValues_nil]
  | d, t :: ts, _, hu, hf => by
    simp only [FilledTrees] at hf
    obtain ⟨u, us, rfl, h1, h2⟩ := hf
    simp only [UsualTrees] at hu
    rw [deValuesA, toValues_cons, deValueA_filled fin bs d t u hu.1 h1, deValuesA_filled fin bs d ts us hu.2 h2]
    cases toValue fin d u <;> rfl
theorem deMapA_filled (fin : Str → Bool) (bs : List Bytes) : ∀ (d : Nat) (ts ts' : List (Str × JTree))
    (m : List (Str × Value)), UsualMembers ts → FilledMembers bs ts ts' → deMapA fin bs d ts m = toMap fin d ts' m
  | _, [], _, _, _, hf => by simp [FilledMembers] at hf; subst hf; simp [deMapA, toMap_nil]
  | d, (k, t) :: ts, _, m, hu, hf => by
    simp only [FilledMembers] at hf
    obtain ⟨u, us, rfl, h1, h2⟩ := hf
    simp only [UsualMembers] at hu
    rw [deMapA, toMap_cons, deValueA_filled fin bs d t u hu.1 h1]
    cases unescape k with
    | none => rfl
    | some k' =>
      cases toValue fin d u with
      | none => rfl
      | some v => exact deMapA_filled fin bs d ts us _ hu.2 h2
end

/-! ### Typed targets -/

theorem allSome_filled {α : Type} (bs : List Bytes) (f g : JTree → Option α) : ∀ ts ts' : List JTree,
    FilledTrees bs ts ts' → (∀ t ∈ ts, ∀ t', FilledTree bs t t' → f t = g t') → allSome f ts = allSome g ts'
  | [], _, hf, _ => by simp [FilledTrees] at hf; subst hf; rfl
  | t :: ts, _, hf, h => by
    simp only [FilledTrees] at hf
    obtain ⟨u, us, rfl, h1, h2⟩ := hf
    rw [allSome, allSome, h t List.mem_cons_self u h1,
      allSome_filled bs f g ts us h2 fun t ht => h t (List.mem_cons_of_mem _ ht)]

theorem allSome_filledM {α : Type} (bs : List Bytes) (f g : Str × JTree → Option α) : ∀ ts ts' : List (Str × JTree),
    FilledMembers bs ts ts' → (∀ kt ∈ ts, ∀ t', FilledTree bs kt.2 t' → f kt = g (kt.1, t')) →
    allSome f ts = allSome g ts'
  | [], _, hf, _ => by simp [FilledMembers] at hf; subst hf; rfl
  | (k, t) :: ts, _, hf, h => by
    simp only [FilledMembers] at hf
    obtain ⟨u, us, rfl, h1, h2⟩ := hf
    rw [allSome, allSome, h (k, t) List.mem_cons_self u h1,
      allSome_filledM bs f g ts us h2 fun t ht => h t (List.mem_cons_of_mem _ ht)]

theorem keyed_filled (bs : List Bytes) : ∀ ts ts' : List (Str × JTree), FilledMembers bs ts ts' →
    (keyed ts = none ∧ keyed ts' = none) ∨ ∃ w w', keyed ts = some w ∧ keyed ts' = some w' ∧ FilledMembers bs w w' ∧
      ∀ kt ∈ w, ∃ raw, (raw, kt.2) ∈ ts ∧ StrDenotes raw kt.1
  | [], _, hf => by
    simp [FilledMembers] at hf; subst hf
    exact Or.inr ⟨[], [], rfl, rfl, by simp [FilledMembers], by simp⟩
  | (k, t) :: ts, _, hf => by
    simp only [FilledMembers] at hf
    obtain ⟨u, us, rfl, h1, h2⟩ := hf
    have ih := keyed_filled bs ts us h2
    simp only [keyed] at ih ⊢
    simp only [allSome]
    cases hk : unescape k with
    | none => simp
    | some k' =>
      simp only [Option.map_some]
      rcases ih with ⟨e, e'⟩ | ⟨w, w', e, e', hw, hm⟩
      · simp [e, e']
      · refine Or.inr ⟨(k', t) :: w, (k', u) :: w', by simp [e], by simp [e'], ?_, ?_⟩
        · simp only [FilledMembers]
          exact ⟨u, w', rfl, h1, hw⟩
        · intro kt hkt
          rcases List.mem_cons.1 hkt with rfl | hkt
          · exact ⟨k, List.mem_cons_self, (unescape_iff _ _).1 hk⟩
          · obtain ⟨raw, hr, hd⟩ := hm kt hkt
            exact ⟨raw, List.mem_cons_of_mem _ hr, hd⟩

theorem filter_filled (bs : List Bytes) (n : Str) : ∀ w w' : List (Str × JTree), FilledMembers bs w w' →
    FilledMembers bs (w.filter fun kt => kt.1 = n) (w'.filter fun kt => kt.1 = n)
  | [], _, hf => by simp [FilledMembers] at hf; subst hf; simp [FilledMembers]
  | (k, t) :: ts, _, hf => by
    simp only [FilledMembers] at hf
    obtain ⟨u, us, rfl, h1, h2⟩ := hf
    have ih := filter_filled bs n ts us h2
    by_cases hk : k = n
    · simp only [List.filter_cons, hk, decide_true, if_true, FilledMembers]
      exact ⟨u, _, rfl, h1, ih⟩
    · simpa only [List.filter_cons, hk, decide_false, Bool.false_eq_true, if_false] using ih

theorem two_keys {kts : List (Str × JTree)} {i : Nat} (h : PhTree kts) (hn : PhTreeNum kts i) : ∀ kt, kts ≠ [kt] := by
  rintro kt rfl
  obtain ⟨a, ha, hp⟩ := h
  obtain ⟨pre, k, post, he, hk, _, _⟩ := hn
  have : (k, JTree.num (decimal i)) ∈ [kt] := by rw [he]; simp
  simp only [List.mem_singleton] at this ha
  subst this; subst ha
  exact phKey_ne_numKey (SIO.StrDenotes.unique hp hk)

theorem ph_cons {kts : List (Str × JTree)} (h : PhTree kts) : kts ≠ [] := by
  rintro rfl
  obtain ⟨_, h, _⟩ := h
  simp at h

theorem deScalar_filled (x : Ext) (bs : List Bytes) (ty : Ty) (d : Nat) (t t' : JTree)
    (h : ty = .bool ∨ (∃ w, ty = .uint w) ∨ (∃ w, ty = .int w) ∨ ty = .float ∨ ty = .unit ∨ ty = .ignored ∨
      ty = .char ∨ ∃ w, ty = .wide w)
    (hf : FilledTree bs t t') : deA x bs d ty t = de x d ty t' := by
  cases t with
  | obj kts =>
    simp only [FilledTree] at hf
    rcases hf with ⟨_, _, _, _, _, rfl⟩ | ⟨_, _, rfl, _⟩ <;>
      rcases h with rfl | ⟨_, rfl⟩ | ⟨_, rfl⟩ | rfl | rfl | rfl | rfl | ⟨_, rfl⟩ <;> simp only [deA, de, deScalar, bytesTree]
  | arr ts =>
    simp only [FilledTree] at hf
    obtain ⟨_, rfl, _⟩ := hf
    rcases h with rfl | ⟨_, rfl⟩ | ⟨_, rfl⟩ | rfl | rfl | rfl | rfl | ⟨_, rfl⟩ <;> simp only [deA, de, deScalar]
  | _ =>
    simp only [FilledTree] at hf
    subst hf
    rcases h with rfl | ⟨_, rfl⟩ | ⟨_, rfl⟩ | rfl | rfl | rfl | rfl | ⟨_, rfl⟩ <;> simp only [deA, de]

mutual
theorem deA_filled (x : Ext) (bs : List Bytes) : ∀ (ty : Ty) (d : Nat) (t t' : JTree), Alike bs ty t →
    FilledTree bs t t' → deA x bs d ty t = de x d ty t'
  | .str, d, t, t', ha, hf => by
    simp only [Alike] at ha
    cases t with
    | obj kts =>
      simp only [FilledTree] at hf
      rcases hf with ⟨hp, _⟩ | ⟨hp, kts', rfl, hf⟩
      · exact absurd ⟨kts, rfl, hp⟩ ha
      · simp only [deA, de, enter]
        split
        · rfl
        · split
          · rename_i b h
            exact absurd h (mapView_not_placeholder x.fin bs hp b)
          · rfl
    | arr ts =>
      simp only [FilledTree] at hf
      obtain ⟨ts', rfl, hf⟩ := hf
      simp only [deA, de]
    | _ => simp only [FilledTree] at hf; subst hf; simp only [deA, de]
  | .bstr, d, t, t', ha, hf => by
    simp only [Alike] at ha
    cases t with
    | obj kts =>
      simp only [FilledTree] at hf
      rcases hf with ⟨hp, _⟩ | ⟨hp, kts', rfl, hf⟩
      · exact absurd ⟨kts, rfl, hp⟩ ha
      · simp only [deA, de, enter, unescaped, Option.map_none]
        split
        · rfl
        · split
          · rename_i b h
            exact absurd h (mapView_not_placeholder x.fin bs hp b)
          · rfl
    | arr ts =>
      simp only [FilledTree] at hf
      obtain ⟨ts', rfl, hf⟩ := hf
      simp only [deA, de, unescaped]
    | _ => simp only [FilledTree] at hf; subst hf; simp only [deA, de]
  | .bbytes, d, t, t', ha, hf => by
    simp only [Alike] at ha
    cases t with
    | obj kts =>
      simp only [FilledTree] at hf
      rcases hf with ⟨hp, _⟩ | ⟨hp, kts', rfl, hf⟩
      · exact absurd ⟨kts, rfl, hp⟩ ha
      · simp only [deA, de, enter, unescaped, Option.map_none]
        split
        · rfl
        · split
          · rename_i b h
            exact absurd h (mapView_not_placeholder x.fin bs hp b)
          · rfl
    | arr ts =>
      simp only [FilledTree] at hf
      obtain ⟨ts', rfl, hf⟩ := hf
      simp only [deA, de, unescaped]
    | _ => simp only [FilledTree] at hf; subst hf; simp only [deA, de]
  | .bytes, d, t, t', ha, hf => by
    simp only [Alike] at ha
    cases t with
    | obj kts =>
      simp only [FilledTree] at hf
      rcases hf with ⟨hp, i, b, hn, hb, rfl⟩ | ⟨hp, kts', rfl, hf⟩
      · simp only [deA, de, bytesTree, mapView_usual x.fin bs (ha hp) hn hb, bytesOfArr_bytes, Option.map_some]
      · simp only [deA, de, enter]
        split
        · rfl
        · split
          · rename_i b h
            exact absurd h (mapView_not_placeholder x.fin bs hp b)
          · rfl
    | arr ts =>
      simp only [FilledTree] at hf
      obtain ⟨ts', rfl, hf⟩ := hf
      simp only [deA, de, bytesOfArr]
      rw [allSome_filled bs _ _ ts ts' hf]
      intro t _ t' h
      cases t with
      | obj kts =>
        simp only [FilledTree] at h
        rcases h with ⟨_, _, _, _, _, rfl⟩ | ⟨_, _, rfl, _⟩ <;> rfl
      | arr ts =>
        simp only [FilledTree] at h
        obtain ⟨_, rfl, _⟩ := h
        rfl
      | _ => simp only [FilledTree] at h; subst h; rfl
    | str raw =>
      simp only [FilledTree] at hf; subst hf
      obtain ⟨s, hs⟩ := ha
      simp only [deA, de, unescape_complete hs, Option.map_some]
    | _ => simp only [FilledTree] at hf; subst hf; simp only [deA, de]
  | .value, d, t, t', ha, hf => by
    simp only [Alike] at ha
    rw [deA, de, deValueA_filled x.fin bs d t t' ha hf]
  | .option ty, d, t, t', ha, hf => by
    simp only [Alike] at ha
    have ih := deA_filled x bs ty d t t' ha hf
    cases t with
    | null => simp only [FilledTree] at hf; subst hf; simp only [deA, de]
    | obj kts =>
      simp only [FilledTree] at hf
      rcases hf with ⟨hp, i, b, hn, hb, rfl⟩ | ⟨hp, kts', rfl, hf⟩
      · simp only [bytesTree] at ih
        simp only [deA, de, bytesTree, ih]
      · simp only [deA, de, ih]
    | arr ts =>
      simp only [FilledTree] at hf
      obtain ⟨ts', rfl, hf⟩ := hf
      simp only [deA, de, ih]
    | _ => simp only [FilledTree] at hf; subst hf; simp only [deA, de, ih]
  | .newtype ty, d, t, t', ha, hf => by
    simp only [Alike] at ha
    rw [deA, de, deA_filled x bs ty d t t' ha hf]
  | .seq ty, d, t, t', ha, hf => by
    simp only [Alike] at ha
    cases t with
    | obj kts =>
      simp only [FilledTree] at hf
      rcases hf with ⟨hp, i, b, hn, hb, rfl⟩ | ⟨hp, kts', rfl, hf⟩
      · simp only [deA, de, bytesTree, mapView_usual x.fin bs (ha hp).1 hn hb, de_bytes_seq x _ (ha hp).2]
      · simp only [deA, de, enter]
        split
        · rfl
        · split
          · rename_i b h
            exact absurd h (mapView_not_placeholder x.fin bs hp b)
          · rfl
    | arr ts =>
      simp only [FilledTree] at hf
      obtain ⟨ts', rfl, hf⟩ := hf
      simp only [deA, de]
      congr 1
      funext d
      rw [allSome_filled bs _ _ ts ts' hf]
      intro t ht t' h
      exact deA_filled x bs ty d t t' (ha t ht) h
    | _ => simp only [FilledTree] at hf; subst hf; simp only [deA, de]
  | .map ty, d, t, t', ha, hf => by
    simp only [Alike] at ha
    cases t with
    | obj kts =>
      simp only [FilledTree] at hf
      rcases hf with ⟨hp, i, b, hn, hb, rfl⟩ | ⟨hp, kts', rfl, hf⟩
      · simp only [deA, de, bytesTree, mapView_usual x.fin bs (ha.1.1 hp) hn hb, enter]
        split <;> rfl
      · simp only [deA, de, mapView_plain x.fin bs hp (ha.1.2 hp)]
        congr 1
        funext d
        rcases keyed_filled bs kts kts' hf with ⟨e, e'⟩ | ⟨w, w', e, e', hw, hm⟩
        · simp only [e, e', Option.bind_none]
        · simp only [e, e', Option.bind_some]
          rw [allSome_filledM bs _ _ w w' hw]
          intro kt hkt t' h
          obtain ⟨raw, hr, _⟩ := hm kt hkt
          simp only
          rw [deA_filled x bs ty d kt.2 t' (ha.2 hp (raw, kt.2) hr) h]
    | arr ts =>
      simp only [FilledTree] at hf
      obtain ⟨ts', rfl, hf⟩ := hf
      simp only [deA, de]
    | _ => simp only [FilledTree] at hf; subst hf; simp only [deA, de]
  | .imap ty, d, t, t', ha, hf => by
    simp only [Alike] at ha
    cases t with
    | obj kts =>
      simp only [FilledTree] at hf
      rcases hf with ⟨hp, i, b, hn, hb, rfl⟩ | ⟨hp, kts', rfl, hf⟩
      · cases kts with
        | nil => exact absurd rfl (ph_cons hp)
        | cons kt kts => simp only [deA, de, bytesTree]
      · have := ha hp
        subst this
        simp only [FilledMembers] at hf
        subst hf
        simp only [deA, de, keyed, allSome]
        rfl
    | arr ts =>
      simp only [FilledTree] at hf
      obtain ⟨ts', rfl, hf⟩ := hf
      simp only [deA, de]
    | _ => simp only [FilledTree] at hf; subst hf; simp only [deA, de]
  | .tuple tys, d, t, t', ha, hf => by
    simp only [Alike] at ha
    cases t with
    | obj kts =>
      simp only [FilledTree] at hf
      rcases hf with ⟨hp, i, b, hn, hb, rfl⟩ | ⟨hp, kts', rfl, hf⟩
      · obtain ⟨hu, he, hl⟩ := ha hp
        simp only [deA, de, bytesTree, mapView_usual x.fin bs hu hn hb, de_bytes_tuple x _ tys b he (hl i b hn hb)]
      · simp only [deA, de, enter]
        split
        · rfl
        · split
          · rename_i b h
            exact absurd h (mapView_not_placeholder x.fin bs hp b)
          · rfl
    | arr ts =>
      simp only [FilledTree] at hf
      obtain ⟨ts', rfl, hf⟩ := hf
      simp only [deA, de]
      congr 1
      funext d
      rw [deTupleA_filled x bs tys d ts ts' ha hf]
    | _ => simp only [FilledTree] at hf; subst hf; simp only [deA, de]
  | .struct fs, d, t, t', ha, hf => by
    simp only [Alike] at ha
    cases t with
    | obj kts =>
      simp only [FilledTree] at hf
      rcases hf with ⟨hp, i, b, hn, hb, rfl⟩ | ⟨hp, kts', rfl, hf⟩
      · obtain ⟨hu, he, hl⟩ := ha.1 hp
        simp only [deA, de, bytesTree, mapView_usual x.fin bs hu hn hb,
          de_bytes_fields x _ fs b he (by simpa using hl i b hn hb)]
      · obtain ⟨hk, ha⟩ := ha.2 hp
        simp only [deA, de, mapView_plain x.fin bs hp hk]
        congr 1
        funext d
        rcases keyed_filled bs kts kts' hf with ⟨e, e'⟩ | ⟨w, w', e, e', hw, hm⟩
        · simp only [e, e', Option.bind_none]
        · simp only [e, e', Option.bind_some]
          rw [deFieldsA_filled x bs fs d kts w w' ha hm hw]
    | arr ts =>
      simp only [FilledTree] at hf
      obtain ⟨ts', rfl, hf⟩ := hf
      simp only [deA, de]
      congr 1
      funext d
      rw [deSeqFieldsA_filled x bs fs d ts ts' ha hf]
    | _ => simp only [FilledTree] at hf; subst hf; simp only [deA, de]
  | .enum vs, d, t, t', ha, hf => by
    simp only [Alike] at ha
    cases t with
    | obj kts =>
      simp only [FilledTree] at hf
      rcases hf with ⟨hp, i, b, hn, hb, rfl⟩ | ⟨hp, kts', rfl, hf⟩
      · have h2 := two_keys hp hn
        match kts, h2 with
        | [], _ => simp only [deA, de, bytesTree]
        | [kt], h2 => exact absurd rfl (h2 kt)
        | _ :: _ :: _, _ => simp only [deA, de, bytesTree]
      · match kts, ha, hf with
        | [], _, hf => simp only [FilledMembers] at hf; subst hf; simp only [deA, de]
        | [(k, t)], ha, hf =>
          simp only [FilledMembers] at hf
          obtain ⟨u, us, rfl, h1, rfl⟩ := hf
          simp only [deA, de]
          congr 1
          funext d
          cases hk : unescape k with
          | none => rfl
          | some k' =>
            simp only [Option.bind_some]
            rw [deVariantA_filled x bs vs d k k' t u ((unescape_iff _ _).1 hk) ha h1]
        | (_, _) :: (_, _) :: _, _, hf =>
          simp only [FilledMembers] at hf
          obtain ⟨u, us, rfl, h1, u', us', rfl, h2, h3⟩ := hf
          simp only [deA, de]
    | arr ts =>
      simp only [FilledTree] at hf
      obtain ⟨ts', rfl, hf⟩ := hf
      simp only [deA, de]
    | _ => simp only [FilledTree] at hf; subst hf; simp only [deA, de]
  | .bool, d, t, t', ha, hf => deScalar_filled x bs _ d t t' (by simp) hf
  | .uint _, d, t, t', ha, hf => deScalar_filled x bs _ d t t' (by simp) hf
  | .int _, d, t, t', ha, hf => deScalar_filled x bs _ d t t' (by simp) hf
  | .float, d, t, t', ha, hf => deScalar_filled x bs _ d t t' (by simp) hf
  | .unit, d, t, t', ha, hf => deScalar_filled x bs _ d t t' (by simp) hf
  | .ignored, d, t, t', ha, hf => deScalar_filled x bs _ d t t' (by simp) hf
  | .char, d, t, t', ha, hf => deScalar_filled x bs _ d t t' (by simp) hf
  | .wide _, d, t, t', ha, hf => deScalar_filled x bs _ d t t' (by simp) hf
theorem deTupleA_filled (x : Ext) (bs : List Bytes) : ∀ (tys : List Ty) (d : Nat) (ts ts' : List JTree), AlikeL bs tys ts →
    FilledTrees bs ts ts' → deTupleA x bs d tys ts = deTuple x d tys ts'
  | [], d, ts, ts', ha, hf => by
    cases ts with
    | nil => simp only [FilledTrees] at hf; subst hf; simp [deTupleA, deTuple]
    | cons t ts =>
      simp only [FilledTrees] at hf
      obtain ⟨u, us, rfl, _⟩ := hf
      simp [deTupleA, deTuple]
  | ty :: tys, d, ts, ts', ha, hf => by
    cases ts with
    | nil => simp only [FilledTrees] at hf; subst hf; simp [deTupleA, deTuple]
    | cons t ts =>
      simp only [FilledTrees] at hf
      obtain ⟨u, us, rfl, h1, h2⟩ := hf
      simp only [AlikeL] at ha
      simp only [deTupleA, deTuple, deA_filled x bs ty d t u ha.1 h1, deTupleA_filled x bs tys d ts us ha.2 h2]
theorem deSeqFieldsA_filled (x : Ext) (bs : List Bytes) : ∀ (fs : List (Str × Ty)) (d : Nat) (ts ts' : List JTree),
    AlikeF bs fs ts → FilledTrees bs ts ts' → deSeqFieldsA x bs d fs ts = deSeqFields x d fs ts'
  | [], d, ts, ts', ha, hf => by
    cases ts with
    | nil => simp only [FilledTrees] at hf; subst hf; simp [deSeqFieldsA, deSeqFields]
    | cons t ts =>
      simp only [FilledTrees] at hf
      obtain ⟨u, us, rfl, _⟩ := hf
      simp [deSeqFieldsA, deSeqFields]
  | (n, ty) :: fs, d, ts, ts', ha, hf => by
    cases ts with
    | nil => simp only [FilledTrees] at hf; subst hf; simp [deSeqFieldsA, deSeqFields]
    | cons t ts =>
      simp only [FilledTrees] at hf
      obtain ⟨u, us, rfl, h1, h2⟩ := hf
      simp only [AlikeF] at ha
      simp only [deSeqFieldsA, deSeqFields, deA_filled x bs ty d t u ha.1 h1, deSeqFieldsA_filled x bs fs d ts us ha.2 h2]
theorem deFieldsA_filled (x : Ext) (bs : List Bytes) : ∀ (fs : List (Str × Ty)) (d : Nat) (kts w w' : List (Str × JTree)),
    AlikeM bs fs kts → (∀ kt ∈ w, ∃ raw, (raw, kt.2) ∈ kts ∧ StrDenotes raw kt.1) → FilledMembers bs w w' →
    deFieldsA x bs d fs w = deFields x d fs w'
  | [], d, kts, w, w', ha, hm, hf => by simp [deFieldsA, deFields]
  | (n, ty) :: fs, d, kts, w, w', ha, hm, hf => by
    simp only [AlikeM] at ha
    simp only [deFieldsA, deFields, deFieldsA_filled x bs fs d kts w w' ha.2 hm hf]
    have hff := filter_filled bs n w w' hf
    have hfm : ∀ kt ∈ w.filter (fun kt => kt.1 = n), kt ∈ w ∧ kt.1 = n := by
      intro kt h
      simpa using h
    generalize w.filter (fun kt => kt.1 = n) = v at hff hfm
    generalize w'.filter (fun kt => kt.1 = n) = v' at hff
    match v, hff, hfm with
    | [], hff, _ => simp only [FilledMembers] at hff; subst hff; rfl
    | [(k, t)], hff, hfm =>
      simp only [FilledMembers] at hff
      obtain ⟨u, us, rfl, h1, rfl⟩ := hff
      obtain ⟨hw, rfl⟩ := hfm _ List.mem_cons_self
      obtain ⟨raw, hr, hd⟩ := hm _ hw
      simp only [deA_filled x bs ty d t u (ha.1 _ hr hd) h1]
    | (_, _) :: (_, _) :: _, hff, _ =>
      simp only [FilledMembers] at hff
      obtain ⟨u, us, rfl, h1, u', us', rfl, h2, h3⟩ := hff
      rfl
theorem deVariantA_filled (x : Ext) (bs : List Bytes) : ∀ (vs : List (Str × Ty)) (d : Nat) (raw k : Str) (t t' : JTree),
    StrDenotes raw k → AlikeV bs vs raw t → FilledTree bs t t' → deVariantA x bs d vs k t = deVariant x d vs k t'
  | [], d, raw, k, t, t', _, _, _ => by simp [deVariantA, deVariant]
  | (n, ty) :: vs, d, raw, k, t, t', hk, ha, hf => by
    simp only [AlikeV] at ha
    simp only [deVariantA, deVariant]
    rw [deVariantA_filled x bs vs d raw k t t' hk ha.2 hf]
    split
    · rename_i he
      subst he
      obtain ⟨h1, h2⟩ := ha.1 hk
      have ih := deA_filled x bs ty d t t' h1 hf
      split
      · rename_i tys kts
        have hp := h2 ⟨_, rfl⟩
        simp only [FilledTree] at hf
        rcases hf with ⟨h, _⟩ | ⟨_, kts', rfl, _⟩
        · exact absurd ⟨_, rfl, h⟩ hp
        · simp only [de]
      · exact ih
    · rfl
end

/-! ### Where reading stops -/

/-- A number without fraction and exponent is its integer part. -/
theorem intPart_whole {l : Str} (h : IsNum l) (h1 : '.' ∉ l) (h2 : 'e' ∉ l) (h3 : 'E' ∉ l) : intPart l = l := by
  obtain ⟨sign, int, frac, exp, rfl, hs, hi, hf, he⟩ := h
  have hf : frac = [] := by
    rcases hf with rfl | ⟨d, rfl, _⟩
    · rfl
    · simp at h1
  have he : exp = [] := by
    rcases he with rfl | ⟨e, sg, d, rfl, rfl | rfl, _⟩
    · rfl
    · simp at h2
    · simp at h3
  subst hf; subst he
  have hd := hi.digits
  have hspan : (spanDigits int).1 = int := by
    have := spanDigits_append (r := []) hd (by simp [NoDigitHead])
    simp at this
    rw [this]
  simp only [List.append_nil]
  rcases hs with rfl | rfl
  · simp only [List.nil_append, intPart, scanMinus_digits hd, hspan]
  · simp [intPart, scanMinus, hspan]

theorem readPart_whole {s : Str} : ∀ {ty : Ty} {t : JTree}, IsVal t s → WholeInt ty t → readPart ty t = t
  | .wide _, .num l, ht, h => by
    simp only [IsVal] at ht
    simp only [WholeInt] at h
    simp only [readPart, intPart_whole ht.2 h.1 h.2.1 h.2.2]
  | .option ty, t, ht, h => by
    simp only [WholeInt] at h
    simp only [readPart, readPart_whole ht h]
  | .newtype ty, t, ht, h => by
    simp only [WholeInt] at h
    simp only [readPart, readPart_whole ht h]
  | .wide _, .null, _, _ | .wide _, .bool _, _, _ | .wide _, .str _, _, _ | .wide _, .arr _, _, _ | .wide _, .obj _, _, _
  | .bool, _, _, _ | .uint _, _, _, _ | .int _, _, _, _ | .float, _, _, _ | .char, _, _, _ | .str, _, _, _ | .bytes, _, _, _
  | .bstr, _, _, _ | .bbytes, _, _, _ | .unit, _, _, _ | .ignored, _, _, _ | .value, _, _, _ | .seq _, _, _, _
  | .map _, _, _, _ | .imap _, _, _, _ | .tuple _, _, _, _ | .struct _, _, _, _ | .enum _, _, _, _ => by
    simp only [readPart]

end SIO
