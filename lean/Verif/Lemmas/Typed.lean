import Verif.Lemmas.SerText
import Verif.Lemmas.Deserialize
import Verif.Lemmas.Display
import Verif.Spec.Typed
/-
Reading back what a typed value was written as.
-/
namespace SIO
open Spec

/-! ### What typed values look like -/

theorem gives_u8 {fin : Str → Bool} {ty : Ty} {v : DVal} {n : UInt8} (h : Gives fin ty v (.u8 n)) :
    ty = .uint 8 ∧ v = .uint n.toNat := by
  cases h
  exact ⟨rfl, rfl⟩

theorem gives_uint8 {fin : Str → Bool} {v : DVal} {s : SVal} (h : Gives fin (.uint 8) v s) :
    ∃ n, s = .u8 n ∧ v = .uint n.toNat := by
  cases h with
  | byte n => exact ⟨n, rfl, rfl⟩
  | uint _ _ h => exact absurd rfl h

mutual
theorem gives_floats {fin : Str → Bool} : ∀ {ty : Ty} {v : DVal} {s : SVal}, Gives fin ty v s → s.FloatsOk
  | _, _, _, .bool _ | _, _, _, .byte _ | _, _, _, .uint .. | _, _, _, .int .. | _, _, _, .str _ | _, _, _, .bytes _
  | _, _, _, .wideInt .. | _, _, _, .wideNat .. | _, _, _, .char _
  | _, _, _, .unit | _, _, _, .valNull | _, _, _, .valBool _ | _, _, _, .valPos .. | _, _, _, .valNeg ..
  | _, _, _, .valStr _ | _, _, _, .none _ | _, _, _, .unitVariant .. => by simp [SVal.FloatsOk]
  | _, _, _, .float _ _ h _ | _, _, _, .valFloat _ h _ => by simpa [SVal.FloatsOk] using h
  | _, _, _, .valArr _ _ h | _, _, _, .seq _ _ _ h => by simpa [SVal.FloatsOk] using givesL_floats h
  | _, _, _, .valObj _ _ h _ _ | _, _, _, .map _ _ _ h _ => by simpa [SVal.FloatsOk] using givesM_floats h
  | _, _, _, .imap _ _ _ h _ => by simpa [SVal.FloatsOk] using givesI_floats h
  | _, _, _, .some _ _ _ h | _, _, _, .newtype _ _ _ h | _, _, _, .newtypeVariant _ _ _ _ _ _ h => by
    simpa [SVal.FloatsOk] using gives_floats h
  | _, _, _, .tuple _ _ _ h | _, _, _, .tupleVariant _ _ _ _ _ _ h => by
    simpa [SVal.FloatsOk] using givesT_floats h
  | _, _, _, .struct _ _ _ h _ | _, _, _, .structVariant _ _ _ _ _ _ h _ => by
    simpa [SVal.FloatsOk] using givesF_floats h
theorem givesL_floats {fin : Str → Bool} : ∀ {ty : Ty} {v : List DVal} {s : List SVal}, GivesL fin ty v s → FloatsOkL s
  | _, _, _, .nil _ => by simp [FloatsOkL]
  | _, _, _, .cons _ _ _ _ _ h1 h2 => by simp only [FloatsOkL]; exact ⟨gives_floats h1, givesL_floats h2⟩
theorem givesM_floats {fin : Str → Bool} : ∀ {ty : Ty} {v : List (Str × DVal)} {s : List (SVal × SVal)},
    GivesM fin ty v s → FloatsOkM s
  | _, _, _, .nil _ => by simp [FloatsOkM]
  | _, _, _, .cons _ _ _ _ _ _ h1 h2 => by simp only [FloatsOkM]; exact ⟨gives_floats h1, givesM_floats h2⟩
theorem givesI_floats {fin : Str → Bool} : ∀ {ty : Ty} {v : List (Nat × DVal)} {s : List (SVal × SVal)},
    GivesI fin ty v s → FloatsOkM s
  | _, _, _, .nil _ => by simp [FloatsOkM]
  | _, _, _, .cons _ _ _ _ _ _ _ h1 h2 => by simp only [FloatsOkM]; exact ⟨gives_floats h1, givesI_floats h2⟩
theorem givesT_floats {fin : Str → Bool} : ∀ {ty : List Ty} {v : List DVal} {s : List SVal}, GivesT fin ty v s → FloatsOkL s
  | _, _, _, .nil => by simp [FloatsOkL]
  | _, _, _, .cons _ _ _ _ _ _ h1 h2 => by simp only [FloatsOkL]; exact ⟨gives_floats h1, givesT_floats h2⟩
theorem givesF_floats {fin : Str → Bool} : ∀ {ty : List (Str × Ty)} {v : List DVal} {s : List (Str × SVal)},
    GivesF fin ty v s → FloatsOkF s
  | _, _, _, .nil => by simp [FloatsOkF]
  | _, _, _, .cons _ _ _ _ _ _ _ h1 h2 => by simp only [FloatsOkF]; exact ⟨gives_floats h1, givesF_floats h2⟩
end


/-! ### The members of an object with their keys -/

/-- Trees with decoded keys that denote the documents. -/
def DenK : List (Str × JTree) → List (Str × Doc) → Prop
  | [], ds => ds = []
  | (k, t) :: kts, ds => ∃ d ds', ds = (k, d) :: ds' ∧ Denotes t d ∧ DenK kts ds'

theorem keyed_den : ∀ (kts : List (Str × JTree)) (kds : List (Str × Doc)), DenotesM kts kds →
    ∃ w, keyed kts = some w ∧ DenK w kds
  | [], kds, h => by
    simp only [DenotesM] at h
    exact ⟨[], rfl, h⟩
  | (k, t) :: kts, kds, h => by
    simp only [DenotesM] at h
    obtain ⟨k', d, ds', rfl, hk, hd, hr⟩ := h
    obtain ⟨w, hw, hden⟩ := keyed_den kts ds' hr
    refine ⟨(k', t) :: w, ?_, d, ds', rfl, hd, hden⟩
    unfold keyed at hw ⊢
    simp [allSome, (unescape_iff k k').2 hk, hw]

theorem keyU64_decimal {k : Nat} (h : k < 2 ^ 64) : keyU64 (decimal k) = some k := by
  simp [keyU64, decVal_decimal, natDec_decimal, u64Bound]
  omega

theorem foldl_nmap {α : Type} : ∀ (kvs m : List (Nat × α)), (m ++ kvs).Pairwise (fun a b => a.1 < b.1) →
    kvs.foldl (fun m kv => nmapInsert kv.1 kv.2 m) m = m ++ kvs
  | [], m, _ => by simp
  | (k, v) :: kvs, m, h => by
    have hi : ∀ m : List (Nat × α), (∀ a ∈ m, a.1 < k) → nmapInsert k v m = m ++ [(k, v)] := by
      intro m
      induction m with
      | nil => intro _; rfl
      | cons a m ih =>
        intro hm
        have h1 := hm a (List.mem_cons_self ..)
        have h2 := ih fun b hb => hm b (List.mem_cons_of_mem _ hb)
        obtain ⟨k', v'⟩ := a
        have h3 : ¬ k < k' := by simp only at h1; omega
        simp only [nmapInsert, h3, if_false, if_pos h1, h2, List.cons_append]
    have hp := List.pairwise_append.1 h
    rw [List.foldl_cons, hi m fun a ha => hp.2.2 a ha (k, v) (List.mem_cons_self ..), foldl_nmap kvs]
    · simp
    · simpa using h

theorem foldl_smap {α : Type} (kvs : List (Str × α)) (h : kvs.Pairwise (fun a b => a.1 < b.1)) :
    kvs.foldl (fun m kv => mapInsert kv.1 kv.2 m) [] = kvs := by
  have hf : ∀ (w m : List (Str × α)), w.foldl (fun m kv => mapInsert kv.1 kv.2 m) m = insertAll m w := by
    intro w
    induction w with
    | nil => intro m; rfl
    | cons a w ih => intro m; exact ih _
  rw [hf, ← (isMap_iff kvs kvs).1 (isMap_self h)]

/-! ### Sequences -/

theorem givesL_allU8 {fin : Str → Bool} : ∀ {ty : Ty} {vs : List DVal} {ss : List SVal}, GivesL fin ty vs ss →
    (ty = .uint 8 → ∃ b, allU8 ss = some b ∧ vs = b.map fun x => .uint x.toNat) ∧
    (ty ≠ .uint 8 → ∀ s ∈ ss, asByte s = none)
  | _, _, _, .nil _ => ⟨fun _ => ⟨[], rfl, rfl⟩, fun _ s hs => by simp at hs⟩
  | _, _, _, .cons ty v s vs ss h1 h2 => by
    have ih := givesL_allU8 h2
    refine ⟨fun hty => ?_, fun hty s' hs' => ?_⟩
    · subst hty
      obtain ⟨n, rfl, rfl⟩ := gives_uint8 h1
      obtain ⟨b, hb, rfl⟩ := ih.1 rfl
      exact ⟨n :: b, by simp [allU8, asByte, hb], rfl⟩
    · rcases List.mem_cons.1 hs' with rfl | hm
      · cases s' <;> simp only [asByte]
        exact absurd (gives_u8 h1).1 hty
      · exact ih.2 hty s' hm

theorem docDepthL_bytes (b : Bytes) : docDepthL (byteNums b) = 0 := by
  induction b with
  | nil => rfl
  | cons x b ih => simpa [byteNums, docDepthL, docDepth] using ih

theorem plains_bytes' (b : Bytes) : plains (byteNums b) = byteNums b := by
  induction b with
  | nil => rfl
  | cons x b ih => simpa [byteNums, plains, Doc.plain] using ih

/-- A sequence of one type is a byte string or the array of its elements. -/
theorem seq_doc {fin : Str → Bool} {ty : Ty} {vs : List DVal} {ss : List SVal} (h : GivesL fin ty vs ss) :
    (∃ b, (∀ leak, docWith leak (.seq ss) = some (.blob b)) ∧ (∀ leak, docsWith leak ss = some (byteNums b)) ∧
      ty = .uint 8 ∧ vs = b.map fun x => .uint x.toNat) ∨
    ∀ leak, docWith leak (.seq ss) = (docsWith leak ss).map .arr := by
  obtain ⟨h1, h2⟩ := givesL_allU8 h
  cases ss with
  | nil => right; simp [docWith, docsWith]
  | cons s ss =>
    by_cases hty : ty = .uint 8
    · obtain ⟨b, hb, hv⟩ := h1 hty
      left
      exact ⟨b, fun leak => by simp [docWith, hb], fun leak => docsWith_u8 leak _ b hb, hty, hv⟩
    · right
      have h3 := h2 hty s (List.mem_cons_self ..)
      simp [docWith, allU8, h3]

mutual
theorem gives_doc {fin : Str → Bool} : ∀ {ty : Ty} {v : DVal} {s : SVal}, Gives fin ty v s →
    ∃ d, ∀ leak, docWith leak s = some d
  | _, _, _, .bool _ | _, _, _, .byte _ | _, _, _, .uint .. | _, _, _, .int .. | _, _, _, .str _ | _, _, _, .bytes _
  | _, _, _, .wideInt .. | _, _, _, .wideNat .. | _, _, _, .char _
  | _, _, _, .unit | _, _, _, .valNull | _, _, _, .valBool _ | _, _, _, .valPos .. | _, _, _, .valNeg ..
  | _, _, _, .valStr _ | _, _, _, .none _ | _, _, _, .unitVariant .. | _, _, _, .float .. | _, _, _, .valFloat .. =>
    ⟨_, fun _ => by rw [docWith]⟩
  | _, _, _, .valArr _ _ h | _, _, _, .seq _ _ _ h => by
    obtain ⟨ds, hds⟩ := givesL_doc h
    rcases seq_doc h with ⟨b, h1, _⟩ | h1
    · exact ⟨_, h1⟩
    · exact ⟨_, fun leak => by rw [h1 leak, hds leak]; rfl⟩
  | _, _, _, .valObj _ _ h _ _ | _, _, _, .map _ _ _ h _ => by
    obtain ⟨ds, hds⟩ := givesM_doc h
    exact ⟨_, fun leak => by rw [docWith, hds leak]; rfl⟩
  | _, _, _, .imap _ _ _ h _ => by
    obtain ⟨ds, hds⟩ := givesI_doc h
    exact ⟨_, fun leak => by rw [docWith, hds leak]; rfl⟩
  | _, _, _, .some _ _ _ h | _, _, _, .newtype _ _ _ h | _, _, _, .newtypeVariant _ _ _ _ _ _ h => by
    obtain ⟨d, hd⟩ := gives_doc h
    exact ⟨_, fun leak => by rw [docWith, hd leak]; try rfl⟩
  | _, _, _, .tuple _ _ _ h | _, _, _, .tupleVariant _ _ _ _ _ _ h => by
    obtain ⟨ds, hds⟩ := givesT_doc h
    exact ⟨_, fun leak => by rw [docWith, hds leak]; rfl⟩
  | _, _, _, .struct _ _ _ h _ | _, _, _, .structVariant _ _ _ _ _ _ h _ => by
    obtain ⟨ds, hds⟩ := givesF_doc h
    exact ⟨_, fun leak => by rw [docWith, hds leak]; rfl⟩
theorem givesL_doc {fin : Str → Bool} : ∀ {ty : Ty} {v : List DVal} {s : List SVal}, GivesL fin ty v s →
    ∃ ds, ∀ leak, docsWith leak s = some ds
  | _, _, _, .nil _ => ⟨[], fun _ => by simp [docsWith]⟩
  | _, _, _, .cons _ _ _ _ _ h1 h2 => by
    obtain ⟨d, hd⟩ := gives_doc h1
    obtain ⟨ds, hds⟩ := givesL_doc h2
    exact ⟨d :: ds, fun leak => by simp [docsWith, hd leak, hds leak]⟩
theorem givesM_doc {fin : Str → Bool} : ∀ {ty : Ty} {v : List (Str × DVal)} {s : List (SVal × SVal)},
    GivesM fin ty v s → ∃ ds, ∀ leak, entriesWith leak s = some ds
  | _, _, _, .nil _ => ⟨[], fun _ => by simp [entriesWith]⟩
  | _, _, _, .cons _ k _ _ _ _ h1 h2 => by
    obtain ⟨d, hd⟩ := gives_doc h1
    obtain ⟨ds, hds⟩ := givesM_doc h2
    exact ⟨(k, d) :: ds, fun leak => by simp [entriesWith, keyOf, hd leak, hds leak]⟩
theorem givesI_doc {fin : Str → Bool} : ∀ {ty : Ty} {v : List (Nat × DVal)} {s : List (SVal × SVal)},
    GivesI fin ty v s → ∃ ds, ∀ leak, entriesWith leak s = some ds
  | _, _, _, .nil _ => ⟨[], fun _ => by simp [entriesWith]⟩
  | _, _, _, .cons _ k _ _ _ _ _ h1 h2 => by
    obtain ⟨d, hd⟩ := gives_doc h1
    obtain ⟨ds, hds⟩ := givesI_doc h2
    exact ⟨(intText k, d) :: ds, fun leak => by simp [entriesWith, keyOf, hd leak, hds leak]⟩
theorem givesT_doc {fin : Str → Bool} : ∀ {ty : List Ty} {v : List DVal} {s : List SVal}, GivesT fin ty v s →
    ∃ ds, ∀ leak, docsWith leak s = some ds
  | _, _, _, .nil => ⟨[], fun _ => by simp [docsWith]⟩
  | _, _, _, .cons _ _ _ _ _ _ h1 h2 => by
    obtain ⟨d, hd⟩ := gives_doc h1
    obtain ⟨ds, hds⟩ := givesT_doc h2
    exact ⟨d :: ds, fun leak => by simp [docsWith, hd leak, hds leak]⟩
theorem givesF_doc {fin : Str → Bool} : ∀ {ty : List (Str × Ty)} {v : List DVal} {s : List (Str × SVal)},
    GivesF fin ty v s → ∃ ds, ∀ leak, fieldsWith leak s = some ds
  | _, _, _, .nil => ⟨[], fun _ => by simp [fieldsWith]⟩
  | _, _, _, .cons n _ _ _ _ _ _ h1 h2 => by
    obtain ⟨d, hd⟩ := gives_doc h1
    obtain ⟨ds, hds⟩ := givesF_doc h2
    exact ⟨(n, d) :: ds, fun leak => by simp [fieldsWith, hd leak, hds leak]⟩
end


/-! ### Trees that denote a given document -/

theorem den_null {t : JTree} (h : Denotes t .null) : t = .null := by cases t <;> simp_all [Denotes]
theorem den_bool {t : JTree} {b : Bool} (h : Denotes t (.bool b)) : t = .bool b := by
  cases t <;> simp_all [Denotes]
theorem den_num {t : JTree} {l : Str} (h : Denotes t (.num l)) : t = .num l := by
  cases t <;> simp_all [Denotes]
theorem den_str {t : JTree} {s : Str} (h : Denotes t (.str s)) : ∃ raw, t = .str raw ∧ unescape raw = some s := by
  cases t <;> simp_all [Denotes, unescape_iff]
theorem den_arr {t : JTree} {ds : List Doc} (h : Denotes t (.arr ds)) : ∃ ts, t = .arr ts ∧ DenotesL ts ds := by
  cases t <;> simp_all [Denotes]
theorem den_obj {t : JTree} {ds : List (Str × Doc)} (h : Denotes t (.obj ds)) : ∃ ts, t = .obj ts ∧ DenotesM ts ds := by
  cases t <;> simp_all [Denotes]
theorem den_obj1 {t : JTree} {n : Str} {d : Doc} (h : Denotes t (.obj [(n, d)])) :
    ∃ raw u, t = .obj [(raw, u)] ∧ unescape raw = some n ∧ Denotes u d := by
  obtain ⟨ts, rfl, hts⟩ := den_obj h
  cases ts with
  | nil => simp [DenotesM] at hts
  | cons a ts =>
    obtain ⟨k, u⟩ := a
    simp only [DenotesM] at hts
    obtain ⟨k', d', ds', h1, h2, h3, h4⟩ := hts
    simp at h1
    obtain ⟨⟨rfl, rfl⟩, rfl⟩ := h1
    cases ts with
    | nil => exact ⟨k, u, rfl, (unescape_iff _ _).2 h2, h3⟩
    | cons b ts => obtain ⟨k2, u2⟩ := b; simp [DenotesM] at h4
theorem den_plain_null {t : JTree} {d : Doc} (h : Denotes t d.plain) (hd : d ≠ .null) : t ≠ .null := by
  intro ht
  subst ht
  cases d <;> simp_all [Denotes, Doc.plain]

/-! ### Numbers -/

theorem int_uint (fin : Str → Bool) {w n : Nat} (hw : w ≤ 64) (h : n < 2 ^ w) :
    (readNum fin (intText n)).bind (numUint w) = some (.uint n) := by
  have h1 : n < 2 ^ 64 := Nat.lt_of_lt_of_le h (Nat.pow_le_pow_right (by decide) hw)
  have h2 : intText (n : Int) = decimal n := by simp [intText]
  simp [h2, readNum_decimal fin h1, numUint, h]

theorem readNum_neg (fin : Str → Bool) {n : Nat} (h0 : 0 < n) (h : n ≤ 2 ^ 63) :
    readNum fin (intText (-(n : Int))) = some (.neg n) := by
  have h2 : intText (-(n : Int)) = '-' :: decimal n := by
    unfold intText
    simp
    omega
  rw [h2]
  exact (readNum_iff (h2 ▸ intText_isNum _) _).2 (Or.inr (Or.inl ⟨n, rfl, h0, h, rfl⟩))

theorem int_int (fin : Str → Bool) {w : Nat} {i : Int} (hw : w ≤ 64) (h1 : - 2 ^ (w - 1) ≤ i) (h2 : i < 2 ^ (w - 1)) :
    (readNum fin (intText i)).bind (numInt w) = some (.int i) := by
  have hp : 2 ^ (w - 1) ≤ 2 ^ 63 := Nat.pow_le_pow_right (by decide) (by omega)
  have hc : ((2 : Int) ^ (w - 1)) = ((2 ^ (w - 1) : Nat) : Int) := by simp
  rw [hc] at h1 h2
  by_cases hi : 0 ≤ i
  · obtain ⟨n, rfl⟩ := Int.eq_ofNat_of_zero_le hi
    have h3 : intText (n : Int) = decimal n := by simp [intText]
    have h4 : n < 2 ^ (w - 1) := by omega
    simp [h3, readNum_decimal fin (i := n) (by omega), numInt, h4]
  · obtain ⟨n, rfl⟩ : ∃ n : Nat, i = -(n : Int) := ⟨(-i).toNat, by omega⟩
    have h4 : n ≤ 2 ^ (w - 1) := by omega
    simp [readNum_neg fin (n := n) (by omega) (by omega), numInt, h4]

/-! ### Variants -/

theorem unitVariant_lookup : ∀ (vs : List (Str × Ty)) (n : Str), vs.lookup n = some .unit →
    unitVariant vs n = some (.variant n .unit)
  | [], n, h => by simp at h
  | (m, ty) :: vs, n, h => by
    by_cases hm : m = n
    · subst hm
      simp at h
      simp [unitVariant, h]
    · have : (n == m) = false := by simpa using fun e => hm e.symm
      simp [List.lookup, this] at h
      simp [unitVariant, hm, unitVariant_lookup vs n h]

theorem deVariant_lookup (x : Ext) (k : Nat) (t : JTree) : ∀ (vs : List (Str × Ty)) (n : Str) (ty : Ty), vs.lookup n = some ty →
    deVariant x k vs n t = de x k ty t
  | [], n, ty, h => by simp at h
  | (m, ty') :: vs, n, ty, h => by
    by_cases hm : m = n
    · subst hm
      simp at h
      simp [deVariant, h]
    · have : (n == m) = false := by simpa using fun e => hm e.symm
      simp [List.lookup, this] at h
      simp [deVariant, hm, deVariant_lookup x k t vs n ty h]


/-! ### Lists of documents -/

theorem docsWith_cons {leak : Bool} {s : SVal} {ss : List SVal} {ds : List Doc} (h : docsWith leak (s :: ss) = some ds) :
    ∃ d ds', docWith leak s = some d ∧ docsWith leak ss = some ds' ∧ ds = d :: ds' := by
  rw [docsWith] at h
  split at h
  · rename_i d ds' h1 h2
    exact ⟨d, ds', h1, h2, (Option.some.inj h).symm⟩
  · exact absurd h (by simp)

theorem entriesWith_cons {leak : Bool} {k s : SVal} {ss : List (SVal × SVal)} {ds : List (Str × Doc)}
    (h : entriesWith leak ((k, s) :: ss) = some ds) :
    ∃ key d ds', keyOf k = some key ∧ docWith leak s = some d ∧ entriesWith leak ss = some ds' ∧ ds = (key, d) :: ds' := by
  rw [entriesWith] at h
  split at h
  · rename_i key d ds' h0 h1 h2
    exact ⟨key, d, ds', h0, h1, h2, (Option.some.inj h).symm⟩
  · exact absurd h (by simp)

theorem fieldsWith_cons {leak : Bool} {n : Str} {s : SVal} {ss : List (Str × SVal)} {ds : List (Str × Doc)}
    (h : fieldsWith leak ((n, s) :: ss) = some ds) :
    ∃ d ds', docWith leak s = some d ∧ fieldsWith leak ss = some ds' ∧ ds = (n, d) :: ds' := by
  rw [fieldsWith] at h
  split at h
  · rename_i d ds' h1 h2
    exact ⟨d, ds', h1, h2, (Option.some.inj h).symm⟩
  · exact absurd h (by simp)

theorem denL_cons {ts : List JTree} {d : Doc} {ds : List Doc} (h : DenotesL ts (plains (d :: ds))) :
    ∃ t ts', ts = t :: ts' ∧ Denotes t d.plain ∧ DenotesL ts' (plains ds) := by
  cases ts with
  | nil => simp [DenotesL, plains] at h
  | cons t ts =>
    simp only [DenotesL, plains] at h
    obtain ⟨d', ds', h1, h2, h3⟩ := h
    simp at h1
    obtain ⟨rfl, rfl⟩ := h1
    exact ⟨t, ts, rfl, h2, h3⟩

theorem denK_nil {ts : List (Str × JTree)} (h : DenK ts (plainMs [])) : ts = [] := by
  cases ts with
  | nil => rfl
  | cons a ts => simp [DenK, plainMs] at h

theorem denK_cons {ts : List (Str × JTree)} {k : Str} {d : Doc} {ds : List (Str × Doc)}
    (h : DenK ts (plainMs ((k, d) :: ds))) :
    ∃ t ts', ts = (k, t) :: ts' ∧ Denotes t d.plain ∧ DenK ts' (plainMs ds) := by
  cases ts with
  | nil => simp [DenK, plainMs] at h
  | cons a ts =>
    obtain ⟨k', t⟩ := a
    simp only [DenK, plainMs] at h
    obtain ⟨d', ds', h1, h2, h3⟩ := h
    simp at h1
    obtain ⟨⟨rfl, rfl⟩, rfl⟩ := h1
    exact ⟨t, ts, rfl, h2, h3⟩

theorem denK_keys : ∀ {ts : List (Str × JTree)} {ds : List (Str × Doc)}, DenK ts ds → ts.map Prod.fst = ds.map Prod.fst
  | [], ds, h => by simp [DenK] at h; simp [h]
  | (k, t) :: ts, ds, h => by
    simp only [DenK] at h
    obtain ⟨d, ds', rfl, _, h2⟩ := h
    simp [denK_keys h2]

theorem plainMs_keys : ∀ ds : List (Str × Doc), (plainMs ds).map Prod.fst = ds.map Prod.fst
  | [] => rfl
  | (k, d) :: ds => by simp [plainMs, plainMs_keys ds]

theorem fields_keys {fin : Str → Bool} : ∀ {fs : List (Str × Ty)} {vs : List DVal} {ss : List (Str × SVal)},
    GivesF fin fs vs ss → ∀ {leak : Bool} {ds : List (Str × Doc)}, fieldsWith leak ss = some ds →
    ds.map Prod.fst = fs.map Prod.fst
  | _, _, _, .nil, leak, ds, h => by simp [fieldsWith] at h; simp [h]
  | _, _, _, .cons n ty fs v s vs ss h1 h2, leak, ds, h => by
    obtain ⟨d, ds', _, h4, rfl⟩ := fieldsWith_cons h
    simp [fields_keys h2 h4]

theorem denotes_bytes : ∀ {ts : List JTree} {b : Bytes}, DenotesL ts (byteNums b) →
    ts = b.map fun x => .num (decimal x.toNat)
  | ts, [], h => by rw [denotesL_nil_left h]; rfl
  | [], x :: b, h => by simp [DenotesL, byteNums] at h
  | t :: ts, x :: b, h => by
    simp only [DenotesL, byteNums, List.map_cons] at h
    obtain ⟨d', ds', h1, h2, h3⟩ := h
    simp at h1
    obtain ⟨rfl, rfl⟩ := h1
    rw [den_num h2, denotes_bytes (ts := ts) (b := b) h3]
    rfl

theorem seq_plain {fin : Str → Bool} {ty : Ty} {vs : List DVal} {ss : List SVal} {d : Doc} (h : GivesL fin ty vs ss)
    (hd : docOf (.seq ss) = some d) :
    ∃ ds, docsWith false ss = some ds ∧ d.plain = .arr (plains ds) ∧ docDepth d = docDepthL ds + 1 := by
  rcases seq_doc h with ⟨b, h1, h2, _⟩ | h1
  · rw [docOf, h1] at hd
    cases hd
    exact ⟨_, h2 false, by simp [Doc.plain, plains_bytes'], by simp [docDepth, docDepthL_bytes]⟩
  · rw [docOf, h1] at hd
    simp at hd
    obtain ⟨ds, h2, rfl⟩ := hd
    exact ⟨ds, h2, by simp [Doc.plain], by simp [docDepth]⟩

/-! ### Reading a plain text -/

theorem allSome_cons {α β : Type} {f : α → Option β} {a : α} {as : List α} {b : β} {bs : List β} (h : f a = some b)
    (hs : allSome f as = some bs) : allSome f (a :: as) = some (b :: bs) := by simp [allSome, h, hs]

theorem allSome_inv {α β : Type} {f : α → Option β} {a : α} {as : List α} {bs : List β}
    (h : allSome f (a :: as) = some bs) : ∃ b bs', f a = some b ∧ allSome f as = some bs' ∧ bs = b :: bs' := by
  simp only [allSome] at h
  split at h
  · exact absurd h (by simp)
  · rename_i b hb
    simp at h
    obtain ⟨bs', h1, rfl⟩ := h
    exact ⟨b, bs', hb, h1, rfl⟩

theorem allSome_value (fin : Str → Bool) (k : Nat) (x : Ext) (hx : x.fin = fin) : ∀ (ts : List JTree) (vs : List Value),
    allSome (fun t => de x k .value t) ts = some (vs.map .value) → toValues fin k ts = some vs
  | [], vs, h => by
    cases vs with
    | nil => simp [toValues_nil]
    | cons v vs => simp [allSome] at h
  | t :: ts, vs, h => by
    obtain ⟨v, vs', h1, h2, h3⟩ := allSome_inv h
    cases vs with
    | nil => simp at h3
    | cons w vs =>
      simp at h3
      obtain ⟨rfl, rfl⟩ := h3
      simp [de, hx] at h1
      simp [toValues_cons, h1, allSome_value fin k x hx ts vs h2]

theorem allSome_valueM (fin : Str → Bool) (k : Nat) (x : Ext) (hx : x.fin = fin) : ∀ (kts w : List (Str × JTree))
    (vs m : List (Str × Value)), keyed kts = some w →
    allSome (fun kt => (de x k .value kt.2).map fun v => (kt.1, v)) w = some (vs.map fun kv => (kv.1, .value kv.2)) →
    toMap fin k kts m = some (insertAll m vs)
  | [], w, vs, m, hk, h => by
    simp [keyed, allSome] at hk
    subst hk
    cases vs with
    | nil => simp [toMap_nil, insertAll]
    | cons v vs => simp [allSome] at h
  | (raw, t) :: kts, w, vs, m, hk, h => by
    obtain ⟨a, w', h1, h2, rfl⟩ := allSome_inv hk
    simp at h1
    obtain ⟨key, hu, rfl⟩ := h1
    obtain ⟨v, vs', h3, h4, h5⟩ := allSome_inv h
    cases vs with
    | nil => simp at h5
    | cons u vs =>
      simp at h5
      obtain ⟨rfl, rfl⟩ := h5
      simp [de, hx] at h3
      simp [toMap_cons, hu, h3, insertAll, allSome_valueM fin k x hx kts w' vs _ h2 h4]

theorem rawView_keyed {f : JTree → Option DVal} {kts w : List (Str × JTree)} {kvs : List (Str × Value)} (hk : keyed kts = some w)
    (h : allSome (fun kt => (f kt.2).map fun v => (kt.1, v)) w = some (kvs.map fun kv => (kv.1, .value kv.2)))
    (hr : ¬ StartsRaw kvs) : rawView kts = .plain := by
  cases kts with
  | nil => rfl
  | cons kt kts =>
    obtain ⟨raw, t⟩ := kt
    obtain ⟨a, w', h1, h2, rfl⟩ := allSome_inv hk
    simp at h1
    obtain ⟨key, hu, rfl⟩ := h1
    obtain ⟨v, vs', h3, h4, h5⟩ := allSome_inv h
    cases kvs with
    | nil => simp at h5
    | cons u vs =>
      simp at h5
      obtain ⟨rfl, rfl⟩ := h5
      simp at h3
      obtain ⟨_, _, rfl, _⟩ := h3
      have : u.1 ≠ rawKey := by
        obtain ⟨k, u⟩ := u
        unfold rawKey
        exact mt (startsRaw_cons k u vs).2 hr
      simp only [rawView, hu, Option.some.injEq, this, if_false]

theorem wide_int {i : Int} (h : InWide true i) : wideOf true (intText i) = some (.int i) := by
  simp only [InWide, if_true] at h
  by_cases hi : i < 0
  · have h1 : intText i = '-' :: decimal i.natAbs := by simp [intText, hi]
    have h2 : i.natAbs ≤ 2 ^ 127 := by omega
    rw [h1, wideOf]
    simp only [scanMinus, if_true]
    rw [show (decide (['-'] ≠ ([] : Str))) = true from rfl, wideNum_decimal]
    simp only [h2, if_true]
    congr 2
    omega
  · have h1 : intText i = decimal i.natAbs := by simp [intText, hi]
    have h2 : i.natAbs < 2 ^ 127 := by omega
    rw [h1, wideOf_decimal, wideNum_decimal]
    simp only [h2, if_true]
    congr 2
    omega

theorem wide_nat {n : Nat} (h : InWide false n) : wideOf false (intText n) = some (.uint n) := by
  simp only [InWide, Bool.false_eq_true, if_false] at h
  have h1 : intText n = decimal n := by
    have : ¬ (n : Int) < 0 := by omega
    simp [intText, this]
  have h2 : n < 2 ^ 128 := by omega
  rw [h1, wideOf_decimal, wideNum_decimal]
  simp only [h2, if_true]

mutual
theorem de_gives (x : Ext) : ∀ {ty : Ty} {v : DVal} {s : SVal}, Gives x.fin ty v s → ∀ (d : Doc) (k : Nat) (t : JTree),
    s.NoSomeNull → docOf s = some d → Denotes t d.plain → docDepth d < k → de x k ty t = some v
  | _, _, _, .bool _, d, k, t, hn, hd, ht, hk => by
    simp [docOf, docWith] at hd
    subst hd
    rw [den_bool ht]
    simp [de, deScalar]
  | _, _, _, .byte n, d, k, t, hn, hd, ht, hk => by
    simp [docOf, docWith] at hd
    subst hd
    rw [den_num ht]
    have := n.toNat_lt
    simp [de, deScalar, readNum_byte, numUint, this]
  | _, _, _, .uint w n _ hw h, d, k, t, hn, hd, ht, hk => by
    simp [docOf, docWith] at hd
    subst hd
    rw [den_num ht]
    simp only [de, deScalar, int_uint x.fin hw h]
  | _, _, _, .int w i hw h1 h2, d, k, t, hn, hd, ht, hk => by
    simp [docOf, docWith] at hd
    subst hd
    rw [den_num ht]
    simp only [de, deScalar, int_int x.fin hw h1 h2]
  | _, _, _, .wideInt i h _, d, k, t, hn, hd, ht, hk => by
    simp [docOf, docWith] at hd
    subst hd
    rw [den_num ht]
    simp only [de, deScalar, wide_int h]
  | _, _, _, .wideNat i h _, d, k, t, hn, hd, ht, hk => by
    simp [docOf, docWith] at hd
    subst hd
    rw [den_num ht]
    simp only [de, deScalar, wide_nat h]
  | _, _, _, .char c, d, k, t, hn, hd, ht, hk => by
    simp [docOf, docWith] at hd
    subst hd
    obtain ⟨raw, rfl, hr⟩ := den_str ht
    simp [de, deScalar, hr, oneChar]
  | _, _, _, .float l n h1 h2, d, k, t, hn, hd, ht, hk => by
    simp [docOf, docWith] at hd
    subst hd
    rw [den_num ht]
    simp [de, deScalar, (readNum_iff h1 n).2 h2]
  | _, _, _, .str s, d, k, t, hn, hd, ht, hk => by
    simp [docOf, docWith] at hd
    subst hd
    obtain ⟨raw, rfl, hr⟩ := den_str ht
    simp [de, hr]
  | _, _, _, .bytes b, d, k, t, hn, hd, ht, hk => by
    simp [docOf, docWith] at hd
    subst hd
    obtain ⟨ts, rfl, hts⟩ := den_arr ht
    have h1 : ¬ k ≤ 1 := by simp [docDepth] at hk; omega
    simp [de, enter, h1, denotes_bytes hts, bytesOfArr_bytes]
  | _, _, _, .unit, d, k, t, hn, hd, ht, hk => by
    simp [docOf, docWith] at hd
    subst hd
    rw [den_null ht]
    simp [de, deScalar]
  | _, _, _, .valNull, d, k, t, hn, hd, ht, hk => by
    simp [docOf, docWith] at hd
    subst hd
    rw [den_null ht]
    simp [de, toValue_null]
  | _, _, _, .valBool _, d, k, t, hn, hd, ht, hk => by
    simp [docOf, docWith] at hd
    subst hd
    rw [den_bool ht]
    simp [de, toValue_bool]
  | _, _, _, .valPos n h, d, k, t, hn, hd, ht, hk => by
    simp [docOf, docWith] at hd
    subst hd
    rw [den_num ht]
    have h2 : intText (n : Int) = decimal n := by simp [intText]
    simp [de, toValue_num, h2, readNum_decimal x.fin h]
  | _, _, _, .valNeg n h0 h, d, k, t, hn, hd, ht, hk => by
    simp [docOf, docWith] at hd
    subst hd
    rw [den_num ht]
    simp [de, toValue_num, readNum_neg x.fin h0 h]
  | _, _, _, .valFloat l h1 h2, d, k, t, hn, hd, ht, hk => by
    simp [docOf, docWith] at hd
    subst hd
    rw [den_num ht]
    simp [de, toValue_num, (readNum_iff h1 _).2 h2]
  | _, _, _, .valStr s, d, k, t, hn, hd, ht, hk => by
    simp [docOf, docWith] at hd
    subst hd
    obtain ⟨raw, rfl, hr⟩ := den_str ht
    simp [de, toValue_str, hr]
  | _, _, _, .valArr vs ss h, d, k, t, hn, hd, ht, hk => by
    obtain ⟨ds, h1, h2, h3⟩ := seq_plain h hd
    rw [h2] at ht
    obtain ⟨ts, rfl, hts⟩ := den_arr ht
    have h4 : ¬ k ≤ 1 := by omega
    have := deL_gives x h ds (k - 1) ts hn h1 hts (by omega)
    simp [de, toValue_arr, h4, allSome_value x.fin (k - 1) x rfl ts vs this]
  | _, _, _, .valObj kvs ss h hp hr, d, k, t, hn, hd, ht, hk => by
    simp [docOf, docWith] at hd
    obtain ⟨ds, h1, rfl⟩ := hd
    obtain ⟨ts, rfl, hts⟩ := den_obj ht
    obtain ⟨w, hw, hden⟩ := keyed_den _ _ hts
    have h4 : ¬ k ≤ 1 := by simp [docDepth] at hk; omega
    have := deM_gives x h ds (k - 1) w hn h1 hden (by simp [docDepth] at hk; omega)
    simp [de, toValue_obj, h4, rawView_keyed hw this hr, allSome_valueM x.fin (k - 1) x rfl ts w kvs [] hw this, ← (isMap_iff kvs kvs).1 (isMap_self hp)]
  | _, _, _, .none _, d, k, t, hn, hd, ht, hk => by
    simp [docOf, docWith] at hd
    subst hd
    rw [den_null ht]
    simp [de]
  | _, _, _, .some ty v s h, d, k, t, hn, hd, ht, hk => by
    simp only [SVal.NoSomeNull] at hn
    simp only [docOf, docWith] at hd
    have h1 : d ≠ .null := fun e => hn.1 (by rw [docOf, hd, e])
    have h2 := den_plain_null ht h1
    have h3 := de_gives x h d k t hn.2 hd ht hk
    cases t <;> simp_all [de]
  | _, _, _, .newtype ty v s h, d, k, t, hn, hd, ht, hk => by
    simp only [docOf, docWith] at hd
    rw [de]
    exact de_gives x h d k t hn hd ht hk
  | _, _, _, .seq ty vs ss h, d, k, t, hn, hd, ht, hk => by
    obtain ⟨ds, h1, h2, h3⟩ := seq_plain h hd
    rw [h2] at ht
    obtain ⟨ts, rfl, hts⟩ := den_arr ht
    have h4 : ¬ k ≤ 1 := by omega
    have := deL_gives x h ds (k - 1) ts hn h1 hts (by omega)
    simp [de, enter, h4, this]
  | _, _, _, .map ty kvs ss h hp, d, k, t, hn, hd, ht, hk => by
    simp [docOf, docWith] at hd
    obtain ⟨ds, h1, rfl⟩ := hd
    obtain ⟨ts, rfl, hts⟩ := den_obj ht
    obtain ⟨w, hw, hden⟩ := keyed_den _ _ hts
    have h4 : ¬ k ≤ 1 := by simp [docDepth] at hk; omega
    have := deM_gives x h ds (k - 1) w hn h1 hden (by simp [docDepth] at hk; omega)
    simp [de, enter, h4, hw, this, foldl_smap kvs hp]
  | _, _, _, .imap ty kvs ss h hp, d, k, t, hn, hd, ht, hk => by
    simp [docOf, docWith] at hd
    obtain ⟨ds, h1, rfl⟩ := hd
    obtain ⟨ts, rfl, hts⟩ := den_obj ht
    obtain ⟨w, hw, hden⟩ := keyed_den _ _ hts
    have h4 : ¬ k ≤ 1 := by simp [docDepth] at hk; omega
    have := deI_gives x h ds (k - 1) w hn h1 hden (by simp [docDepth] at hk; omega)
    simp [de, enter, h4, hw, this, foldl_nmap kvs [] (by simpa using hp)]
  | _, _, _, .tuple tys vs ss h, d, k, t, hn, hd, ht, hk => by
    simp [docOf, docWith] at hd
    obtain ⟨ds, h1, rfl⟩ := hd
    obtain ⟨ts, rfl, hts⟩ := den_arr ht
    have h4 : ¬ k ≤ 1 := by simp [docDepth] at hk; omega
    have := deT_gives x h ds (k - 1) ts hn h1 hts (by simp [docDepth] at hk; omega)
    simp [de, enter, h4, this]
  | _, _, _, .struct fs vs ss h hu, d, k, t, hn, hd, ht, hk => by
    simp [docOf, docWith] at hd
    obtain ⟨ds, h1, rfl⟩ := hd
    obtain ⟨ts, rfl, hts⟩ := den_obj ht
    obtain ⟨w, hw, hden⟩ := keyed_den _ _ hts
    have h4 : ¬ k ≤ 1 := by simp [docDepth] at hk; omega
    have := deF_gives x h ds (k - 1) w w hu hn h1 hden (by simp [docDepth] at hk; omega) fun _ _ => rfl
    simp [de, enter, h4, hw, this]
  | _, _, _, .unitVariant vs n h, d, k, t, hn, hd, ht, hk => by
    simp [docOf, docWith] at hd
    subst hd
    obtain ⟨raw, rfl, hr⟩ := den_str ht
    simp [de, hr, unitVariant_lookup vs n h]
  | _, _, _, .newtypeVariant vs n ty v s hl h, d, k, t, hn, hd, ht, hk => by
    simp [docOf, docWith] at hd
    obtain ⟨d', h1, rfl⟩ := hd
    simp only [Doc.plain, plainMs] at ht
    obtain ⟨raw, u, rfl, h2, h3⟩ := den_obj1 ht
    have h4 : ¬ k ≤ 1 := by simp [docDepth, docDepthM] at hk; omega
    have := de_gives x h d' (k - 1) u hn h1 h3 (by simp [docDepth, docDepthM] at hk; omega)
    simp [de, enter, h4, h2, deVariant_lookup x (k - 1) u vs n _ hl, this]
  | _, _, _, .tupleVariant vs n tys v s hl h, d, k, t, hn, hd, ht, hk => by
    simp [docOf, docWith] at hd
    obtain ⟨ds, h1, rfl⟩ := hd
    simp only [Doc.plain, plainMs] at ht
    obtain ⟨raw, u, rfl, h2, h3⟩ := den_obj1 ht
    obtain ⟨ts, rfl, hts⟩ := den_arr h3
    have h4 : ¬ k ≤ 1 := by simp [docDepth, docDepthM] at hk; omega
    have h5 : ¬ k - 1 ≤ 1 := by simp [docDepth, docDepthM] at hk; omega
    have := deT_gives x h ds (k - 1 - 1) ts hn h1 hts (by simp [docDepth, docDepthM] at hk; omega)
    simp only [de, enter, h4, h5, h2, deVariant_lookup x (k - 1) _ vs n _ hl, this, if_false, Option.map, Option.bind]
  | _, _, _, .structVariant vs n fs v s hl h hu, d, k, t, hn, hd, ht, hk => by
    simp [docOf, docWith] at hd
    obtain ⟨ds, h1, rfl⟩ := hd
    simp only [Doc.plain, plainMs] at ht
    obtain ⟨raw, u, rfl, h2, h3⟩ := den_obj1 ht
    obtain ⟨ts, rfl, hts⟩ := den_obj h3
    obtain ⟨w, hw, hden⟩ := keyed_den _ _ hts
    have h4 : ¬ k ≤ 1 := by simp [docDepth, docDepthM] at hk; omega
    have h5 : ¬ k - 1 ≤ 1 := by simp [docDepth, docDepthM] at hk; omega
    have := deF_gives x h ds (k - 1 - 1) w w hu hn h1 hden (by simp [docDepth, docDepthM] at hk; omega) fun _ _ => rfl
    simp only [de, enter, h4, h5, h2, deVariant_lookup x (k - 1) _ vs n _ hl, this, hw, if_false, Option.map, Option.bind]
theorem deL_gives (x : Ext) : ∀ {ty : Ty} {vs : List DVal} {ss : List SVal}, GivesL x.fin ty vs ss →
    ∀ (ds : List Doc) (k : Nat) (ts : List JTree), NoSomeNullL ss → docsWith false ss = some ds →
    DenotesL ts (plains ds) → docDepthL ds < k → allSome (fun t => de x k ty t) ts = some vs
  | _, _, _, .nil _, ds, k, ts, hn, hd, ht, hk => by
    simp [docsWith] at hd
    subst hd
    rw [denotesL_nil_left ht]
    rfl
  | _, _, _, .cons ty v s vs ss h1 h2, ds, k, ts, hn, hd, ht, hk => by
    obtain ⟨d, ds', h3, h4, rfl⟩ := docsWith_cons hd
    obtain ⟨t, ts', rfl, h5, h6⟩ := denL_cons ht
    simp only [NoSomeNullL] at hn
    simp only [docDepthL] at hk
    simp only [allSome, de_gives x h1 d k t hn.1 h3 h5 (by omega), deL_gives x h2 ds' k ts' hn.2 h4 h6 (by omega), Option.map]
theorem deM_gives (x : Ext) : ∀ {ty : Ty} {vs : List (Str × DVal)} {ss : List (SVal × SVal)}, GivesM x.fin ty vs ss →
    ∀ (ds : List (Str × Doc)) (k : Nat) (ts : List (Str × JTree)), NoSomeNullM ss → entriesWith false ss = some ds →
    DenK ts (plainMs ds) → docDepthM ds < k → allSome (fun kt => (de x k ty kt.2).map fun v => (kt.1, v)) ts = some vs
  | _, _, _, .nil _, ds, k, ts, hn, hd, ht, hk => by
    simp [entriesWith] at hd
    subst hd
    rw [denK_nil ht]
    rfl
  | _, _, _, .cons ty key v s vs ss h1 h2, ds, k, ts, hn, hd, ht, hk => by
    obtain ⟨key', d, ds', h0, h3, h4, rfl⟩ := entriesWith_cons hd
    obtain ⟨t, ts', rfl, h5, h6⟩ := denK_cons ht
    simp [keyOf] at h0
    subst h0
    simp only [NoSomeNullM] at hn
    simp only [docDepthM] at hk
    exact allSome_cons (by simp [de_gives x h1 d k t hn.1 h3 h5 (by omega)]) (deM_gives x h2 ds' k ts' hn.2 h4 h6 (by omega))
theorem deI_gives (x : Ext) : ∀ {ty : Ty} {vs : List (Nat × DVal)} {ss : List (SVal × SVal)}, GivesI x.fin ty vs ss →
    ∀ (ds : List (Str × Doc)) (k : Nat) (ts : List (Str × JTree)), NoSomeNullM ss → entriesWith false ss = some ds →
    DenK ts (plainMs ds) → docDepthM ds < k →
    allSome (fun kt => (keyU64 kt.1).bind fun key => (de x k ty kt.2).map fun v => (key, v)) ts = some vs
  | _, _, _, .nil _, ds, k, ts, hn, hd, ht, hk => by
    simp [entriesWith] at hd
    subst hd
    rw [denK_nil ht]
    rfl
  | _, _, _, .cons ty key v s vs ss hkey h1 h2, ds, k, ts, hn, hd, ht, hk => by
    obtain ⟨key', d, ds', h0, h3, h4, rfl⟩ := entriesWith_cons hd
    obtain ⟨t, ts', rfl, h5, h6⟩ := denK_cons ht
    have h7 : key' = decimal key := by
      simp [keyOf] at h0
      rw [← h0]
      simp [intText]
    subst h7
    simp only [NoSomeNullM] at hn
    simp only [docDepthM] at hk
    exact allSome_cons (by simp [keyU64_decimal hkey, de_gives x h1 d k t hn.1 h3 h5 (by omega)])
      (deI_gives x h2 ds' k ts' hn.2 h4 h6 (by omega))
theorem deT_gives (x : Ext) : ∀ {tys : List Ty} {vs : List DVal} {ss : List SVal}, GivesT x.fin tys vs ss →
    ∀ (ds : List Doc) (k : Nat) (ts : List JTree), NoSomeNullL ss → docsWith false ss = some ds →
    DenotesL ts (plains ds) → docDepthL ds < k → deTuple x k tys ts = some vs
  | _, _, _, .nil, ds, k, ts, hn, hd, ht, hk => by
    simp [docsWith] at hd
    subst hd
    rw [denotesL_nil_left ht]
    simp [deTuple]
  | _, _, _, .cons ty tys v s vs ss h1 h2, ds, k, ts, hn, hd, ht, hk => by
    obtain ⟨d, ds', h3, h4, rfl⟩ := docsWith_cons hd
    obtain ⟨t, ts', rfl, h5, h6⟩ := denL_cons ht
    simp only [NoSomeNullL] at hn
    simp only [docDepthL] at hk
    simp only [deTuple, de_gives x h1 d k t hn.1 h3 h5 (by omega), deT_gives x h2 ds' k ts' hn.2 h4 h6 (by omega), Option.map]
theorem deF_gives (x : Ext) : ∀ {fs : List (Str × Ty)} {vs : List DVal} {ss : List (Str × SVal)}, GivesF x.fin fs vs ss →
    ∀ (ds : List (Str × Doc)) (k : Nat) (ts w : List (Str × JTree)), (fs.map Prod.fst).Nodup → NoSomeNullF ss →
    fieldsWith false ss = some ds → DenK ts (plainMs ds) → docDepthM ds < k →
    (∀ n ∈ fs.map Prod.fst, w.filter (fun kt => kt.1 = n) = ts.filter (fun kt => kt.1 = n)) → deFields x k fs w = some vs
  | _, _, _, .nil, ds, k, ts, w, hu, hn, hd, ht, hk, hw => by simp [deFields]
  | _, _, _, .cons n ty fs v s vs ss h1 h2, ds, k, ts, w, hu, hn, hd, ht, hk, hw => by
    obtain ⟨d, ds', h3, h4, rfl⟩ := fieldsWith_cons hd
    obtain ⟨t, ts', rfl, h5, h6⟩ := denK_cons ht
    simp only [NoSomeNullF] at hn
    simp only [docDepthM] at hk
    simp only [List.map_cons, List.nodup_cons] at hu
    have h7 : w.filter (fun kt => kt.1 = n) = [(n, t)] := by
      rw [hw n (by simp)]
      have : ts'.filter (fun kt => kt.1 = n) = [] := by
        rw [List.filter_eq_nil_iff]
        intro a ha
        have := denK_keys h6
        have hm : a.1 ∈ ts'.map Prod.fst := List.mem_map_of_mem ha
        rw [this, plainMs_keys, fields_keys h2 h4] at hm
        simp only [decide_eq_true_eq]
        rintro rfl
        exact hu.1 hm
      simp [this]
    have h8 := deF_gives x h2 ds' k ts' w hu.2 hn.2 h4 h6 (by omega) fun m hm => by
      rw [hw m (by simp [hm])]
      have : n ≠ m := by rintro rfl; exact hu.1 hm
      simp [this]
    simp only [deFields, h7, de_gives x h1 d k t hn.1 h3 h5 (by omega), h8, Option.map]
end


/-! ### Reading a text with attachments -/

/-- The attachments from number `n` on start with `l`. -/
def BlobsAt (bs : List Bytes) (n : Nat) (l : List Bytes) : Prop :=
  n + l.length ≤ 2 ^ 64 ∧ ∀ j, j < l.length → bs[n + j]? = l[j]?

theorem blobsAt_append {bs l l' : List Bytes} {n : Nat} (h : BlobsAt bs n (l ++ l')) :
    BlobsAt bs n l ∧ BlobsAt bs (n + l.length) l' := by
  obtain ⟨h1, h2⟩ := h
  simp only [List.length_append] at h1 h2
  refine ⟨⟨by omega, fun j hj => ?_⟩, by omega, fun j hj => ?_⟩
  · rw [h2 j (by omega), List.getElem?_append_left hj]
  · have := h2 (l.length + j) (by omega)
    rw [List.getElem?_append_right (by omega)] at this
    rw [Nat.add_assoc, this]
    congr 1
    omega

theorem mapView_blob (fin : Str → Bool) {bs : List Bytes} {n : Nat} {b : Bytes} (h : BlobsAt bs n [b]) :
    ∃ kts, (placeholderDoc n).tree = .obj kts ∧ mapView fin bs kts = .placeholder b := by
  obtain ⟨h1, h2⟩ := h
  have h3 := h2 0 (by simp)
  simp at h1 h3
  have h4 : quotedBody phKey = phKey := by decide +kernel
  have h5 : quotedBody numKey = numKey := by decide +kernel
  refine ⟨[(phKey, .bool true), (numKey, .num (decimal n))], ?_, ?_⟩
  · simp only [placeholderDoc, Doc.tree, memberTrees]
    rw [show quotedBody "_placeholder".toList = phKey from h4, show quotedBody "num".toList = numKey from h5]
  · rw [mapView_ph, readNum_decimal fin (i := n) (by omega)]
    simp [h3]

theorem quotedChar_length (c : Char) : 1 ≤ (quotedChar c).length := by
  unfold quotedChar
  repeat' split
  all_goals simp

theorem quotedBody_length : ∀ s : Str, s.length ≤ (quotedBody s).length
  | [] => by simp
  | c :: s => by
    have h1 := quotedChar_length c
    have h2 := quotedBody_length s
    simp only [quotedBody, List.flatMap_cons, List.length_append, List.length_cons] at h2 ⊢
    omega

theorem quotedBody_backslash : ∀ s : Str, quotedBody s = s → '\\' ∉ s
  | [], _ => by simp
  | c :: s, h => by
    have h2 := quotedBody_length s
    simp only [quotedBody, List.flatMap_cons] at h h2
    by_cases hc : c = '\\'
    · subst hc
      have h3 := congrArg List.length h
      have h4 : (quotedChar '\\').length = 2 := by decide +kernel
      simp only [List.length_append, List.length_cons, h4] at h3
      omega
    · have h1 := quotedChar_length c
      have h3 := congrArg List.length h
      simp only [List.length_append, List.length_cons] at h3
      have h4 : (quotedChar c).length = 1 := by omega
      obtain ⟨e, he⟩ := List.length_eq_one_iff.1 h4
      rw [he] at h
      simp at h
      have := quotedBody_backslash s h.2
      simp only [List.mem_cons, not_or]
      exact ⟨fun e => hc e.symm, this⟩

theorem mapView_first (fin : Str → Bool) (bs : List Bytes) {kds : List (Str × Doc)}
    (h : ∀ k d r, kds = (k, d) :: r → PlainKey k) : mapView fin bs (memberTrees kds) = .plain := by
  cases kds with
  | nil => simp [memberTrees, mapView]
  | cons a kds =>
    obtain ⟨k, d⟩ := a
    obtain ⟨h1, h2⟩ := h k d kds rfl
    have h3 := quotedBody_backslash k h2
    simp only [memberTrees, h2, mapView, if_neg h3]
    rw [if_neg (show ¬ k = "_placeholder".toList from h1)]

/-- The trees of the members with their keys. -/
def keyTrees (kds : List (Str × Doc)) : List (Str × JTree) := kds.map fun kd => (kd.1, kd.2.tree)

theorem unescape_quotedBody (s : Str) : unescape (quotedBody s) = some s := by rw [quotedBody_eq, unescape_escape]

theorem keyed_trees : ∀ kds : List (Str × Doc), keyed (memberTrees kds) = some (keyTrees kds)
  | [] => rfl
  | (k, d) :: kds => by
    have := keyed_trees kds
    unfold keyed at this ⊢
    simp [memberTrees, keyTrees, allSome, unescape_quotedBody, this]

theorem numberedM_first {n : Nat} {kds : List (Str × Doc)} (h : ∀ k d r, kds = (k, d) :: r → PlainKey k) :
    ∀ k d r, numberedM n kds = (k, d) :: r → PlainKey k := by
  intro k d r he
  cases kds with
  | nil => simp [numberedM] at he
  | cons a kds =>
    obtain ⟨k', d'⟩ := a
    simp [numberedM] at he
    obtain ⟨⟨rfl, rfl⟩, rfl⟩ := he
    exact h _ _ _ rfl

theorem entries_first {ss : List (SVal × SVal)} {leak : Bool} {ds : List (Str × Doc)} (hd : entriesWith leak ss = some ds)
    (h : ∀ k v r, ss = (k, v) :: r → ∃ s, k = .str s ∧ PlainKey s) : ∀ k d r, ds = (k, d) :: r → PlainKey k := by
  intro k d r he
  cases ss with
  | nil => simp [entriesWith] at hd; subst hd; simp at he
  | cons a ss =>
    obtain ⟨key, v⟩ := a
    obtain ⟨s, rfl, hs⟩ := h _ _ _ rfl
    obtain ⟨k', d', ds', h0, _, _, rfl⟩ := entriesWith_cons hd
    simp [keyOf] at h0
    subst h0
    simp at he
    exact he.1.1 ▸ hs

theorem fields_first {ss : List (Str × SVal)} {leak : Bool} {ds : List (Str × Doc)} (hd : fieldsWith leak ss = some ds)
    (h : ∀ k v r, ss = (k, v) :: r → PlainKey k) : ∀ k d r, ds = (k, d) :: r → PlainKey k := by
  intro k d r he
  cases ss with
  | nil => simp [fieldsWith] at hd; subst hd; simp at he
  | cons a ss =>
    obtain ⟨key, v⟩ := a
    have hs := h _ _ _ rfl
    obtain ⟨d', ds', _, _, rfl⟩ := fieldsWith_cons hd
    simp at he
    exact he.1.1 ▸ hs

theorem deByte_u8 (b : Bytes) : allSome (deByte (.uint 8)) b = some (b.map fun x => .uint x.toNat) := by
  induction b with
  | nil => rfl
  | cons y b ih =>
    have := y.toNat_lt
    exact allSome_cons (by simp [deByte, numUint, this]) ih

theorem deVariantA_lookup (x : Ext) (bs : List Bytes) (k : Nat) (t : JTree) : ∀ (vs : List (Str × Ty)) (n : Str) (ty : Ty),
    vs.lookup n = some ty → ((∃ tys, ty = .tuple tys) → ∀ kts, t ≠ .obj kts) → deVariantA x bs k vs n t = deA x bs k ty t
  | [], n, ty, h, _ => by simp at h
  | (m, ty') :: vs, n, ty, h, hne => by
    by_cases hm : m = n
    · subst hm
      simp at h
      subst h
      simp only [deVariantA, if_true]
      split
      · exact absurd rfl (hne ⟨_, rfl⟩ _)
      · rfl
    · have : (n == m) = false := by simpa using fun e => hm e.symm
      simp [List.lookup, this] at h
      simp [deVariantA, hm, deVariantA_lookup x bs k t vs n ty h hne]

theorem allSome_valueA (x : Ext) (bs : List Bytes) (k : Nat) : ∀ (ts : List JTree) (vs : List Value),
    allSome (fun t => deA x bs k .value t) ts = some (vs.map .value) → deValuesA x.fin bs k ts = some vs
  | [], vs, h => by
    cases vs with
    | nil => simp [deValuesA]
    | cons v vs => simp [allSome] at h
  | t :: ts, vs, h => by
    obtain ⟨v, vs', h1, h2, h3⟩ := allSome_inv h
    cases vs with
    | nil => simp at h3
    | cons w vs =>
      simp at h3
      obtain ⟨rfl, rfl⟩ := h3
      simp [deA] at h1
      simp [deValuesA, h1, allSome_valueA x bs k ts vs h2]

theorem allSome_valueMA (x : Ext) (bs : List Bytes) (k : Nat) : ∀ (kts w : List (Str × JTree))
    (vs m : List (Str × Value)), keyed kts = some w →
    allSome (fun kt => (deA x bs k .value kt.2).map fun v => (kt.1, v)) w = some (vs.map fun kv => (kv.1, .value kv.2)) →
    deMapA x.fin bs k kts m = some (insertAll m vs)
  | [], w, vs, m, hk, h => by
    simp [keyed, allSome] at hk
    subst hk
    cases vs with
    | nil => simp [deMapA, insertAll]
    | cons v vs => simp [allSome] at h
  | (raw, t) :: kts, w, vs, m, hk, h => by
    obtain ⟨a, w', h1, h2, rfl⟩ := allSome_inv hk
    simp at h1
    obtain ⟨key, hu, rfl⟩ := h1
    obtain ⟨v, vs', h3, h4, h5⟩ := allSome_inv h
    cases vs with
    | nil => simp at h5
    | cons u vs =>
      simp at h5
      obtain ⟨rfl, rfl⟩ := h5
      simp [deA] at h3
      simp [deMapA, hu, h3, insertAll, allSome_valueMA x bs k kts w' vs _ h2 h4]

theorem numbered_tree_null {d : Doc} {n : Nat} (hd : d ≠ .null) : (d.numbered n).tree ≠ .null := by
  cases d <;> simp_all [Doc.numbered, Doc.tree, placeholderDoc]

mutual
theorem deA_gives (x : Ext) (bs : List Bytes) : ∀ {ty : Ty} {v : DVal} {s : SVal}, Gives x.fin ty v s →
    ∀ (d : Doc) (k n : Nat), s.NoSomeNull → s.FirstKeys → docOf s = some d → BlobsAt bs n d.blobs → docDepth d < k →
    deA x bs k ty (d.numbered n).tree = some v
  | _, _, _, .bool _, d, k, n, hn, hf, hd, hb, hk => by
    simp [docOf, docWith] at hd
    subst hd
    simp [Doc.numbered, Doc.tree, deA, deScalar]
  | _, _, _, .byte y, d, k, n, hn, hf, hd, hb, hk => by
    simp [docOf, docWith] at hd
    subst hd
    have := y.toNat_lt
    simp [Doc.numbered, Doc.tree, deA, deScalar, readNum_byte, numUint, this]
  | _, _, _, .uint w m _ hw h, d, k, n, hn, hf, hd, hb, hk => by
    simp [docOf, docWith] at hd
    subst hd
    simp only [Doc.numbered, Doc.tree, deA, deScalar, int_uint x.fin hw h]
  | _, _, _, .int w i hw h1 h2, d, k, n, hn, hf, hd, hb, hk => by
    simp [docOf, docWith] at hd
    subst hd
    simp only [Doc.numbered, Doc.tree, deA, deScalar, int_int x.fin hw h1 h2]
  | _, _, _, .wideInt i h _, d, k, n, hn, hf, hd, hb, hk => by
    simp [docOf, docWith] at hd
    subst hd
    simp only [Doc.numbered, Doc.tree, deA, deScalar, wide_int h]
  | _, _, _, .wideNat i h _, d, k, n, hn, hf, hd, hb, hk => by
    simp [docOf, docWith] at hd
    subst hd
    simp only [Doc.numbered, Doc.tree, deA, deScalar, wide_nat h]
  | _, _, _, .char c, d, k, n, hn, hf, hd, hb, hk => by
    simp [docOf, docWith] at hd
    subst hd
    simp [Doc.numbered, Doc.tree, deA, deScalar, unescape_quotedBody, oneChar]
  | _, _, _, .float l m h1 h2, d, k, n, hn, hf, hd, hb, hk => by
    simp [docOf, docWith] at hd
    subst hd
    simp [Doc.numbered, Doc.tree, deA, deScalar, (readNum_iff h1 m).2 h2]
  | _, _, _, .str s, d, k, n, hn, hf, hd, hb, hk => by
    simp [docOf, docWith] at hd
    subst hd
    simp [Doc.numbered, Doc.tree, deA, unescape_quotedBody]
  | _, _, _, .bytes b, d, k, n, hn, hf, hd, hb, hk => by
    simp [docOf, docWith] at hd
    subst hd
    obtain ⟨kts, h1, h2⟩ := mapView_blob x.fin (by simpa [Doc.blobs] using hb)
    have h3 : ¬ k ≤ 1 := by simp [docDepth] at hk; omega
    simp [Doc.numbered, h1, deA, enter, h3, h2]
  | _, _, _, .unit, d, k, n, hn, hf, hd, hb, hk => by
    simp [docOf, docWith] at hd
    subst hd
    simp [Doc.numbered, Doc.tree, deA, deScalar]
  | _, _, _, .valNull, d, k, n, hn, hf, hd, hb, hk => by
    simp [docOf, docWith] at hd
    subst hd
    simp [Doc.numbered, Doc.tree, deA, deValueA, toValue_null]
  | _, _, _, .valBool _, d, k, n, hn, hf, hd, hb, hk => by
    simp [docOf, docWith] at hd
    subst hd
    simp [Doc.numbered, Doc.tree, deA, deValueA, toValue_bool]
  | _, _, _, .valPos m h, d, k, n, hn, hf, hd, hb, hk => by
    simp [docOf, docWith] at hd
    subst hd
    have h2 : intText (m : Int) = decimal m := by simp [intText]
    simp [Doc.numbered, Doc.tree, deA, deValueA, toValue_num, h2, readNum_decimal x.fin h]
  | _, _, _, .valNeg m h0 h, d, k, n, hn, hf, hd, hb, hk => by
    simp [docOf, docWith] at hd
    subst hd
    simp [Doc.numbered, Doc.tree, deA, deValueA, toValue_num, readNum_neg x.fin h0 h]
  | _, _, _, .valFloat l h1 h2, d, k, n, hn, hf, hd, hb, hk => by
    simp [docOf, docWith] at hd
    subst hd
    simp [Doc.numbered, Doc.tree, deA, deValueA, toValue_num, (readNum_iff h1 _).2 h2]
  | _, _, _, .valStr s, d, k, n, hn, hf, hd, hb, hk => by
    simp [docOf, docWith] at hd
    subst hd
    simp [Doc.numbered, Doc.tree, deA, deValueA, toValue_str, unescape_quotedBody]
  | _, _, _, .valArr vs ss h, d, k, n, hn, hf, hd, hb, hk => by
    rcases seq_doc h with ⟨b, _, _, h3, _⟩ | h0
    · exact absurd h3 (by simp)
    · rw [docOf, h0] at hd
      simp at hd
      obtain ⟨ds, h1, rfl⟩ := hd
      have h4 : ¬ k ≤ 1 := by simp [docDepth] at hk; omega
      have := deLA_gives x bs h ds (k - 1) n hn hf h1 hb (by simp [docDepth] at hk; omega)
      simp [Doc.numbered, Doc.tree, deA, deValueA, h4, allSome_valueA x bs (k - 1) _ vs this]
  | _, _, _, .valObj kvs ss h hp hr, d, k, n, hn, hf, hd, hb, hk => by
    simp [docOf, docWith] at hd
    obtain ⟨ds, h1, rfl⟩ := hd
    simp only [SVal.FirstKeys] at hf
    have h2 := mapView_first x.fin bs (numberedM_first (n := n) (entries_first h1 hf.1))
    have h4 : ¬ k ≤ 1 := by simp [docDepth] at hk; omega
    have := deMA_gives x bs h ds (k - 1) n hn hf.2 h1 hb (by simp [docDepth] at hk; omega)
    simp [Doc.numbered, Doc.tree, deA, deValueA, h2, h4, rawView_keyed (keyed_trees _) this hr,
      allSome_valueMA x bs (k - 1) _ _ kvs [] (keyed_trees _) this, ← (isMap_iff kvs kvs).1 (isMap_self hp)]
  | _, _, _, .none _, d, k, n, hn, hf, hd, hb, hk => by
    simp [docOf, docWith] at hd
    subst hd
    simp [Doc.numbered, Doc.tree, deA]
  | _, _, _, .some ty v s h, d, k, n, hn, hf, hd, hb, hk => by
    simp only [SVal.NoSomeNull] at hn
    simp only [docOf, docWith] at hd
    have h1 : d ≠ .null := fun e => hn.1 (by rw [docOf, hd, e])
    have h2 := numbered_tree_null (n := n) h1
    have h3 := deA_gives x bs h d k n hn.2 hf hd hb hk
    generalize (d.numbered n).tree = t at h2 h3 ⊢
    cases t <;> simp_all [deA]
  | _, _, _, .newtype ty v s h, d, k, n, hn, hf, hd, hb, hk => by
    simp only [docOf, docWith] at hd
    rw [deA]
    exact deA_gives x bs h d k n hn hf hd hb hk
  | _, _, _, .seq ty vs ss h, d, k, n, hn, hf, hd, hb, hk => by
    rcases seq_doc h with ⟨b, h1, _, rfl, rfl⟩ | h0
    · rw [docOf, h1] at hd
      cases hd
      obtain ⟨kts, h1, h2⟩ := mapView_blob x.fin (by simpa [Doc.blobs] using hb)
      have h3 : ¬ k ≤ 1 := by simp [docDepth] at hk; omega
      simp [Doc.numbered, h1, deA, enter, h3, h2, deByte_u8]
    · rw [docOf, h0] at hd
      simp at hd
      obtain ⟨ds, h1, rfl⟩ := hd
      have h4 : ¬ k ≤ 1 := by simp [docDepth] at hk; omega
      have := deLA_gives x bs h ds (k - 1) n hn hf h1 hb (by simp [docDepth] at hk; omega)
      simp [Doc.numbered, Doc.tree, deA, enter, h4, this]
  | _, _, _, .map ty kvs ss h hp, d, k, n, hn, hf, hd, hb, hk => by
    simp [docOf, docWith] at hd
    obtain ⟨ds, h1, rfl⟩ := hd
    simp only [SVal.FirstKeys] at hf
    have h2 := mapView_first x.fin bs (numberedM_first (n := n) (entries_first h1 hf.1))
    have h4 : ¬ k ≤ 1 := by simp [docDepth] at hk; omega
    have := deMA_gives x bs h ds (k - 1) n hn hf.2 h1 hb (by simp [docDepth] at hk; omega)
    simp [Doc.numbered, Doc.tree, deA, enter, h4, h2, keyed_trees, this, foldl_smap kvs hp]
  | _, _, _, .imap ty kvs ss h hp, d, k, n, hn, hf, hd, hb, hk => by
    simp [docOf, docWith] at hd
    obtain ⟨ds, h1, rfl⟩ := hd
    simp only [SVal.FirstKeys] at hf
    have h4 : ¬ k ≤ 1 := by simp [docDepth] at hk; omega
    cases h with
    | nil =>
      simp [entriesWith] at h1
      subst h1
      simp [Doc.numbered, Doc.tree, numberedM, memberTrees, deA, enter, h4]
    | cons key v s vs ss _ _ _ =>
      obtain ⟨_, h5, _⟩ := hf.1 _ _ _ rfl
      cases h5
  | _, _, _, .tuple tys vs ss h, d, k, n, hn, hf, hd, hb, hk => by
    simp [docOf, docWith] at hd
    obtain ⟨ds, h1, rfl⟩ := hd
    have h4 : ¬ k ≤ 1 := by simp [docDepth] at hk; omega
    have := deTA_gives x bs h ds (k - 1) n hn hf h1 hb (by simp [docDepth] at hk; omega)
    simp [Doc.numbered, Doc.tree, deA, enter, h4, this]
  | _, _, _, .struct fs vs ss h hu, d, k, n, hn, hf, hd, hb, hk => by
    simp [docOf, docWith] at hd
    obtain ⟨ds, h1, rfl⟩ := hd
    simp only [SVal.FirstKeys] at hf
    have h2 := mapView_first x.fin bs (numberedM_first (n := n) (fields_first h1 hf.1))
    have h4 : ¬ k ≤ 1 := by simp [docDepth] at hk; omega
    have := deFA_gives x bs h ds (k - 1) n (keyTrees (numberedM n ds)) hu hn hf.2 h1 hb
      (by simp [docDepth] at hk; omega) fun _ _ => rfl
    simp [Doc.numbered, Doc.tree, deA, enter, h4, h2, keyed_trees, this]
  | _, _, _, .unitVariant vs m h, d, k, n, hn, hf, hd, hb, hk => by
    simp [docOf, docWith] at hd
    subst hd
    simp [Doc.numbered, Doc.tree, deA, unescape_quotedBody, unitVariant_lookup vs m h]
  | _, _, _, .newtypeVariant vs m ty v s hl h, d, k, n, hn, hf, hd, hb, hk => by
    simp [docOf, docWith] at hd
    obtain ⟨d', h1, rfl⟩ := hd
    have h4 : ¬ k ≤ 1 := by simp [docDepth, docDepthM] at hk; omega
    have := deA_gives x bs h d' (k - 1) n hn hf h1 (by simpa [Doc.blobs, blobsM] using hb)
      (by simp [docDepth, docDepthM] at hk; omega)
    simp [Doc.numbered, numberedM, Doc.tree, memberTrees, deA, enter, h4, unescape_quotedBody,
      deVariantA_lookup x bs (k - 1) _ vs m _ hl (fun ⟨_, h⟩ => by cases h), this]
  | _, _, _, .tupleVariant vs m tys v s hl h, d, k, n, hn, hf, hd, hb, hk => by
    simp [docOf, docWith] at hd
    obtain ⟨ds, h1, rfl⟩ := hd
    have h4 : ¬ k ≤ 1 := by simp [docDepth, docDepthM] at hk; omega
    have h5 : ¬ k - 1 ≤ 1 := by simp [docDepth, docDepthM] at hk; omega
    have := deTA_gives x bs h ds (k - 1 - 1) n hn hf h1 (by simpa [Doc.blobs, blobsM] using hb)
      (by simp [docDepth, docDepthM] at hk; omega)
    have h6 := deVariantA_lookup x bs (k - 1) (.arr (docTrees (numberedL n ds))) vs m _ hl (fun _ _ => by simp)
    simp only [deA, enter, h5, this, if_false, Option.map] at h6
    simp only [Doc.numbered, numberedM, Doc.tree, memberTrees, deA, enter, h4, unescape_quotedBody, h6,
      if_false, Option.map, Option.bind]
  | _, _, _, .structVariant vs m fs v s hl h hu, d, k, n, hn, hf, hd, hb, hk => by
    simp [docOf, docWith] at hd
    obtain ⟨ds, h1, rfl⟩ := hd
    simp only [SVal.FirstKeys] at hf
    have h2 := mapView_first x.fin bs (numberedM_first (n := n) (fields_first h1 hf.1))
    have h4 : ¬ k ≤ 1 := by simp [docDepth, docDepthM] at hk; omega
    have h5 : ¬ k - 1 ≤ 1 := by simp [docDepth, docDepthM] at hk; omega
    have := deFA_gives x bs h ds (k - 1 - 1) n (keyTrees (numberedM n ds)) hu hn hf.2 h1
      (by simpa [Doc.blobs, blobsM] using hb) (by simp [docDepth, docDepthM] at hk; omega) fun _ _ => rfl
    have h6 := deVariantA_lookup x bs (k - 1) (.obj (memberTrees (numberedM n ds))) vs m _ hl (fun ⟨_, h⟩ => by cases h)
    simp only [deA, enter, h5, h2, keyed_trees, this, if_false, Option.map, Option.bind] at h6
    simp only [Doc.numbered, numberedM, Doc.tree, memberTrees, deA, enter, h4, unescape_quotedBody, h6,
      if_false, Option.map, Option.bind]
theorem deLA_gives (x : Ext) (bs : List Bytes) : ∀ {ty : Ty} {vs : List DVal} {ss : List SVal}, GivesL x.fin ty vs ss →
    ∀ (ds : List Doc) (k n : Nat), NoSomeNullL ss → FirstKeysL ss → docsWith false ss = some ds →
    BlobsAt bs n (blobsL ds) → docDepthL ds < k → allSome (fun t => deA x bs k ty t) (docTrees (numberedL n ds)) = some vs
  | _, _, _, .nil _, ds, k, n, hn, hf, hd, hb, hk => by
    simp [docsWith] at hd
    subst hd
    simp [numberedL, docTrees, allSome]
  | _, _, _, .cons ty v s vs ss h1 h2, ds, k, n, hn, hf, hd, hb, hk => by
    obtain ⟨d, ds', h3, h4, rfl⟩ := docsWith_cons hd
    simp only [NoSomeNullL] at hn
    simp only [FirstKeysL] at hf
    simp only [docDepthL] at hk
    obtain ⟨h5, h6⟩ := blobsAt_append hb
    exact allSome_cons (deA_gives x bs h1 d k n hn.1 hf.1 h3 h5 (by omega))
      (deLA_gives x bs h2 ds' k _ hn.2 hf.2 h4 h6 (by omega))
theorem deMA_gives (x : Ext) (bs : List Bytes) : ∀ {ty : Ty} {vs : List (Str × DVal)} {ss : List (SVal × SVal)},
    GivesM x.fin ty vs ss → ∀ (ds : List (Str × Doc)) (k n : Nat), NoSomeNullM ss → FirstKeysM ss →
    entriesWith false ss = some ds → BlobsAt bs n (blobsM ds) → docDepthM ds < k →
    allSome (fun kt => (deA x bs k ty kt.2).map fun v => (kt.1, v)) (keyTrees (numberedM n ds)) = some vs
  | _, _, _, .nil _, ds, k, n, hn, hf, hd, hb, hk => by
    simp [entriesWith] at hd
    subst hd
    simp [numberedM, keyTrees, allSome]
  | _, _, _, .cons ty key v s vs ss h1 h2, ds, k, n, hn, hf, hd, hb, hk => by
    obtain ⟨key', d, ds', h0, h3, h4, rfl⟩ := entriesWith_cons hd
    simp [keyOf] at h0
    subst h0
    simp only [NoSomeNullM] at hn
    simp only [FirstKeysM] at hf
    simp only [docDepthM] at hk
    obtain ⟨h5, h6⟩ := blobsAt_append hb
    exact allSome_cons (by simp [deA_gives x bs h1 d k n hn.1 hf.1 h3 h5 (by omega)])
      (deMA_gives x bs h2 ds' k _ hn.2 hf.2 h4 h6 (by omega))
theorem deTA_gives (x : Ext) (bs : List Bytes) : ∀ {tys : List Ty} {vs : List DVal} {ss : List SVal}, GivesT x.fin tys vs ss →
    ∀ (ds : List Doc) (k n : Nat), NoSomeNullL ss → FirstKeysL ss → docsWith false ss = some ds →
    BlobsAt bs n (blobsL ds) → docDepthL ds < k → deTupleA x bs k tys (docTrees (numberedL n ds)) = some vs
  | _, _, _, .nil, ds, k, n, hn, hf, hd, hb, hk => by
    simp [docsWith] at hd
    subst hd
    simp [numberedL, docTrees, deTupleA]
  | _, _, _, .cons ty tys v s vs ss h1 h2, ds, k, n, hn, hf, hd, hb, hk => by
    obtain ⟨d, ds', h3, h4, rfl⟩ := docsWith_cons hd
    simp only [NoSomeNullL] at hn
    simp only [FirstKeysL] at hf
    simp only [docDepthL] at hk
    obtain ⟨h5, h6⟩ := blobsAt_append hb
    simp only [numberedL, docTrees, deTupleA, deA_gives x bs h1 d k n hn.1 hf.1 h3 h5 (by omega),
      deTA_gives x bs h2 ds' k _ hn.2 hf.2 h4 h6 (by omega), Option.map]
theorem deFA_gives (x : Ext) (bs : List Bytes) : ∀ {fs : List (Str × Ty)} {vs : List DVal} {ss : List (Str × SVal)},
    GivesF x.fin fs vs ss → ∀ (ds : List (Str × Doc)) (k n : Nat) (w : List (Str × JTree)), (fs.map Prod.fst).Nodup →
    NoSomeNullF ss → FirstKeysF ss → fieldsWith false ss = some ds → BlobsAt bs n (blobsM ds) → docDepthM ds < k →
    (∀ m ∈ fs.map Prod.fst, w.filter (fun kt => kt.1 = m) = (keyTrees (numberedM n ds)).filter (fun kt => kt.1 = m)) →
    deFieldsA x bs k fs w = some vs
  | _, _, _, .nil, ds, k, n, w, hu, hn, hf, hd, hb, hk, hw => by simp [deFieldsA]
  | _, _, _, .cons m ty fs v s vs ss h1 h2, ds, k, n, w, hu, hn, hf, hd, hb, hk, hw => by
    obtain ⟨d, ds', h3, h4, rfl⟩ := fieldsWith_cons hd
    simp only [NoSomeNullF] at hn
    simp only [FirstKeysF] at hf
    simp only [docDepthM] at hk
    simp only [List.map_cons, List.nodup_cons] at hu
    obtain ⟨h5, h6⟩ := blobsAt_append hb
    have h7 : w.filter (fun kt => kt.1 = m) = [(m, (d.numbered n).tree)] := by
      rw [hw m (by simp)]
      have : (keyTrees (numberedM (n + d.blobs.length) ds')).filter (fun kt => kt.1 = m) = [] := by
        rw [List.filter_eq_nil_iff]
        intro a ha
        have hm : a.1 ∈ (keyTrees (numberedM (n + d.blobs.length) ds')).map Prod.fst := List.mem_map_of_mem ha
        have he : (keyTrees (numberedM (n + d.blobs.length) ds')).map Prod.fst = fs.map Prod.fst := by
          rw [← fields_keys h2 h4, ← numberedM_keys (n + d.blobs.length) ds', keyTrees, List.map_map]
          rfl
        rw [he] at hm
        simp only [decide_eq_true_eq]
        rintro rfl
        exact hu.1 hm
      simp only [keyTrees] at this
      simp [numberedM, keyTrees, this]
    have h8 := deFA_gives x bs h2 ds' k _ w hu.2 hn.2 hf.2 h4 h6 (by omega) fun m' hm => by
      rw [hw m' (by simp [hm])]
      have : m ≠ m' := by rintro rfl; exact hu.1 hm
      simp [numberedM, keyTrees, this]
    simp only [deFieldsA, h7, deA_gives x bs h1 d k n hn.1 hf.1 h3 h5 (by omega), h8, Option.map]
end


/-! ### The numbers are in range -/

/-- All numbers of the document read. -/
def NumsRead (fin : Str → Bool) (ls : List Str) : Prop := ∀ l ∈ ls, ∃ n, NumReads fin l n

theorem numsRead_append {fin : Str → Bool} {a b : List Str} (ha : NumsRead fin a) (hb : NumsRead fin b) :
    NumsRead fin (a ++ b) := fun l hl => (List.mem_append.1 hl).elim (ha l) (hb l)

theorem numsRead_nil (fin : Str → Bool) : NumsRead fin [] := fun l hl => by simp at hl

theorem numsRead_one {fin : Str → Bool} {l : Str} {n : Num} (h : NumReads fin l n) : NumsRead fin [l] := fun l' hl => by
  simp at hl
  exact ⟨n, hl ▸ h⟩

theorem docNums_bytes' (fin : Str → Bool) (b : Bytes) : NumsRead fin (docNumsL (byteNums b)) := by
  induction b with
  | nil => exact numsRead_nil fin
  | cons x b ih => exact numsRead_append (numsRead_one (numReads_byte fin x)) ih

theorem int_reads (fin : Str → Bool) {i : Int} (h1 : - 2 ^ 63 ≤ i) (h2 : i < 2 ^ 64) : ∃ n, NumReads fin (intText i) n := by
  by_cases hi : i < 0
  · refine ⟨.neg i.natAbs, Or.inr (Or.inl ⟨i.natAbs, by simp [intText, hi], by omega, by omega, rfl⟩)⟩
  · exact ⟨.pos i.natAbs, Or.inl ⟨i.natAbs, by simp [intText, hi], by omega, rfl⟩⟩

mutual
theorem gives_nums {fin : Str → Bool} : ∀ {ty : Ty} {v : DVal} {s : SVal}, Gives fin ty v s → ∀ d, docOf s = some d →
    NumsRead fin (docNums d)
  | _, _, _, .bool _, d, hd | _, _, _, .str _, d, hd | _, _, _, .bytes _, d, hd | _, _, _, .char _, d, hd
  | _, _, _, .unit, d, hd | _, _, _, .valNull, d, hd | _, _, _, .valBool _, d, hd
  | _, _, _, .valStr _, d, hd | _, _, _, .none _, d, hd | _, _, _, .unitVariant .., d, hd => by
    simp [docOf, docWith] at hd
    subst hd
    simp only [docNums]
    exact numsRead_nil fin
  | _, _, _, .byte n, d, hd => by
    simp [docOf, docWith] at hd
    subst hd
    exact numsRead_one (numReads_byte fin n)
  | _, _, _, .uint w n _ hw h, d, hd => by
    simp [docOf, docWith] at hd
    subst hd
    have h1 : 2 ^ w ≤ 2 ^ 64 := Nat.pow_le_pow_right (by decide) hw
    obtain ⟨m, hm⟩ := int_reads fin (i := n) (by omega) (by omega)
    exact numsRead_one hm
  | _, _, _, .wideInt i _ h, d, hd => by
    simp [docOf, docWith] at hd
    subst hd
    obtain ⟨m, hm⟩ := h
    exact numsRead_one hm
  | _, _, _, .wideNat n _ h, d, hd => by
    simp [docOf, docWith] at hd
    subst hd
    obtain ⟨m, hm⟩ := h
    exact numsRead_one hm
  | _, _, _, .int w i hw h1 h2, d, hd => by
    simp [docOf, docWith] at hd
    subst hd
    have hp : 2 ^ (w - 1) ≤ 2 ^ 63 := Nat.pow_le_pow_right (by decide) (by omega)
    have hc : ((2 : Int) ^ (w - 1)) = ((2 ^ (w - 1) : Nat) : Int) := by simp
    rw [hc] at h1 h2
    obtain ⟨m, hm⟩ := int_reads fin (i := i) (by omega) (by omega)
    exact numsRead_one hm
  | _, _, _, .valPos n h, d, hd => by
    simp [docOf, docWith] at hd
    subst hd
    obtain ⟨m, hm⟩ := int_reads fin (i := n) (by omega) (by omega)
    exact numsRead_one hm
  | _, _, _, .valNeg n _ h, d, hd => by
    simp [docOf, docWith] at hd
    subst hd
    obtain ⟨m, hm⟩ := int_reads fin (i := -n) (by omega) (by omega)
    exact numsRead_one hm
  | _, _, _, .float _ _ _ h, d, hd | _, _, _, .valFloat _ _ h, d, hd => by
    simp [docOf, docWith] at hd
    subst hd
    exact numsRead_one h
  | _, _, _, .valArr _ _ h, d, hd | _, _, _, .seq _ _ _ h, d, hd => by
    rcases seq_doc h with ⟨b, h1, _⟩ | h1
    · rw [docOf, h1] at hd
      cases hd
      exact numsRead_nil fin
    · rw [docOf, h1] at hd
      simp at hd
      obtain ⟨ds, h2, rfl⟩ := hd
      exact givesL_nums h ds h2
  | _, _, _, .valObj _ _ h _ _, d, hd | _, _, _, .map _ _ _ h _, d, hd => by
    simp [docOf, docWith] at hd
    obtain ⟨ds, h1, rfl⟩ := hd
    exact givesM_nums h ds h1
  | _, _, _, .imap _ _ _ h _, d, hd => by
    simp [docOf, docWith] at hd
    obtain ⟨ds, h1, rfl⟩ := hd
    exact givesI_nums h ds h1
  | _, _, _, .some _ _ _ h, d, hd | _, _, _, .newtype _ _ _ h, d, hd => by
    simp only [docOf, docWith] at hd
    exact gives_nums h d hd
  | _, _, _, .newtypeVariant _ _ _ _ _ _ h, d, hd => by
    simp [docOf, docWith] at hd
    obtain ⟨d', h1, rfl⟩ := hd
    simpa [docNums, docNumsM] using gives_nums h d' h1
  | _, _, _, .tuple _ _ _ h, d, hd => by
    simp [docOf, docWith] at hd
    obtain ⟨ds, h1, rfl⟩ := hd
    exact givesT_nums h ds h1
  | _, _, _, .tupleVariant _ _ _ _ _ _ h, d, hd => by
    simp [docOf, docWith] at hd
    obtain ⟨ds, h1, rfl⟩ := hd
    simpa [docNums, docNumsM] using givesT_nums h ds h1
  | _, _, _, .struct _ _ _ h _, d, hd => by
    simp [docOf, docWith] at hd
    obtain ⟨ds, h1, rfl⟩ := hd
    exact givesF_nums h ds h1
  | _, _, _, .structVariant _ _ _ _ _ _ h _, d, hd => by
    simp [docOf, docWith] at hd
    obtain ⟨ds, h1, rfl⟩ := hd
    simpa [docNums, docNumsM] using givesF_nums h ds h1
theorem givesL_nums {fin : Str → Bool} : ∀ {ty : Ty} {v : List DVal} {s : List SVal}, GivesL fin ty v s →
    ∀ ds, docsWith false s = some ds → NumsRead fin (docNumsL ds)
  | _, _, _, .nil _, ds, hd => by
    simp [docsWith] at hd
    subst hd
    exact numsRead_nil fin
  | _, _, _, .cons _ _ _ _ _ h1 h2, ds, hd => by
    obtain ⟨d, ds', h3, h4, rfl⟩ := docsWith_cons hd
    exact numsRead_append (gives_nums h1 d h3) (givesL_nums h2 ds' h4)
theorem givesM_nums {fin : Str → Bool} : ∀ {ty : Ty} {v : List (Str × DVal)} {s : List (SVal × SVal)},
    GivesM fin ty v s → ∀ ds, entriesWith false s = some ds → NumsRead fin (docNumsM ds)
  | _, _, _, .nil _, ds, hd => by
    simp [entriesWith] at hd
    subst hd
    exact numsRead_nil fin
  | _, _, _, .cons _ _ _ _ _ _ h1 h2, ds, hd => by
    obtain ⟨_, d, ds', _, h3, h4, rfl⟩ := entriesWith_cons hd
    exact numsRead_append (gives_nums h1 d h3) (givesM_nums h2 ds' h4)
theorem givesI_nums {fin : Str → Bool} : ∀ {ty : Ty} {v : List (Nat × DVal)} {s : List (SVal × SVal)},
    GivesI fin ty v s → ∀ ds, entriesWith false s = some ds → NumsRead fin (docNumsM ds)
  | _, _, _, .nil _, ds, hd => by
    simp [entriesWith] at hd
    subst hd
    exact numsRead_nil fin
  | _, _, _, .cons _ _ _ _ _ _ _ h1 h2, ds, hd => by
    obtain ⟨_, d, ds', _, h3, h4, rfl⟩ := entriesWith_cons hd
    exact numsRead_append (gives_nums h1 d h3) (givesI_nums h2 ds' h4)
theorem givesT_nums {fin : Str → Bool} : ∀ {ty : List Ty} {v : List DVal} {s : List SVal}, GivesT fin ty v s →
    ∀ ds, docsWith false s = some ds → NumsRead fin (docNumsL ds)
  | _, _, _, .nil, ds, hd => by
    simp [docsWith] at hd
    subst hd
    exact numsRead_nil fin
  | _, _, _, .cons _ _ _ _ _ _ h1 h2, ds, hd => by
    obtain ⟨d, ds', h3, h4, rfl⟩ := docsWith_cons hd
    exact numsRead_append (gives_nums h1 d h3) (givesT_nums h2 ds' h4)
theorem givesF_nums {fin : Str → Bool} : ∀ {ty : List (Str × Ty)} {v : List DVal} {s : List (Str × SVal)},
    GivesF fin ty v s → ∀ ds, fieldsWith false s = some ds → NumsRead fin (docNumsM ds)
  | _, _, _, .nil, ds, hd => by
    simp [fieldsWith] at hd
    subst hd
    exact numsRead_nil fin
  | _, _, _, .cons _ _ _ _ _ _ _ h1 h2, ds, hd => by
    obtain ⟨d, ds', h3, h4, rfl⟩ := fieldsWith_cons hd
    exact numsRead_append (gives_nums h1 d h3) (givesF_nums h2 ds' h4)
end

theorem intText_whole (i : Int) : '.' ∉ intText i ∧ 'e' ∉ intText i ∧ 'E' ∉ intText i := by
  have h : ∀ c ∈ intText i, c = '-' ∨ c.isDigit = true := by
    intro c hc
    simp only [intText] at hc
    split at hc
    · rcases List.mem_cons.1 hc with rfl | hc
      · exact .inl rfl
      · exact .inr (decimal_digits _ c hc)
    · exact .inr (decimal_digits _ c hc)
  refine ⟨fun hc => ?_, fun hc => ?_, fun hc => ?_⟩ <;> rcases h _ hc with h | h <;> revert h <;> decide

theorem whole_null : ∀ ty : Ty, WholeInt ty .null
  | .option ty => by simp only [WholeInt]; exact whole_null ty
  | .newtype ty => by simp only [WholeInt]; exact whole_null ty
  | .wide _ | .bool | .uint _ | .int _ | .char | .float | .str | .bstr | .bytes | .bbytes | .unit | .value | .seq _
  | .map _ | .imap _ | .tuple _ | .struct _ | .enum _ | .ignored => by simp [WholeInt]

/-- The number handed over for an integer is whole. -/
theorem whole_gives {fin : Str → Bool} (n : Nat) : ∀ {ty : Ty} {v : DVal} {s : SVal}, Gives fin ty v s → ∀ d,
    docOf s = some d → WholeInt ty (d.numbered n).tree
  | _, _, _, .wideInt i .., d, hd => by
    simp [docOf, docWith] at hd
    subst hd
    exact intText_whole i
  | _, _, _, .wideNat i .., d, hd => by
    simp [docOf, docWith] at hd
    subst hd
    exact intText_whole i
  | _, _, _, .none _, d, hd => by
    simp [docOf, docWith] at hd
    subst hd
    exact whole_null _
  | _, _, _, .some ty v s h, d, hd => by
    simp [docOf, docWith] at hd
    simp only [WholeInt]
    exact whole_gives n h d hd
  | _, _, _, .newtype ty v s h, d, hd => by
    simp [docOf, docWith] at hd
    simp only [WholeInt]
    exact whole_gives n h d hd
  | _, _, _, .bool _, _, _ | _, _, _, .byte _, _, _ | _, _, _, .uint .., _, _ | _, _, _, .int .., _, _
  | _, _, _, .char _, _, _ | _, _, _, .float .., _, _ | _, _, _, .str _, _, _ | _, _, _, .bytes _, _, _
  | _, _, _, .unit, _, _ | _, _, _, .valNull, _, _ | _, _, _, .valBool _, _, _ | _, _, _, .valPos .., _, _
  | _, _, _, .valNeg .., _, _ | _, _, _, .valFloat .., _, _ | _, _, _, .valStr _, _, _ | _, _, _, .valArr .., _, _
  | _, _, _, .valObj .., _, _ | _, _, _, .seq .., _, _ | _, _, _, .map .., _, _ | _, _, _, .imap .., _, _
  | _, _, _, .tuple .., _, _ | _, _, _, .struct .., _, _ | _, _, _, .unitVariant .., _, _
  | _, _, _, .newtypeVariant .., _, _ | _, _, _, .tupleVariant .., _, _ | _, _, _, .structVariant .., _, _ => by
    simp [WholeInt]

end SIO
