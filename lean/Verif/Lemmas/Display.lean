import Verif.Spec.Display
import Verif.Props.Args
/-
Printing a JSON value.
-/
namespace SIO
open Spec

/-- A number serde_json can hold. -/
def NumWf (fin : Str → Bool) : Num → Prop
  | .pos k => k < 2 ^ 64
  | .neg k => 0 < k ∧ k ≤ 2 ^ 63
  | .float l => IsNum l ∧ NumReads fin l (.float l)

mutual
/-- A value serde_json can hold: numbers in range, keys in order and distinct. -/
def WfValue (fin : Str → Bool) : Value → Prop
  | .num n => NumWf fin n
  | .arr xs => WfValueL fin xs
  | .obj kvs => SortedM kvs ∧ WfValueM fin kvs
  | _ => True
def WfValueL (fin : Str → Bool) : List Value → Prop
  | [] => True
  | x :: xs => WfValue fin x ∧ WfValueL fin xs
def WfValueM (fin : Str → Bool) : List (Str × Value) → Prop
  | [] => True
  | (_, x) :: xs => WfValue fin x ∧ WfValueM fin xs
end

mutual
/-- The document a value prints as. -/
def vdoc : Value → Doc
  | .null => .null
  | .bool b => .bool b
  | .num n => .num (numText n)
  | .str s => .str s
  | .arr xs => .arr (vdocL xs)
  | .obj kvs => .obj (vdocM kvs)
def vdocL : List Value → List Doc
  | [] => []
  | x :: xs => vdoc x :: vdocL xs
def vdocM : List (Str × Value) → List (Str × Doc)
  | [] => []
  | (k, x) :: xs => (k, vdoc x) :: vdocM xs
end

theorem numText_isNum {fin : Str → Bool} {n : Num} (h : NumWf fin n) : IsNum (numText n) := by
  cases n with
  | pos k => simp only [numText, natDec_decimal]; exact decimal_isNum k
  | neg k =>
    simp only [numText, natDec_decimal]
    exact ⟨['-'], decimal k, [], [], by simp, by simp, decimal_isDec k, by simp, by simp⟩
  | float l => exact h.1

theorem numText_reads {fin : Str → Bool} {n : Num} (h : NumWf fin n) : NumReads fin (numText n) n := by
  cases n with
  | pos k => simp only [numText, natDec_decimal]; exact Or.inl ⟨k, rfl, h, rfl⟩
  | neg k => simp only [numText, natDec_decimal]; exact Or.inr (Or.inl ⟨k, rfl, h.1, h.2, rfl⟩)
  | float l => exact h.2

theorem sorted_lookup_reverse {α : Type} {m : List (Str × α)} (h : SortedM m) (k : Str) :
    m.lookup k = m.reverse.lookup k := by
  induction m with
  | nil => rfl
  | cons x m ih =>
    obtain ⟨k', v⟩ := x
    have h1 : SortedM m := (List.pairwise_cons.1 h).2
    have h2 : ∀ x ∈ m, k' < x.1 := (List.pairwise_cons.1 h).1
    rw [List.reverse_cons, List.lookup_append, ← ih h1, List.lookup_cons]
    by_cases hk : k = k'
    · subst hk
      rw [lookup_none_of_lt h2]
      simp [List.lookup_cons]
    · have : (k == k') = false := by simpa using hk
      simp [this, List.lookup_cons]

theorem isMap_self {α : Type} {m : List (Str × α)} (h : SortedM m) : IsMap m m :=
  ⟨h, fun k => sorted_lookup_reverse h k⟩

mutual
theorem vdoc_reads (fin : Str → Bool) : ∀ v : Value, WfValue fin v → Reads fin (vdoc v) v
  | .null, _ | .bool _, _ | .str _, _ => by simp only [vdoc, Reads]
  | .num n, h => by simp only [vdoc, Reads]; exact ⟨n, rfl, numText_reads h⟩
  | .arr xs, h => by simp only [vdoc, Reads]; exact ⟨xs, rfl, vdocL_reads fin xs h⟩
  | .obj kvs, h => by
    simp only [vdoc, Reads]
    exact ⟨kvs, kvs, rfl, vdocM_reads fin kvs h.2, isMap_self h.1⟩
theorem vdocL_reads (fin : Str → Bool) : ∀ v : List Value, WfValueL fin v → ReadsL fin (vdocL v) v
  | [], _ => by simp only [vdocL, ReadsL]
  | x :: xs, h => by
    simp only [vdocL, ReadsL]
    exact ⟨x, xs, rfl, vdoc_reads fin x h.1, vdocL_reads fin xs h.2⟩
theorem vdocM_reads (fin : Str → Bool) : ∀ v : List (Str × Value), WfValueM fin v → ReadsM fin (vdocM v) v
  | [], _ => by simp only [vdocM, ReadsM]
  | (k, x) :: xs, h => by
    simp only [vdocM, ReadsM]
    exact ⟨x, xs, rfl, vdoc_reads fin x h.1, vdocM_reads fin xs h.2⟩
end

mutual
theorem valueText_denotes (fin : Str → Bool) : ∀ v : Value, WfValue fin v → TextDenotes (render (ofValue v)) (vdoc v)
  | .null, _ => textDenotes_null
  | .bool b, _ => by
    have := textDenotes_bool b
    cases b <;> simpa [boolText, ofValue, render, vdoc] using this
  | .str s, _ => by simp only [vdoc, ofValue, render]; exact textDenotes_str s
  | .num n, h => by simp only [vdoc, ofValue, render]; exact textDenotes_num (numText_isNum h)
  | .arr xs, h => by
    simp only [vdoc, ofValue, render]
    exact textDenotes_arr (valueTexts_denote fin xs h)
  | .obj kvs, h => by
    simp only [vdoc, ofValue, render]
    exact textDenotes_obj (memberTexts_denote fin kvs h.2)
theorem valueTexts_denote (fin : Str → Bool) : ∀ v : List Value, WfValueL fin v →
    ElemsText (renderElems (ofValues v)) (vdocL v)
  | [], _ => elemsText_nil
  | [x], h => by
    simp only [vdocL, ofValues, renderElems]
    have := elemsText_cons (valueText_denotes fin x h.1) (Or.inl ⟨rfl, rfl⟩)
    simpa using this
  | x :: y :: xs, h => by
    have ih := valueTexts_denote fin (y :: xs) h.2
    simp only [vdocL, ofValues, renderElems] at ih ⊢
    exact elemsText_cons (valueText_denotes fin x h.1) (Or.inr ⟨by simp, _, rfl, ih⟩)
theorem memberTexts_denote (fin : Str → Bool) : ∀ v : List (Str × Value), WfValueM fin v →
    MembersText (renderMembers (ofMembers v)) (vdocM v)
  | [], _ => membersText_nil
  | [(k, x)], h => by
    simp only [vdocM, ofMembers, renderMembers]
    have := membersText_cons (k := k) (valueText_denotes fin x h.1) (Or.inl ⟨rfl, rfl⟩)
    simpa [jsonStr] using this
  | (k, x) :: (k', y) :: xs, h => by
    have ih := memberTexts_denote fin ((k', y) :: xs) h.2
    simp only [vdocM, ofMembers, renderMembers] at ih ⊢
    have := membersText_cons (k := k) (valueText_denotes fin x h.1) (Or.inr ⟨by simp, _, rfl, ih⟩)
    simpa [jsonStr] using this
end

theorem valueText_prints {fin : Str → Bool} {v : Value} (h : WfValue fin v) : Prints fin v (valueText v) :=
  ⟨vdoc v, valueText_denotes fin v h, vdoc_reads fin v h⟩

/-! ### Values read from a text are well-formed -/

theorem readNum_wf {fin : Str → Bool} {l : Str} (hl : IsNum l) {n : Num} (h : readNum fin l = some n) : NumWf fin n := by
  have hr := (readNum_iff hl n).1 h
  rcases hr with ⟨k, _, hk, rfl⟩ | ⟨k, _, h1, h2, rfl⟩ | ⟨_, _, _, rfl⟩
  · exact hk
  · exact ⟨h1, h2⟩
  · exact ⟨hl, (readNum_iff hl _).1 h⟩

theorem mapInsert_wf {fin : Str → Bool} {k : Str} {v : Value} {m : List (Str × Value)} (hv : WfValue fin v)
    (hm : WfValueM fin m) : WfValueM fin (mapInsert k v m) := by
  induction m with
  | nil => exact ⟨hv, trivial⟩
  | cons x m ih =>
    obtain ⟨k', v'⟩ := x
    simp only [mapInsert]
    split
    · exact ⟨hv, hm⟩
    · split
      · exact ⟨hm.1, ih hm.2⟩
      · exact ⟨hv, hm.2⟩

mutual
theorem toValueW_wf (fin : Str → Bool) (nest : Str → Option Value) (hnest : ∀ s v, nest s = some v → WfValue fin v) : ∀ (t : JTree) (d : Nat) (v : Value), NumsOk t → toValueW nest fin d t = some v →
    WfValue fin v
  | .null, d, v, _, h | .bool _, d, v, _, h => by
    simp only [toValueW, Option.some.injEq] at h; subst h; simp only [WfValue]
  | .str raw, d, v, _, h => by
    simp only [toValueW, Option.map_eq_some_iff] at h
    obtain ⟨s, _, rfl⟩ := h
    simp only [WfValue]
  | .num l, d, v, hn, h => by
    simp only [toValueW, Option.map_eq_some_iff] at h
    obtain ⟨n, h, rfl⟩ := h
    exact readNum_wf hn h
  | .arr ts, d, v, hn, h => by
    simp only [toValueW] at h
    split at h
    · simp at h
    · simp only [Option.map_eq_some_iff] at h
      obtain ⟨xs, h, rfl⟩ := h
      exact toValuesW_wf fin nest hnest ts _ xs hn h
  | .obj ts, d, v, hn, h => by
    simp only [toValueW] at h
    split at h
    · simp at h
    · split at h
      · simp only [Option.map_eq_some_iff] at h
        obtain ⟨xs, h, rfl⟩ := h
        exact toMapW_wf fin nest hnest ts _ [] xs hn List.Pairwise.nil trivial h
      · simp at h
      · exact hnest _ _ h
theorem toValuesW_wf (fin : Str → Bool) (nest : Str → Option Value) (hnest : ∀ s v, nest s = some v → WfValue fin v) : ∀ (ts : List JTree) (d : Nat) (v : List Value), NumsOkL ts →
    toValuesW nest fin d ts = some v → WfValueL fin v
  | [], d, v, _, h => by simp only [toValuesW, Option.some.injEq] at h; subst h; trivial
  | t :: ts, d, v, hn, h => by
    simp only [toValuesW] at h
    split at h
    · simp at h
    · rename_i x hx
      simp only [Option.map_eq_some_iff] at h
      obtain ⟨xs, h, rfl⟩ := h
      exact ⟨toValueW_wf fin nest hnest t d x hn.1 hx, toValuesW_wf fin nest hnest ts d xs hn.2 h⟩
theorem toMapW_wf (fin : Str → Bool) (nest : Str → Option Value) (hnest : ∀ s v, nest s = some v → WfValue fin v) : ∀ (ts : List (Str × JTree)) (d : Nat) (m v : List (Str × Value)), NumsOkM ts →
    SortedM m → WfValueM fin m → toMapW nest fin d ts m = some v → SortedM v ∧ WfValueM fin v
  | [], d, m, v, _, h1, h2, h => by simp only [toMapW, Option.some.injEq] at h; subst h; exact ⟨h1, h2⟩
  | (k, t) :: ts, d, m, v, hn, h1, h2, h => by
    simp only [toMapW] at h
    split at h
    · simp at h
    · split at h
      · simp at h
      · rename_i x hx
        exact toMapW_wf fin nest hnest ts d _ v hn.2 (mapInsert_sorted _ _ h1) (mapInsert_wf (toValueW_wf fin nest hnest t d x hn.1 hx) h2) h
end

theorem rawText_wf (fin : Str → Bool) (n : Nat) : ∀ s v, rawText fin n s = some v → WfValue fin v := by
  induction n with
  | zero => simp [rawText]
  | succ n ih =>
    intro s v h
    simp only [rawText, Option.bind_eq_some_iff, parseTree_iff] at h
    obtain ⟨t, ht, h⟩ := h
    exact toValueW_wf fin _ ih t _ v (isText_bounds ht).1 h

theorem toValue_wf (fin : Str → Bool) (t : JTree) (d : Nat) (v : Value) (hn : NumsOk t) (h : toValue fin d t = some v) :
    WfValue fin v :=
  toValueW_wf fin _ (fun s v h => rawText_wf fin _ s v h) t d v hn h

theorem bytes_wf (fin : Str → Bool) (b : Bytes) : WfValueL fin (b.map fun x => .num (.pos x.toNat)) := by
  induction b with
  | nil => trivial
  | cons x b ih => exact ⟨Nat.lt_trans x.toNat_lt (by decide), ih⟩

theorem filledM_keys {bs : List Bytes} {kvs m : List (Str × Value)} (h : FilledM bs kvs m) :
    m.map Prod.fst = kvs.map Prod.fst := by
  induction kvs generalizing m with
  | nil => simp only [FilledM] at h; simp [h]
  | cons x kvs ih =>
    obtain ⟨k, x⟩ := x
    simp only [FilledM] at h
    obtain ⟨y, ys, rfl, _, h⟩ := h
    simp [ih h]

theorem sortedM_keys {α β : Type} {m : List (Str × α)} {m' : List (Str × β)} (he : m'.map Prod.fst = m.map Prod.fst)
    (h : SortedM m) : SortedM m' := by
  unfold SortedM at h ⊢
  have h' : (m.map Prod.fst).Pairwise (· < ·) := by rw [List.pairwise_map]; exact h
  rw [← he, List.pairwise_map] at h'
  exact h'

mutual
theorem filled_wf (fin : Str → Bool) (bs : List Bytes) : ∀ v v' : Value, Filled bs v v' → WfValue fin v → WfValue fin v'
  | .null, v', h, hw | .bool _, v', h, hw | .str _, v', h, hw | .num _, v', h, hw => by
    simp only [Filled] at h; subst h; exact hw
  | .arr xs, v', h, hw => by
    simp only [Filled] at h
    obtain ⟨ys, rfl, h⟩ := h
    exact filledL_wf fin bs xs ys h hw
  | .obj kvs, v', h, hw => by
    simp only [Filled] at h
    rcases h with ⟨_, i, b, _, _, rfl⟩ | ⟨_, m, rfl, h⟩
    · exact bytes_wf fin b
    · exact ⟨sortedM_keys (filledM_keys h) hw.1, filledM_wf fin bs kvs m h hw.2⟩
theorem filledL_wf (fin : Str → Bool) (bs : List Bytes) : ∀ v v' : List Value, FilledL bs v v' → WfValueL fin v →
    WfValueL fin v'
  | [], v', h, _ => by simp only [FilledL] at h; subst h; trivial
  | x :: xs, v', h, hw => by
    simp only [FilledL] at h
    obtain ⟨y, ys, rfl, h1, h2⟩ := h
    exact ⟨filled_wf fin bs x y h1 hw.1, filledL_wf fin bs xs ys h2 hw.2⟩
theorem filledM_wf (fin : Str → Bool) (bs : List Bytes) : ∀ v v' : List (Str × Value), FilledM bs v v' →
    WfValueM fin v → WfValueM fin v'
  | [], v', h, _ => by simp only [FilledM] at h; subst h; trivial
  | (k, x) :: xs, v', h, hw => by
    simp only [FilledM] at h
    obtain ⟨y, ys, rfl, h1, h2⟩ := h
    exact ⟨filled_wf fin bs x y h1 hw.1, filledM_wf fin bs xs ys h2 hw.2⟩
end

theorem valueOfText_wf {fin : Str → Bool} {s : Str} {v : Value} (h : valueOfText fin s = some v) : WfValue fin v := by
  unfold valueOfText at h
  rw [Option.bind_eq_some_iff] at h
  obtain ⟨t, ht, hv⟩ := h
  obtain ⟨_, w, _, _, _, _, hw⟩ := (parseTree_iff s t).1 ht
  exact toValue_wf fin t _ v (isVal_numsOk t w hw) hv

/-- What an argument reads as can be printed. -/
theorem toJsonValue_wf {fin : Str → Bool} {a : Arg} {bs : List Bytes}
    (hb : a.attachments.map OwnedSubslice.deref = bs.map some) {v : Value} (h : a.toJsonValue fin = .ok v) :
    WfValue fin v := by
  unfold Arg.toJsonValue at h
  split at h
  · simp at h
  · rename_i v0 hv
    have h0 := valueOfText_wf hv
    split at h
    · rcases fillV_out hb v0 with ⟨y, he, hy, _⟩ | ⟨_, _, _, _, _, _, _, he⟩
      · rw [h] at he
        simp at he
        subst he
        exact filled_wf fin bs v0 _ hy h0
      · rw [h] at he
        simp at he
    · simp at h
      subst h
      exact h0

end SIO
