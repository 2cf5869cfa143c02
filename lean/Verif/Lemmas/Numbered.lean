import Verif.Lemmas.Fill
import Verif.Lemmas.Builder
/-
Filling the value of a document with numbered placeholders gives the value of the document
with its byte strings as arrays of numbers.
-/
namespace SIO
open Spec

theorem numReads_byte (fin : Str → Bool) (x : UInt8) : NumReads fin (decimal x.toNat) (.pos x.toNat) := by
  have := x.toNat_lt
  exact Or.inl ⟨x.toNat, rfl, by omega, rfl⟩

theorem readsL_bytes (fin : Str → Bool) (b : Bytes) :
    ReadsL fin (byteNums b) (b.map fun x => .num (.pos x.toNat)) := by
  induction b with
  | nil => simp [byteNums, ReadsL]
  | cons x b ih =>
    simp only [byteNums, List.map_cons, ReadsL]
    exact ⟨_, _, rfl, by simp only [Reads]; exact ⟨_, rfl, numReads_byte fin x⟩, ih⟩

theorem filledM_insert {bs : List Bytes} {k : Str} {x y : Value} (hxy : Filled bs x y) :
    ∀ {m m' : List (Str × Value)}, FilledM bs m m' → FilledM bs (mapInsert k x m) (mapInsert k y m')
  | [], m', h => by
    simp only [FilledM] at h
    subst h
    simp only [mapInsert, FilledM]
    exact ⟨y, [], rfl, hxy, rfl⟩
  | (k', x') :: m, m', h => by
    simp only [FilledM] at h
    obtain ⟨y', ys, rfl, h1, h2⟩ := h
    simp only [mapInsert]
    split
    · simp only [FilledM]
      exact ⟨y, _, rfl, hxy, y', ys, rfl, h1, h2⟩
    · split
      · simp only [FilledM]
        exact ⟨y', _, rfl, h1, filledM_insert hxy h2⟩
      · simp only [FilledM]
        exact ⟨y, _, rfl, hxy, h2⟩

theorem filledM_insertAll {bs : List Bytes} : ∀ {w u m m' : List (Str × Value)}, FilledM bs w u → FilledM bs m m' →
    FilledM bs (insertAll m w) (insertAll m' u)
  | [], u, m, m', h, hm => by
    simp only [FilledM] at h
    subst h
    simpa [insertAll] using hm
  | (k, x) :: w, u, m, m', h, hm => by
    simp only [FilledM] at h
    obtain ⟨y, ys, rfl, h1, h2⟩ := h
    simp only [insertAll]
    exact filledM_insertAll h2 (filledM_insert h1 hm)

theorem isMap_keys {α : Type} {w m : List (Str × α)} (h : IsMap w m) {k : Str} (hk : k ∈ m.map Prod.fst) :
    k ∈ w.map Prod.fst := by
  refine Classical.byContradiction fun hn => ?_
  have h1 : w.reverse.lookup k = none := by
    rw [List.lookup_eq_none_iff]
    intro x hx
    simp only [List.mem_reverse] at hx
    simp only [bne_iff_ne, ne_eq]
    intro e
    exact hn (List.mem_map.2 ⟨x, hx, e.symm⟩)
  rw [← h.2 k, List.lookup_eq_none_iff] at h1
  obtain ⟨x, hx, e⟩ := List.mem_map.1 hk
  have := h1 x hx
  simp [e] at this

theorem readsM_keys {fin : Str → Bool} : ∀ {kvs : List (Str × Doc)} {w : List (Str × Value)}, ReadsM fin kvs w →
    w.map Prod.fst = kvs.map Prod.fst
  | [], w, h => by simp only [ReadsM] at h; simp [h]
  | (k, d) :: kvs, w, h => by
    simp only [ReadsM] at h
    obtain ⟨y, ys, rfl, _, h⟩ := h
    simp [readsM_keys h]

theorem numberedM_keys : ∀ (n : Nat) (kvs : List (Str × Doc)), (numberedM n kvs).map Prod.fst = kvs.map Prod.fst
  | _, [] => by simp [numberedM]
  | n, (k, d) :: kvs => by simp [numberedM, numberedM_keys]

theorem keysM_fst : ∀ (kvs : List (Str × Doc)), ∀ k ∈ kvs.map Prod.fst, k ∈ keysM kvs
  | [], _, h => by simp at h
  | (k, d) :: kvs, j, h => by
    simp only [List.map_cons, List.mem_cons] at h
    simp only [keysM, List.mem_cons, List.mem_append]
    rcases h with h | h
    · exact Or.inl h
    · exact Or.inr (Or.inr (keysM_fst kvs j h))

theorem phKey_ne_numKey : phKey ≠ numKey := by decide +kernel

theorem reads_placeholder {fin : Str → Bool} {n : Nat} {w : Value} (hn : n < 2 ^ 64)
    (h : Reads fin (placeholderDoc n) w) : ∃ m, w = .obj m ∧ IsPh m ∧ PhNum m n := by
  have e : placeholderDoc n = .obj [(phKey, .bool true), (numKey, .num (decimal n))] := rfl
  rw [e] at h
  simp only [Reads, ReadsM] at h
  obtain ⟨w', m, rfl, ⟨y, ys, rfl, rfl, z, zs, rfl, ⟨k, rfl, hk⟩, rfl⟩, hm⟩ := h
  have hk' : k = .pos n := numReads_unique hk (Or.inl ⟨n, rfl, hn, rfl⟩)
  subst hk'
  refine ⟨m, rfl, ?_, ?_⟩
  · have h1 := hm.2 phKey
    have h2 : (phKey == numKey) = false := by simpa using phKey_ne_numKey
    rw [List.reverse_cons, List.reverse_cons, List.reverse_nil, List.nil_append, List.singleton_append,
      List.lookup_cons, h2, List.lookup_cons, beq_self_eq_true] at h1
    show phKey ∈ m.map Prod.fst
    refine Classical.byContradiction fun hn => ?_
    have : m.lookup phKey = none := by
      rw [List.lookup_eq_none_iff]
      intro x hx
      simp only [bne_iff_ne, ne_eq]
      intro e
      exact hn (List.mem_map.2 ⟨x, hx, e.symm⟩)
    rw [this] at h1
    simp at h1
  · have h1 := hm.2 numKey
    rw [List.reverse_cons, List.reverse_cons, List.reverse_nil, List.nil_append, List.singleton_append,
      List.lookup_cons, beq_self_eq_true] at h1
    exact h1

mutual
theorem filled_numbered (fin : Str → Bool) (bs : List Bytes) : ∀ (d : Doc) (n : Nat) (w : Value),
    phKey ∉ d.keys → n + d.blobs.length ≤ 2 ^ 64 → (∀ j, j < d.blobs.length → bs[n + j]? = d.blobs[j]?) →
    Reads fin (d.numbered n) w → ∃ v, Filled bs w v ∧ Reads fin d.plain v
  | .null, n, w, _, _, _, h | .bool _, n, w, _, _, _, h | .str _, n, w, _, _, _, h => by
    simp only [Doc.numbered, Reads] at h
    exact ⟨w, by simp only [h, Filled], by simp only [h, Doc.plain, Reads]⟩
  | .num l, n, w, _, _, _, h => by
    simp only [Doc.numbered, Reads] at h
    obtain ⟨k, rfl, h⟩ := h
    exact ⟨.num k, by simp only [Filled], by simp only [Doc.plain, Reads]; exact ⟨k, rfl, h⟩⟩
  | .blob b, n, w, _, hn, hb, h => by
    simp only [Doc.numbered] at h
    simp only [Doc.blobs, List.length_singleton] at hn hb
    obtain ⟨m, rfl, h1, h2⟩ := reads_placeholder (by omega) h
    have := hb 0 (by omega)
    refine ⟨.arr (b.map fun x => .num (.pos x.toNat)), ?_, ?_⟩
    · simp only [Filled]
      exact Or.inl ⟨h1, n, b, h2, by simpa using this, rfl⟩
    · simp only [Doc.plain, Reads]
      exact ⟨_, rfl, readsL_bytes fin b⟩
  | .arr ds, n, w, hk, hn, hb, h => by
    simp only [Doc.numbered, Reads] at h
    obtain ⟨xs, rfl, h⟩ := h
    simp only [Doc.keys, Doc.blobs] at hk hn hb
    obtain ⟨ys, h1, h2⟩ := filledL_numbered fin bs ds n xs hk hn hb h
    exact ⟨.arr ys, by simp only [Filled]; exact ⟨ys, rfl, h1⟩, by simp only [Doc.plain, Reads]; exact ⟨ys, rfl, h2⟩⟩
  | .obj kvs, n, w, hk, hn, hb, h => by
    simp only [Doc.numbered, Reads] at h
    obtain ⟨xs, m, rfl, h, hm⟩ := h
    simp only [Doc.keys, Doc.blobs] at hk hn hb
    obtain ⟨ys, h1, h2⟩ := filledM_numbered fin bs kvs n xs hk hn hb h
    refine ⟨.obj (insertAll [] ys), ?_, ?_⟩
    · simp only [Filled]
      refine Or.inr ⟨?_, _, rfl, ?_⟩
      · intro hp
        have := isMap_keys hm (k := phKey) hp
        rw [readsM_keys h, numberedM_keys] at this
        exact hk (keysM_fst kvs phKey this)
      · rw [(isMap_iff xs m).1 hm]
        exact filledM_insertAll h1 (by simp only [FilledM])
    · simp only [Doc.plain, Reads]
      exact ⟨ys, _, rfl, h2, (isMap_iff ys _).2 rfl⟩
theorem filledL_numbered (fin : Str → Bool) (bs : List Bytes) : ∀ (ds : List Doc) (n : Nat) (ws : List Value),
    phKey ∉ keysL ds → n + (blobsL ds).length ≤ 2 ^ 64 → (∀ j, j < (blobsL ds).length → bs[n + j]? = (blobsL ds)[j]?) →
    ReadsL fin (numberedL n ds) ws → ∃ vs, FilledL bs ws vs ∧ ReadsL fin (plains ds) vs
  | [], n, ws, _, _, _, h => by
    simp only [numberedL, ReadsL] at h
    subst h
    exact ⟨[], by simp only [FilledL], by simp only [plains, ReadsL]⟩
  | d :: ds, n, ws, hk, hn, hb, h => by
    simp only [numberedL, ReadsL] at h
    obtain ⟨x, xs, rfl, h1, h2⟩ := h
    simp only [keysL, List.mem_append, not_or] at hk
    simp only [blobsL, List.length_append] at hn hb
    obtain ⟨y, a1, a2⟩ := filled_numbered fin bs d n x hk.1 (by omega)
      (fun j hj => by rw [hb j (by omega), List.getElem?_append_left hj]) h1
    obtain ⟨ys, b1, b2⟩ := filledL_numbered fin bs ds (n + d.blobs.length) xs hk.2 (by omega)
      (fun j hj => by
        have := hb (d.blobs.length + j) (by omega)
        rw [Nat.add_assoc, this, List.getElem?_append_right (by omega)]
        simp) h2
    exact ⟨y :: ys, by simp only [FilledL]; exact ⟨y, ys, rfl, a1, b1⟩,
      by simp only [plains, ReadsL]; exact ⟨y, ys, rfl, a2, b2⟩⟩
theorem filledM_numbered (fin : Str → Bool) (bs : List Bytes) : ∀ (ds : List (Str × Doc)) (n : Nat)
    (ws : List (Str × Value)),
    phKey ∉ keysM ds → n + (blobsM ds).length ≤ 2 ^ 64 → (∀ j, j < (blobsM ds).length → bs[n + j]? = (blobsM ds)[j]?) →
    ReadsM fin (numberedM n ds) ws → ∃ vs, FilledM bs ws vs ∧ ReadsM fin (plainMs ds) vs
  | [], n, ws, _, _, _, h => by
    simp only [numberedM, ReadsM] at h
    subst h
    exact ⟨[], by simp only [FilledM], by simp only [plainMs, ReadsM]⟩
  | (k, d) :: ds, n, ws, hk, hn, hb, h => by
    simp only [numberedM, ReadsM] at h
    obtain ⟨x, xs, rfl, h1, h2⟩ := h
    simp only [keysM, List.mem_cons, List.mem_append, not_or] at hk
    simp only [blobsM, List.length_append] at hn hb
    obtain ⟨y, a1, a2⟩ := filled_numbered fin bs d n x hk.2.1 (by omega)
      (fun j hj => by rw [hb j (by omega), List.getElem?_append_left hj]) h1
    obtain ⟨ys, b1, b2⟩ := filledM_numbered fin bs ds (n + d.blobs.length) xs hk.2.2 (by omega)
      (fun j hj => by
        have := hb (d.blobs.length + j) (by omega)
        rw [Nat.add_assoc, this, List.getElem?_append_right (by omega)]
        simp) h2
    exact ⟨(k, y) :: ys, by simp only [FilledM]; exact ⟨y, ys, rfl, a1, b1⟩,
      by simp only [plainMs, ReadsM]; exact ⟨y, ys, rfl, a2, b2⟩⟩
end

/-! ### Depth and numbers -/

mutual
theorem denotes_depth : ∀ (t : JTree) (d : Doc), Denotes t d → treeDepth t = docDepth d
  | .null, d, h | .bool _, d, h | .num _, d, h => by
    simp only [Denotes] at h; subst h; rfl
  | .str _, d, h => by
    simp only [Denotes] at h
    obtain ⟨s, rfl, _⟩ := h
    rfl
  | .arr ts, d, h => by
    simp only [Denotes] at h
    obtain ⟨s, rfl, h⟩ := h
    simp only [treeDepth, docDepth, denotesL_depth ts s h]
  | .obj ts, d, h => by
    simp only [Denotes] at h
    obtain ⟨s, rfl, h⟩ := h
    simp only [treeDepth, docDepth, denotesM_depth ts s h]
theorem denotesL_depth : ∀ (t : List JTree) (d : List Doc), DenotesL t d → treesDepth t = docDepthL d
  | [], d, h => by simp only [DenotesL] at h; subst h; rfl
  | t :: ts, d, h => by
    simp only [DenotesL] at h
    obtain ⟨y, ys, rfl, h1, h2⟩ := h
    simp only [treesDepth, docDepthL, denotes_depth t y h1, denotesL_depth ts ys h2]
theorem denotesM_depth : ∀ (t : List (Str × JTree)) (d : List (Str × Doc)), DenotesM t d → membersDepth t = docDepthM d
  | [], d, h => by simp only [DenotesM] at h; subst h; rfl
  | (k, t) :: ts, d, h => by
    simp only [DenotesM] at h
    obtain ⟨k1, y, ys, rfl, h0, h1, h2⟩ := h
    simp only [membersDepth, docDepthM, denotes_depth t y h1, denotesM_depth ts ys h2]
end

mutual
theorem depth_numbered : ∀ (d : Doc) (n : Nat), docDepth (d.numbered n) = docDepth d
  | .null, _ | .bool _, _ | .num _, _ | .str _, _ => rfl
  | .blob _, _ => rfl
  | .arr ds, n => by simp only [Doc.numbered, docDepth, depthL_numbered ds n]
  | .obj ds, n => by simp only [Doc.numbered, docDepth, depthM_numbered ds n]
theorem depthL_numbered : ∀ (d : List Doc) (n : Nat), docDepthL (numberedL n d) = docDepthL d
  | [], _ => rfl
  | d :: ds, n => by simp only [numberedL, docDepthL, depth_numbered d, depthL_numbered ds]
theorem depthM_numbered : ∀ (d : List (Str × Doc)) (n : Nat), docDepthM (numberedM n d) = docDepthM d
  | [], _ => rfl
  | (k, d) :: ds, n => by simp only [numberedM, docDepthM, depth_numbered d, depthM_numbered ds]
end

theorem startsRaw_cons {α : Type} (k : Str) (x : α) (r : List (Str × α)) :
    StartsRaw ((k, x) :: r) ↔ k = "$serde_json::private::RawValue".toList :=
  ⟨fun ⟨y, r', h⟩ => by cases h; rfl, fun h => ⟨x, r, by rw [h]⟩⟩

theorem startsRaw_nil {α : Type} : ¬ StartsRaw ([] : List (Str × α)) := fun ⟨_, _, h⟩ => by cases h

mutual
theorem noRaw_numbered : ∀ (d : Doc) (n : Nat), NoRaw d → NoRaw (d.numbered n)
  | .null, _, _ | .bool _, _, _ | .num _, _, _ | .str _, _, _ => trivial
  | .blob _, n, _ => by
    simp only [Doc.numbered, placeholderDoc, NoRaw, NoRawM, startsRaw_cons, and_self, and_true]
    decide
  | .arr ds, n, h => by
    simp only [Doc.numbered, NoRaw] at h ⊢
    exact noRawL_numbered ds n h
  | .obj ds, n, h => by
    simp only [Doc.numbered, NoRaw] at h ⊢
    refine ⟨?_, noRawM_numbered ds n h.2⟩
    cases ds with
    | nil => exact startsRaw_nil
    | cons d ds =>
      obtain ⟨k, d⟩ := d
      simpa only [numberedM, startsRaw_cons] using h.1
theorem noRawL_numbered : ∀ (d : List Doc) (n : Nat), NoRawL d → NoRawL (numberedL n d)
  | [], _, _ => trivial
  | d :: ds, n, h => ⟨noRaw_numbered d n h.1, noRawL_numbered ds _ h.2⟩
theorem noRawM_numbered : ∀ (d : List (Str × Doc)) (n : Nat), NoRawM d → NoRawM (numberedM n d)
  | [], _, _ => trivial
  | (k, d) :: ds, n, h => ⟨noRaw_numbered d n h.1, noRawM_numbered ds _ h.2⟩
end

theorem noRawL_bytes (b : Bytes) : NoRawL (byteNums b) := by
  induction b with
  | nil => trivial
  | cons x b ih => exact ⟨trivial, ih⟩

mutual
theorem noRaw_plain : ∀ (d : Doc), NoRaw d → NoRaw d.plain
  | .null, _ | .bool _, _ | .num _, _ | .str _, _ => trivial
  | .blob b, _ => by simp only [Doc.plain, NoRaw]; exact noRawL_bytes b
  | .arr ds, h => by
    simp only [Doc.plain, NoRaw] at h ⊢
    exact noRawL_plain ds h
  | .obj ds, h => by
    simp only [Doc.plain, NoRaw] at h ⊢
    refine ⟨?_, noRawM_plain ds h.2⟩
    cases ds with
    | nil => exact startsRaw_nil
    | cons d ds =>
      obtain ⟨k, d⟩ := d
      simpa only [plainMs, startsRaw_cons] using h.1
theorem noRawL_plain : ∀ (d : List Doc), NoRawL d → NoRawL (plains d)
  | [], _ => trivial
  | d :: ds, h => ⟨noRaw_plain d h.1, noRawL_plain ds h.2⟩
theorem noRawM_plain : ∀ (d : List (Str × Doc)), NoRawM d → NoRawM (plainMs d)
  | [], _ => trivial
  | (k, d) :: ds, h => ⟨noRaw_plain d h.1, noRawM_plain ds h.2⟩
end

theorem depthL_bytes (b : Bytes) : docDepthL (byteNums b) = 0 := by
  induction b with
  | nil => rfl
  | cons x b ih =>
    simp only [byteNums, List.map_cons, docDepthL, docDepth] at ih ⊢
    omega

mutual
theorem depth_plain : ∀ (d : Doc), docDepth d.plain = docDepth d
  | .null | .bool _ | .num _ | .str _ => rfl
  | .blob b => by simp only [Doc.plain, docDepth, depthL_bytes]
  | .arr ds => by simp only [Doc.plain, docDepth, depthL_plain ds]
  | .obj ds => by simp only [Doc.plain, docDepth, depthM_plain ds]
theorem depthL_plain : ∀ (d : List Doc), docDepthL (plains d) = docDepthL d
  | [] => rfl
  | d :: ds => by simp only [plains, docDepthL, depth_plain d, depthL_plain ds]
theorem depthM_plain : ∀ (d : List (Str × Doc)), docDepthM (plainMs d) = docDepthM d
  | [] => rfl
  | (k, d) :: ds => by simp only [plainMs, docDepthM, depth_plain d, depthM_plain ds]
end

mutual
theorem nums_numbered : ∀ (d : Doc) (n : Nat), ∀ l ∈ docNums (d.numbered n),
    l ∈ docNums d ∨ ∃ i, i < n + d.blobs.length ∧ l = decimal i
  | .null, _ | .bool _, _ | .num _, _ | .str _, _ => fun l h => Or.inl h
  | .blob _, n => by
    intro l h
    have e : docNums ((Doc.blob ‹_›).numbered n) = [decimal n] := rfl
    rw [e] at h
    simp only [List.mem_singleton] at h
    exact Or.inr ⟨n, by simp [Doc.blobs], h⟩
  | .arr ds, n => by simpa only [Doc.numbered, docNums, Doc.blobs] using numsL_numbered ds n
  | .obj ds, n => by simpa only [Doc.numbered, docNums, Doc.blobs] using numsM_numbered ds n
theorem numsL_numbered : ∀ (d : List Doc) (n : Nat), ∀ l ∈ docNumsL (numberedL n d),
    l ∈ docNumsL d ∨ ∃ i, i < n + (blobsL d).length ∧ l = decimal i
  | [], n => by simp [numberedL, docNumsL]
  | d :: ds, n => by
    intro l h
    simp only [numberedL, docNumsL, List.mem_append, blobsL, List.length_append] at h ⊢
    rcases h with h | h
    · rcases nums_numbered d n l h with h | ⟨i, hi, h⟩
      · exact Or.inl (Or.inl h)
      · exact Or.inr ⟨i, by omega, h⟩
    · rcases numsL_numbered ds _ l h with h | ⟨i, hi, h⟩
      · exact Or.inl (Or.inr h)
      · exact Or.inr ⟨i, by omega, h⟩
theorem numsM_numbered : ∀ (d : List (Str × Doc)) (n : Nat), ∀ l ∈ docNumsM (numberedM n d),
    l ∈ docNumsM d ∨ ∃ i, i < n + (blobsM d).length ∧ l = decimal i
  | [], n => by simp [numberedM, docNumsM]
  | (k, d) :: ds, n => by
    intro l h
    simp only [numberedM, docNumsM, List.mem_append, blobsM, List.length_append] at h ⊢
    rcases h with h | h
    · rcases nums_numbered d n l h with h | ⟨i, hi, h⟩
      · exact Or.inl (Or.inl h)
      · exact Or.inr ⟨i, by omega, h⟩
    · rcases numsM_numbered ds _ l h with h | ⟨i, hi, h⟩
      · exact Or.inl (Or.inr h)
      · exact Or.inr ⟨i, by omega, h⟩
end

theorem numsL_bytes (b : Bytes) : ∀ l ∈ docNumsL (byteNums b), ∃ i, i < 256 ∧ l = decimal i := by
  induction b with
  | nil => simp [byteNums, docNumsL]
  | cons x b ih =>
    intro l h
    simp only [byteNums, List.map_cons, docNumsL, docNums, List.mem_append, List.mem_singleton] at h ih
    rcases h with h | h
    · exact ⟨x.toNat, x.toNat_lt, h⟩
    · exact ih l h

mutual
theorem nums_plain : ∀ (d : Doc), ∀ l ∈ docNums d.plain, l ∈ docNums d ∨ ∃ i, i < 256 ∧ l = decimal i
  | .null | .bool _ | .num _ | .str _ => fun l h => Or.inl h
  | .blob b => fun l h => Or.inr (numsL_bytes b l (by simpa only [Doc.plain, docNums] using h))
  | .arr ds => by simpa only [Doc.plain, docNums] using numsL_plain ds
  | .obj ds => by simpa only [Doc.plain, docNums] using numsM_plain ds
theorem numsL_plain : ∀ (d : List Doc), ∀ l ∈ docNumsL (plains d), l ∈ docNumsL d ∨ ∃ i, i < 256 ∧ l = decimal i
  | [] => by simp [plains, docNumsL]
  | d :: ds => by
    intro l h
    simp only [plains, docNumsL, List.mem_append] at h ⊢
    rcases h with h | h
    · exact (nums_plain d l h).imp Or.inl id
    · exact (numsL_plain ds l h).imp Or.inr id
theorem numsM_plain : ∀ (d : List (Str × Doc)), ∀ l ∈ docNumsM (plainMs d), l ∈ docNumsM d ∨ ∃ i, i < 256 ∧ l = decimal i
  | [] => by simp [plainMs, docNumsM]
  | (k, d) :: ds => by
    intro l h
    simp only [plainMs, docNumsM, List.mem_append] at h ⊢
    rcases h with h | h
    · exact (nums_plain d l h).imp Or.inl id
    · exact (numsM_plain ds l h).imp Or.inr id
end

mutual
theorem blobs_plain : ∀ d : Doc, d.plain.blobs = []
  | .null | .bool _ | .num _ | .str _ => rfl
  | .blob b => by
    simp only [Doc.plain, Doc.blobs]
    induction b with
    | nil => rfl
    | cons x b ih => simpa [byteNums, blobsL, Doc.blobs] using ih
  | .arr ds => by simp only [Doc.plain, Doc.blobs, blobsL_plain ds]
  | .obj ds => by simp only [Doc.plain, Doc.blobs, blobsM_plain ds]
theorem blobsL_plain : ∀ d : List Doc, blobsL (plains d) = []
  | [] => rfl
  | d :: ds => by simp only [plains, blobsL, blobs_plain d, blobsL_plain ds, List.append_nil]
theorem blobsM_plain : ∀ d : List (Str × Doc), blobsM (plainMs d) = []
  | [] => rfl
  | (k, d) :: ds => by simp only [plainMs, blobsM, blobs_plain d, blobsM_plain ds, List.append_nil]
end

theorem plains_bytes (b : Bytes) : plains (byteNums b) = byteNums b := by
  induction b with
  | nil => rfl
  | cons x b ih => simpa [byteNums, plains, Doc.plain] using ih

mutual
theorem numbered_noBlobs : ∀ (d : Doc) (n : Nat), d.blobs = [] → d.numbered n = d.plain
  | .null, _, _ | .bool _, _, _ | .num _, _, _ | .str _, _, _ => rfl
  | .blob _, _, h => by simp [Doc.blobs] at h
  | .arr ds, n, h => by
    simp only [Doc.blobs] at h
    simp only [Doc.numbered, Doc.plain, numberedL_noBlobs ds n h]
  | .obj ds, n, h => by
    simp only [Doc.blobs] at h
    simp only [Doc.numbered, Doc.plain, numberedM_noBlobs ds n h]
theorem numberedL_noBlobs : ∀ (d : List Doc) (n : Nat), blobsL d = [] → numberedL n d = plains d
  | [], _, _ => rfl
  | d :: ds, n, h => by
    simp only [blobsL, List.append_eq_nil_iff] at h
    simp only [numberedL, plains, numbered_noBlobs d n h.1, numberedL_noBlobs ds _ h.2]
theorem numberedM_noBlobs : ∀ (d : List (Str × Doc)) (n : Nat), blobsM d = [] → numberedM n d = plainMs d
  | [], _, _ => rfl
  | (k, d) :: ds, n, h => by
    simp only [blobsM, List.append_eq_nil_iff] at h
    simp only [numberedM, plainMs, numbered_noBlobs d n h.1, numberedM_noBlobs ds _ h.2]
end

mutual
theorem plain_plain : ∀ d : Doc, d.plain.plain = d.plain
  | .null | .bool _ | .num _ | .str _ => rfl
  | .blob b => by simp only [Doc.plain, plains_bytes]
  | .arr ds => by simp only [Doc.plain, plains_plains ds]
  | .obj ds => by simp only [Doc.plain, plainMs_plainMs ds]
theorem plains_plains : ∀ d : List Doc, plains (plains d) = plains d
  | [] => rfl
  | d :: ds => by simp only [plains, plain_plain d, plains_plains ds]
theorem plainMs_plainMs : ∀ d : List (Str × Doc), plainMs (plainMs d) = plainMs d
  | [] => rfl
  | (k, d) :: ds => by simp only [plainMs, plain_plain d, plainMs_plainMs ds]
end

theorem numberedL_getElem : ∀ (ds : List Doc) (n i : Nat) (d : Doc), ds[i]? = some d →
    (numberedL n ds)[i]? = some (d.numbered (n + (blobsL (ds.take i)).length))
  | [], _, _, _, h => by simp at h
  | e :: ds, n, 0, d, h => by
    simp at h; subst h; simp [numberedL, blobsL]
  | e :: ds, n, i + 1, d, h => by
    simp only [List.getElem?_cons_succ] at h
    simp only [numberedL, List.getElem?_cons_succ, List.take_succ_cons, blobsL, List.length_append]
    rw [numberedL_getElem ds _ i d h, Nat.add_assoc]

theorem blobsL_getElem : ∀ (ds : List Doc) (i : Nat) (d : Doc), ds[i]? = some d →
    ∃ post, blobsL ds = blobsL (ds.take i) ++ (d.blobs ++ post)
  | [], _, _, h => by simp at h
  | e :: ds, 0, d, h => by
    simp at h; subst h; exact ⟨blobsL ds, by simp [blobsL]⟩
  | e :: ds, i + 1, d, h => by
    simp only [List.getElem?_cons_succ] at h
    obtain ⟨post, h⟩ := blobsL_getElem ds i d h
    exact ⟨post, by simp only [blobsL, List.take_succ_cons, h, List.append_assoc]⟩

theorem plains_getElem : ∀ (ds : List Doc) (i : Nat) (d : Doc), ds[i]? = some d → (plains ds)[i]? = some d.plain
  | [], _, _, h => by simp at h
  | e :: ds, 0, d, h => by simp at h; subst h; simp [plains]
  | e :: ds, i + 1, d, h => by
    simp only [List.getElem?_cons_succ] at h
    simp only [plains, List.getElem?_cons_succ]
    exact plains_getElem ds i d h

end SIO
