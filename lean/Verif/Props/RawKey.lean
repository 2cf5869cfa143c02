import Verif.Props.Args
/-
How far C02 is violated: an argument is read as its value exactly if no object in it starts with
serde_json's private key for raw values.
-/
namespace SIO.Spec

mutual
/-- No object has a key twice. -/
def KeysDistinct : Doc → Prop
  | .arr ds => KeysDistinctL ds
  | .obj kvs => (kvs.map Prod.fst).Nodup ∧ KeysDistinctM kvs
  | _ => True
def KeysDistinctL : List Doc → Prop
  | [] => True
  | d :: ds => KeysDistinct d ∧ KeysDistinctL ds
def KeysDistinctM : List (List Char × Doc) → Prop
  | [] => True
  | (_, d) :: kvs => KeysDistinct d ∧ KeysDistinctM kvs
end

end SIO.Spec

namespace SIO
open Spec

mutual
/-- `v'` is `v` with some objects replaced by arrays. -/
def Shape : Value → Value → Prop
  | .arr xs, v' => ∃ ys, v' = .arr ys ∧ ShapeL xs ys
  | .obj kvs, v' => (∃ ys, v' = .arr ys) ∨ ∃ m, v' = .obj m ∧ ShapeM kvs m
  | v, v' => v' = v
def ShapeL : List Value → List Value → Prop
  | [], ys => ys = []
  | x :: xs, ys => ∃ y ys', ys = y :: ys' ∧ Shape x y ∧ ShapeL xs ys'
def ShapeM : List (Str × Value) → List (Str × Value) → Prop
  | [], ys => ys = []
  | (k, x) :: xs, ys => ∃ y ys', ys = (k, y) :: ys' ∧ Shape x y ∧ ShapeM xs ys'
end

mutual
theorem shape_refl : ∀ v : Value, Shape v v
  | .null | .bool _ | .num _ | .str _ => by simp [Shape]
  | .arr xs => by simp only [Shape]; exact ⟨xs, rfl, shapeL_refl xs⟩
  | .obj kvs => by simp only [Shape]; exact Or.inr ⟨kvs, rfl, shapeM_refl kvs⟩
theorem shapeL_refl : ∀ xs : List Value, ShapeL xs xs
  | [] => by simp [ShapeL]
  | x :: xs => by simp only [ShapeL]; exact ⟨x, xs, rfl, shape_refl x, shapeL_refl xs⟩
theorem shapeM_refl : ∀ xs : List (Str × Value), ShapeM xs xs
  | [] => by simp [ShapeM]
  | (k, x) :: xs => by simp only [ShapeM]; exact ⟨x, xs, rfl, shape_refl x, shapeM_refl xs⟩
end

mutual
theorem shape_filled (bs : List Bytes) : ∀ (v v' : Value), Filled bs v v' → Shape v v'
  | .null, v', h | .bool _, v', h | .num _, v', h | .str _, v', h => by
    simp only [Filled] at h; simp only [Shape, h]
  | .arr xs, v', h => by
    simp only [Filled] at h
    obtain ⟨ys, rfl, h⟩ := h
    simp only [Shape]
    exact ⟨ys, rfl, shapeL_filled bs xs ys h⟩
  | .obj kvs, v', h => by
    simp only [Filled] at h
    simp only [Shape]
    rcases h with ⟨_, i, b, _, _, rfl⟩ | ⟨_, m, rfl, h⟩
    · exact Or.inl ⟨_, rfl⟩
    · exact Or.inr ⟨m, rfl, shapeM_filled bs kvs m h⟩
theorem shapeL_filled (bs : List Bytes) : ∀ (xs ys : List Value), FilledL bs xs ys → ShapeL xs ys
  | [], ys, h => by simp only [FilledL] at h; simp only [ShapeL, h]
  | x :: xs, ys, h => by
    simp only [FilledL] at h
    obtain ⟨y, ys', rfl, h1, h2⟩ := h
    simp only [ShapeL]
    exact ⟨y, ys', rfl, shape_filled bs x y h1, shapeL_filled bs xs ys' h2⟩
theorem shapeM_filled (bs : List Bytes) : ∀ (xs ys : List (Str × Value)), FilledM bs xs ys → ShapeM xs ys
  | [], ys, h => by simp only [FilledM] at h; simp only [ShapeM, h]
  | (k, x) :: xs, ys, h => by
    simp only [FilledM] at h
    obtain ⟨y, ys', rfl, h1, h2⟩ := h
    simp only [ShapeM]
    exact ⟨y, ys', rfl, shape_filled bs x y h1, shapeM_filled bs xs ys' h2⟩
end

theorem shapeM_lookup {k : Str} : ∀ {xs ys : List (Str × Value)} {x : Value}, ShapeM xs ys → xs.lookup k = some x →
    ∃ y, ys.lookup k = some y ∧ Shape x y
  | [], _, _, _, h => by simp at h
  | (j, z) :: xs, ys, x, hs, h => by
    simp only [ShapeM] at hs
    obtain ⟨y, ys', rfl, h1, h2⟩ := hs
    rw [List.lookup_cons] at h ⊢
    by_cases e : (k == j) = true
    · simp only [e] at h ⊢
      cases h
      exact ⟨y, rfl, h1⟩
    · simp only [Bool.not_eq_true] at e
      simp only [e] at h ⊢
      exact shapeM_lookup h2 h

theorem shapeM_keys : ∀ {xs ys : List (Str × Value)}, ShapeM xs ys → ys.map Prod.fst = xs.map Prod.fst
  | [], ys, h => by simp only [ShapeM] at h; simp [h]
  | (k, x) :: xs, ys, h => by
    simp only [ShapeM] at h
    obtain ⟨y, ys', rfl, _, h⟩ := h
    simp [shapeM_keys h]

theorem lookup_of_mem {α : Type} {k : Str} {y : α} : ∀ {l : List (Str × α)}, (l.map Prod.fst).Nodup → (k, y) ∈ l →
    l.lookup k = some y
  | [], _, h => by simp at h
  | (j, z) :: l, hn, h => by
    simp only [List.map_cons, List.nodup_cons] at hn
    rw [List.lookup_cons]
    rcases List.mem_cons.1 h with h | hmem
    · cases h; simp
    · have : k ≠ j := by
        rintro rfl
        exact hn.1 (List.mem_map.2 ⟨(k, y), hmem, rfl⟩)
      rw [show (k == j) = false by simpa using this]
      exact lookup_of_mem hn.2 hmem

theorem isMap_mem {α : Type} {k : Str} {y : α} {w m : List (Str × α)} (hm : IsMap w m) (hn : (w.map Prod.fst).Nodup)
    (h : (k, y) ∈ w) : m.lookup k = some y := by
  rw [hm.2 k]
  refine lookup_of_mem ?_ (by simpa using h)
  rw [List.map_reverse]
  unfold List.Nodup at hn ⊢
  rw [List.pairwise_reverse]
  exact hn.imp fun h => h.symm

theorem getsM_keys {fin : Str → Bool} : ∀ {kvs : List (Str × Doc)} {w : List (Str × Value)}, GetsM fin kvs w →
    w.map Prod.fst = kvs.map Prod.fst
  | [], _, .nil => rfl
  | _ :: _, _, .cons _ _ _ _ _ _ h => by simp [getsM_keys h]

/-- An object that has only the private key is never read. -/
theorem gets_not_raw {fin : Str → Bool} : ∀ {d : Doc} {v : Value}, Gets fin d v → ∀ m, v = .obj m →
    m.map Prod.fst ≠ [rawKey]
  | _, _, .null, _, e | _, _, .bool _, _, e | _, _, .num _ _ _, _, e | _, _, .str _, _, e | _, _, .arr _ _ _, _, e => by
    cases e
  | _, _, .obj kvs w m h1 h2 h3, m', e => by
    cases e
    intro hk
    have hw := getsM_keys h2
    cases kvs with
    | nil =>
      cases h2
      have := isMap_keys h3 (k := rawKey) (by rw [hk]; simp)
      simp at this
    | cons kv kvs =>
      obtain ⟨k, d⟩ := kv
      cases h2 with
      | cons _ _ v _ vs h4 h5 =>
        have hne : k ≠ rawKey := by
          rintro rfl
          exact h1 ⟨_, _, rfl⟩
        have h6 := h3.2 k
        have h7 : m.lookup k = none := by
          rw [List.lookup_eq_none_iff]
          intro x hx
          have : x.1 ∈ m.map Prod.fst := List.mem_map.2 ⟨x, hx, rfl⟩
          rw [hk, List.mem_singleton] at this
          rw [this]
          simpa using hne
        rw [h7] at h6
        have h8 := (List.lookup_eq_none_iff.1 h6.symm) (k, v) (by simp)
        simp at h8
  | _, _, .raw _ _ _ _ _ _ _ h, m, e => gets_not_raw h m e

theorem numberedM_starts {n : Nat} : ∀ {kvs : List (Str × Doc)}, StartsRaw kvs → StartsRaw (numberedM n kvs)
  | _, ⟨x, r, rfl⟩ => ⟨x.numbered n, numberedM (n + x.blobs.length) r, by simp only [numberedM]⟩

theorem plainMs_fst : ∀ (kvs : List (Str × Doc)), (plainMs kvs).map Prod.fst = kvs.map Prod.fst
  | [] => by simp [plainMs]
  | (k, d) :: kvs => by simp [plainMs, plainMs_fst kvs]

mutual
/-- If what is read of a document is its value, no object in it starts with the private key. -/
theorem noRaw_of_reads (fin : Str → Bool) : ∀ (d : Doc) (n : Nat) (u v : Value), Gets fin (d.numbered n) u → Shape u v →
    Reads fin d.plain v → KeysDistinct d → NoRaw d
  | .null, _, _, _, _, _, _, _ | .bool _, _, _, _, _, _, _, _ | .num _, _, _, _, _, _, _, _ | .str _, _, _, _, _, _, _, _
  | .blob _, _, _, _, _, _, _, _ => by simp only [NoRaw]
  | .arr ds, n, u, v, hg, hs, hr, hd => by
    simp only [Doc.numbered] at hg
    simp only [Doc.plain, Reads] at hr
    cases hg with
    | arr _ xs hg =>
      simp only [Shape] at hs
      obtain ⟨ys, rfl, hs⟩ := hs
      obtain ⟨ys', e, hr⟩ := hr
      cases e
      simp only [NoRaw]
      exact noRawL_of_reads fin ds n xs ys hg hs hr (by simpa only [KeysDistinct] using hd)
  | .obj kvs, n, u, v, hg, hs, hr, hd => by
    simp only [Doc.numbered] at hg
    simp only [Doc.plain, Reads] at hr
    simp only [KeysDistinct] at hd
    obtain ⟨w', m', rfl, hr, hm'⟩ := hr
    generalize hkn : numberedM n kvs = kn at hg
    cases hg with
    | obj _ w m h1 h2 h3 =>
      subst hkn
      simp only [Shape] at hs
      obtain ⟨ys, e⟩ | ⟨m1, e, hs⟩ := hs
      · cases e
      · cases e
        simp only [NoRaw]
        refine ⟨fun h => h1 (numberedM_starts h), noRawM_of_reads fin kvs n w w' h2 hr ?_ hd.2⟩
        intro k y y' hy hy'
        have hn : (w.map Prod.fst).Nodup := by rw [getsM_keys h2, numberedM_keys]; exact hd.1
        have hn' : (w'.map Prod.fst).Nodup := by rw [readsM_keys hr, plainMs_fst]; exact hd.1
        obtain ⟨z, h4, h5⟩ := shapeM_lookup hs (isMap_mem h3 hn hy)
        rw [isMap_mem hm' hn' hy'] at h4
        cases h4
        exact h5
    | raw s t d' _ h1 h2 h3 h4 =>
      exfalso
      have hk : kvs.map Prod.fst = [rawKey] := by
        rw [← numberedM_keys n, hkn]; rfl
      have hm1 : m'.map Prod.fst = [rawKey] := by
        have e : w'.map Prod.fst = [rawKey] := by rw [readsM_keys hr, plainMs_fst]; exact hk
        match w', e with
        | [(_, x)], e =>
          cases e
          have := (isMap_iff _ _).1 hm'
          rw [this]
          rfl
      cases hu : u with
      | null => rw [hu] at hs; simp [Shape] at hs
      | bool b => rw [hu] at hs; simp [Shape] at hs
      | num b => rw [hu] at hs; simp [Shape] at hs
      | str b => rw [hu] at hs; simp [Shape] at hs
      | arr b =>
        rw [hu] at hs
        simp only [Shape] at hs
        obtain ⟨_, e, _⟩ := hs
        cases e
      | obj mu =>
        rw [hu] at hs
        simp only [Shape] at hs
        obtain ⟨_, e⟩ | ⟨m2, e, hs⟩ := hs
        · cases e
        · cases e
          exact gets_not_raw h4 mu hu (by rw [← shapeM_keys hs]; exact hm1)
theorem noRawL_of_reads (fin : Str → Bool) : ∀ (ds : List Doc) (n : Nat) (us vs : List Value), GetsL fin (numberedL n ds) us →
    ShapeL us vs → ReadsL fin (plains ds) vs → KeysDistinctL ds → NoRawL ds
  | [], _, _, _, _, _, _, _ => by simp only [NoRawL]
  | d :: ds, n, us, vs, hg, hs, hr, hd => by
    simp only [numberedL] at hg
    simp only [plains, ReadsL] at hr
    simp only [KeysDistinctL] at hd
    obtain ⟨y, ys, rfl, hr1, hr2⟩ := hr
    cases hg with
    | cons _ u _ us hg1 hg2 =>
      simp only [ShapeL] at hs
      obtain ⟨_, _, e, hs1, hs2⟩ := hs
      cases e
      simp only [NoRawL]
      exact ⟨noRaw_of_reads fin d n u y hg1 hs1 hr1 hd.1, noRawL_of_reads fin ds _ us ys hg2 hs2 hr2 hd.2⟩
theorem noRawM_of_reads (fin : Str → Bool) : ∀ (kvs : List (Str × Doc)) (n : Nat) (w w' : List (Str × Value)),
    GetsM fin (numberedM n kvs) w → ReadsM fin (plainMs kvs) w' → (∀ k y y', (k, y) ∈ w → (k, y') ∈ w' → Shape y y') →
    KeysDistinctM kvs → NoRawM kvs
  | [], _, _, _, _, _, _, _ => by simp only [NoRawM]
  | (k, d) :: kvs, n, w, w', hg, hr, hs, hd => by
    simp only [numberedM] at hg
    simp only [plainMs, ReadsM] at hr
    simp only [KeysDistinctM] at hd
    obtain ⟨y, ys, rfl, hr1, hr2⟩ := hr
    cases hg with
    | cons _ _ u _ us hg1 hg2 =>
      simp only [NoRawM]
      exact ⟨noRaw_of_reads fin d n u y hg1 (hs k u y (by simp) (by simp)) hr1 hd.1,
        noRawM_of_reads fin kvs _ us ys hg2 hr2 (fun k y y' h1 h2 => hs k y y' (List.mem_cons_of_mem _ h1)
          (List.mem_cons_of_mem _ h2)) hd.2⟩
end

/-- An argument of a packet reads as the value of its document exactly if no object in it starts
with the private key. -/
theorem args_values_iff (fin : Str → Bool) {A : Args} {vs : List Str} {ds : List Doc} (hs : ArgsShow A vs (blobsL ds))
    (ht : TextsDenote vs (numberedL 0 ds)) (hc : (blobsL ds).length < 2 ^ 64) {i : Nat} {d : Doc}
    (hi : ds[i]? = some d) (hk : phKey ∉ d.keys) (hd : docDepth d < 128) (hl : ∀ l ∈ docNums d, ∃ n, NumReads fin l n)
    (hu : KeysDistinct d) :
    (∃ a v, A.get i = .ok (some a) ∧ a.toJsonValue fin = .ok v ∧ Reads fin d.plain v) ↔ NoRaw d := by
  constructor
  · rintro ⟨a, v, h1, h2, h3⟩
    have hn := numberedL_getElem ds 0 i d hi
    rw [Nat.zero_add] at hn
    obtain ⟨s, hv, t, ht, hdn⟩ := textsDenote_getElem ht hn
    have hget : A.get i = .ok (some ⟨s, A.attachments⟩) := by rw [hs.get i, hv]; rfl
    rw [hget] at h1
    cases h1
    rcases toJsonValue_out fin (a := ⟨s, A.attachments⟩) ht hs.atts with ⟨_, h4⟩ | ⟨_, doc, u, h4, h5, h6⟩
    · rw [h4] at h2; cases h2
    · have := denotes_unique t _ _ h4 hdn
      subst this
      refine noRaw_of_reads fin d _ u v h5 ?_ h3 hu
      rcases h6 with ⟨_, h6⟩ | ⟨_, h6, _⟩
      · rw [h2] at h6
        cases h6
        exact shape_refl v
      · rw [h2] at h6
        exact shape_filled _ u v (((C21_fill _ _ hs.atts u).2.1 v).1 h6.symm)
  · exact fun h => args_values fin hs ht hc hi (Or.inl hk) ⟨hd, hl, h⟩

/-- C02, how far it is violated: of the arguments the property is about (those without repeated keys),
exactly those are read by the peer as their value in which no object starts with serde_json's private
key for raw values. -/
theorem C02_extent (fin : Str → Bool) (event ns : Str) (id : Option Nat) (hn : NsOk ns)
    (hid : ∀ i, id = some i → i < 2 ^ 64) (args : List SVal) (hf : ∀ v ∈ args, v.FloatsOk)
    (hm : ∀ v ∈ args, v.NoMixed) (hc : (blobsL (args.filterMap docOf)).length < 2 ^ 64)
    (hk : ∀ d ∈ args.filterMap docOf, phKey ∉ d.keys)
    (hr : ∀ d ∈ args.filterMap docOf, docDepth d < 128 ∧ ∀ l ∈ docNums d, ∃ n, NumReads fin l n)
    (hu : ∀ d ∈ args.filterMap docOf, KeysDistinct d) :
    ∃ b ws, Builder.newEvent event ns id true = .ok b ∧ (adds b args).finish = .ok ws ∧
      (Unambiguous ns ws → ∃ pk A, PeerReads .active ws pk ∧ pk.namespace_ = .ok ns ∧
        pk.data = .ok (.event id A) ∧ ∀ i d, (args.filterMap docOf)[i]? = some d →
          ((∃ a v, A.get (i + 1) = .ok (some a) ∧ a.toJsonValue fin = .ok v ∧ Reads fin d.plain v) ↔ NoRaw d)) := by
  obtain ⟨b, ws, h1, h2, h3⟩ := C02_event_binary event ns id hn hid args hf hm hc
  refine ⟨b, ws, h1, h2, fun hua => ?_⟩
  obtain ⟨pk, vs, h4, ⟨h5, A, h6, h7⟩, h8⟩ := h3 hua
  refine ⟨pk, A, h4, h5, h6, fun i d hi => ?_⟩
  have hbl : blobsL (.str event :: args.filterMap docOf) = blobsL (args.filterMap docOf) := rfl
  rw [← hbl] at h7 hc
  have hmem := List.mem_of_getElem? hi
  exact args_values_iff fin h7 h8 hc (i := i + 1) (by simpa using hi) (hk d hmem) (hr d hmem).1 (hr d hmem).2 (hu d hmem)

-- non-vacuity of `C02_extent`: one argument of each sort
example : docOf (.map [(.str rawKey, .str ['7'])]) = some (.obj [(rawKey, .str ['7'])]) ∧
    ¬ NoRaw (.obj [(rawKey, .str ['7'])]) ∧ KeysDistinct (.obj [(rawKey, .str ['7'])]) := by
  refine ⟨by simp [docOf, docWith, entriesWith, keyOf], ?_, by simp [KeysDistinct, KeysDistinctM]⟩
  simp only [NoRaw]
  exact fun h => h.1 ⟨_, _, rfl⟩
-- the key is harmless in second place
example : NoRaw (.obj [(['a'], .null), (rawKey, .str ['7'])]) := by
  simp only [NoRaw, NoRawM, and_true]
  rintro ⟨x, r, e⟩
  have h := (List.cons.inj e).1
  have : ['a'] = "$serde_json::private::RawValue".toList := congrArg Prod.fst h
  exact absurd this (by decide +kernel)

end SIO
