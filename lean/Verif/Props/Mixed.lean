import Verif.Props.Builder

/-!
How far C07 fails: what binary mode sends for a sequence that starts with a `u8` and goes on
with something else, and which values are affected.
-/

namespace SIO

open SIO.Spec

theorem docsWith_mapM (leak : Bool) (us : List SVal) : docsWith leak us = us.mapM (docWith leak) := by
  induction us with
  | nil => simp [docsWith]
  | cons u us ih =>
    rw [docsWith, ih, List.mapM_cons]
    cases docWith leak u <;> simp [Option.bind_eq_bind, Option.bind]
    cases List.mapM (docWith leak) us <;> simp

theorem docsWith_length {leak : Bool} : ∀ {us : List SVal} {ds : List Doc}, docsWith leak us = some ds →
    ds.length = us.length
  | [], ds, h => by
    simp [docsWith] at h
    subst h; rfl
  | u :: us, ds, h => by
    cases h1 : docWith leak u with
    | none => simp [docsWith, h1] at h
    | some d =>
      cases h2 : docsWith leak us with
      | none => simp [docsWith, h1, h2] at h
      | some ds' =>
        simp [docsWith, h1, h2] at h
        subst h
        simp [docsWith_length h2]

theorem allU8_mixed {us : List SVal} (h : Mixed us) : allU8 us = none := by
  cases ha : allU8 us with
  | none => rfl
  | some x =>
    obtain ⟨_, w, hw, hne⟩ := h
    rw [allU8_some_iff.1 ha] at hw
    obtain ⟨n, _, rfl⟩ := List.mem_map.1 hw
    exact absurd rfl (hne n)

theorem docWith_mixed {us : List SVal} (h : Mixed us) :
    docWith true (.seq us) = (us.mapM (docWith true)).map fun ds => .arr (.num ['4'] :: ds) := by
  have hn := allU8_mixed h
  obtain ⟨⟨n, us', rfl⟩, _⟩ := h
  have h4 : decimal 4 = ['4'] := by decide +kernel
  simp only [docWith, hn, asByte, docsWith_mapM, h4, Option.isSome_some, and_self, if_true]

mutual
theorem noMixed_of_docWith : ∀ (v : SVal) (d : Doc), docWith true v = some d → docWith false v = some d → v.NoMixed
  | .unit, _, _, _ | .bool _, _, _, _ | .u8 _, _, _, _ | .int _, _, _, _ | .float _, _, _, _
  | .str _, _, _, _ | .char _, _, _, _ | .bytes _, _, _, _ | .none, _, _, _
  | .unitVariant _, _, _, _ | .fail, _, _, _ => by simp [SVal.NoMixed]
  | .some v, d, h, h' => by
    simp only [SVal.NoMixed]
    exact noMixed_of_docWith v d (by simpa [docWith] using h) (by simpa [docWith] using h')
  | .newtype v, d, h, h' => by
    simp only [SVal.NoMixed]
    exact noMixed_of_docWith v d (by simpa [docWith] using h) (by simpa [docWith] using h')
  | .newtypeVariant n v, d, h, h' => by
    simp only [SVal.NoMixed]
    simp only [docWith, Option.map_eq_some_iff] at h h'
    obtain ⟨x, hx, rfl⟩ := h
    obtain ⟨y, hy, e⟩ := h'
    simp at e
    subst e
    exact noMixed_of_docWith v y hx hy
  | .seq [], _, _, _ => by simp [SVal.NoMixed, Mixed, NoMixedL]
  | .seq (v :: vs), d, h, h' => by
    simp only [SVal.NoMixed]
    have hnm : ¬ Mixed (v :: vs) := by
      intro hm
      rw [docWith_mixed hm, ← docsWith_mapM, Option.map_eq_some_iff] at h
      obtain ⟨x, hx, rfl⟩ := h
      rw [docWith, allU8_mixed hm] at h'
      simp only [Bool.false_eq_true, false_and, if_false, Option.map_eq_some_iff] at h'
      obtain ⟨y, hy, e⟩ := h'
      have l1 := docsWith_length hx
      have l2 := docsWith_length hy
      injection e with e
      subst e
      simp at l1 l2
      omega
    refine ⟨hnm, ?_⟩
    cases ha : allU8 (v :: vs) with
    | some b =>
      have := allU8_some_iff.1 ha
      rw [this]
      clear this ha h h' hnm
      induction b with
      | nil => simp [NoMixedL]
      | cons x b ih => simp [NoMixedL, SVal.NoMixed, ih]
    | none =>
      have hb : (asByte v).isSome = false := by
        cases hv : asByte v with
        | none => rfl
        | some n =>
          exfalso
          apply hnm
          have hv' : v = .u8 n := by
            cases v <;> simp [asByte] at hv
            rw [hv]
          refine ⟨⟨n, vs, by rw [hv']⟩, ?_⟩
          apply Classical.byContradiction
          intro hc
          have : ∀ w ∈ v :: vs, ∃ n, w = SVal.u8 n := by
            intro w hw
            apply Classical.byContradiction
            intro hc'
            exact hc ⟨w, hw, fun n e => hc' ⟨n, e⟩⟩
          have : ∀ us : List SVal, (∀ w ∈ us, ∃ n, w = SVal.u8 n) → ∃ x : Bytes, us = x.map SVal.u8 := by
            intro us
            induction us with
            | nil => exact fun _ => ⟨[], rfl⟩
            | cons u us ih =>
              intro hu
              obtain ⟨n, rfl⟩ := hu u (by simp)
              obtain ⟨x, rfl⟩ := ih fun w hw => hu w (by simp [hw])
              exact ⟨n :: x, rfl⟩
          obtain ⟨x, hx⟩ := this (v :: vs) (by assumption)
          rw [allU8_some_iff.2 hx] at ha
          simp at ha
      rw [docWith, ha] at h h'
      simp only [hb, Bool.false_eq_true, and_false, if_false, Option.map_eq_some_iff] at h h'
      obtain ⟨x, hx, rfl⟩ := h
      obtain ⟨y, hy, e⟩ := h'
      injection e with e
      subst e
      exact noMixed_of_docsWith (v :: vs) y hx hy
  | .tuple vs, d, h, h' => by
    simp only [SVal.NoMixed]
    simp only [docWith, Option.map_eq_some_iff] at h h'
    obtain ⟨x, hx, rfl⟩ := h
    obtain ⟨y, hy, e⟩ := h'
    simp at e
    subst e
    exact noMixed_of_docsWith vs y hx hy
  | .tupleVariant n vs, d, h, h' => by
    simp only [SVal.NoMixed]
    simp only [docWith, Option.map_eq_some_iff] at h h'
    obtain ⟨x, hx, rfl⟩ := h
    obtain ⟨y, hy, e⟩ := h'
    simp at e
    subst e
    exact noMixed_of_docsWith vs y hx hy
  | .map kvs, d, h, h' => by
    simp only [SVal.NoMixed]
    simp only [docWith, Option.map_eq_some_iff] at h h'
    obtain ⟨x, hx, rfl⟩ := h
    obtain ⟨y, hy, e⟩ := h'
    simp at e
    subst e
    exact noMixed_of_entriesWith kvs y hx hy
  | .struct fs, d, h, h' => by
    simp only [SVal.NoMixed]
    simp only [docWith, Option.map_eq_some_iff] at h h'
    obtain ⟨x, hx, rfl⟩ := h
    obtain ⟨y, hy, e⟩ := h'
    simp at e
    subst e
    exact noMixed_of_fieldsWith fs y hx hy
  | .structVariant n fs, d, h, h' => by
    simp only [SVal.NoMixed]
    simp only [docWith, Option.map_eq_some_iff] at h h'
    obtain ⟨x, hx, rfl⟩ := h
    obtain ⟨y, hy, e⟩ := h'
    simp at e
    subst e
    exact noMixed_of_fieldsWith fs y hx hy
theorem noMixed_of_docsWith : ∀ (vs : List SVal) (ds : List Doc), docsWith true vs = some ds →
    docsWith false vs = some ds → NoMixedL vs
  | [], _, _, _ => by simp [NoMixedL]
  | v :: vs, ds, h, h' => by
    simp only [docsWith] at h h'
    split at h <;> simp only [Option.some.injEq, reduceCtorEq] at h
    rename_i d1 ds1 e1 e2
    split at h' <;> simp only [Option.some.injEq, reduceCtorEq] at h'
    rename_i d2 ds2 e3 e4
    subst h
    injection h' with a b
    subst a b
    exact ⟨noMixed_of_docWith v _ e1 e3, noMixed_of_docsWith vs _ e2 e4⟩
theorem noMixed_of_entriesWith : ∀ (kvs : List (SVal × SVal)) (ds : List (Str × Doc)), entriesWith true kvs = some ds →
    entriesWith false kvs = some ds → NoMixedM kvs
  | [], _, _, _ => by simp [NoMixedM]
  | (k, v) :: kvs, ds, h, h' => by
    simp only [entriesWith] at h h'
    split at h <;> simp only [Option.some.injEq, reduceCtorEq] at h
    rename_i k1 d1 ds1 e0 e1 e2
    split at h' <;> simp only [Option.some.injEq, reduceCtorEq] at h'
    rename_i k2 d2 ds2 e5 e3 e4
    subst h
    simp only [List.cons.injEq, Prod.mk.injEq] at h'
    obtain ⟨⟨_, a⟩, b⟩ := h'
    subst a b
    exact ⟨noMixed_of_docWith v _ e1 e3, noMixed_of_entriesWith kvs _ e2 e4⟩
theorem noMixed_of_fieldsWith : ∀ (kvs : List (Str × SVal)) (ds : List (Str × Doc)), fieldsWith true kvs = some ds →
    fieldsWith false kvs = some ds → NoMixedF kvs
  | [], _, _, _ => by simp [NoMixedF]
  | (k, v) :: kvs, ds, h, h' => by
    simp only [fieldsWith] at h h'
    split at h <;> simp only [Option.some.injEq, reduceCtorEq] at h
    rename_i d1 ds1 e1 e2
    split at h' <;> simp only [Option.some.injEq, reduceCtorEq] at h'
    rename_i d2 ds2 e3 e4
    subst h
    simp only [List.cons.injEq, Prod.mk.injEq] at h'
    obtain ⟨⟨_, a⟩, b⟩ := h'
    subst a b
    exact ⟨noMixed_of_docWith v _ e1 e3, noMixed_of_fieldsWith kvs _ e2 e4⟩
end

/-- C07, how far it fails: binary mode sends, for every list of arguments, the documents
`docWith true`.  In them a mixed sequence (it starts with a `u8` and has an element that is no
`u8`) is always the array of its elements with an additional 4 in front; and the document of a
value differs from the right one exactly if there is a mixed sequence somewhere in the value. -/
theorem C07_extent (ack : Bool) (ns : Str) (id : Option Nat) (b : Builder) (h : Created ack true ns id b)
    (vs : List SVal) (hf : ∀ v ∈ vs, v.FloatsOk) (h1 : FirstOk ack vs) :
    (∃ (pre : List Doc) (ws : List Ws), (adds b vs).finish = .ok ws ∧
      SentBinary ack ns id (pre ++ vs.filterMap (docWith true)) ws ∧
      if ack then pre = [] else ∃ event, Builder.newEvent event ns id true = .ok b ∧ pre = [.str event]) ∧
    (∀ us, Mixed us →
      docWith true (.seq us) = (us.mapM (docWith true)).map fun ds => .arr (.num ['4'] :: ds)) ∧
    (∀ v d, docOf v = some d → (docWith true v = some d ↔ v.NoMixed)) := by
  refine ⟨?_, fun us hm => docWith_mixed hm, ?_⟩
  · obtain ⟨_, h2⟩ := C05_numbering ack ns id b h vs hf h1
    exact h2
  · intro v d hd
    constructor
    · intro hv
      exact noMixed_of_docWith v d hv hd
    · intro hv
      rw [docWith_noMixed v hv]
      exact hd

-- a mixed sequence inside a map value is affected too, a sequence that ends with a `u8` is not
example : docWith true (.map [(.str ['k'], .seq [.u8 1, .str ['x']])]) =
    some (.obj [(['k'], .arr [.num ['4'], .num ['1'], .str ['x']])]) := by
  have h1 : decimal 1 = ['1'] := by decide +kernel
  have h4 : decimal 4 = ['4'] := by decide +kernel
  simp [docWith, entriesWith, docsWith, keyOf, allU8, asByte, h1, h4]
example : docWith true (.seq [.str ['x'], .u8 1]) = some (.arr [.str ['x'], .num ['1']]) := by
  have h1 : decimal 1 = ['1'] := by decide +kernel
  simp [docWith, docsWith, allU8, asByte, h1]
example : Mixed [.u8 1, .str ['x']] := ⟨⟨1, [.str ['x']], rfl⟩, .str ['x'], by simp, by simp⟩

end SIO
