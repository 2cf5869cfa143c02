import Verif.OwnedSubslice
/-
C25: owned subslices behave like slices.
-/
namespace SIO

/-- C25, dereferencing a string subslice: the designated part, byte offsets, on character
boundaries; everything else panics (`none`). -/
theorem C25_deref_str (o : OwnedSubslice Str) (v : Str) :
    o.deref = some v ↔ ∃ u w, o.data = u ++ (v ++ w) ∧ blen u = o.start ∧ blen u + blen v = o.stop := by
  constructor
  · exact sliceB_some
  · rintro ⟨u, w, h1, h2, h3⟩
    show sliceB o.data o.start o.stop = some v
    rw [h1]
    exact sliceB_mid' u v w _ _ h2.symm h3.symm

/-- C25, dereferencing a byte subslice. -/
theorem C25_deref_bytes (o : OwnedSubslice Bytes) (v : Bytes) :
    o.deref = some v ↔ ∃ u w, o.data = u ++ (v ++ w) ∧ u.length = o.start ∧ u.length + v.length = o.stop := by
  show sliceV o.data o.start o.stop = some v ↔ _
  unfold sliceV
  constructor
  · intro h
    split at h
    · rename_i hc
      simp at h
      subst h
      refine ⟨o.data.take o.start, o.data.drop o.stop, ?_, by simp; omega, by simp; omega⟩
      conv => lhs; rw [← List.take_append_drop o.start o.data]
      congr 1
      conv => lhs; rw [← List.take_append_drop (o.stop - o.start) (o.data.drop o.start)]
      rw [List.drop_drop]
      congr 2
      omega
    · simp at h
  · rintro ⟨u, w, h1, h2, h3⟩
    rw [if_pos (by rw [h1]; simp; omega), h1, ← h2, ← h3]
    simp

/-- C25, nested ranges on strings: a subslice of a subslice is a slice of the dereferenced
value, its end clamped to the outer end. -/
theorem C25_subslice_str (o : OwnedSubslice Str) (v : Str) (h : o.deref = some v) (a b : Nat) :
    (o.subslice a b).deref = sliceB v a (min b (blen v)) := by
  obtain ⟨u, w, h1, h2, h3⟩ := (C25_deref_str o v).1 h
  show sliceB o.data (o.start + a) (min (o.start + b) o.stop) = _
  rw [h1, ← h2, ← h3, show min (blen u + b) (blen u + blen v) = blen u + min b (blen v) by omega]
  exact sliceB_inner u v w a _ (by omega)

/-- C25, nested ranges on bytes. -/
theorem C25_subslice_bytes (o : OwnedSubslice Bytes) (v : Bytes) (h : o.deref = some v) (a b : Nat) :
    (o.subslice a b).deref = sliceV v a (min b v.length) := by
  obtain ⟨h1, h2, h3⟩ := sliceV_len (show sliceV o.data o.start o.stop = some v from h)
  show sliceV o.data (o.start + a) (min (o.start + b) o.stop) = _
  rw [show min (o.start + b) o.stop = o.start + min b v.length by omega]
  exact sliceV_inner o.data o.start o.stop a _ v h (by omega)

/-- C25, conversions from a whole string or vector. -/
theorem C25_whole (s : Str) (b : Bytes) :
    (OwnedSubslice.ofWhole s).deref = some s ∧ (OwnedSubslice.ofWhole b).deref = some b := by
  constructor
  · exact sliceB_full s
  · show sliceV b 0 b.length = some b
    simp [sliceV]

/-- C25, every chain of nested ranges on strings: it is the chain of slices, and it panics
iff one of them does. -/
theorem C25_chain_str (o : OwnedSubslice Str) (v : Str) (h : o.deref = some v) (rs : List (Nat × Nat))
    (hok : ∀ rs1 r rs2, rs = rs1 ++ r :: rs2 →
      (rs1.foldl (fun x r => x.bind fun t => sliceB t r.1 (min r.2 (blen t))) (some v)) ≠ none) :
    (rs.foldl (fun x r => x.subslice r.1 r.2) o).deref =
      rs.foldl (fun x r => x.bind fun t => sliceB t r.1 (min r.2 (blen t))) (some v) := by
  induction rs generalizing o v with
  | nil => exact h
  | cons r rs ih =>
    simp only [List.foldl_cons, Option.bind_some]
    have hd := C25_subslice_str o v h r.1 r.2
    cases hs : sliceB v r.1 (min r.2 (blen v)) with
    | some t =>
      rw [hs] at hd
      apply ih _ _ hd
      intro rs1 r' rs2 he
      have := hok (r :: rs1) r' rs2 (by simp [he])
      simpa [hs] using this
    | none =>
      cases rs with
      | nil => rw [hs] at hd; simpa using hd
      | cons r' rs' =>
        have := hok [r] r' rs' rfl
        simp [hs] at this

/-- C25, equality is equality of the visible parts (between subslices, and with a value). -/
theorem C25_eq {S : Type} [Sliceable S] [DecidableEq S] (o p : OwnedSubslice S) (x y : S)
    (ho : o.deref = some x) (hp : p.deref = some y) :
    (o.eqv p = some true ↔ x = y) ∧ (o.eqv p = some false ↔ x ≠ y) ∧
    (o.eqvVal y = some true ↔ x = y) ∧ (o.eqvVal y = some false ↔ x ≠ y) := by
  simp [OwnedSubslice.eqv, OwnedSubslice.eqvVal, ho, hp]

/-- C25, writing through the mutable reference changes the visible part and nothing else. -/
theorem C25_write (o : OwnedSubslice Bytes) (x v : Bytes) (ho : o.deref = some x) (hl : v.length = x.length) :
    ∃ o', o.write v = some o' ∧ o'.deref = some v ∧
      ∃ u w, o.data = u ++ (x ++ w) ∧ o'.data = u ++ (v ++ w) := by
  obtain ⟨u, w, h1, h2, h3⟩ := (C25_deref_bytes o x).1 ho
  have hd : o.data.take o.start ++ v ++ o.data.drop o.stop = u ++ (v ++ w) := by
    rw [h1, ← h2, ← h3]
    simp [List.drop_append]
  refine ⟨⟨o.data.take o.start ++ v ++ o.data.drop o.stop, o.start, o.stop⟩, ?_, ?_, u, w, h1, hd⟩
  · unfold OwnedSubslice.write
    rw [ho]
    simp [hl]
  · exact (C25_deref_bytes _ v).2 ⟨u, w, hd, h2, by simp only; omega⟩

-- non-vacuity: multi-byte characters, a clamped end, a start off a boundary
example : (OwnedSubslice.new "aéb".toList 1 4).deref = some "éb".toList ∧
    ((OwnedSubslice.new "aéb".toList 1 4).subslice 2 9).deref = some "b".toList ∧
    ((OwnedSubslice.new "aéb".toList 1 4).subslice 1 3).deref = none := by decide
example : (OwnedSubslice.new ([4, 5, 6] : Bytes) 1 3).deref = some [5, 6] ∧
    ((OwnedSubslice.new ([4, 5, 6] : Bytes) 1 3).subslice 1 2).deref = some [6] := by decide

end SIO
