import Verif.Lemmas.Value
import Verif.Args
/-
Filling placeholders.
-/
namespace SIO
open Spec

/-- The error for a bad placeholder object. -/
inductive FillErr (n : Nat) (o : List (Str × Value)) : AErr → Prop where
  | noNum : PhBad n o none → FillErr n o (.noNumInPlaceholderObject (.obj o))
  | range (i : Nat) : PhBad n o (some i) → FillErr n o (.placeholderIndexOutOfRange i n)

/-- Outcome of filling, with `objs` the placeholder objects: all fine and a result, or the
error of the first bad one. -/
def FillOut {α : Type} (n : Nat) (objs : List (List (Str × Value))) (ok : α → Prop) (r : Res AErr α) : Prop :=
  (∃ y, r = .ok y ∧ ok y ∧ ∀ o ∈ objs, PhGood n o) ∨
  (∃ pre o post e, objs = pre ++ o :: post ∧ (∀ x ∈ pre, PhGood n x) ∧ FillErr n o e ∧ r = .err e)

theorem mapGet_isSome {α : Type} (k : Str) (m : List (Str × α)) : (mapGet k m).isSome = true ↔ k ∈ m.map Prod.fst := by
  unfold mapGet
  rw [List.lookup_isSome_iff]
  simp only [List.mem_map]
  constructor
  · rintro ⟨p, hp, h⟩; exact ⟨p, hp, by simpa using (by simpa using h : k = p.1).symm⟩
  · rintro ⟨p, hp, h⟩; exact ⟨p, hp, by simp [h]⟩

theorem asU64_iff (o : List (Str × Value)) (i : Nat) :
    (mapGet "num".toList o).bind asU64 = some i ↔ PhNum o i := by
  unfold mapGet PhNum
  rw [Option.bind_eq_some_iff]
  constructor
  · rintro ⟨v, h1, h2⟩
    rw [h1]
    unfold asU64 at h2
    split at h2
    · simp at h2; rw [h2]
    · simp at h2
  · intro h
    exact ⟨_, h, rfl⟩

theorem fillOut_map {α β : Type} {n : Nat} {objs : List (List (Str × Value))} {ok : α → Prop} {ok' : β → Prop}
    {r : Res AErr α} (f : α → β) (h : FillOut n objs ok r) (hf : ∀ x, ok x → ok' (f x)) :
    FillOut n objs ok' (r.map f) := by
  rcases h with ⟨y, rfl, hy, hg⟩ | ⟨pre, o, post, e, h1, h2, h3, rfl⟩
  · exact Or.inl ⟨f y, rfl, hf y hy, hg⟩
  · exact Or.inr ⟨pre, o, post, e, h1, h2, h3, rfl⟩

theorem fillOut_cons {α β γ : Type} {n : Nat} {objs objs' : List (List (Str × Value))} {ok : α → Prop} {ok' : β → Prop}
    {ok'' : γ → Prop} {r : Res AErr α} {r' : Res AErr β} (f : α → β → γ) (h : FillOut n objs ok r)
    (h' : FillOut n objs' ok' r') (hf : ∀ x y, ok x → ok' y → ok'' (f x y)) :
    FillOut n (objs ++ objs') ok'' (match (generalizing := false) r with
      | .ok y => r'.map (f y)
      | .err e => .err e
      | .panic => .panic) := by
  rcases h with ⟨y, rfl, hy, hg⟩ | ⟨pre, o, post, e, h1, h2, h3, rfl⟩
  · rcases h' with ⟨z, rfl, hz, hg'⟩ | ⟨pre, o, post, e, h1, h2, h3, rfl⟩
    · refine Or.inl ⟨f y z, rfl, hf y z hy hz, ?_⟩
      intro o ho
      rcases List.mem_append.1 ho with ho | ho
      · exact hg o ho
      · exact hg' o ho
    · refine Or.inr ⟨objs ++ pre, o, post, e, by simp [h1], ?_, h3, rfl⟩
      intro x hx
      rcases List.mem_append.1 hx with hx | hx
      · exact hg x hx
      · exact h2 x hx
  · exact Or.inr ⟨pre, o, post ++ objs', e, by simp [h1], h2, h3, rfl⟩

mutual
theorem fillV_out {bufs : List (OwnedSubslice Bytes)} {bs : List Bytes}
    (hb : bufs.map OwnedSubslice.deref = bs.map some) : ∀ v : Value,
    FillOut bs.length (phObjs v) (Filled bs v) (fillV bufs v)
  | .null | .bool _ | .num _ | .str _ => by
    refine Or.inl ⟨_, rfl, ?_, ?_⟩ <;> simp [Filled, phObjs]
  | .arr xs => by
    simp only [fillV, phObjs]
    exact fillOut_map Value.arr (fillL_out hb xs) fun ys h => by simp only [Filled]; exact ⟨ys, rfl, h⟩
  | .obj kvs => by
    have ih := fillM_out hb kvs
    simp only [fillV, phObjs]
    by_cases hp : IsPh kvs
    · have hp' := (mapGet_isSome "_placeholder".toList kvs).2 hp
      rw [if_pos hp', if_pos hp]
      cases hn : (mapGet "num".toList kvs).bind asU64 with
      | none =>
        refine Or.inr ⟨[], kvs, [], _, rfl, by simp, .noNum (.noNum fun i hi => ?_), rfl⟩
        rw [(asU64_iff kvs i).2 hi] at hn
        simp at hn
      | some i =>
        have hi := (asU64_iff kvs i).1 hn
        have hlen : bufs.length = bs.length := by simpa using congrArg List.length hb
        cases hx : bufs[i]? with
        | none =>
          have hx' := List.getElem?_eq_none_iff.1 hx
          refine Or.inr ⟨[], kvs, [], _, rfl, by simp, .range i (.range i hi (by omega)), ?_⟩
          simp only [hx]
          rw [hlen]
        | some b =>
          have hi' : i < bufs.length := by
            rcases Nat.lt_or_ge i bufs.length with h | h
            · exact h
            · rw [List.getElem?_eq_none_iff.2 h] at hx; simp at hx
          have hd : (bufs.map OwnedSubslice.deref)[i]? = some b.deref := by simp [hx]
          rw [hb] at hd
          simp only [List.getElem?_map, Option.map_eq_some_iff] at hd
          obtain ⟨x, hx1, hx2⟩ := hd
          refine Or.inl ⟨bytesValue x, ?_, ?_, ?_⟩
          · simp only [hx, ← hx2]
          · simp only [Filled]
            exact Or.inl ⟨hp, i, x, hi, hx1, rfl⟩
          · intro o ho
            simp at ho
            rw [ho]
            exact ⟨i, hi, by omega⟩
    · have hp' : ¬ (mapGet "_placeholder".toList kvs).isSome = true := fun h => hp ((mapGet_isSome _ _).1 h)
      rw [if_neg hp', if_neg hp]
      exact fillOut_map Value.obj ih fun m h => by simp only [Filled]; exact Or.inr ⟨hp, m, rfl, h⟩
theorem fillL_out {bufs : List (OwnedSubslice Bytes)} {bs : List Bytes}
    (hb : bufs.map OwnedSubslice.deref = bs.map some) : ∀ xs : List Value,
    FillOut bs.length (phObjsL xs) (FilledL bs xs) (fillL bufs xs)
  | [] => by
    refine Or.inl ⟨_, rfl, ?_, ?_⟩ <;> simp [FilledL, phObjsL]
  | x :: xs => by
    simp only [fillL, phObjsL]
    have h := fillOut_cons (ok'' := FilledL bs (x :: xs)) (fun y ys => y :: ys) (fillV_out hb x) (fillL_out hb xs) fun y ys h h' => by
      simp only [FilledL]; exact ⟨y, ys, rfl, h, h'⟩
    generalize fillV bufs x = r at h ⊢
    cases r <;> exact h
theorem fillM_out {bufs : List (OwnedSubslice Bytes)} {bs : List Bytes}
    (hb : bufs.map OwnedSubslice.deref = bs.map some) : ∀ xs : List (Str × Value),
    FillOut bs.length (phObjsM xs) (FilledM bs xs) (fillM bufs xs)
  | [] => by
    refine Or.inl ⟨_, rfl, ?_, ?_⟩ <;> simp [FilledM, phObjsM]
  | (k, x) :: xs => by
    simp only [fillM, phObjsM]
    have h := fillOut_cons (ok'' := FilledM bs ((k, x) :: xs)) (fun y ys => (k, y) :: ys) (fillV_out hb x) (fillM_out hb xs) fun y ys h h' => by
      simp only [FilledM]; exact ⟨y, ys, rfl, h, h'⟩
    generalize fillV bufs x = r at h ⊢
    cases r <;> exact h
end

theorem phNum_unique {o : List (Str × Value)} {i j : Nat} (h : PhNum o i) (h' : PhNum o j) : i = j := by
  unfold PhNum at h h'
  rw [h] at h'
  simpa using h'

theorem phBad_not_good {n : Nat} {o : List (Str × Value)} {x : Option Nat} (h : PhBad n o x) : ¬ PhGood n o := by
  rintro ⟨i, hi, hlt⟩
  cases h with
  | noNum h => exact h i hi
  | range j hj hle => have := phNum_unique hi hj; omega

mutual
theorem filled_unique (bs : List Bytes) : ∀ v y y' : Value, Filled bs v y → Filled bs v y' → y = y'
  | .null, y, y', h, h' | .bool _, y, y', h, h' | .num _, y, y', h, h' | .str _, y, y', h, h' => by
    simp only [Filled] at h h'; rw [h, h']
  | .arr xs, y, y', h, h' => by
    simp only [Filled] at h h'
    obtain ⟨ys, rfl, h⟩ := h
    obtain ⟨ys', rfl, h'⟩ := h'
    rw [filledL_unique bs xs ys ys' h h']
  | .obj kvs, y, y', h, h' => by
    simp only [Filled] at h h'
    rcases h with ⟨hp, i, b, h1, h2, rfl⟩ | ⟨hp, m, rfl, h⟩ <;>
      rcases h' with ⟨hp', i', b', h1', h2', rfl⟩ | ⟨hp', m', rfl, h'⟩
    · have := phNum_unique h1 h1'
      subst this
      rw [h2] at h2'
      simp at h2'
      rw [h2']
    · exact absurd hp hp'
    · exact absurd hp' hp
    · rw [filledM_unique bs kvs m m' h h']
theorem filledL_unique (bs : List Bytes) : ∀ v y y' : List Value, FilledL bs v y → FilledL bs v y' → y = y'
  | [], y, y', h, h' => by simp only [FilledL] at h h'; rw [h, h']
  | x :: xs, y, y', h, h' => by
    simp only [FilledL] at h h'
    obtain ⟨z, zs, rfl, h1, h2⟩ := h
    obtain ⟨z', zs', rfl, h1', h2'⟩ := h'
    rw [filled_unique bs x z z' h1 h1', filledL_unique bs xs zs zs' h2 h2']
theorem filledM_unique (bs : List Bytes) : ∀ v y y' : List (Str × Value), FilledM bs v y → FilledM bs v y' → y = y'
  | [], y, y', h, h' => by simp only [FilledM] at h h'; rw [h, h']
  | (k, x) :: xs, y, y', h, h' => by
    simp only [FilledM] at h h'
    obtain ⟨z, zs, rfl, h1, h2⟩ := h
    obtain ⟨z', zs', rfl, h1', h2'⟩ := h'
    rw [filled_unique bs x z z' h1 h1', filledM_unique bs xs zs zs' h2 h2']
end

mutual
theorem filled_good (bs : List Bytes) : ∀ v v' : Value, Filled bs v v' → ∀ o ∈ phObjs v, PhGood bs.length o
  | .null, _, _ | .bool _, _, _ | .num _, _, _ | .str _, _, _ => by simp [phObjs]
  | .arr xs, v', h => by
    simp only [Filled] at h
    obtain ⟨ys, _, h⟩ := h
    rw [phObjs]
    exact filledL_good bs xs ys h
  | .obj kvs, v', h => by
    simp only [Filled] at h
    rcases h with ⟨hp, i, b, h1, h2, _⟩ | ⟨hp, m, _, h⟩
    · rw [phObjs, if_pos hp]
      intro o ho
      simp at ho
      rw [ho]
      refine ⟨i, h1, ?_⟩
      rcases Nat.lt_or_ge i bs.length with h | h
      · exact h
      · rw [List.getElem?_eq_none_iff.2 h] at h2; simp at h2
    · rw [phObjs, if_neg hp]
      exact filledM_good bs kvs m h
theorem filledL_good (bs : List Bytes) : ∀ v v' : List Value, FilledL bs v v' → ∀ o ∈ phObjsL v, PhGood bs.length o
  | [], _, _ => by simp [phObjsL]
  | x :: xs, v', h => by
    simp only [FilledL] at h
    obtain ⟨y, ys, _, h1, h2⟩ := h
    intro o ho
    rw [phObjsL] at ho
    rcases List.mem_append.1 ho with ho | ho
    · exact filled_good bs x y h1 o ho
    · exact filledL_good bs xs ys h2 o ho
theorem filledM_good (bs : List Bytes) : ∀ v v' : List (Str × Value), FilledM bs v v' →
    ∀ o ∈ phObjsM v, PhGood bs.length o
  | [], _, _ => by simp [phObjsM]
  | (k, x) :: xs, v', h => by
    simp only [FilledM] at h
    obtain ⟨y, ys, _, h1, h2⟩ := h
    intro o ho
    rw [phObjsM] at ho
    rcases List.mem_append.1 ho with ho | ho
    · exact filled_good bs x y h1 o ho
    · exact filledM_good bs xs ys h2 o ho
end

mutual
theorem denotes_unique : ∀ (t : JTree) (d d' : Doc), Denotes t d → Denotes t d' → d = d'
  | .null, d, d', h, h' | .bool _, d, d', h, h' | .num _, d, d', h, h' => by
    simp only [Denotes] at h h'; rw [h, h']
  | .str raw, d, d', h, h' => by
    simp only [Denotes] at h h'
    obtain ⟨s, rfl, h⟩ := h
    obtain ⟨s', rfl, h'⟩ := h'
    rw [StrDenotes.unique h h']
  | .arr ts, d, d', h, h' => by
    simp only [Denotes] at h h'
    obtain ⟨s, rfl, h⟩ := h
    obtain ⟨s', rfl, h'⟩ := h'
    rw [denotesL_unique ts s s' h h']
  | .obj ts, d, d', h, h' => by
    simp only [Denotes] at h h'
    obtain ⟨s, rfl, h⟩ := h
    obtain ⟨s', rfl, h'⟩ := h'
    rw [denotesM_unique ts s s' h h']
theorem denotesL_unique : ∀ (t : List JTree) (d d' : List Doc), DenotesL t d → DenotesL t d' → d = d'
  | [], d, d', h, h' => by simp only [DenotesL] at h h'; rw [h, h']
  | t :: ts, d, d', h, h' => by
    simp only [DenotesL] at h h'
    obtain ⟨y, ys, rfl, h1, h2⟩ := h
    obtain ⟨y', ys', rfl, h1', h2'⟩ := h'
    rw [denotes_unique t y y' h1 h1', denotesL_unique ts ys ys' h2 h2']
theorem denotesM_unique : ∀ (t : List (Str × JTree)) (d d' : List (Str × Doc)), DenotesM t d → DenotesM t d' → d = d'
  | [], d, d', h, h' => by simp only [DenotesM] at h h'; rw [h, h']
  | (k, t) :: ts, d, d', h, h' => by
    simp only [DenotesM] at h h'
    obtain ⟨k1, y, ys, rfl, h0, h1, h2⟩ := h
    obtain ⟨k2, y', ys', rfl, h0', h1', h2'⟩ := h'
    rw [StrDenotes.unique h0 h0', denotes_unique t y y' h1 h1', denotesM_unique ts ys ys' h2 h2']
end

end SIO
