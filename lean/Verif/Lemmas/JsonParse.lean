import Verif.Lemmas.Json
/-
The parser of syntax trees is sound and complete for the grammar of `Spec.Json`.
-/
namespace SIO
open Spec

theorem isVal_head {t : JTree} {v : Str} (h : IsVal t v) :
    ∃ c cs, v = c :: cs ∧ isWs c = false ∧ c ≠ ']' ∧ c ≠ '}' ∧ c ≠ ',' ∧ c ≠ ':' := by
  cases t with
  | null => simp only [IsVal] at h; subst h; exact ⟨_, _, rfl, by decide⟩
  | bool b =>
    cases b <;> simp only [IsVal] at h <;> subst h <;> exact ⟨_, _, rfl, by decide⟩
  | num l =>
    simp only [IsVal] at h
    obtain ⟨rfl, hn⟩ := h
    obtain ⟨c, cs, rfl, hc⟩ := IsNum_head hn
    refine ⟨c, cs, rfl, ?_⟩
    rcases hc with hc | rfl
    · have := isDigit_toNat hc
      refine ⟨?_, ?_, ?_, ?_, ?_⟩
      · rw [Bool.eq_false_iff, ne_eq, isWs_iff]
        rintro (rfl | rfl | rfl | rfl) <;> simp at this
      all_goals rintro rfl; simp at this
    · decide
  | str raw => simp only [IsVal] at h; obtain ⟨rfl, _⟩ := h; exact ⟨_, _, rfl, by decide⟩
  | arr xs => simp only [IsVal] at h; obtain ⟨b, rfl, _⟩ := h; exact ⟨_, _, rfl, by decide⟩
  | obj xs => simp only [IsVal] at h; obtain ⟨b, rfl, _⟩ := h; exact ⟨_, _, rfl, by decide⟩

theorem IsWs_append {a b : Str} (ha : IsWs a) (hb : IsWs b) : IsWs (a ++ b) := by
  intro c hc
  simp at hc
  rcases hc with hc | hc
  · exact ha c hc
  · exact hb c hc

theorem isElems_wsl {xs : List JTree} {w b : Str} (hw : IsWs w) (h : IsElems xs b) :
    IsElems xs (w ++ b) := by
  cases xs with
  | nil => simp only [IsElems] at h ⊢; exact IsWs_append hw h
  | cons x xs =>
    simp only [IsElems] at h ⊢
    obtain ⟨w1, v, w2, b', rfl, h1, h2, hv, ht⟩ := h
    exact ⟨w ++ w1, v, w2, b', by simp, IsWs_append hw h1, h2, hv, ht⟩

theorem isMembers_wsl {xs : List (Str × JTree)} {w b : Str} (hw : IsWs w) (h : IsMembers xs b) :
    IsMembers xs (w ++ b) := by
  cases xs with
  | nil => simp only [IsMembers] at h ⊢; exact IsWs_append hw h
  | cons x xs =>
    obtain ⟨k, x⟩ := x
    simp only [IsMembers] at h ⊢
    obtain ⟨w1, w2, w3, v, w4, b', rfl, h1, ht⟩ := h
    exact ⟨w ++ w1, w2, w3, v, w4, b', by simp, IsWs_append hw h1, ht⟩

/-! ### Soundness -/

theorem p_sound (n : Nat) :
    (∀ s t r, pVal n s = some (t, r) → ∃ v, s = v ++ r ∧ IsVal t v) ∧
    (∀ s xs r, pElems n s = some (xs, r) → ∃ b, s = b ++ ']' :: r ∧ IsElems xs b ∧ xs ≠ []) ∧
    (∀ s xs r, pMembers n s = some (xs, r) → ∃ b, s = b ++ '}' :: r ∧ IsMembers xs b ∧ xs ≠ []) := by
  induction n with
  | zero => simp [pVal, pElems, pMembers]
  | succ n ih =>
    obtain ⟨ihV, ihE, ihM⟩ := ih
    refine ⟨?_, ?_, ?_⟩
    · intro s t r h
      unfold pVal at h
      split at h
      · simp at h; obtain ⟨rfl, rfl⟩ := h; exact ⟨['n', 'u', 'l', 'l'], rfl, by simp [IsVal]⟩
      · simp at h; obtain ⟨rfl, rfl⟩ := h; exact ⟨['t', 'r', 'u', 'e'], rfl, by simp [IsVal]⟩
      · simp at h; obtain ⟨rfl, rfl⟩ := h; exact ⟨['f', 'a', 'l', 's', 'e'], rfl, by simp [IsVal]⟩
      · rename_i r0
        split at h
        · rename_i raw r' hs
          simp at h; obtain ⟨rfl, rfl⟩ := h
          obtain ⟨rfl, hb⟩ := scanStr_sound _ _ _ hs
          exact ⟨'"' :: (raw ++ ['"']), by simp, by simp [IsVal, hb]⟩
        · simp at h
      · rename_i r0
        obtain ⟨w, hw, he, hn⟩ := skipWs_spec r0
        split at h
        · rename_i r' hs
          simp at h; obtain ⟨rfl, rfl⟩ := h
          rw [hs] at he
          refine ⟨'[' :: (w ++ [']']), by simp [he], ?_⟩
          simp only [IsVal, IsElems]
          exact ⟨w, rfl, hw⟩
        · rename_i r' hs
          split at h
          · rename_i xs r'' hx
            simp at h; obtain ⟨rfl, rfl⟩ := h
            obtain ⟨b, hb, hxs, _⟩ := ihE _ _ _ hx
            rw [hb] at he
            refine ⟨'[' :: ((w ++ b) ++ [']']), by simp [he], ?_⟩
            simp only [IsVal]
            exact ⟨_, rfl, isElems_wsl hw hxs⟩
          · simp at h
      · rename_i r0
        obtain ⟨w, hw, he, hn⟩ := skipWs_spec r0
        split at h
        · rename_i r' hs
          simp at h; obtain ⟨rfl, rfl⟩ := h
          rw [hs] at he
          refine ⟨'{' :: (w ++ ['}']), by simp [he], ?_⟩
          simp only [IsVal, IsMembers]
          exact ⟨w, rfl, hw⟩
        · rename_i r' hs
          split at h
          · rename_i xs r'' hx
            simp at h; obtain ⟨rfl, rfl⟩ := h
            obtain ⟨b, hb, hxs, _⟩ := ihM _ _ _ hx
            rw [hb] at he
            refine ⟨'{' :: ((w ++ b) ++ ['}']), by simp [he], ?_⟩
            simp only [IsVal]
            exact ⟨_, rfl, isMembers_wsl hw hxs⟩
          · simp at h
      · split at h
        · rename_i lex r' hs
          simp at h; obtain ⟨rfl, rfl⟩ := h
          obtain ⟨rfl, hl⟩ := scanNum_sound hs
          exact ⟨lex, rfl, by simp [IsVal, hl]⟩
        · simp at h
    · intro s xs r h
      unfold pElems at h
      split at h
      · simp at h
      · rename_i x r0 hx
        obtain ⟨v, rfl, hv⟩ := ihV _ _ _ hx
        obtain ⟨w2, hw2, he2, _⟩ := skipWs_spec r0
        split at h
        · rename_i r' hr'
          obtain ⟨w, hw, he, _⟩ := skipWs_spec r'
          split at h
          · rename_i ys r'' hy
            simp at h; obtain ⟨rfl, rfl⟩ := h
            obtain ⟨b, hb, hys, hne⟩ := ihE _ _ _ hy
            rw [hr'] at he2
            rw [hb] at he
            refine ⟨v ++ (w2 ++ ',' :: (w ++ b)), by rw [he2, he]; simp, ?_, by simp⟩
            simp only [IsElems]
            exact ⟨[], v, w2, _, rfl, by simp [IsWs], hw2, hv,
              Or.inr ⟨hne, _, rfl, isElems_wsl hw hys⟩⟩
          · simp at h
        · rename_i r' hr'
          simp at h; obtain ⟨rfl, rfl⟩ := h
          rw [hr'] at he2
          refine ⟨v ++ w2, by rw [he2]; simp, ?_, by simp⟩
          simp only [IsElems]
          exact ⟨[], v, w2, [], by simp, by simp [IsWs], hw2, hv, by simp⟩
        · simp at h
    · intro s xs r h
      unfold pMembers at h
      split at h
      · rename_i r0
        split at h
        · simp at h
        · rename_i k r1 hk
          obtain ⟨rfl, hkb⟩ := scanStr_sound _ _ _ hk
          obtain ⟨w2, hw2, he2, _⟩ := skipWs_spec r1
          split at h
          · rename_i r2 hr2
            obtain ⟨w3, hw3, he3, _⟩ := skipWs_spec r2
            split at h
            · simp at h
            · rename_i x r3 hx
              obtain ⟨v, hv0, hv⟩ := ihV _ _ _ hx
              obtain ⟨w4, hw4, he4, _⟩ := skipWs_spec r3
              rw [hr2] at he2
              rw [hv0] at he3
              split at h
              · rename_i r' hr'
                obtain ⟨w, hw, he, _⟩ := skipWs_spec r'
                split at h
                · rename_i ys r'' hy
                  simp at h; obtain ⟨rfl, rfl⟩ := h
                  obtain ⟨b, hb, hys, hne⟩ := ihM _ _ _ hy
                  rw [hr'] at he4
                  rw [hb] at he
                  refine ⟨'"' :: (k ++ '"' :: (w2 ++ ':' :: (w3 ++ (v ++ (w4 ++ ',' :: (w ++ b)))))),
                    by rw [he2, he3, he4, he]; simp, ?_, by simp⟩
                  simp only [IsMembers]
                  exact ⟨[], w2, w3, v, w4, _, by simp, by simp [IsWs], hw2, hw3, hw4, hkb, hv,
                    Or.inr ⟨hne, _, rfl, isMembers_wsl hw hys⟩⟩
                · simp at h
              · rename_i r' hr'
                simp at h; obtain ⟨rfl, rfl⟩ := h
                rw [hr'] at he4
                refine ⟨'"' :: (k ++ '"' :: (w2 ++ ':' :: (w3 ++ (v ++ w4)))),
                    by rw [he2, he3, he4]; simp, ?_, by simp⟩
                simp only [IsMembers]
                exact ⟨[], w2, w3, v, w4, [], by simp, by simp [IsWs], hw2, hw3, hw4, hkb, hv,
                    by simp⟩
              · simp at h
          · simp at h
      · simp at h

/-! ### Completeness -/

theorem numStop_ws {w r : Str} (hw : IsWs w) (hr : NumStop r) : NumStop (w ++ r) := by
  cases w with
  | nil => exact hr
  | cons c w =>
    intro x hx
    simp at hx
    subst hx
    rcases hw c (by simp) with rfl | rfl | rfl | rfl <;> decide

theorem numStop_cons {c : Char} {r : Str} (h : c = ',' ∨ c = ']' ∨ c = '}') : NumStop (c :: r) := by
  intro x hx
  simp at hx
  subst hx
  rcases h with rfl | rfl | rfl <;> decide

theorem noWsHead_cons {c : Char} {r : Str} (h : isWs c = false) : NoWsHead (c :: r) := by
  intro x hx
  simp at hx
  subst hx
  exact h

theorem isVal_noWs {t : JTree} {v : Str} (h : IsVal t v) (r : Str) : NoWsHead (v ++ r) := by
  obtain ⟨c, cs, rfl, hc, _⟩ := isVal_head h
  exact noWsHead_cons hc

theorem pVal_num {n : Nat} {s l r : Str} (hs : scanNum s = some (l, r)) :
    pVal (n + 1) s = some (.num l, r) := by
  obtain ⟨rfl, hl⟩ := scanNum_sound hs
  obtain ⟨c, cs, rfl, hc⟩ := IsNum_head hl
  have hne : ∀ x : Char, x.isDigit = false → x ≠ '-' → c ≠ x := by
    rintro x hx hx' rfl
    rcases hc with hc | hc
    · rw [hx] at hc; cases hc
    · exact hx' hc
  unfold pVal
  split
  · rename_i h; simp at h; exact absurd h.1 (hne _ (by decide) (by decide))
  · rename_i h; simp at h; exact absurd h.1 (hne _ (by decide) (by decide))
  · rename_i h; simp at h; exact absurd h.1 (hne _ (by decide) (by decide))
  · rename_i h; simp at h; exact absurd h.1 (hne _ (by decide) (by decide))
  · rename_i h; simp at h; exact absurd h.1 (hne _ (by decide) (by decide))
  · rename_i h; simp at h; exact absurd h.1 (hne _ (by decide) (by decide))
  · rw [hs]

theorem isElems_skip {x : JTree} {xs : List JTree} {b : Str} (h : IsElems (x :: xs) b) (r : Str) :
    ∃ v w2 b', skipWs (b ++ r) = v ++ (w2 ++ (b' ++ r)) ∧ v.length + w2.length + b'.length ≤ b.length ∧
      IsVal x v ∧ IsWs w2 ∧
      ((xs = [] ∧ b' = []) ∨ (xs ≠ [] ∧ ∃ b'', b' = ',' :: b'' ∧ IsElems xs b'')) := by
  simp only [IsElems] at h
  obtain ⟨w1, v, w2, b', rfl, h1, h2, hv, ht⟩ := h
  refine ⟨v, w2, b', ?_, by simp; omega, hv, h2, ht⟩
  simp only [List.append_assoc]
  exact skipWs_append h1 (isVal_noWs hv _)

theorem p_complete (n : Nat) :
    (∀ t v r, IsVal t v → v.length ≤ n → NumStop r → pVal n (v ++ r) = some (t, r)) ∧
    (∀ xs b r, IsElems xs b → xs ≠ [] → b.length + 1 ≤ n →
      pElems n (skipWs (b ++ ']' :: r)) = some (xs, r)) ∧
    (∀ xs b r, IsMembers xs b → xs ≠ [] → b.length + 1 ≤ n →
      pMembers n (skipWs (b ++ '}' :: r)) = some (xs, r)) := by
  induction n with
  | zero =>
    refine ⟨?_, by intros; omega, by intros; omega⟩
    intro t v r hv hl
    obtain ⟨c, cs, rfl, _⟩ := isVal_head hv
    simp at hl
  | succ n ih =>
    obtain ⟨ihV, ihE, ihM⟩ := ih
    refine ⟨?_, ?_, ?_⟩
    · intro t v r hv hl hr
      cases t with
      | null => simp only [IsVal] at hv; subst hv; simp [pVal]
      | bool b => cases b <;> simp only [IsVal] at hv <;> subst hv <;> simp [pVal]
      | num l =>
        simp only [IsVal] at hv
        obtain ⟨rfl, hn⟩ := hv
        exact pVal_num (scanNum_complete hn hr)
      | str raw =>
        simp only [IsVal] at hv
        obtain ⟨rfl, hb⟩ := hv
        have := scanStr_complete hb r
        simp [pVal, this]
      | arr xs =>
        simp only [IsVal] at hv
        obtain ⟨b, rfl, hb⟩ := hv
        simp at hl
        simp only [List.cons_append, List.append_assoc, List.nil_append, pVal]
        cases xs with
        | nil =>
          simp only [IsElems] at hb
          rw [skipWs_append hb (noWsHead_cons (by decide))]
          rfl
        | cons x xs =>
          obtain ⟨v, w2, b', he, _, hv, _⟩ := isElems_skip hb (']' :: r)
          obtain ⟨c, cs, rfl, _, hc, _⟩ := isVal_head hv
          have := ihE _ b r hb (by simp) (by omega)
          rw [he] at this ⊢
          simp only [List.cons_append] at this ⊢
          split
          · rename_i h; simp at h; exact absurd h.1 hc
          · rw [this]
      | obj xs =>
        simp only [IsVal] at hv
        obtain ⟨b, rfl, hb⟩ := hv
        simp at hl
        simp only [List.cons_append, List.append_assoc, List.nil_append, pVal]
        cases xs with
        | nil =>
          simp only [IsMembers] at hb
          rw [skipWs_append hb (noWsHead_cons (by decide))]
          rfl
        | cons x xs =>
          have h3 := ihM _ b r hb (by simp) (by omega)
          obtain ⟨k, x⟩ := x
          simp only [IsMembers] at hb
          obtain ⟨w1, w2, w3, v, w4, b', rfl, h1, ht⟩ := hb
          simp only [List.cons_append, List.append_assoc] at h3 ⊢
          rw [skipWs_append h1 (noWsHead_cons (by decide))] at h3 ⊢
          split
          · rename_i h; simp at h
          · rw [h3]
    · intro xs b r hx hne hl
      cases xs with
      | nil => simp at hne
      | cons x xs =>
        obtain ⟨v, w2, b', he, hlen, hv, hw2, ht⟩ := isElems_skip hx (']' :: r)
        rw [he, pElems]
        obtain ⟨c, cs, hcs, _⟩ := isVal_head hv
        have hvl : 0 < v.length := by simp [hcs]
        rcases ht with ⟨rfl, rfl⟩ | ⟨hne', b'', rfl, hb⟩
        · rw [ihV x v _ hv (by simp at hlen; omega) (numStop_ws hw2 (by
            exact numStop_cons (by simp)))]
          simp only [List.nil_append]
          rw [skipWs_append hw2 (noWsHead_cons (by decide))]
          rfl
        · rw [ihV x v _ hv (by simp at hlen; omega) (numStop_ws hw2 (by
            exact numStop_cons (by simp)))]
          simp only [List.cons_append]
          rw [skipWs_append hw2 (noWsHead_cons (by decide))]
          simp only
          rw [ihE _ b'' r hb hne' (by simp at hlen; omega)]
    · intro xs b r hx hne hl
      cases xs with
      | nil => simp at hne
      | cons x xs =>
        obtain ⟨k, x⟩ := x
        simp only [IsMembers] at hx
        obtain ⟨w1, w2, w3, v, w4, b', rfl, h1, h2, h3, h4, hk, hv, ht⟩ := hx
        simp only [List.cons_append, List.append_assoc] at hl ⊢
        rw [skipWs_append h1 (noWsHead_cons (by decide))]
        simp only [pMembers, scanStr_complete hk]
        rw [skipWs_append h2 (noWsHead_cons (by decide))]
        simp only
        rw [skipWs_append h3 (isVal_noWs hv _)]
        obtain ⟨c, cs, hcs, _⟩ := isVal_head hv
        have hvl : 0 < v.length := by simp [hcs]
        simp at hl
        rcases ht with ⟨rfl, rfl⟩ | ⟨hne', b'', rfl, hb⟩
        · rw [ihV x v _ hv (by omega) (numStop_ws h4 (by
            exact numStop_cons (by simp)))]
          simp only [List.nil_append]
          rw [skipWs_append h4 (noWsHead_cons (by decide))]
          rfl
        · simp at hl
          rw [ihV x v _ hv (by omega) (numStop_ws h4 (by
            exact numStop_cons (by simp)))]
          simp only [List.cons_append]
          rw [skipWs_append h4 (noWsHead_cons (by decide))]
          simp only
          rw [ihM _ b'' r hb hne' (by omega)]

theorem pVal_sound {n : Nat} {s r : Str} {t : JTree} (h : pVal n s = some (t, r)) :
    ∃ v, s = v ++ r ∧ IsVal t v := (p_sound n).1 _ _ _ h

theorem pVal_complete {n : Nat} {v r : Str} {t : JTree} (h : IsVal t v) (hn : v.length ≤ n)
    (hr : NumStop r) : pVal n (v ++ r) = some (t, r) := (p_complete n).1 _ _ _ h hn hr

theorem parseTree_iff (s : Str) (t : JTree) : parseTree s = some t ↔ IsText t s := by
  constructor
  · intro h
    unfold parseTree at h
    split at h
    · rename_i t' r hp
      split at h
      · rename_i hr
        simp at h
        subst h
        obtain ⟨v, hv, hiv⟩ := pVal_sound hp
        obtain ⟨w, hw, he, _⟩ := skipWs_spec s
        exact ⟨w, v, r, by rw [← hv]; exact he, hw, (skipWs_nil_iff r).1 hr, hiv⟩
      · simp at h
    · simp at h
  · rintro ⟨w1, v, w2, rfl, h1, h2, hv⟩
    unfold parseTree
    rw [skipWs_append h1 (isVal_noWs hv _), pVal_complete hv (by simp; omega)]
    · simp [(skipWs_nil_iff w2).2 h2]
    · have := numStop_ws (r := []) h2 (by simp [NumStop])
      simpa using this

/-- The grammar is unambiguous. -/
theorem isVal_unique {t t' : JTree} {v : Str} (h : IsVal t v) (h' : IsVal t' v) : t = t' := by
  have h1 := pVal_complete (r := []) h (Nat.le_refl _) (by simp [NumStop])
  have h2 := pVal_complete (r := []) h' (Nat.le_refl _) (by simp [NumStop])
  rw [h1] at h2
  simpa using h2

theorem isText_unique {t t' : JTree} {v : Str} (h : IsText t v) (h' : IsText t' v) : t = t' := by
  rw [← parseTree_iff] at h h'
  rw [h] at h'
  simpa using h'

end SIO
