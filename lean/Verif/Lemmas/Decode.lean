import Verif.Decode
import Verif.Lemmas.JsonParse
/-
The argument scanner of `parse_args` finds exactly the element texts.
-/
namespace SIO
open Spec

/-- What may follow an element: nothing but whitespace, or a comma and more elements. -/
def TailTexts (vs : List Str) (b : Str) : Prop :=
  (vs = [] ∧ IsWs b) ∨ (vs ≠ [] ∧ ∃ w b', b = w ++ ',' :: b' ∧ IsWs w ∧ IsElemTexts vs b')

theorem elemTexts_wsl {vs : List Str} {w b : Str} (hw : IsWs w) (h : IsElemTexts vs b) :
    IsElemTexts vs (w ++ b) := by
  cases vs with
  | nil => simp only [IsElemTexts] at h ⊢; exact IsWs_append hw h
  | cons x xs =>
    simp only [IsElemTexts] at h ⊢
    obtain ⟨w1, w2, b', rfl, h1, h2, hv, ht⟩ := h
    exact ⟨w ++ w1, w2, b', by simp, IsWs_append hw h1, h2, hv, ht⟩

theorem elemTexts_cons {v b : Str} {vs : List Str} (hv : ∃ t, IsVal t v) (h : TailTexts vs b) :
    IsElemTexts (v :: vs) (v ++ b) := by
  simp only [IsElemTexts]
  rcases h with ⟨rfl, hb⟩ | ⟨hne, w, b', rfl, hw, hb⟩
  · exact ⟨[], b, [], by simp, by simp [IsWs], hb, hv, Or.inl ⟨rfl, rfl⟩⟩
  · exact ⟨[], w, ',' :: b', by simp, by simp [IsWs], hw, hv, Or.inr ⟨hne, b', rfl, hb⟩⟩

theorem rawSeq_sound (total n : Nat) : ∀ (first : Bool) (s : Str) (rs : List Rng) (r : Str),
    rawSeq total n first s = some (rs, r) →
      ∃ vs b, s = b ++ ']' :: r ∧ (if first then IsElemTexts vs b else TailTexts vs b) := by
  induction n with
  | zero => simp [rawSeq]
  | succ n ih =>
    intro first s rs r h
    obtain ⟨w, hw, hs, hn⟩ := skipWs_spec s
    rw [rawSeq] at h
    split at h
    · rename_i r' he
      simp at h
      obtain ⟨rfl, rfl⟩ := h
      refine ⟨[], w, by rw [hs, he], ?_⟩
      cases first
      · exact Or.inl ⟨rfl, hw⟩
      · simpa [IsElemTexts] using hw
    · rename_i r' he
      cases first with
      | true => simp at h
      | false =>
        simp at h
        obtain ⟨w', hw', hr', _⟩ := skipWs_spec r'
        split at h
        · simp at h
        · rename_i t r1 hp
          split at h
          · rename_i rs' r2 hr
            simp at h
            obtain ⟨rfl, rfl⟩ := h
            obtain ⟨v, hv, ht⟩ := pVal_sound hp
            obtain ⟨vs, b, rfl, hb⟩ := ih _ _ _ _ hr
            simp at hb
            refine ⟨v :: vs, w ++ ',' :: (w' ++ (v ++ b)), ?_, ?_⟩
            · rw [hs, he, hr', hv]; simp
            · simp
              exact Or.inr ⟨by simp, w, _, rfl, hw, elemTexts_wsl hw' (elemTexts_cons ⟨t, ht⟩ hb)⟩
          · simp at h
    · cases first with
      | false => simp at h
      | true =>
        simp at h
        split at h
        · simp at h
        · rename_i t r1 hp
          split at h
          · rename_i rs' r2 hr
            simp at h
            obtain ⟨rfl, rfl⟩ := h
            obtain ⟨v, hv, ht⟩ := pVal_sound hp
            obtain ⟨vs, b, rfl, hb⟩ := ih _ _ _ _ hr
            simp at hb
            refine ⟨v :: vs, w ++ (v ++ b), ?_, ?_⟩
            · rw [hs, hv]; simp
            · exact elemTexts_wsl hw (elemTexts_cons ⟨t, ht⟩ hb)
          · simp at h

theorem tailTexts_numStop {vs : List Str} {b r : Str} (h : TailTexts vs b) : NumStop (b ++ ']' :: r) := by
  rcases h with ⟨_, hb⟩ | ⟨_, w, b', rfl, hw, _⟩
  · exact numStop_ws hb (numStop_cons (by simp))
  · rw [List.append_assoc]
    exact numStop_ws hw (numStop_cons (by simp))

theorem elemTexts_uncons {v b : Str} {vs : List Str} (h : IsElemTexts (v :: vs) b) :
    ∃ w1 b', b = w1 ++ (v ++ b') ∧ IsWs w1 ∧ (∃ t, IsVal t v) ∧ TailTexts vs b' := by
  simp only [IsElemTexts] at h
  obtain ⟨w1, w2, b', rfl, h1, h2, hv, ht⟩ := h
  refine ⟨w1, w2 ++ b', rfl, h1, hv, ?_⟩
  rcases ht with ⟨rfl, rfl⟩ | ⟨hne, b'', rfl, hb⟩
  · exact Or.inl ⟨rfl, by simpa using h2⟩
  · exact Or.inr ⟨hne, w2, b'', rfl, h2, hb⟩

/-- Completeness, with the slices the ranges designate in the whole text. -/
theorem rawSeq_complete (whole : Str) : ∀ (vs : List Str) (n : Nat) (first : Bool) (pre b r : Str),
    (if first then IsElemTexts vs b else TailTexts vs b) → b.length + 1 ≤ n →
    whole = pre ++ (b ++ ']' :: r) →
    ∃ rs, rawSeq (blen whole) n first (b ++ ']' :: r) = some (rs, r) ∧
      rs.map (fun x => sliceB whole x.1 x.2) = vs.map some := by
  intro vs
  induction vs with
  | nil =>
    intro n first pre b r hb hn _
    have hw : IsWs b := by
      cases first
      · rcases hb with ⟨_, hb⟩ | ⟨hne, _⟩
        · exact hb
        · simp at hne
      · simpa [IsElemTexts] using hb
    obtain ⟨n, rfl⟩ : ∃ m, n = m + 1 := ⟨n - 1, by omega⟩
    refine ⟨[], ?_, rfl⟩
    rw [rawSeq, skipWs_append hw (noWsHead_cons (by decide))]
    rfl
  | cons v vs ih =>
    intro n first pre b r hb hn hwh
    obtain ⟨n, rfl⟩ : ∃ m, n = m + 1 := ⟨n - 1, by omega⟩
    cases first with
    | true =>
      simp only [if_true] at hb
      obtain ⟨w1, b', rfl, h1, ⟨t, hv⟩, ht⟩ := elemTexts_uncons hb
      have hst := tailTexts_numStop (r := r) ht
      have hsk : skipWs ((w1 ++ (v ++ b')) ++ ']' :: r) = v ++ (b' ++ ']' :: r) := by
        rw [List.append_assoc, List.append_assoc]
        exact skipWs_append h1 (isVal_noWs hv _)
      obtain ⟨rs, hrs, hsl⟩ := ih n false (pre ++ w1 ++ v) b' r (by simpa using ht) (by
        obtain ⟨c, cs, rfl, _⟩ := isVal_head hv
        simp at hn ⊢; omega) (by rw [hwh]; simp)
      have hp := pVal_complete (n := (v ++ (b' ++ ']' :: r)).length) hv (by simp) hst
      refine ⟨(blen whole - blen (v ++ (b' ++ ']' :: r)), blen whole - blen (b' ++ ']' :: r)) :: rs, ?_, ?_⟩
      · rw [rawSeq, hsk]
        obtain ⟨c, cs, hcs, _, hc1, _, hc2, _⟩ := isVal_head hv
        split
        · rename_i r' he; rw [hcs] at he; simp at he; exact absurd he.1 hc1
        · rename_i r' he; rw [hcs] at he; simp at he; exact absurd he.1 hc2
        · rw [if_pos rfl, hp]; simp only; rw [hrs]
      · simp only [List.map_cons, hsl, List.cons.injEq, and_true]
        rw [hwh]
        rw [show pre ++ (w1 ++ (v ++ b') ++ ']' :: r) = (pre ++ w1) ++ (v ++ (b' ++ ']' :: r)) by simp]
        apply sliceB_mid' <;> simp <;> omega
    | false =>
      rcases hb with ⟨hne, _⟩ | ⟨_, w, b0, rfl, hw, hb⟩
      · simp at hne
      obtain ⟨w1, b', rfl, h1, ⟨t, hv⟩, ht⟩ := elemTexts_uncons hb
      have hst := tailTexts_numStop (r := r) ht
      have hsk0 : skipWs ((w ++ ',' :: (w1 ++ (v ++ b'))) ++ ']' :: r) =
          ',' :: (w1 ++ (v ++ (b' ++ ']' :: r))) := by
        rw [List.append_assoc, List.cons_append]
        rw [skipWs_append hw (noWsHead_cons (by decide))]
        simp
      have hsk : skipWs (w1 ++ (v ++ (b' ++ ']' :: r))) = v ++ (b' ++ ']' :: r) :=
        skipWs_append h1 (isVal_noWs hv _)
      obtain ⟨rs, hrs, hsl⟩ := ih n false (pre ++ w ++ [','] ++ w1 ++ v) b' r (by simpa using ht) (by
        obtain ⟨c, cs, rfl, _⟩ := isVal_head hv
        simp at hn ⊢; omega) (by rw [hwh]; simp)
      have hp := pVal_complete (n := (v ++ (b' ++ ']' :: r)).length) hv (by simp) hst
      refine ⟨(blen whole - blen (v ++ (b' ++ ']' :: r)), blen whole - blen (b' ++ ']' :: r)) :: rs, ?_, ?_⟩
      · rw [rawSeq, hsk0]
        simp only [hsk, Bool.false_eq_true, if_false]
        rw [hp]; simp only; rw [hrs]
      · simp only [List.map_cons, hsl, List.cons.injEq, and_true]
        rw [hwh]
        rw [show pre ++ (w ++ ',' :: (w1 ++ (v ++ b')) ++ ']' :: r) =
          (pre ++ w ++ [','] ++ w1) ++ (v ++ (b' ++ ']' :: r)) by simp]
        apply sliceB_mid' <;> simp <;> omega

theorem parseArgs_sound {s : Str} {rs : List Rng} (h : parseArgs s = .ok rs) :
    ∃ vs, IsArrayText vs s := by
  unfold parseArgs at h
  obtain ⟨w, hw, hs, _⟩ := skipWs_spec s
  split at h
  · rename_i r he
    split at h
    · rename_i rs' r' hr
      split at h
      · rename_i hr'
        obtain ⟨vs, b, rfl, hb⟩ := rawSeq_sound _ _ _ _ _ _ hr
        exact ⟨vs, w, b, r', by rw [hs, he], hw, (skipWs_nil_iff _).1 hr', by simpa using hb⟩
      · simp at h
    · simp at h
  · simp at h

theorem parseArgs_complete {s : Str} {vs : List Str} (h : IsArrayText vs s) :
    ∃ rs, parseArgs s = .ok rs ∧ rs.map (fun x => sliceB s x.1 x.2) = vs.map some := by
  obtain ⟨w1, b, w2, hs, h1, h2, hb⟩ := h
  obtain ⟨rs, hr, hsl⟩ := rawSeq_complete s vs (s.length + 1) true (w1 ++ ['[']) b w2 (by simpa using hb)
    (by rw [hs]; simp; omega) (by rw [hs]; simp)
  refine ⟨rs, ?_, hsl⟩
  unfold parseArgs
  have : skipWs s = '[' :: (b ++ ']' :: w2) := by
    rw [hs]; exact skipWs_append h1 (noWsHead_cons (by decide))
  rw [this]
  simp only [hr, skipWs_ws h2, if_true]

theorem parseArgs_ok {s : Str} {rs : List Rng} (h : parseArgs s = .ok rs) :
    ∃ vs, IsArrayText vs s ∧ rs.map (fun x => sliceB s x.1 x.2) = vs.map some := by
  obtain ⟨vs, hv⟩ := parseArgs_sound h
  obtain ⟨rs', h', hsl⟩ := parseArgs_complete hv
  rw [h] at h'
  simp at h'
  subst h'
  exact ⟨vs, hv, hsl⟩

theorem parseArgs_cases (s : Str) :
    (∃ rs, parseArgs s = .ok rs) ∨ parseArgs s = .err (.invalidDataJson s) := by
  unfold parseArgs
  split
  · split
    · split
      · exact Or.inl ⟨_, rfl⟩
      · exact Or.inr rfl
    · exact Or.inr rfl
  · exact Or.inr rfl

theorem parseArgs_err {s : Str} (h : ¬ ∃ vs, IsArrayText vs s) :
    parseArgs s = .err (.invalidDataJson s) := by
  rcases parseArgs_cases s with ⟨rs, hr⟩ | hr
  · obtain ⟨vs, hv⟩ := parseArgs_sound hr
    exact absurd ⟨vs, hv⟩ h
  · exact hr

theorem isArrayText_unique {s : Str} {vs vs' : List Str} (h : IsArrayText vs s) (h' : IsArrayText vs' s) :
    vs = vs' := by
  obtain ⟨rs, h1, h2⟩ := parseArgs_complete h
  obtain ⟨rs', h1', h2'⟩ := parseArgs_complete h'
  rw [h1] at h1'
  simp at h1'
  subst h1'
  rw [h2] at h2'
  exact List.map_inj_right (fun _ _ => Option.some.inj) |>.1 h2'

end SIO
