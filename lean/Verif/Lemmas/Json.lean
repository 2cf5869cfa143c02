import Verif.Json
import Verif.Lemmas.Regex
/-
Correctness of the JSON scanner against the grammar.
-/
namespace SIO
open Spec

/-! ### whitespace -/

theorem isWs_iff (c : Char) : isWs c = true ↔ (c = ' ' ∨ c = '\n' ∨ c = '\t' ∨ c = '\r') := by
  simp [isWs, or_assoc]

/-- First character, if any, is not whitespace. -/
def NoWsHead (s : Str) : Prop := ∀ c ∈ s.head?, isWs c = false

theorem skipWs_spec (s : Str) : ∃ w, IsWs w ∧ s = w ++ skipWs s ∧ NoWsHead (skipWs s) := by
  induction s with
  | nil => exact ⟨[], by simp [IsWs], rfl, by simp [skipWs, NoWsHead]⟩
  | cons c s ih =>
    unfold skipWs
    split
    · rename_i hc
      obtain ⟨w, hw, he, hn⟩ := ih
      refine ⟨c :: w, ?_, by simp [← he], hn⟩
      intro x hx
      simp at hx
      rcases hx with rfl | hx
      · exact (isWs_iff _).1 hc
      · exact hw x hx
    · rename_i hc
      refine ⟨[], by simp [IsWs], rfl, ?_⟩
      intro x hx
      simp at hx
      subst hx
      simpa using hc

theorem skipWs_noWs {s : Str} (h : NoWsHead s) : skipWs s = s := by
  cases s with
  | nil => rfl
  | cons c s => simp [skipWs, h c (by simp)]

theorem skipWs_append {w s : Str} (hw : IsWs w) (h : NoWsHead s) : skipWs (w ++ s) = s := by
  induction w with
  | nil => exact skipWs_noWs h
  | cons c w ih =>
    have hc := (isWs_iff c).2 (hw c (by simp))
    simp [skipWs, hc, ih (fun x hx => hw x (by simp [hx]))]

theorem skipWs_ws {w : Str} (hw : IsWs w) : skipWs w = [] := by
  have := skipWs_append (s := []) hw (by simp [NoWsHead])
  simpa using this

theorem skipWs_idem (s : Str) : skipWs (skipWs s) = skipWs s := by
  obtain ⟨w, _, _, hn⟩ := skipWs_spec s
  exact skipWs_noWs hn

theorem skipWs_nil_iff (s : Str) : skipWs s = [] ↔ IsWs s := by
  constructor
  · intro h
    obtain ⟨w, hw, he, _⟩ := skipWs_spec s
    rw [h] at he
    simp at he
    rw [he]
    exact hw
  · exact skipWs_ws

theorem skipWs_length (s : Str) : (skipWs s).length ≤ s.length := by
  obtain ⟨w, _, he, _⟩ := skipWs_spec s
  have := congrArg List.length he
  simp at this
  omega

/-! ### numbers -/

theorem spanDigits_eq (s : Str) : (spanDigits s).1 ++ (spanDigits s).2 = s := by
  induction s with
  | nil => rfl
  | cons c s ih =>
    unfold spanDigits
    split <;> simp [ih]

theorem spanDigits_digits (s : Str) : ∀ c ∈ (spanDigits s).1, c.isDigit = true := by
  induction s with
  | nil => simp [spanDigits]
  | cons c s ih =>
    unfold spanDigits
    split
    · rename_i h
      intro x hx
      simp at hx
      rcases hx with rfl | hx
      · exact h
      · exact ih x hx
    · simp

theorem spanDigits_append {d r : Str} (hd : ∀ c ∈ d, c.isDigit = true) (hr : NoDigitHead r) :
    spanDigits (d ++ r) = (d, r) := by
  induction d with
  | nil =>
    cases r with
    | nil => rfl
    | cons c r => simp [spanDigits, hr c (by simp)]
  | cons c d ih =>
    simp [spanDigits, hd c (by simp), ih (fun x hx => hd x (by simp [hx]))]

/-- The text does not continue a number. -/
def NumStop (r : Str) : Prop := ∀ c ∈ r.head?, c.isDigit = false ∧ c ≠ '.' ∧ c ≠ 'e' ∧ c ≠ 'E'

theorem scanInt_sound {s i r : Str} (h : scanInt s = some (i, r)) : s = i ++ r ∧ IsDec i := by
  unfold scanInt at h
  split at h
  · simp at h
  · rename_i c cs
    split at h
    · rename_i hc
      subst hc
      split at h
      · simp at h
        obtain ⟨rfl, rfl⟩ := h
        exact ⟨rfl, Or.inl rfl⟩
      · split at h
        · simp at h
        · simp at h
          obtain ⟨rfl, rfl⟩ := h
          exact ⟨rfl, Or.inl rfl⟩
    · split at h
      · rename_i h0 hd
        simp at h
        obtain ⟨rfl, rfl⟩ := h
        refine ⟨by simp [spanDigits_eq], Or.inr ⟨c, _, rfl, hd, h0, spanDigits_digits cs⟩⟩
      · simp at h

theorem scanInt_complete {i r : Str} (hi : IsDec i) (hr : NoDigitHead r) :
    scanInt (i ++ r) = some (i, r) := by
  rcases hi with rfl | ⟨c, cs, rfl, hc, h0, hs⟩
  · cases r with
    | nil => rfl
    | cons d r => simp [scanInt, hr d (by simp)]
  · simp [scanInt, h0, hc, spanDigits_append hs hr]

theorem scanFrac_sound {s f r : Str} (h : scanFrac s = some (f, r)) :
    s = f ++ r ∧ (f = [] ∨ ∃ d, f = '.' :: d ∧ IsDigits d) := by
  unfold scanFrac at h
  split at h
  · simp at h
    obtain ⟨rfl, rfl⟩ := h
    simp
  · rename_i c cs
    split at h
    · rename_i hc
      subst hc
      split at h
      · simp at h
      · rename_i hne
        simp at h
        obtain ⟨rfl, rfl⟩ := h
        exact ⟨by simp [spanDigits_eq], Or.inr ⟨_, rfl, hne, spanDigits_digits cs⟩⟩
    · simp at h
      obtain ⟨rfl, rfl⟩ := h
      simp

theorem scanFrac_complete {f r : Str} (hf : f = [] ∨ ∃ d, f = '.' :: d ∧ IsDigits d)
    (hr : NoDigitHead r) (hp : ∀ c ∈ r.head?, c ≠ '.') : scanFrac (f ++ r) = some (f, r) := by
  rcases hf with rfl | ⟨d, rfl, hd⟩
  · cases r with
    | nil => rfl
    | cons c r => simp [scanFrac, hp c (by simp)]
  · simp [scanFrac, spanDigits_append hd.2 hr, hd.1]

theorem scanExp_sound {s e r : Str} (h : scanExp s = some (e, r)) :
    s = e ++ r ∧ (e = [] ∨ ∃ c sg d, e = c :: (sg ++ d) ∧ (c = 'e' ∨ c = 'E') ∧
      (sg = [] ∨ sg = ['+'] ∨ sg = ['-']) ∧ IsDigits d) := by
  unfold scanExp at h
  split at h
  · simp at h
    obtain ⟨rfl, rfl⟩ := h
    simp
  · rename_i c cs
    split at h
    · rename_i hc
      split at h
      · simp at h
      · rename_i hne
        simp at h
        obtain ⟨rfl, rfl⟩ := h
        have hs : cs = (scanSign cs).1 ++ (scanSign cs).2 ∧
            ((scanSign cs).1 = [] ∨ (scanSign cs).1 = ['+'] ∨ (scanSign cs).1 = ['-']) := by
          unfold scanSign
          split
          · simp
          · split
            · rename_i h
              rcases h with rfl | rfl <;> simp
            · simp
        refine ⟨?_, Or.inr ⟨c, _, _, rfl, hc, hs.2, hne, spanDigits_digits _⟩⟩
        simp [spanDigits_eq]
        exact hs.1
    · simp at h
      obtain ⟨rfl, rfl⟩ := h
      simp

theorem scanExp_complete {e r : Str} (he : e = [] ∨ ∃ c sg d, e = c :: (sg ++ d) ∧ (c = 'e' ∨ c = 'E') ∧
      (sg = [] ∨ sg = ['+'] ∨ sg = ['-']) ∧ IsDigits d)
    (hr : NoDigitHead r) (hp : ∀ c ∈ r.head?, c ≠ 'e' ∧ c ≠ 'E') : scanExp (e ++ r) = some (e, r) := by
  rcases he with rfl | ⟨c, sg, d, rfl, hc, hsg, hd⟩
  · cases r with
    | nil => rfl
    | cons c r => simp [scanExp, hp c (by simp)]
  · have hs : scanSign (sg ++ (d ++ r)) = (sg, d ++ r) := by
      rcases hsg with rfl | rfl | rfl
      · obtain ⟨hne, hdd⟩ := hd
        cases d with
        | nil => simp at hne
        | cons x d =>
          have hx := hdd x (by simp)
          have h1 : x ≠ '+' := by intro h; subst h; simp at hx
          have h2 : x ≠ '-' := by intro h; subst h; simp at hx
          simp [scanSign, h1, h2]
      · simp [scanSign]
      · simp [scanSign]
    simp only [scanExp, List.cons_append, List.append_assoc, hc, if_true, hs,
      spanDigits_append hd.2 hr, if_neg hd.1]

theorem scanNum_sound {s l r : Str} (h : scanNum s = some (l, r)) : s = l ++ r ∧ IsNum l := by
  unfold scanNum at h
  split at h
  · simp at h
  · rename_i i r1 hi
    split at h
    · simp at h
    · rename_i f r2 hf
      split at h
      · simp at h
      · rename_i e r3 he
        simp at h
        obtain ⟨rfl, rfl⟩ := h
        obtain ⟨h1, hi'⟩ := scanInt_sound hi
        obtain ⟨rfl, hf'⟩ := scanFrac_sound hf
        obtain ⟨rfl, he'⟩ := scanExp_sound he
        have hm : s = (scanMinus s).1 ++ (scanMinus s).2 ∧
            ((scanMinus s).1 = [] ∨ (scanMinus s).1 = ['-']) := by
          unfold scanMinus
          split
          · simp
          · split
            · rename_i h
              subst h
              simp
            · simp
        refine ⟨?_, _, _, _, _, rfl, hm.2, hi', hf', he'⟩
        rw [h1] at hm
        simpa using hm.1

theorem scanNum_complete {l r : Str} (hl : IsNum l) (hr : NumStop r) :
    scanNum (l ++ r) = some (l, r) := by
  obtain ⟨sign, int, frac, exp, rfl, hsg, hi, hf, he⟩ := hl
  have hm : scanMinus (sign ++ (int ++ (frac ++ exp)) ++ r) = (sign, int ++ (frac ++ (exp ++ r))) := by
    rcases hsg with rfl | rfl
    · obtain ⟨c, cs, rfl, hc⟩ := hi.head
      have : c ≠ '-' := by intro h; subst h; simp at hc
      simp [scanMinus, this]
    · simp [scanMinus]
  have hr1 : NoDigitHead r := fun c hc => (hr c hc).1
  have hexp : NoDigitHead (exp ++ r) ∧ ∀ c ∈ (exp ++ r).head?, c ≠ '.' := by
    rcases he with rfl | ⟨c, sg, d, rfl, hc, _⟩
    · exact ⟨hr1, fun c hc => (hr c hc).2.1⟩
    · refine ⟨?_, ?_⟩
      · intro x hx
        simp at hx
        subst hx
        rcases hc with rfl | rfl <;> rfl
      · intro x hx
        simp at hx
        subst hx
        rcases hc with rfl | rfl <;> simp
  have hfr : NoDigitHead (frac ++ (exp ++ r)) := by
    rcases hf with rfl | ⟨d, rfl, _⟩
    · exact hexp.1
    · intro x hx
      simp at hx
      subst hx
      rfl
  unfold scanNum
  rw [hm]
  simp only [scanInt_complete hi hfr, scanFrac_complete hf hexp.1 hexp.2,
    scanExp_complete he hr1 (fun c hc => (hr c hc).2.2)]

theorem IsNum_ne_nil {l : Str} (h : IsNum l) : l ≠ [] := by
  obtain ⟨sign, int, frac, exp, rfl, _, hi, _⟩ := h
  obtain ⟨c, cs, rfl, _⟩ := hi.head
  simp

theorem IsNum_head {l : Str} (h : IsNum l) : ∃ c cs, l = c :: cs ∧ (c.isDigit = true ∨ c = '-') := by
  obtain ⟨sign, int, frac, exp, rfl, hs, hi, _⟩ := h
  obtain ⟨c, cs, rfl, hc⟩ := hi.head
  rcases hs with rfl | rfl
  · exact ⟨c, cs ++ (frac ++ exp), by simp, Or.inl hc⟩
  · exact ⟨'-', c :: cs ++ (frac ++ exp), by simp, Or.inr rfl⟩

/-! ### strings -/

theorem isHex_iff (c : Char) : isHex c = true ↔ IsHex c := by
  unfold isHex hexVal IsHex
  by_cases hd : c.isDigit = true
  · simp [hd]
  · simp only [hd]
    have e : ∀ n, c.toNat = n → c = Char.ofNat n := fun n h => by rw [← h, Char.ofNat_toNat]
    by_cases h1 : 97 ≤ c.toNat ∧ c.toNat ≤ 102
    · simp only [h1]
      simp
      have : c.toNat = 97 ∨ c.toNat = 98 ∨ c.toNat = 99 ∨ c.toNat = 100 ∨ c.toNat = 101 ∨ c.toNat = 102 := by
        omega
      rcases this with h | h | h | h | h | h <;> rw [e _ h] <;> simp
    · by_cases h2 : 65 ≤ c.toNat ∧ c.toNat ≤ 70
      · simp only [h1, h2]
        simp
        have : c.toNat = 65 ∨ c.toNat = 66 ∨ c.toNat = 67 ∨ c.toNat = 68 ∨ c.toNat = 69 ∨ c.toNat = 70 := by
          omega
        rcases this with h | h | h | h | h | h <;> rw [e _ h] <;> simp
      · simp only [h1, h2]
        simp
        constructor
        · refine ⟨?_, ?_, ?_, ?_, ?_, ?_⟩ <;> · rintro rfl; exact h1 (by decide)
        · refine ⟨?_, ?_, ?_, ?_, ?_, ?_⟩ <;> · rintro rfl; exact h2 (by decide)

theorem isSimpleEsc_iff (c : Char) :
    isSimpleEsc c = true ↔ c ∈ ['"', '\\', '/', 'b', 'f', 'n', 'r', 't'] := by
  simp [isSimpleEsc, or_assoc]

theorem scanStr_sound (s : Str) : ∀ raw r, scanStr s = some (raw, r) →
    s = raw ++ '"' :: r ∧ IsStrBody raw := by
  fun_induction scanStr s with
  | case1 => simp
  | case2 r => intro raw r' h; simp at h; obtain ⟨rfl, rfl⟩ := h; exact ⟨rfl, .nil⟩
  | case3 a b c d r hh ih =>
    intro raw r' h
    cases h' : scanStr r with
    | none => simp [h'] at h
    | some q =>
      obtain ⟨x, y⟩ := q
      simp [h'] at h
      obtain ⟨rfl, rfl⟩ := h
      obtain ⟨rfl, hb⟩ := ih _ _ h'
      simp at hh
      refine ⟨by simp, .uni _ _ _ _ _ ?_ ?_ ?_ ?_ hb⟩ <;> rw [← isHex_iff] <;> simp [hh]
  | case4 => simp
  | case5 e r _ hh ih =>
    intro raw r' h
    cases h' : scanStr r with
    | none => simp [h'] at h
    | some q =>
      obtain ⟨x, y⟩ := q
      simp [h'] at h
      obtain ⟨rfl, rfl⟩ := h
      obtain ⟨rfl, hb⟩ := ih _ _ h'
      exact ⟨by simp, .esc _ _ ((isSimpleEsc_iff _).1 hh) hb⟩
  | case6 => simp
  | case7 => simp
  | case8 c r hq _ _ hh ih =>
    intro raw r' h
    cases h' : scanStr r with
    | none => simp [h'] at h
    | some q =>
      obtain ⟨x, y⟩ := q
      simp [h'] at h
      obtain ⟨rfl, rfl⟩ := h
      obtain ⟨rfl, hb⟩ := ih _ _ h'
      simp at hh
      refine ⟨by simp, .char _ _ ?_ hh.1 hh.2 hb⟩
      intro hc
      exact hq hc

theorem scanStr_complete {raw : Str} (h : IsStrBody raw) (r : Str) :
    scanStr (raw ++ '"' :: r) = some (raw, r) := by
  induction h with
  | nil => rfl
  | char c s h1 h2 h3 _ ih =>
    rw [List.cons_append, scanStr]
    · rw [if_neg (by simp [h2]; omega), ih]
      rfl
    · intro h; exact h1 h
    · intro _ _ _ _ _ h; exact absurd h h2
    · intro _ _ h; exact absurd h h2
  | esc c s hc _ ih =>
    rw [List.cons_append, List.cons_append, scanStr]
    · rw [if_pos ((isSimpleEsc_iff c).2 hc), ih]
      rfl
    · rintro _ _ _ _ _ rfl _
      simp at hc
  | uni a b c d s ha hb hc hd _ ih =>
    simp only [List.cons_append]
    rw [scanStr]
    rw [← isHex_iff] at ha hb hc hd
    simp [ha, hb, hc, hd, ih]

theorem IsStrBody.no_prefix_quote {raw : Str} (h : IsStrBody raw) (r r' raw' : Str)
    (h' : IsStrBody raw') (e : raw ++ '"' :: r = raw' ++ '"' :: r') : raw = raw' ∧ r = r' := by
  have h1 := scanStr_complete h r
  have h2 := scanStr_complete h' r'
  rw [e, h2] at h1
  simp at h1
  exact ⟨h1.1.symm, h1.2.symm⟩

end SIO
