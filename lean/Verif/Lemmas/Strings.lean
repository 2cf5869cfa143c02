import Verif.Lemmas.JsonParse
import Verif.Spec.Serde
import Verif.Serialize
/-
Decimal printing, string escaping and unescaping against their specifications.
-/
namespace SIO
open Spec

theorem natDec_decimal (n : Nat) : natDec n = decimal n := by
  induction n using Nat.strongRecOn with
  | _ n ih =>
    have hd : ∀ d, d < 10 → digitChar d = Nat.digitChar d := by decide
    rw [natDec_eq]
    unfold decimal
    rw [Nat.toDigits_eq_if (by omega)]
    split
    · rename_i h
      rw [hd n h]
    · rename_i h
      rw [ih (n / 10) (by omega), hd _ (by omega)]
      rfl

theorem intDec_intText (i : Int) : intDec i = intText i := by
  simp [intDec, intText, natDec_decimal]

theorem decimal_isDec (n : Nat) : IsDec (decimal n) := by
  rw [← natDec_decimal]; exact natDec_isDec n

theorem decimal_isNum (n : Nat) : IsNum (decimal n) :=
  ⟨[], decimal n, [], [], by simp, by simp, decimal_isDec n, by simp, by simp⟩

theorem intText_isNum (i : Int) : IsNum (intText i) := by
  unfold intText
  split
  · exact ⟨['-'], decimal i.natAbs, [], [], by simp, by simp, decimal_isDec _, by simp, by simp⟩
  · exact decimal_isNum _

/-! ### escaping -/

theorem StrDenotes.isStrBody {raw s : Str} (h : StrDenotes raw s) : IsStrBody raw := by
  induction h with
  | nil => exact .nil
  | char c r s h1 h2 h3 _ ih => exact .char _ _ h1 h2 h3 ih
  | esc e c r s h _ ih =>
    refine .esc _ _ ?_ ih
    simp [escTable] at h
    rcases h with h | h | h | h | h | h | h | h <;> simp [h.1]
  | uni a b c d x r s ha hb hc hd _ _ ih => exact .uni _ _ _ _ _ ha hb hc hd ih
  | pair a b c d a' b' c' d' x r s ha hb hc hd ha' hb' hc' hd' _ _ _ _ _ _ ih =>
    exact .uni _ _ _ _ _ ha hb hc hd (.uni _ _ _ _ _ ha' hb' hc' hd' ih)

theorem hexChar_isHex {n : Nat} (h : n < 16) : IsHex (hexChar n) ∧ hexDigit (hexChar n) = n := by
  have : n = 0 ∨ n = 1 ∨ n = 2 ∨ n = 3 ∨ n = 4 ∨ n = 5 ∨ n = 6 ∨ n = 7 ∨ n = 8 ∨ n = 9 ∨ n = 10 ∨
    n = 11 ∨ n = 12 ∨ n = 13 ∨ n = 14 ∨ n = 15 := by omega
  unfold IsHex
  rcases this with h | h | h | h | h | h | h | h | h | h | h | h | h | h | h | h <;> subst h <;> decide

theorem escapeChar_denotes {raw s : Str} (c : Char) (h : StrDenotes raw s) :
    StrDenotes (escapeChar c ++ raw) (c :: s) := by
  unfold escapeChar
  split
  · rename_i hc; subst hc; exact .esc _ _ _ _ (by decide) h
  split
  · rename_i hc; subst hc; exact .esc _ _ _ _ (by decide) h
  split
  · rename_i hc; subst hc; exact .esc _ _ _ _ (by decide) h
  split
  · rename_i hc; subst hc; exact .esc _ _ _ _ (by decide) h
  split
  · rename_i hc; subst hc; exact .esc _ _ _ _ (by decide) h
  split
  · rename_i hc; subst hc; exact .esc _ _ _ _ (by decide) h
  split
  · rename_i hc; subst hc; exact .esc _ _ _ _ (by decide) h
  split
  · rename_i hc
    have h1 := hexChar_isHex (n := c.toNat / 16) (by omega)
    have h2 := hexChar_isHex (n := c.toNat % 16) (by omega)
    have h0 : IsHex '0' ∧ hexDigit '0' = 0 := by unfold IsHex; decide
    refine .uni _ _ _ _ _ _ _ h0.1 h0.1 h1.1 h2.1 ?_ h
    simp only [hexQuad, h0.2, h1.2, h2.2]
    omega
  · rename_i h1 h2 _ _ _ _ _ h3
    exact .char _ _ _ h1 h2 (by omega) h

theorem escape_denotes (s : Str) : StrDenotes (escape s) s := by
  induction s with
  | nil => exact .nil
  | cons c s ih => exact escapeChar_denotes c ih

theorem escape_isStrBody (s : Str) : IsStrBody (escape s) := StrDenotes.isStrBody (escape_denotes s)

theorem hexVal_eq (c : Char) (h : IsHex c) : hexVal c = some (hexDigit c) := by
  unfold IsHex at h
  unfold hexVal hexDigit
  by_cases hd : c.isDigit = true
  · simp [hd]
  · rw [if_neg hd, if_neg hd]
    rcases h with h | h | h
    · exact absurd h hd
    · have h' := h
      simp at h
      rw [if_pos h']
      rcases h with rfl | rfl | rfl | rfl | rfl | rfl <;> rfl
    · simp at h
      rcases h with rfl | rfl | rfl | rfl | rfl | rfl <;> rfl

theorem hexVal_isHex {c : Char} {n : Nat} (h : hexVal c = some n) : IsHex c ∧ hexDigit c = n := by
  have hx : IsHex c := (isHex_iff c).1 (by simp [isHex, h])
  refine ⟨hx, ?_⟩
  rw [hexVal_eq c hx] at h
  simpa using h

theorem hex4_eq {a b c d : Char} (ha : IsHex a) (hb : IsHex b) (hc : IsHex c) (hd : IsHex d) :
    hex4 a b c d = some (hexQuad a b c d) := by
  simp [hex4, hexVal_eq _ ha, hexVal_eq _ hb, hexVal_eq _ hc, hexVal_eq _ hd, hexQuad]
  omega

theorem hex4_some {a b c d : Char} {n : Nat} (h : hex4 a b c d = some n) :
    IsHex a ∧ IsHex b ∧ IsHex c ∧ IsHex d ∧ n = hexQuad a b c d := by
  have ⟨ha, hb, hc, hd⟩ : IsHex a ∧ IsHex b ∧ IsHex c ∧ IsHex d := by
    unfold hex4 at h
    simp only [Option.bind_eq_bind, Option.bind_eq_some_iff] at h
    obtain ⟨x, hx, y, hy, z, hz, w, hw, _⟩ := h
    exact ⟨(hexVal_isHex hx).1, (hexVal_isHex hy).1, (hexVal_isHex hz).1, (hexVal_isHex hw).1⟩
  refine ⟨ha, hb, hc, hd, ?_⟩
  rw [hex4_eq ha hb hc hd] at h
  simpa using h.symm

theorem hexDigit_lt {c : Char} (h : IsHex c) : hexDigit c < 16 := by
  unfold IsHex at h
  unfold hexDigit
  rcases h with h | h | h
  · have := isDigit_toNat h
    simp [h]
    omega
  · simp at h
    rcases h with rfl | rfl | rfl | rfl | rfl | rfl <;> decide
  · simp at h
    rcases h with rfl | rfl | rfl | rfl | rfl | rfl <;> decide

theorem hexQuad_lt {a b c d : Char} (ha : IsHex a) (hb : IsHex b) (hc : IsHex c) (hd : IsHex d) :
    hexQuad a b c d < 65536 := by
  have := hexDigit_lt ha
  have := hexDigit_lt hb
  have := hexDigit_lt hc
  have := hexDigit_lt hd
  unfold hexQuad
  omega

theorem ofNat_toNat {n : Nat} (h : n < 0xD800 ∨ 0xDFFF < n ∧ n < 0x110000) : (Char.ofNat n).toNat = n := by
  have hv : n.isValidChar := h
  simp [Char.ofNat, dif_pos hv, Char.ofNatAux, Char.toNat]

theorem eq_ofNat {c : Char} {n : Nat} (h : c.toNat = n) : c = Char.ofNat n := by
  rw [← h, Char.ofNat_toNat]

theorem toNat_not_surrogate (c : Char) : c.toNat < 0xD800 ∨ 0xDFFF < c.toNat ∧ c.toNat < 0x110000 := c.valid

theorem esc_table_iff (e c : Char) : (e, c) ∈ escTable ↔ isSimpleEsc e = true ∧ c = simpleEsc e := by
  rw [isSimpleEsc_iff]
  constructor
  · intro h
    simp [escTable] at h
    rcases h with h | h | h | h | h | h | h | h <;> obtain ⟨rfl, rfl⟩ := h <;> decide
  · rintro ⟨h, rfl⟩
    simp at h
    rcases h with rfl | rfl | rfl | rfl | rfl | rfl | rfl | rfl <;> decide

theorem unescape_sound (raw : Str) : ∀ s, unescape raw = some s → StrDenotes raw s := by
  fun_induction unescape raw with
  | case1 => intro s h; simp at h; subst h; exact .nil
  | case2 => simp
  | case3 => simp
  | case4 => simp
  | case5 a b c d n hn1 hn2 hn3 a' b' c' d' r' n2 hh2 hn4 ih =>
    intro s h
    simp at h
    obtain ⟨s', hs', rfl⟩ := h
    obtain ⟨ha, hb, hc, hd, rfl⟩ := hex4_some hn1
    obtain ⟨ha', hb', hc', hd', rfl⟩ := hex4_some hh2
    refine .pair _ _ _ _ _ _ _ _ _ _ _ ha hb hc hd ha' hb' hc' hd' hn3.1 hn3.2 hn4.1 hn4.2 ?_ (ih _ hs')
    rw [ofNat_toNat (by omega)]
    omega
  | case6 => simp
  | case7 => simp
  | case8 a b c d r n hn h1 h2 ih =>
    intro s h
    simp at h
    obtain ⟨s', hs', rfl⟩ := h
    obtain ⟨ha, hb, hc, hd, rfl⟩ := hex4_some hn
    have := hexQuad_lt ha hb hc hd
    exact .uni _ _ _ _ _ _ _ ha hb hc hd (ofNat_toNat (by omega)) (ih _ hs')
  | case9 e r _ he ih =>
    intro s h
    simp at h
    obtain ⟨s', hs', rfl⟩ := h
    exact .esc _ _ _ _ ((esc_table_iff _ _).2 ⟨he, rfl⟩) (ih _ hs')
  | case10 => simp
  | case11 => simp
  | case12 c r _ _ hc ih =>
    intro s h
    simp at h
    obtain ⟨s', hs', rfl⟩ := h
    simp at hc
    exact .char _ _ _ hc.2.1 hc.1 hc.2.2 (ih _ hs')

theorem unescape_complete {raw s : Str} (h : StrDenotes raw s) : unescape raw = some s := by
  induction h with
  | nil => rfl
  | char c r s h1 h2 h3 _ ih =>
    rw [unescape]
    · rw [if_neg (by simp [h1, h2]; omega), ih]
      rfl
    · intro _ _ _ _ _ h; exact absurd h h2
    · intro _ _ h; exact absurd h h2
  | esc e c r s h _ ih =>
    obtain ⟨he, rfl⟩ := (esc_table_iff _ _).1 h
    rw [unescape]
    · rw [if_pos he, ih]
      rfl
    · rintro _ _ _ _ _ rfl _
      simp [isSimpleEsc] at he
  | uni a b c d x r s ha hb hc hd hx _ ih =>
    rw [unescape, hex4_eq ha hb hc hd]
    have := toNat_not_surrogate x
    simp only [← hx]
    rw [if_neg (by omega), if_neg (by omega), ih]
    simp
  | pair a b c d a' b' c' d' x r s ha hb hc hd ha' hb' hc' hd' h1 h2 h3 h4 hx _ ih =>
    rw [unescape, hex4_eq ha hb hc hd]
    simp only [hex4_eq ha' hb' hc' hd']
    rw [if_neg (by omega), if_pos ⟨h1, h2⟩, if_pos ⟨h3, h4⟩, ih]
    simp
    apply (eq_ofNat _).symm
    omega

theorem unescape_iff (raw s : Str) : unescape raw = some s ↔ StrDenotes raw s :=
  ⟨unescape_sound raw s, unescape_complete⟩

theorem unescape_escape (s : Str) : unescape (escape s) = some s := unescape_complete (escape_denotes s)

theorem StrDenotes.unique {raw s s' : Str} (h : StrDenotes raw s) (h' : StrDenotes raw s') : s = s' := by
  have := unescape_complete h
  rw [unescape_complete h'] at this
  simpa using this.symm

end SIO
