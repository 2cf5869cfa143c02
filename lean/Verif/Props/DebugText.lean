import Verif.Spec.DebugText
import Verif.Props.ErrorText
/-
C69, C70: strings, bytes and messages in errors and in the log are shown as Rust writes them in source code.
-/
namespace SIO
open SIO.Spec

theorem natHex_digits (n : Nat) : natHex n = Nat.toDigits 16 n := by
  induction n using Nat.strongRecOn with
  | _ n ih =>
    have hd : ∀ d, d < 16 → hexChar d = Nat.digitChar d := by decide
    rw [natHex_eq, Nat.toDigits_eq_if (by omega)]
    split
    · rename_i h
      rw [hd n h]
    · rw [ih (n / 16) (by omega), hd _ (by omega)]

theorem dbgChar_lit (p : SIO.Prints) (c : Char) : LitChar (dbgChar p c) c := by
  have h := dbgChar_shown p c
  generalize dbgChar p c = t at h
  cases h with
  | plain h1 h2 => exact .plain c h1 h2
  | short x hx => exact .short c x hx
  | code => rw [natHex_digits]; exact .code c

theorem litChar_inj {a b : Str} {c d : Char} {r s : Str} (h1 : LitChar a c) (h2 : LitChar b d) (h : a ++ r = b ++ s) : c = d ∧ r = s := by
  cases h1 with
  | plain _ k1 k2 =>
    cases h2 with
    | plain => simpa using h
    | short _ x hx => simp at h; exact absurd h.1 k2
    | code => simp at h; exact absurd h.1 k2
  | short _ x hx =>
    cases h2 with
    | plain _ m1 m2 => simp at h; exact absurd h.1.symm m2
    | short _ y hy =>
      simp only [List.cons_append, List.nil_append, List.cons.injEq, true_and] at h
      obtain ⟨rfl, rfl⟩ := h
      refine ⟨?_, rfl⟩
      simp only [List.mem_cons, Prod.mk.injEq, List.not_mem_nil, or_false] at hx hy
      rcases hx with ⟨rfl, rfl⟩ | ⟨rfl, rfl⟩ | ⟨rfl, rfl⟩ | ⟨rfl, rfl⟩ | ⟨rfl, rfl⟩ | ⟨rfl, rfl⟩ <;> simp at hy <;> exact hy.symm
    | code =>
      simp only [List.cons_append, List.nil_append, List.cons.injEq, true_and] at h
      obtain ⟨rfl, -⟩ := h
      simp at hx
  | code =>
    cases h2 with
    | plain _ m1 m2 => simp at h; exact absurd h.1.symm m2
    | short _ y hy =>
      simp only [List.cons_append, List.nil_append, List.cons.injEq, true_and] at h
      obtain ⟨rfl, -⟩ := h
      simp at hy
    | code =>
      simp only [List.cons_append, List.append_assoc, List.cons.injEq, true_and, ← natHex_digits] at h
      obtain ⟨h1, h2⟩ := span_inj (P := fun x => x ≠ '}') (fun x hx => (natHex_chars _ x hx).1) (fun x hx => (natHex_chars _ x hx).1)
        (by simp) (by simp) h
      exact ⟨Char.toNat_inj.1 (natHex_inj _ _ h1), by simpa using h2⟩

theorem litChar_head {a : Str} {c : Char} (h : LitChar a c) (r s : Str) : a ++ r ≠ '"' :: s := by
  intro he
  cases h with
  | plain _ k1 => simp at he; exact k1 he.1
  | short => simp at he
  | code => simp at he

theorem litBody_inj {a b s t : Str} (h1 : LitBody a s) (h2 : LitBody b t) {r r' : Str} (h : a ++ '"' :: r = b ++ '"' :: r') :
    s = t ∧ r = r' := by
  induction h1 generalizing b t with
  | nil =>
    cases h2 with
    | nil => simpa using h
    | cons hc _ => rw [List.append_assoc] at h; exact absurd h.symm (litChar_head hc _ _)
  | cons hc _ ih =>
    cases h2 with
    | nil => rw [List.append_assoc] at h; exact absurd h (litChar_head hc _ _)
    | cons hd hb =>
      rw [List.append_assoc, List.append_assoc] at h
      obtain ⟨rfl, h⟩ := litChar_inj hc hd h
      obtain ⟨rfl, h⟩ := ih hb h
      exact ⟨rfl, h⟩

/-- C69: a string is shown as a string literal for it; and a literal, whatever follows it, stands for one string only. -/
theorem C69_literal (p : SIO.Prints) (s : Str) : Literal (dbgStr p s) s ∧
    ∀ t a b s', Literal t s' → dbgStr p s ++ a = t ++ b → s = s' ∧ a = b := by
  have h1 : Literal (dbgStr p s) s := by
    refine ⟨_, rfl, ?_⟩
    induction s with
    | nil => exact .nil
    | cons c s ih => exact .cons (dbgChar_lit p c) ih
  refine ⟨h1, ?_⟩
  rintro t a b s' ⟨body', rfl, hb'⟩ h
  obtain ⟨body, he, hb⟩ := h1
  rw [he] at h
  simp only [List.cons_append, List.append_assoc, List.cons.injEq, true_and, List.nil_append] at h
  exact litBody_inj hb hb' h

theorem dbgMore_array : ∀ (b : UInt8) (bs : Bytes), natDec b.toNat ++ dbgMore bs = commaList ((b :: bs).map fun x => decimal x.toNat) ++ [']'] := by
  intro b bs
  induction bs generalizing b with
  | nil => simp [dbgMore, commaList, natDec_decimal]
  | cons c bs ih =>
    simp only [dbgMore, List.map_cons, commaList]
    have := ih c
    simp only [List.map_cons] at this
    rw [natDec_decimal, List.append_assoc ", ".toList, this]
    simp

/-- C69: bytes are shown as an array of decimal numbers. -/
theorem C69_bytes (b : Bytes) : dbgBytes b = byteArray b := by
  cases b with
  | nil => rfl
  | cons b bs => exact congrArg ('[' :: ·) (dbgMore_array b bs)

/-- C70: a websocket message is shown by its kind and its content. -/
theorem C70_shown (p : SIO.Prints) (w : Ws) : WsShown w (dbgWs p w) := by
  cases w with
  | text s => exact .text (C69_literal p s).1
  | binary b => have h := WsShown.binary b; rw [← C69_bytes] at h; exact h
  | ping b => have h := WsShown.ping b; rw [← C69_bytes] at h; exact h
  | pong b => have h := WsShown.pong b; rw [← C69_bytes] at h; exact h
  | close => exact .close _

-- a quote, a line feed and a character that is not shown
example : dbgStr ⟨fun _ => false, [], [], fun _ => [], fun _ => [], fun _ => [], [], []⟩ ['"', '\n', 'a', 'é'] = "\"\\\"\\na\\u{e9}\"".toList := by
  decide +kernel
example : Literal "\"\\\"\\na\\u{e9}\"".toList ['"', '\n', 'a', 'é'] :=
  ⟨"\\\"\\na\\u{e9}".toList, by decide, .cons (.short '"' '"' (by decide)) (.cons (.short '\n' 'n' (by decide)) (.cons (.plain 'a' (by decide) (by decide))
    (.cons (t := "\\u{e9}".toList) (body := []) (.code 'é') .nil)))⟩
-- a quote ends a literal
example (c : Char) (r : Str) : ¬ LitChar ('"' :: r) c := fun h => litChar_head h [] r (by simp)
example : dbgBytes [4, 255] = "[4, 255]".toList := by decide +kernel

end SIO
