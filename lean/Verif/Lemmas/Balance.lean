import Verif.Lemmas.JsonParse
/-
A bracket and string automaton: a JSON array text has no proper suffix after `,` and a
numeral that is a JSON array text as well.
-/
namespace SIO
open Spec

/-- Outside strings, inside a string, after a backslash; with the bracket depth. -/
inductive Sc where
  | out (n : Nat)
  | inn (n : Nat)
  | esc (n : Nat)

def Sc.step : Sc → Char → Option Sc
  | .out n, c =>
    if c = '"' then some (.inn n)
    else if c = '\\' then none
    else if c = '[' ∨ c = '{' then some (.out (n + 1))
    else if c = ']' ∨ c = '}' then (if n = 0 then none else some (.out (n - 1)))
    else some (.out n)
  | .inn n, c => if c = '"' then some (.out n) else if c = '\\' then some (.esc n) else some (.inn n)
  | .esc n, _ => some (.inn n)

def Sc.run (q : Sc) : Str → Option Sc
  | [] => some q
  | c :: s => (q.step c).bind fun q' => q'.run s

theorem Sc.run_append (q : Sc) (s t : Str) : q.run (s ++ t) = (q.run s).bind fun q' => q'.run t := by
  induction s generalizing q with
  | nil => rfl
  | cons c s ih =>
    simp only [List.cons_append, Sc.run]
    cases h : q.step c with
    | none => rfl
    | some q' => simpa using ih q'

/-- Characters that do not change the state outside strings. -/
def Plain (s : Str) : Prop :=
  ∀ c ∈ s, c ≠ '"' ∧ c ≠ '\\' ∧ c ≠ '[' ∧ c ≠ ']' ∧ c ≠ '{' ∧ c ≠ '}'

theorem run_plain {s : Str} (h : Plain s) (n : Nat) : (Sc.out n).run s = some (.out n) := by
  induction s with
  | nil => rfl
  | cons c s ih =>
    have hc := h c (by simp)
    simp [Sc.run, Sc.step, hc, ih (fun x hx => h x (by simp [hx]))]

theorem plain_ws {w : Str} (h : IsWs w) : Plain w := by
  intro c hc
  rcases h c hc with rfl | rfl | rfl | rfl <;> decide

theorem plain_digit {c : Char} (h : c.isDigit = true) :
    c ≠ '"' ∧ c ≠ '\\' ∧ c ≠ '[' ∧ c ≠ ']' ∧ c ≠ '{' ∧ c ≠ '}' := by
  refine ⟨?_, ?_, ?_, ?_, ?_, ?_⟩ <;> (rintro rfl; simp at h)

theorem plain_num {s : Str} (h : IsNum s) : Plain s := by
  obtain ⟨sign, int, frac, exp, rfl, hs, hi, hf, he⟩ := h
  intro c hc
  simp at hc
  rcases hc with hc | hc | hc | hc
  · rcases hs with rfl | rfl
    · simp at hc
    · simp at hc; subst hc; decide
  · exact plain_digit (hi.digits c hc)
  · rcases hf with rfl | ⟨d, rfl, hd⟩
    · simp at hc
    · simp at hc
      rcases hc with rfl | hc
      · decide
      · exact plain_digit (hd.2 c hc)
  · rcases he with rfl | ⟨e, sg, d, rfl, he, hsg, hd⟩
    · simp at hc
    · simp at hc
      rcases hc with rfl | hc | hc
      · rcases he with rfl | rfl <;> decide
      · rcases hsg with rfl | rfl | rfl <;> simp at hc <;> subst hc <;> decide
      · exact plain_digit (hd.2 c hc)

theorem isHex_plain {c : Char} (h : IsHex c) : c ≠ '"' ∧ c ≠ '\\' := by
  constructor <;> (rintro rfl; simp [IsHex] at h)

theorem run_body {raw : Str} (h : IsStrBody raw) (n : Nat) : (Sc.inn n).run raw = some (.inn n) := by
  induction h with
  | nil => rfl
  | char c s h1 h2 _ _ ih => simp [Sc.run, Sc.step, h1, h2, ih]
  | esc c s hc _ ih => simp [Sc.run, Sc.step, ih]
  | uni a b c d s ha hb hc hd _ ih =>
    simp [Sc.run, Sc.step, ih, isHex_plain ha, isHex_plain hb, isHex_plain hc, isHex_plain hd]

theorem run_quoted {raw : Str} (h : IsStrBody raw) (n : Nat) (r : Str) :
    (Sc.out n).run ('"' :: (raw ++ ('"' :: r))) = (Sc.out n).run r := by
  simp [Sc.run, Sc.step, Sc.run_append, run_body h]

theorem run_app_out {n m : Nat} {s t : Str} (h : (Sc.out n).run s = some (.out m)) :
    (Sc.out n).run (s ++ t) = (Sc.out m).run t := by
  rw [Sc.run_append, h]; rfl

mutual
theorem run_val : ∀ (t : JTree) (v : Str) (n : Nat), IsVal t v → (Sc.out n).run v = some (.out n)
  | .null, v, n, h => by
    simp only [IsVal] at h; subst h; exact run_plain (by intro c hc; simp at hc; rcases hc with rfl | rfl | rfl <;> decide) n
  | .bool true, v, n, h => by
    simp only [IsVal] at h; subst h; exact run_plain (by intro c hc; simp at hc; rcases hc with rfl | rfl | rfl | rfl <;> decide) n
  | .bool false, v, n, h => by
    simp only [IsVal] at h; subst h; exact run_plain (by intro c hc; simp at hc; rcases hc with rfl | rfl | rfl | rfl | rfl <;> decide) n
  | .num lex, v, n, h => by
    simp only [IsVal] at h; obtain ⟨rfl, h⟩ := h; exact run_plain (plain_num h) n
  | .str raw, v, n, h => by
    simp only [IsVal] at h; obtain ⟨rfl, h⟩ := h; rw [run_quoted h]; rfl
  | .arr xs, v, n, h => by
    simp only [IsVal] at h
    obtain ⟨b, rfl, hb⟩ := h
    have := run_elems xs b (n + 1) hb
    simp [Sc.run, Sc.step, Sc.run_append, this]
  | .obj kvs, v, n, h => by
    simp only [IsVal] at h
    obtain ⟨b, rfl, hb⟩ := h
    have := run_members kvs b (n + 1) hb
    simp [Sc.run, Sc.step, Sc.run_append, this]
theorem run_elems : ∀ (xs : List JTree) (b : Str) (n : Nat), IsElems xs b → (Sc.out n).run b = some (.out n)
  | [], b, n, h => run_plain (plain_ws (by simpa [IsElems] using h)) n
  | x :: xs, b, n, h => by
    simp only [IsElems] at h
    obtain ⟨w1, v, w2, b', rfl, h1, h2, hv, ht⟩ := h
    rw [run_app_out (run_plain (plain_ws h1) n), run_app_out (run_val x v n hv),
      run_app_out (run_plain (plain_ws h2) n)]
    rcases ht with ⟨rfl, rfl⟩ | ⟨_, b'', rfl, hb⟩
    · rfl
    · have := run_elems xs b'' n hb
      simp [Sc.run, Sc.step, this]
theorem run_members : ∀ (xs : List (Str × JTree)) (b : Str) (n : Nat), IsMembers xs b →
    (Sc.out n).run b = some (.out n)
  | [], b, n, h => run_plain (plain_ws (by simpa [IsMembers] using h)) n
  | (k, x) :: xs, b, n, h => by
    simp only [IsMembers] at h
    obtain ⟨w1, w2, w3, v, w4, b', rfl, h1, h2, h3, h4, hk, hv, ht⟩ := h
    rw [run_app_out (run_plain (plain_ws h1) n), run_quoted hk, run_app_out (run_plain (plain_ws h2) n)]
    have step : ∀ r, (Sc.out n).run (':' :: r) = (Sc.out n).run r := fun r => by simp [Sc.run, Sc.step]
    rw [step, run_app_out (run_plain (plain_ws h3) n), run_app_out (run_val x v n hv),
      run_app_out (run_plain (plain_ws h4) n)]
    rcases ht with ⟨rfl, rfl⟩ | ⟨_, b'', rfl, hb⟩
    · rfl
    · have := run_members xs b'' n hb
      simp [Sc.run, Sc.step, this]
end

theorem run_elemTexts : ∀ (vs : List Str) (b : Str) (n : Nat), IsElemTexts vs b →
    (Sc.out n).run b = some (.out n)
  | [], b, n, h => run_plain (plain_ws (by simpa [IsElemTexts] using h)) n
  | v :: vs, b, n, h => by
    simp only [IsElemTexts] at h
    obtain ⟨w1, w2, b', rfl, h1, h2, ⟨x, hv⟩, ht⟩ := h
    rw [run_app_out (run_plain (plain_ws h1) n), run_app_out (run_val x v n hv),
      run_app_out (run_plain (plain_ws h2) n)]
    rcases ht with ⟨rfl, rfl⟩ | ⟨_, b'', rfl, hb⟩
    · rfl
    · have := run_elemTexts vs b'' n hb
      simp [Sc.run, Sc.step, this]

/-- Reading the same text once outside and once inside a string: the two readings stay
opposite as long as both are legal. -/
theorem run_flip (s : Str) :
    (∀ j k q q', (Sc.out j).run s = some q → (Sc.inn k).run s = some q' →
      ((∃ j', q = .out j') ∧ ∃ k', q' = .inn k') ∨ ((∃ j', q = .inn j') ∧ ∃ k', q' = .out k')) ∧
    (∀ j k q q', (Sc.inn j).run s = some q → (Sc.out k).run s = some q' →
      ((∃ j', q = .out j') ∧ ∃ k', q' = .inn k') ∨ ((∃ j', q = .inn j') ∧ ∃ k', q' = .out k')) := by
  induction s with
  | nil =>
    constructor
    · intro j k q q' h h'
      simp [Sc.run] at h h'
      exact Or.inl ⟨⟨j, h.symm⟩, k, h'.symm⟩
    · intro j k q q' h h'
      simp [Sc.run] at h h'
      exact Or.inr ⟨⟨j, h.symm⟩, k, h'.symm⟩
  | cons c s ih =>
    have key : ∀ j k : Nat, ∀ a b, (Sc.out j).step c = some a → (Sc.inn k).step c = some b →
        (∃ j' k', a = .out j' ∧ b = .inn k') ∨ (∃ j' k', a = .inn j' ∧ b = .out k') := by
      intro j k a b ha hb
      simp only [Sc.step] at ha hb
      split at ha
      · rename_i hq
        simp [hq] at ha hb
        exact Or.inr ⟨_, _, ha.symm, hb.symm⟩
      · rename_i hq
        split at ha
        · simp at ha
        · rename_i hbs
          simp [hq, hbs] at hb
          refine Or.inl ?_
          split at ha
          · simp at ha; exact ⟨_, _, ha.symm, hb.symm⟩
          · split at ha
            · split at ha
              · simp at ha
              · simp at ha; exact ⟨_, _, ha.symm, hb.symm⟩
            · simp at ha; exact ⟨_, _, ha.symm, hb.symm⟩
    constructor
    · intro j k q q' h h'
      simp only [Sc.run, Option.bind_eq_some_iff] at h h'
      obtain ⟨a, ha, h⟩ := h
      obtain ⟨b, hb, h'⟩ := h'
      rcases key j k a b ha hb with ⟨j', k', rfl, rfl⟩ | ⟨j', k', rfl, rfl⟩
      · exact ih.1 _ _ _ _ h h'
      · exact ih.2 _ _ _ _ h h'
    · intro j k q q' h h'
      simp only [Sc.run, Option.bind_eq_some_iff] at h h'
      obtain ⟨a, ha, h⟩ := h
      obtain ⟨b, hb, h'⟩ := h'
      rcases key k j b a hb ha with ⟨j', k', rfl, rfl⟩ | ⟨j', k', rfl, rfl⟩
      · exact ih.2 _ _ _ _ h h'
      · exact ih.1 _ _ _ _ h h'

theorem run_last_plain {q q' : Sc} {s : Str} {c : Char} (hc : c ≠ '\\') (h : q.run (s ++ [c]) = some q') :
    ∀ n, q' ≠ .esc n := by
  rw [Sc.run_append] at h
  obtain ⟨q1, _, h2⟩ := Option.bind_eq_some_iff.1 h
  simp only [Sc.run] at h2
  obtain ⟨q2, h3, h4⟩ := Option.bind_eq_some_iff.1 h2
  simp at h4
  subst h4
  rintro n rfl
  cases q1 <;> simp only [Sc.step] at h3
  all_goals (repeat' split at h3) <;> simp_all

/-- A bracketed array text cannot end, after a comma and digits, in another array text. -/
theorem array_no_suffix {b b' u d : Str} {vs vs' : List Str} (hb : IsElemTexts vs b)
    (hb' : IsElemTexts vs' b') (hd : ∀ c ∈ d, c.isDigit = true)
    (h : '[' :: (b ++ [']']) = u ++ (',' :: (d ++ ('[' :: (b' ++ [']']))))) : False := by
  cases u with
  | nil => simp at h
  | cons x u =>
    simp only [List.cons_append, List.cons.injEq] at h
    obtain ⟨_, h⟩ := h
    have h : b ++ [']'] = (u ++ (',' :: (d ++ ('[' :: b')))) ++ [']'] := by rw [h]; simp
    have h := (List.append_inj' h rfl).1
    have hr := run_elemTexts vs b 0 hb
    have hr' := run_elemTexts vs' b'
    rw [h, show u ++ (',' :: (d ++ ('[' :: b'))) = (u ++ (',' :: d)) ++ ('[' :: b') by simp,
      Sc.run_append] at hr
    obtain ⟨q, hq, hr⟩ := Option.bind_eq_some_iff.1 hr
    have hesc : ∀ n, q ≠ .esc n := by
      rcases List.eq_nil_or_concat d with rfl | ⟨d', x, rfl⟩
      · exact run_last_plain (c := ',') (by decide) hq
      · have hx : x ≠ '\\' := by
          rintro rfl
          have := hd '\\' (by simp)
          simp at this
        rw [show u ++ ',' :: d'.concat x = (u ++ ',' :: d') ++ [x] by simp] at hq
        exact run_last_plain hx hq
    cases q with
    | out k =>
      simp [Sc.run, Sc.step, hr' (k + 1) hb'] at hr
    | inn k =>
      have hr : (Sc.inn k).run b' = some (.out 0) := by simpa [Sc.run, Sc.step] using hr
      rcases (run_flip b').1 0 k _ _ (hr' 0 hb') hr with ⟨_, k', hk⟩ | ⟨⟨j', hj⟩, _⟩
      · simp at hk
      · simp at hj
    | esc k => exact hesc k rfl

end SIO
