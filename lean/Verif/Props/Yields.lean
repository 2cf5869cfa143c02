import Verif.Lemmas.Yields
import Verif.Props.Borrow
/-
C61: what reading an argument into a type gives.
-/
namespace SIO
open Spec

theorem readPart_num {l : Str} (h : IsNum l) : IsNum (intPart l) ∧ ∀ i rest, (l = i ++ rest ∧ '.' ∉ i ∧ 'e' ∉ i ∧ 'E' ∉ i ∧
    (∀ c r, rest = c :: r → c = '.' ∨ c = 'e' ∨ c = 'E')) ↔ i = intPart l ∧ l = i ++ rest := by
  obtain ⟨sg, n, f, e, rfl, hs, hn, hf, he⟩ := h
  have hd := hn.digits
  have hstop : ∀ c r, f ++ e = c :: r → c = '.' ∨ c = 'e' ∨ c = 'E' := by
    intro c r hc
    rcases hf with rfl | ⟨ds, rfl, _⟩
    · rcases he with rfl | ⟨c', sg', ds, rfl, hc', _⟩
      · simp at hc
      · simp only [List.nil_append, List.cons.injEq] at hc
        exact .inr (hc.1 ▸ hc')
    · simp only [List.cons_append, List.cons.injEq] at hc
      exact .inl hc.1.symm
  have hnd : NoDigitHead (f ++ e) := by
    intro c hc
    cases hfe : f ++ e with
    | nil => simp [hfe] at hc
    | cons c' r =>
      rw [hfe] at hc
      simp only [List.head?_cons, Option.mem_def, Option.some.injEq] at hc
      subst hc
      rcases hstop _ _ hfe with rfl | rfl | rfl <;> decide
  have hspan : spanDigits (n ++ (f ++ e)) = (n, f ++ e) := spanDigits_append hd hnd
  have hint : intPart (sg ++ (n ++ (f ++ e))) = sg ++ n := by
    rcases hs with rfl | rfl
    · have : scanMinus (n ++ (f ++ e)) = ([], n ++ (f ++ e)) := by
        cases n with
        | nil =>
          rcases hn with h | ⟨_, _, h, _⟩ <;> simp at h
        | cons c n =>
          have : c ≠ '-' := by
            rintro rfl
            exact absurd (hd '-' List.mem_cons_self) (by decide)
          simp [scanMinus, this]
      simp only [List.nil_append, intPart, this, hspan]
    · simp [intPart, scanMinus, hspan]
  rw [hint]
  have hno : ∀ c ∈ sg ++ n, c ≠ '.' ∧ c ≠ 'e' ∧ c ≠ 'E' := by
    intro c hc
    rcases List.mem_append.1 hc with hc | hc
    · rcases hs with rfl | rfl
      · simp at hc
      · simp only [List.mem_singleton] at hc
        subst hc
        decide
    · have := hd c hc
      refine ⟨?_, ?_, ?_⟩ <;> rintro rfl <;> exact absurd this (by decide)
  refine ⟨⟨sg, n, [], [], by simp, hs, hn, .inl rfl, .inl rfl⟩, fun i rest => ?_⟩
  rw [← List.append_assoc]
  constructor
  · rintro ⟨h1, h2, h3, h4, h5⟩
    refine ⟨?_, h1⟩
    rcases List.append_eq_append_iff.1 h1 with ⟨as, rfl, h6⟩ | ⟨as, h6, rfl⟩
    · cases as with
      | nil => simp
      | cons c as =>
        rcases hstop c _ h6 with rfl | rfl | rfl
        · exact absurd (by simp) h2
        · exact absurd (by simp) h3
        · exact absurd (by simp) h4
    · cases as with
      | nil => simpa using h6.symm
      | cons c as =>
        have := hno c (by rw [h6]; simp)
        rcases h5 c _ rfl with rfl | rfl | rfl
        · exact absurd rfl this.1
        · exact absurd rfl this.2.1
        · exact absurd rfl this.2.2
  · rintro ⟨rfl, h⟩
    refine ⟨h, fun hc => (hno _ hc).1 rfl, fun hc => (hno _ hc).2.1 rfl, fun hc => (hno _ hc).2.2 rfl, ?_⟩
    rw [List.append_cancel_left h] at hstop
    exact hstop

theorem readPart_spec : ∀ (ty : Ty) {t : JTree}, Written t → Written (readPart ty t) ∧ ∀ u, ReadPart ty t u ↔ u = readPart ty t
  | .option ty, t, h => by simp only [readPart, ReadPart]; exact readPart_spec ty h
  | .newtype ty, t, h => by simp only [readPart, ReadPart]; exact readPart_spec ty h
  | .wide s, t, h => by
    cases t with
    | num l =>
      obtain ⟨h1, h2⟩ := readPart_num (num_written h)
      simp only [readPart]
      refine ⟨⟨intPart l, by simp only [IsVal]; exact ⟨trivial, h1⟩⟩, fun u => ?_⟩
      simp only [ReadPart]
      constructor
      · rintro ⟨i, rest, h3, rfl, h4⟩
        rw [((h2 i rest).1 ⟨h3, h4⟩).1]
      · rintro rfl
        have hm : (scanMinus l).1 ++ (scanMinus l).2 = l := by
          cases l with
          | nil => rfl
          | cons c l => simp only [scanMinus]; split <;> simp_all
        have hp : l = intPart l ++ (spanDigits (scanMinus l).2).2 := by
          rw [intPart, List.append_assoc, spanDigits_eq, hm]
        obtain ⟨h3, h4⟩ := (h2 _ _).2 ⟨rfl, hp⟩
        exact ⟨intPart l, _, h3, rfl, h4⟩
    | _ => simpa [readPart, ReadPart] using h
  | .bool, t, h | .uint _, t, h | .int _, t, h | .char, t, h | .float, t, h | .str, t, h | .bytes, t, h | .bstr, t, h
  | .bbytes, t, h | .unit, t, h | .value, t, h | .ignored, t, h | .seq _, t, h | .map _, t, h | .imap _, t, h
  | .tuple _, t, h | .struct _, t, h | .enum _, t, h => by
    simpa [readPart, ReadPart] using h

/-- C61: for every target type, reading an argument of a decoded packet gives exactly the value that
the type finds in the argument (`Yields`); placeholders are looked up among the attachments of
the packet.  If it finds none, the result is an error; there is no panic. -/
theorem C61 (x : Ext) (s : Str) (ms : List EMsg) (a : Arg) (h : ArgOf s ms a) :
    ∃ t bs, IsVal t a.arg ∧ Payloads ms (bs.map Payload.binary) ∧
      (∀ (ty : Ty) (v : DVal), a.deserialize x ty = .ok v ↔
        (bs = [] ∧ Yields x none 128 ty t v) ∨ (bs ≠ [] ∧ ∃ u, ReadPart ty t u ∧ Yields x (some bs) 128 ty u v)) ∧
      ∀ ty : Ty, (∃ v, a.deserialize x ty = .ok v) ∨ a.deserialize x ty = .err (.jsonDeError a.arg) := by
  obtain ⟨t, bs, ht, hb, hp⟩ := argOf_spec h
  refine ⟨t, bs, ht, hp, fun ty v => ?_, fun ty => ?_⟩
  · have hok : ∀ (o : Option DVal), Res.ofOption (AErr.jsonDeError a.arg) o = .ok v ↔ o = some v := by
      intro o
      cases o <;> simp [Res.ofOption]
    have hbs : a.attachments = [] ↔ bs = [] := by
      have := congrArg List.length hb
      simp only [List.length_map] at this
      rw [← List.length_eq_zero_iff, this, List.length_eq_zero_iff]
    unfold Arg.deserialize
    rw [allSome_deref hb]
    simp only [ne_eq, hbs, hok]
    by_cases hn : bs = []
    · simp only [hn, not_true_eq_false, if_false, true_and, false_and, or_false, fromStr_text (isVal_text ht)]
      exact de_yields x ty 128 t ⟨_, ht⟩ v
    · simp only [hn, not_false_eq_true, if_true, false_and, true_and, false_or, fromStrA_text (isVal_text ht)]
      obtain ⟨h1, h2⟩ := readPart_spec ty (t := t) ⟨_, ht⟩
      simp only [h2, exists_eq_left]
      exact deA_yields x bs ty 128 _ h1 v
  · unfold Arg.deserialize
    rw [allSome_deref hb]
    simp only
    generalize (if a.attachments ≠ [] then _ else _) = o
    cases o <;> simp [Res.ofOption]

/-! ### Examples -/

def yieldTy : Ty := .struct [("a".toList, .uint 8), ("b".toList, .option .str)]

theorem key_denotes {raw s : Str} (h : unescape raw = some s) : StrDenotes raw s := (unescape_iff _ _).1 h

theorem key_other {raw s n : Str} (h : unescape raw = some s) (hn : s ≠ n) : ¬ StrDenotes raw n :=
  fun h' => hn (SIO.StrDenotes.unique ((unescape_iff _ _).1 h) h')

-- an absent option is `None`, and a member that is not asked for is ignored
example : Yields exExt none 128 yieldTy (.obj [("c".toList, .null), ("a".toList, .num "7".toList)]) (.struct [.uint 7, .none]) := by
  simp only [yieldTy, Yields, YieldsM]
  refine .inr (.inl ⟨_, [.uint 7, .none], by decide, rfl, by simp [Ordinary], ?_, rfl, .uint 7, [.none], rfl, .inl ?_,
    .none, [], rfl, .inr ⟨?_, ⟨_, rfl⟩, rfl⟩, rfl⟩)
  · intro kt hk
    simp only [List.mem_cons, List.not_mem_nil, or_false] at hk
    rcases hk with rfl | rfl
    · exact ⟨"c".toList, key_denotes (by decide +kernel)⟩
    · exact ⟨"a".toList, key_denotes (by decide +kernel)⟩
  · refine ⟨.num "7".toList, ⟨[("c".toList, .null)], "a".toList, [], rfl, key_denotes (by decide +kernel), ?_, by simp [HasKey]⟩,
      7, by rfl, by decide, by decide, rfl⟩
    simp only [HasKey, List.mem_singleton, exists_eq_left]
    exact key_other (s := "c".toList) (by decide +kernel) (by decide)
  · rintro ⟨kt, hk, hd⟩
    simp only [List.mem_cons, List.not_mem_nil, or_false] at hk
    rcases hk with rfl | rfl
    · exact key_other (s := "c".toList) (by decide +kernel) (by decide) hd
    · exact key_other (s := "a".toList) (by decide +kernel) (by decide) hd

-- but without the other field nothing is read
example : ¬ ∃ v, Yields exExt none 128 yieldTy (.obj [("b".toList, .str "x".toList)]) v := by
  rintro ⟨v, h⟩
  simp only [yieldTy, Yields, YieldsM] at h
  rcases h with ⟨_, _, _, h, _⟩ | ⟨kts, vs, _, h, _, _, _, v', _, _, h', _⟩ | ⟨_, _, h, _⟩
  · cases h
  · cases h
    rcases h' with ⟨t, ⟨pre, k, post, he, hd, _⟩, _⟩ | ⟨_, ⟨_, h'⟩, _⟩
    · cases pre with
      | nil =>
        simp only [List.nil_append, List.cons.injEq, Prod.mk.injEq] at he
        rw [← he.1.1] at hd
        exact key_other (s := "b".toList) (by decide +kernel) (by decide) hd
      | cons _ pre => simp at he
    · cases h'
  · simp [Attached] at h

-- the name of a variant alone is enough only if the variant has no payload
def yieldEnum : Ty := .enum [("A".toList, .unit), ("B".toList, .newtype (.uint 8))]

example : Yields exExt none 128 yieldEnum (.str "A".toList) (.variant "A".toList .unit) := by
  simp only [yieldEnum, Yields]
  exact .inl ⟨_, "A".toList, rfl, key_denotes (by decide +kernel), by rfl, rfl⟩

example : ¬ ∃ v, Yields exExt none 128 yieldEnum (.str "B".toList) v := by
  rintro ⟨v, h⟩
  simp only [yieldEnum, Yields] at h
  rcases h with ⟨raw, n, h1, h2, h3, _⟩ | ⟨_, _, _, _, _, h, _⟩
  · cases h1
    rw [SIO.StrDenotes.unique h2 (key_denotes (s := "B".toList) (by decide +kernel))] at h3
    have : List.lookup "B".toList [("A".toList, Ty.unit), ("B".toList, .newtype (.uint 8))] = some (.newtype (.uint 8)) := rfl
    rw [this] at h3
    cases h3
  · cases h

-- next to attachments, a tuple may be the first bytes of one
example : Yields exExt (some [[1, 2, 3]]) 128 (.tuple [.uint 8, .float])
    (.obj [(phKey, .bool true), (numKey, .num "0".toList)]) (.seq [.uint 1, .float "2".toList]) := by
  simp only [Yields]
  refine .inr ⟨[1, 2, 3], _, ⟨by decide, _, true, 0, rfl, by rfl, by decide, rfl⟩, rfl, ?_⟩
  simp only [YieldsBytes]
  exact ⟨1, [2, 3], _, _, rfl, rfl, ⟨by decide, rfl⟩, 2, [3], _, _, rfl, rfl, rfl, rfl⟩

-- a 128-bit integer that is the whole argument: what follows the digits is not read, but only next to
-- attachments
example : ReadPart (.wide true) (.num "1.5".toList) (.num "1".toList) := by
  simp only [ReadPart]
  exact ⟨"1".toList, ".5".toList, rfl, rfl, by decide, by decide, by decide, fun c r h => .inl (by cases h; rfl)⟩

example : ¬ ∃ v, Yields exExt none 128 (.wide true) (.num "1.5".toList) v := by
  rintro ⟨v, h⟩
  simp only [Yields, JTree.num.injEq] at h
  obtain ⟨i, h | ⟨h, _⟩, _⟩ := h
  · exact (intText_whole i).1 (by rw [← h]; decide)
  · exact absurd h (by decide)

-- non-vacuity: such arguments exist
example : ∃ s ms a, ArgOf s ms a ∧ a.deserialize exExt (.tuple [.uint 8, .uint 8]) = .ok (.seq [.uint 1, .uint 2]) := by
  have h : (decodeAll "51-[{\"_placeholder\":true,\"num\":0}]".toList [[1, 2, 3]]).okWith (firstArg fun a =>
      (a.deserialize exExt (.tuple [.uint 8, .uint 8])).okWith fun v => match v with
        | .seq [.uint a, .uint b] => a == 1 && b == 2
        | _ => false) = true := by decide +kernel
  obtain ⟨pk, hd, hf⟩ := Res.okWith_spec h
  obtain ⟨id, A, a, h1, h2, h3⟩ := firstArg_spec hf
  obtain ⟨v, hv, h4⟩ := Res.okWith_spec h3
  refine ⟨_, _, a, ⟨pk, A, 0, decodeAll_decoded hd, Or.inl ⟨id, h1⟩, h2⟩, ?_⟩
  rw [hv]
  split at h4
  · simp only [Bool.and_eq_true, beq_iff_eq] at h4
    rw [h4.1, h4.2]
  · simp at h4

end SIO
