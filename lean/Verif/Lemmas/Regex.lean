import Verif.Regex
import Verif.Spec.Header
/-
Correctness of the backtracking matcher on the packet pattern.
-/
namespace SIO
open Spec

theorem canonDec_iff (s : Str) : canonDec s = true ↔ IsDec s := by
  constructor
  · exact canonDec_cases
  · rintro (rfl | ⟨c, cs, rfl, hc, h0, hs⟩)
    · rfl
    · exact canonDec_cons hc h0 hs

theorem _root_.SIO.Spec.IsDec.head {s : Str} (h : IsDec s) : ∃ c cs, s = c :: cs ∧ c.isDigit = true := by
  rcases h with rfl | ⟨c, cs, rfl, hc, _, _⟩
  · exact ⟨'0', [], rfl, rfl⟩
  · exact ⟨c, cs, rfl, hc⟩

theorem _root_.SIO.Spec.IsDec.digits {s : Str} (h : IsDec s) : ∀ c ∈ s, c.isDigit = true :=
  canonDec_digits ((canonDec_iff s).2 h)

theorem natDec_isDec (n : Nat) : IsDec (natDec n) := (canonDec_iff _).1 (natDec_canon n)

@[simp] theorem part_none (t : Str) : part t none = [] := rfl
@[simp] theorem part_some (t s : Str) : part t (some s) = s ++ t := rfl

section
variable {β : Type} (a b : Re) (p : Char → Bool) (s : Str) (pos n : Nat) (caps : Caps)
  (k : Str → Nat → Caps → Option β)
theorem run_seq : (Re.seq a b).run s pos caps k =
    a.run s pos caps (fun s' pos' caps' => b.run s' pos' caps' k) := rfl
theorem run_grp : (Re.grp n a).run s pos caps k =
    a.run s pos caps (fun s' pos' caps' => k s' pos' ((n, (pos, pos')) :: caps')) := rfl
theorem run_opt : (Re.opt a).run s pos caps k =
    match a.run s pos caps k with
    | some r => some r
    | none => k s pos caps := rfl
theorem run_cls : (Re.cls p).run s pos caps k =
    match s with
    | c :: cs => if p c then k cs (pos + c.utf8Size) caps else none
    | [] => none := rfl
end

/-! ### star -/

theorem runStar_some {β : Type} {p : Char → Bool} {s : Str} {pos : Nat}
    {k : Str → Nat → Option β} {r : β} (h : runStar p s pos k = some r) :
    ∃ u v, s = u ++ v ∧ (∀ c ∈ u, p c = true) ∧ k v (pos + blen u) = some r ∧
      ∀ u' v', s = u' ++ v' → (∀ c ∈ u', p c = true) → u.length < u'.length →
        k v' (pos + blen u') = none := by
  induction s generalizing pos with
  | nil =>
    refine ⟨[], [], rfl, by simp, by simpa [runStar] using h, ?_⟩
    intro u' v' he _ hl
    simp at he
    simp [he.1] at hl
  | cons c s ih =>
    rw [runStar] at h
    split at h
    · rename_i hc
      cases h' : runStar p s (pos + c.utf8Size) k with
      | some b =>
        simp [h'] at h
        subst h
        obtain ⟨u, v, rfl, hu, hk, hmax⟩ := ih h'
        refine ⟨c :: u, v, rfl, by simpa [hc] using hu, by simpa [Nat.add_assoc] using hk, ?_⟩
        intro u' v' he hu' hl
        cases u' with
        | nil => simp at hl
        | cons c' u' =>
          simp at he
          have := hmax u' v' he.2 (fun x hx => hu' x (by simp [hx])) (by simpa using hl)
          simpa [Nat.add_assoc, ← he.1] using this
      | none =>
        simp [h'] at h
        refine ⟨[], c :: s, rfl, by simp, by simpa using h, ?_⟩
        intro u' v' he hu' hl
        cases u' with
        | nil => simp at hl
        | cons c' u' =>
          simp at he
          have key : ∀ (s : Str) (pos : Nat), runStar p s pos k = none →
              ∀ u v, s = u ++ v → (∀ c ∈ u, p c = true) → k v (pos + blen u) = none := by
            intro s
            induction s with
            | nil =>
              intro pos hn u v he _
              simp at he
              simp [he.1, he.2] at hn ⊢
              simpa [runStar] using hn
            | cons d s ih =>
              intro pos hn u v he hu
              rw [runStar] at hn
              cases u with
              | nil =>
                simp at he
                subst he
                split at hn
                · split at hn
                  · simp at hn
                  · simpa using hn
                · simpa using hn
              | cons d' u =>
                simp at he
                obtain ⟨rfl, rfl⟩ := he
                rw [if_pos (hu d (by simp))] at hn
                split at hn
                · simp at hn
                · rename_i hnn
                  have := ih _ hnn u v rfl (fun x hx => hu x (by simp [hx]))
                  simpa [Nat.add_assoc] using this
          have := key _ _ h' u' v' he.2 (fun x hx => hu' x (by simp [hx]))
          simpa [Nat.add_assoc, ← he.1] using this
    · rename_i hc
      refine ⟨[], c :: s, rfl, by simp, by simpa using h, ?_⟩
      intro u' v' he hu' hl
      cases u' with
      | nil => simp at hl
      | cons c' u' =>
        simp at he
        exact absurd (hu' c' (by simp)) (by rw [← he.1]; exact hc)

theorem runStar_none {β : Type} {p : Char → Bool} {k : Str → Nat → Option β} (s : Str) :
    ∀ (pos : Nat), runStar p s pos k = none →
    ∀ u v, s = u ++ v → (∀ c ∈ u, p c = true) → k v (pos + blen u) = none := by
  induction s with
  | nil =>
    intro pos hn u v he _
    simp at he
    simp [he.1, he.2]
    simpa [runStar] using hn
  | cons d s ih =>
    intro pos hn u v he hu
    rw [runStar] at hn
    cases u with
    | nil =>
      simp at he
      subst he
      split at hn
      · split at hn
        · simp at hn
        · simpa using hn
      · simpa using hn
    | cons d' u =>
      simp at he
      obtain ⟨rfl, rfl⟩ := he
      rw [if_pos (hu d (by simp))] at hn
      split at hn
      · simp at hn
      · rename_i hnn
        have := ih _ hnn u v rfl (fun x hx => hu x (by simp [hx]))
        simpa [Nat.add_assoc] using this

/-- Completeness with the maximal prefix. -/
theorem runStar_max {β : Type} {p : Char → Bool} {k : Str → Nat → Option β} {r : β}
    (u v : Str) (pos : Nat) (hu : ∀ c ∈ u, p c = true) (hk : k v (pos + blen u) = some r)
    (hmax : ∀ u' v', u ++ v = u' ++ v' → (∀ c ∈ u', p c = true) → u.length < u'.length →
        k v' (pos + blen u') = none) :
    runStar p (u ++ v) pos k = some r := by
  cases h : runStar p (u ++ v) pos k with
  | none =>
    have := runStar_none _ _ h u v rfl hu
    rw [hk] at this
    simp at this
  | some r' =>
    obtain ⟨u1, v1, he, hu1, hk1, hm1⟩ := runStar_some h
    rcases Nat.lt_trichotomy u.length u1.length with hl | hl | hl
    · rw [hmax u1 v1 he hu1 hl] at hk1; simp at hk1
    · have := List.append_inj he hl
      rw [← this.1, ← this.2, hk] at hk1
      exact hk1.symm
    · rw [hm1 u v rfl hu hl] at hk; simp at hk

/-! ### numerals -/

theorem reNum_some {β : Type} {s : Str} {pos : Nat} {caps : Caps}
    {k : Str → Nat → Caps → Option β} {r : β} (h : reNum.run s pos caps k = some r) :
    ∃ u v, s = u ++ v ∧ IsDec u ∧ k v (pos + blen u) caps = some r := by
  unfold reNum at h
  simp only [Re.run] at h
  split at h
  · rename_i r' hr
    simp at h
    subst h
    cases s with
    | nil => simp at hr
    | cons c cs =>
      simp at hr
      obtain ⟨rfl, hr⟩ := hr
      exact ⟨['0'], cs, rfl, Or.inl rfl, by simpa using hr⟩
  · cases s with
    | nil => simp at h
    | cons c cs =>
      simp at h
      obtain ⟨hc, h⟩ := h
      obtain ⟨u, v, rfl, hu, hk, _⟩ := runStar_some h
      simp [nzCls] at hc
      exact ⟨c :: u, v, rfl, Or.inr ⟨c, u, rfl, hc.1, hc.2, hu⟩, by simpa [Nat.add_assoc] using hk⟩

/-- First character of a text is not a digit (or there is none). -/
def NoDigitHead (v : Str) : Prop := ∀ c ∈ v.head?, c.isDigit = false

theorem reNum_intro {β : Type} {u v : Str} {pos : Nat} {caps : Caps}
    {k : Str → Nat → Caps → Option β} {r : β} (hu : IsDec u) (hv : NoDigitHead v)
    (hk : k v (pos + blen u) caps = some r) : reNum.run (u ++ v) pos caps k = some r := by
  unfold reNum
  simp only [Re.run]
  rcases hu with rfl | ⟨c, cs, rfl, hc, h0, hs⟩
  · simp at hk
    simp [hk]
  · have h1 : (c == '0') = false := by simp [h0]
    have h2 : nzCls c = true := by simp [nzCls, hc, h0]
    simp only [List.cons_append, h1, h2, if_true]
    simp only [Bool.false_eq_true, if_false]
    apply runStar_max cs v _ hs (by simpa [Nat.add_assoc] using hk)
    intro u' v' he hu' hl
    exfalso
    obtain ⟨t, rfl⟩ : ∃ t, u' = cs ++ t :=
      List.prefix_of_prefix_length_le (l₃ := cs ++ v) ⟨v, rfl⟩ ⟨v', he.symm⟩ (by omega)
        |>.elim fun t ht => ⟨t, ht.symm⟩
    cases t with
    | nil => simp at hl
    | cons d t =>
      simp at he
      have := hv d (by simp [he])
      rw [hu' d (by simp)] at this
      simp at this

theorem reNum_none_of_noDigit {β : Type} {s : Str} {pos : Nat} {caps : Caps}
    {k : Str → Nat → Caps → Option β} (hv : NoDigitHead s) : reNum.run s pos caps k = none := by
  cases h : reNum.run s pos caps k with
  | none => rfl
  | some r =>
    obtain ⟨u, v, rfl, hu, _⟩ := reNum_some h
    obtain ⟨c, cs, rfl, hc⟩ := hu.head
    have := hv c (by simp)
    rw [hc] at this
    simp at this

/-! ### arguments -/

theorem reArgs_spec (s : Str) (pos : Nat) (caps c : Caps) :
    reArgs.run s pos caps atEnd = some c ↔
      (s = [] ∧ c = caps) ∨ (IsBracketed s ∧ c = (7, (pos, pos + blen s)) :: caps) := by
  have inner : ∀ c', (Re.grp 7 (.seq (.cls (· == '[')) (.seq (.star dotCls) (.cls (· == ']'))))).run
      s pos caps atEnd = some c' ↔ (IsBracketed s ∧ c' = (7, (pos, pos + blen s)) :: caps) := by
    intro c'
    simp only [Re.run]
    constructor
    · intro h
      cases s with
      | nil => simp at h
      | cons a s =>
        simp at h
        obtain ⟨rfl, h⟩ := h
        obtain ⟨u, v, rfl, hu, hk, _⟩ := runStar_some h
        cases v with
        | nil => simp at hk
        | cons b v =>
          simp [atEnd] at hk
          obtain ⟨rfl, rfl, hk⟩ := hk
          refine ⟨⟨u, rfl, fun x hx => by simpa [dotCls] using hu x hx⟩, ?_⟩
          rw [← hk]
          simp [Nat.add_assoc]
    · rintro ⟨⟨w, rfl, hw⟩, rfl⟩
      simp
      apply runStar_max w [']'] _ (fun x hx => by simpa [dotCls] using hw x hx)
      · simp [atEnd, Nat.add_assoc]
      · intro u' v' he _ hl
        have := congrArg List.length he
        simp at this
        cases v' with
        | nil => simp
        | cons b v' =>
          simp at this
          exfalso
          omega
  unfold reArgs
  rw [Re.run]
  split
  · rename_i r hr
    have := (inner r).1 hr
    constructor
    · intro h
      simp at h
      subst h
      exact Or.inr this
    · rintro (⟨rfl, -⟩ | ⟨_, rfl⟩)
      · obtain ⟨⟨w, hw, _⟩, _⟩ := this
        simp at hw
      · rw [this.2]
  · rename_i hn
    constructor
    · intro h
      simp [atEnd] at h
      exact Or.inl ⟨h.1, h.2.symm⟩
    · rintro (⟨rfl, rfl⟩ | h)
      · simp [atEnd]
      · have := (inner c).2 h
        rw [hn] at this
        simp at this

/-- Range entry of an optional part starting at `pos`. -/
def capOpt (n : Nat) (pos : Nat) : Option Str → Caps → Caps
  | none, caps => caps
  | some s, caps => (n, (pos, pos + blen s)) :: caps

theorem _root_.SIO.Spec.IsBracketed.noDigit {g : Str} (h : IsBracketed g) : NoDigitHead g := by
  obtain ⟨w, rfl, _⟩ := h
  intro c hc
  simp at hc
  subst hc
  rfl

theorem part_args_noDigit {g : Option Str} (h : ∀ x, g = some x → IsBracketed x) :
    NoDigitHead (part [] g) := by
  cases g with
  | none => intro c hc; simp [part] at hc
  | some x => simpa [part] using (h x rfl).noDigit

theorem _root_.SIO.Spec.IsBracketed.ne_nil {g : Str} (h : IsBracketed g) : g ≠ [] := by
  obtain ⟨w, rfl, _⟩ := h
  simp

theorem reArgs_part {g : Option Str} (h : ∀ x, g = some x → IsBracketed x) (pos : Nat)
    (caps : Caps) : reArgs.run (part [] g) pos caps atEnd = some (capOpt 7 pos g caps) := by
  rw [reArgs_spec]
  cases g with
  | none => exact Or.inl ⟨rfl, rfl⟩
  | some x => exact Or.inr ⟨by simpa [part] using h x rfl, by simp [capOpt, part]⟩

theorem reIdArgs_intro {i g : Option Str} (hi : ∀ x, i = some x → IsDec x)
    (hg : ∀ x, g = some x → IsBracketed x) (pos : Nat) (caps : Caps) :
    (Re.seq reId reArgs).run (part [] i ++ part [] g) pos caps atEnd =
      some (capOpt 7 (pos + blen (part [] i)) g (capOpt 6 pos i caps)) := by
  simp only [Re.run, reId]
  cases i with
  | none =>
    simp only [part_none, List.nil_append]
    rw [reNum_none_of_noDigit (part_args_noDigit hg)]
    simpa [capOpt] using reArgs_part hg pos caps
  | some x =>
    rw [reNum_intro (r := capOpt 7 (pos + blen (part [] (some x))) g (capOpt 6 pos (some x) caps))]
    · simpa [part] using hi x rfl
    · exact part_args_noDigit hg
    · rw [reArgs_part hg]
      simp [capOpt, part]

theorem reIdArgs_some {s : Str} {pos : Nat} {caps c : Caps}
    (h : (Re.seq reId reArgs).run s pos caps atEnd = some c) :
    ∃ i g, (∀ x, i = some x → IsDec x) ∧ (∀ x, g = some x → IsBracketed x) ∧
      s = part [] i ++ part [] g := by
  have fin : ∀ {s : Str} {pos caps c}, reArgs.run s pos caps atEnd = some c →
      ∃ g, (∀ x, g = some x → IsBracketed x) ∧ s = part [] g := by
    intro s pos caps c h
    rcases (reArgs_spec _ _ _ _).1 h with ⟨rfl, _⟩ | ⟨hb, _⟩
    · exact ⟨none, by simp, rfl⟩
    · exact ⟨some s, by simpa using hb, by simp [part]⟩
  simp only [Re.run, reId] at h
  split at h
  · rename_i r hr
    obtain ⟨u, v, rfl, hu, hk⟩ := reNum_some hr
    obtain ⟨g, hg, rfl⟩ := fin hk
    exact ⟨some u, g, by simpa using hu, hg, by simp [part]⟩
  · obtain ⟨g, hg, rfl⟩ := fin h
    exact ⟨none, g, by simp, hg, by simp [part]⟩

/-! ### namespace -/

/-- Continuation of the namespace group. -/
abbrev idArgsK (s : Str) (pos : Nat) (caps : Caps) : Option Caps :=
  (Re.seq reId reArgs).run s pos caps atEnd

theorem _root_.SIO.Spec.IsNs.noDigit {g : Str} (h : IsNs g) (t : Str) : NoDigitHead (g ++ t) := by
  obtain ⟨c, cs, rfl, _⟩ := h
  intro c hc
  simp at hc
  subst hc
  rfl

theorem _root_.SIO.Spec.IsNs.blen_pos {g : Str} (h : IsNs g) : 2 ≤ g.length := by
  obtain ⟨c, cs, rfl, _⟩ := h
  simp

/-- Inner run of the namespace group. -/
theorem reNsInner_some {s : Str} {pos : Nat} {caps c : Caps}
    (h : (Re.grp 4 (.seq (.grp 5 (.seq (.cls (· == '/')) (.seq (.cls dotCls) (.star dotCls))))
      (.cls (· == ',')))).run s pos caps idArgsK = some c) :
    ∃ n t, IsNs n ∧ s = n ++ ',' :: t ∧
      idArgsK t (pos + blen n + 1) ((4, (pos, pos + blen n + 1)) :: (5, (pos, pos + blen n)) :: caps)
        = some c ∧
      ∀ n' t', IsNs n' → s = n' ++ ',' :: t' → n.length < n'.length →
        ∀ caps', idArgsK t' (pos + blen n' + 1) caps' = none := by
  simp only [Re.run] at h
  cases s with
  | nil => simp at h
  | cons a s =>
    simp at h
    obtain ⟨rfl, h⟩ := h
    cases s with
    | nil => simp at h
    | cons b s =>
      simp at h
      obtain ⟨hb, h⟩ := h
      obtain ⟨u, v, rfl, hu, hk, hmax⟩ := runStar_some h
      cases v with
      | nil => simp at hk
      | cons d v =>
        simp at hk
        obtain ⟨rfl, hk⟩ := hk
        refine ⟨'/' :: b :: u, v, ⟨b, u, rfl, by simpa [dotCls] using hb,
          fun x hx => by simpa [dotCls] using hu x hx⟩, rfl, ?_, ?_⟩
        · have e : (',' : Char).utf8Size = 1 := rfl
          have e' : ('/' : Char).utf8Size = 1 := rfl
          simp only [idArgsK, Re.run]
          simp only [blen_cons, e'] at hk ⊢
          rw [← hk]
          simp [Nat.add_assoc, e]
        · rintro n' t' ⟨b', u', rfl, hb', hu'⟩ he hl caps'
          simp at he
          obtain ⟨rfl, he⟩ := he
          have := hmax u' (',' :: t') he (fun x hx => by simpa [dotCls] using hu' x hx)
            (by simpa using hl)
          simp at this
          -- failure does not depend on the captures
          cases hc : idArgsK t' (pos + blen ('/' :: b :: u') + 1) caps' with
          | none => rfl
          | some r =>
            obtain ⟨i, g, hi, hg, rfl⟩ := reIdArgs_some hc
            have h2 := reIdArgs_intro hi hg
              (pos + ('/' : Char).utf8Size + b.utf8Size + blen u' + (',' : Char).utf8Size)
            simp only [Re.run] at h2
            rw [h2] at this
            simp at this

theorem reNsInner_complete {n t : Str} {pos : Nat} {caps : Caps} (hn : IsNs n)
    {i g : Option Str} (hi : ∀ x, i = some x → IsDec x) (hg : ∀ x, g = some x → IsBracketed x)
    (ht : t = part [] i ++ part [] g) :
    (Re.grp 4 (.seq (.grp 5 (.seq (.cls (· == '/')) (.seq (.cls dotCls) (.star dotCls))))
      (.cls (· == ',')))).run (n ++ ',' :: t) pos caps idArgsK ≠ none := by
  intro h
  obtain ⟨c, cs, rfl, hc, hcs⟩ := hn
  simp only [Re.run] at h
  simp [dotCls, hc] at h
  have := runStar_none _ _ h cs (',' :: t) rfl (fun x hx => by simpa [dotCls] using hcs x hx)
  simp [ht] at this
  have h2 := reIdArgs_intro hi hg
    (pos + ('/' : Char).utf8Size + c.utf8Size + blen cs + (',' : Char).utf8Size)
  simp only [Re.run] at h2
  rw [h2] at this
  simp at this

/-- Capture list of a decomposition whose namespace part starts at `pos`. -/
def capsNs (pos : Nat) (n i g : Option Str) (caps : Caps) : Caps :=
  match n with
  | none => capOpt 7 (pos + blen (part [] i)) g (capOpt 6 pos i caps)
  | some x => capOpt 7 (pos + blen x + 1 + blen (part [] i)) g
      (capOpt 6 (pos + blen x + 1) i ((4, (pos, pos + blen x + 1)) :: (5, (pos, pos + blen x)) :: caps))

/-- Shapes of the parts after the attachment count. -/
structure WfTail (n i g : Option Str) : Prop where
  ns : ∀ x, n = some x → IsNs x
  id : ∀ x, i = some x → IsDec x
  args : ∀ x, g = some x → IsBracketed x

def tailText (n i g : Option Str) : Str := part [','] n ++ (part [] i ++ part [] g)

/-- The matcher's continuation after the attachment count. -/
abbrev nsK (s : Str) (pos : Nat) (caps : Caps) : Option Caps :=
  (Re.seq reNs (.seq reId reArgs)).run s pos caps atEnd

theorem nsK_some {s : Str} {pos : Nat} {caps c : Caps} (h : nsK s pos caps = some c) :
    ∃ n i g, WfTail n i g ∧ s = tailText n i g ∧ c = capsNs pos n i g caps ∧
      ∀ n' i' g', WfTail n' i' g' → s = tailText n' i' g' →
        (n'.getD []).length ≤ (n.getD []).length := by
  unfold nsK at h
  rw [run_seq, reNs, run_opt] at h
  split at h
  · rename_i r hr
    simp at h
    subst h
    obtain ⟨n, t, hn, rfl, hk, hmax⟩ := reNsInner_some hr
    obtain ⟨i, g, hi, hg, rfl⟩ := reIdArgs_some hk
    rw [idArgsK, reIdArgs_intro hi hg] at hk
    simp at hk
    refine ⟨some n, i, g, ⟨by simpa using hn, hi, hg⟩, by simp [tailText, part], by simp [capsNs, hk], ?_⟩
    intro n' i' g' hw he
    cases n' with
    | none => simp
    | some x =>
      simp
      apply Nat.le_of_not_lt
      intro hl
      have := hmax x (part [] i' ++ part [] g') (hw.ns x rfl) (by simpa [tailText, part] using he) hl caps
      rw [idArgsK, reIdArgs_intro hw.id hw.args] at this
      simp at this
  · rename_i hn
    obtain ⟨i, g, hi, hg, rfl⟩ := reIdArgs_some h
    rw [reIdArgs_intro hi hg] at h
    simp at h
    refine ⟨none, i, g, ⟨by simp, hi, hg⟩, by simp [tailText, part], by simp [capsNs, h], ?_⟩
    intro n' i' g' hw he
    cases n' with
    | none => simp
    | some x =>
      exfalso
      apply reNsInner_complete (n := x) (pos := pos) (caps := caps) (hw.ns x rfl) hw.id hw.args rfl
      rw [show x ++ ',' :: (part [] i' ++ part [] g') = part [] i ++ part [] g by
        rw [he]; simp [tailText, part]]
      exact hn

theorem nsK_complete {n i g : Option Str} (hw : WfTail n i g) (pos : Nat) (caps : Caps) :
    nsK (tailText n i g) pos caps ≠ none := by
  unfold nsK
  rw [run_seq, reNs, run_opt]
  intro h
  split at h
  · simp at h
  · rename_i hn
    cases n with
    | none =>
      simp only [tailText, part_none, List.nil_append] at h
      have := reIdArgs_intro hw.id hw.args pos caps
      rw [this] at h
      simp at h
    | some x =>
      refine reNsInner_complete (n := x) (pos := pos) (caps := caps) (hw.ns x rfl) hw.id hw.args rfl ?_
      simpa [tailText, part] using hn

/-- A text that starts with a numeral directly followed by `-` is not a tail. -/
theorem tail_not_dash {a t : Str} (ha : IsDec a) {n i g : Option Str} (hw : WfTail n i g)
    (h : a ++ '-' :: t = tailText n i g) : False := by
  obtain ⟨c, cs, rfl, hc⟩ := ha.head
  cases n with
  | some x =>
    obtain ⟨d, ds, rfl, _⟩ := hw.ns x rfl
    simp [tailText, part] at h
    rw [h.1] at hc
    simp at hc
  | none =>
    cases i with
    | none =>
      simp only [tailText, part_none, List.nil_append] at h
      have := part_args_noDigit hw.args c (by simp [← h])
      rw [hc] at this
      simp at this
    | some y =>
      simp only [tailText, part_none, part_some, List.nil_append, List.append_nil] at h
      have hy := (hw.id y rfl).digits
      have hg := part_args_noDigit hw.args
      -- compare the first non-digit
      have hdig := ha.digits
      have key : ∀ (a y : Str) (t g : Str), (∀ x ∈ a, x.isDigit = true) → (∀ x ∈ y, x.isDigit = true) →
          NoDigitHead g → a ++ '-' :: t = y ++ g → '-' :: t = g := by
        intro a
        induction a with
        | nil =>
          intro y t g _ hy _ he
          cases y with
          | nil => simpa using he
          | cons d y =>
            simp at he
            have := hy d (by simp)
            rw [← he.1] at this
            simp at this
        | cons b a ih =>
          intro y t g ha hy hg he
          cases y with
          | nil =>
            simp at he
            have := hg b (by simp [← he])
            rw [ha b (by simp)] at this
            simp at this
          | cons d y =>
            simp at he
            exact ih y t g (fun x hx => ha x (by simp [hx])) (fun x hx => hy x (by simp [hx])) hg he.2
      have := key _ _ _ _ hdig hy hg h
      cases g with
      | none => simp [part] at this
      | some z =>
        obtain ⟨w, rfl, _⟩ := hw.args z rfl
        simp [part] at this

/-! ### the whole pattern -/

/-- Capture list of a decomposition. -/
def partsCaps (p : Parts) : Caps :=
  match p.att with
  | none => capsNs 1 p.ns p.id p.args [(1, (0, 1))]
  | some a => capsNs (1 + blen a + 1) p.ns p.id p.args
      [(2, (1, 1 + blen a + 1)), (3, (1, 1 + blen a)), (1, (0, 1))]

theorem _root_.SIO.Spec.Parts.Wf.tail {p : Parts} (h : p.Wf) : WfTail p.ns p.id p.args := ⟨h.ns, h.id, h.args⟩

theorem _root_.SIO.Spec.Parts.text_eq (p : Parts) :
    p.text = p.kind :: (part ['-'] p.att ++ tailText p.ns p.id p.args) := rfl

theorem kindCls_iff (c : Char) : kindCls c = true ↔ c ∈ ['0', '1', '2', '3', '5', '6'] := by
  simp [kindCls, or_assoc]

theorem kind_size {c : Char} (h : c ∈ ['0', '1', '2', '3', '5', '6']) : c.utf8Size = 1 := by
  simp at h
  rcases h with h | h | h | h | h | h <;> subst h <;> rfl

theorem attDash_unique {a b s t : Str} (ha : IsDec a) (hb : IsDec b)
    (h : a ++ '-' :: s = b ++ '-' :: t) : a = b ∧ s = t := by
  have key : ∀ (a b s t : Str), (∀ x ∈ a, x.isDigit = true) → (∀ x ∈ b, x.isDigit = true) →
      a ++ '-' :: s = b ++ '-' :: t → a = b ∧ s = t := by
    intro a
    induction a with
    | nil =>
      intro b s t _ hb he
      cases b with
      | nil => simpa using he
      | cons d b =>
        simp at he
        have := hb d (by simp)
        rw [← he.1] at this
        simp at this
    | cons c a ih =>
      intro b s t ha hb he
      cases b with
      | nil =>
        simp at he
        have := ha c (by simp)
        rw [he.1] at this
        simp at this
      | cons d b =>
        simp at he
        have := ih b s t (fun x hx => ha x (by simp [hx])) (fun x hx => hb x (by simp [hx])) he.2
        exact ⟨by rw [he.1, this.1], this.2⟩
  exact key a b s t ha.digits hb.digits h

theorem captures_some {s : Str} {c : Caps} (h : deserializeRe.captures s = some c) :
    ∃ p : Parts, p.Wf ∧ p.text = s ∧ p.Longest ∧ c = partsCaps p := by
  unfold Re.captures deserializeRe at h
  rw [run_seq, run_grp, run_cls] at h
  cases s with
  | nil => simp at h
  | cons k s =>
    simp only at h
    split at h
    · rename_i hk
      rw [kindCls_iff] at hk
      rw [run_seq, reAtt, run_opt] at h
      rw [kind_size hk] at h
      split at h
      · rename_i r hr
        simp at h
        subst h
        rw [run_grp, run_seq, run_grp] at hr
        obtain ⟨a, v, rfl, ha, hv⟩ := reNum_some hr
        rw [run_cls] at hv
        cases v with
        | nil => simp at hv
        | cons d v =>
          simp only at hv
          split at hv
          · rename_i hd
            simp at hd
            subst hd
            obtain ⟨n, i, g, hw, rfl, rfl, hmax⟩ := nsK_some hv
            refine ⟨⟨k, some a, n, i, g⟩, ⟨hk, by simpa using ha, hw.ns, hw.id, hw.args⟩, ?_, ?_, ?_⟩
            · simp [Parts.text_eq, part]
            · intro q hq he
              rw [Parts.text_eq, Parts.text_eq] at he
              simp at he
              cases hqa : q.att with
              | none =>
                exfalso
                rw [hqa] at he
                simp only [part_none, part_some, List.nil_append] at he
                exact tail_not_dash ha hq.tail (by rw [he.2])
              | some b =>
                rw [hqa] at he
                simp [part] at he
                have hb : IsDec b := hq.att b hqa
                have := attDash_unique hb ha he.2
                exact hmax _ _ _ hq.tail this.2.symm
            · simp only [partsCaps]
              congr 1
          · simp at hv
      · rename_i hn
        obtain ⟨n, i, g, hw, rfl, rfl, hmax⟩ := nsK_some h
        refine ⟨⟨k, none, n, i, g⟩, ⟨hk, by simp, hw.ns, hw.id, hw.args⟩, ?_, ?_, ?_⟩
        · simp [Parts.text_eq, part]
        · intro q hq he
          rw [Parts.text_eq, Parts.text_eq] at he
          simp at he
          cases hqa : q.att with
          | none =>
            rw [hqa] at he
            simp only [part_none, part_some, List.nil_append] at he
            exact hmax _ _ _ hq.tail he.2.symm
          | some b =>
            exfalso
            rw [hqa] at he
            have hb : IsDec b := hq.att b hqa
            simp [part] at he
            exact tail_not_dash hb hw he.2
        · simp [partsCaps]
    · simp at h

theorem captures_complete {p : Parts} (hp : p.Wf) : deserializeRe.captures p.text ≠ none := by
  intro h
  unfold Re.captures deserializeRe at h
  rw [run_seq, run_grp, run_cls, Parts.text_eq] at h
  simp only at h
  rw [if_pos ((kindCls_iff _).2 hp.kind)] at h
  rw [run_seq, reAtt, run_opt] at h
  split at h
  · simp at h
  · rename_i hn
    cases ha : p.att with
    | none =>
      rw [ha] at h
      simp only [part_none, part_some, List.nil_append] at h
      exact nsK_complete hp.tail _ _ h
    | some a =>
      rw [ha] at hn
      have hw := nsK_complete hp.tail
      rw [run_grp, run_seq, run_grp] at hn
      have ha' := hp.att a ha
      have e : part ['-'] (some a) ++ tailText p.ns p.id p.args =
          a ++ '-' :: tailText p.ns p.id p.args := by simp [part]
      rw [e] at hn
      have hdash : NoDigitHead ('-' :: tailText p.ns p.id p.args) := by
        intro c hc
        simp at hc
        subst hc
        rfl
      cases hr : nsK (tailText p.ns p.id p.args)
          (0 + p.kind.utf8Size + blen a + ('-' : Char).utf8Size)
          ((2, (0 + p.kind.utf8Size, 0 + p.kind.utf8Size + blen a + ('-' : Char).utf8Size)) ::
            (3, (0 + p.kind.utf8Size, 0 + p.kind.utf8Size + blen a)) ::
            (1, (0, 0 + p.kind.utf8Size)) :: []) with
      | none => exact hw _ _ hr
      | some r =>
        rw [reNum_intro (r := r) ha' hdash] at hn
        · simp at hn
        · simpa [Re.run] using hr

end SIO
