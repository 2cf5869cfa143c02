import Verif.ConnectText
import Verif.Props.ErrorText
import Verif.Props.ConnectCall
/-
C74: what the text of an error of `connect` tells.
-/
namespace SIO
namespace Spec

/-- Which error it is: a bad url, an error of the function of the application, or the sort of an error of the connection. -/
def sortConnect : ConnectErr → List Nat
  | .url _ _ => [5]
  | .connection _ => [6]
  | .inner e => sortC e

end Spec
open Spec

def headsConnect : List Str := headsC ++ ["Failed to parse URI ".toList, "Connection error: ".toList]

theorem headsConnect_differ : ∀ i < headsConnect.length, ∀ j < headsConnect.length,
    headsConnect[i]!.take headsConnect[j]!.length = headsConnect[j]!.take headsConnect[i]!.length → i = j := by
  decide +kernel

theorem app_tail (a b c d : Str) : a ++ b ++ c ++ d = a ++ (b ++ (c ++ d)) := by
  rw [List.append_assoc, List.append_assoc]

theorem headsConnect_url : headsConnect[5]! = "Failed to parse URI ".toList := by decide +kernel
theorem headsConnect_connection : headsConnect[6]! = "Connection error: ".toList := by decide +kernel

theorem url_text (p : CPrints) (uri : Str) (e : UrlFault) :
    ∃ y, e.text p uri = "Failed to parse URI ".toList ++ (uri ++ (": ".toList ++ y)) := by
  cases e with
  | parse e => exact ⟨_, app_tail _ _ _ _⟩
  | bad e => exact ⟨_, app_tail _ _ _ _⟩

theorem headConnect (p : CPrints) (e : ConnectErr) :
    ∃ i x, i < headsConnect.length ∧ (sortConnect e).head? = some i ∧ e.text p = headsConnect[i]! ++ x := by
  cases e with
  | url uri e =>
    obtain ⟨y, h⟩ := url_text p uri e
    exact ⟨5, _, by decide, rfl, h⟩
  | connection e => exact ⟨6, _, by decide, rfl, rfl⟩
  | inner e =>
    cases e with
    | websocket e => exact ⟨0, _, by decide, rfl, rfl⟩
    | spawn => exact ⟨1, _, by decide, rfl, rfl⟩
    | processing e => exact ⟨2, _, by decide, rfl, rfl⟩
    | timeout w => exact ⟨3, _, by decide, by cases w <;> rfl, rfl⟩
    | alreadyClosed => exact ⟨4, [], by decide, rfl, by rw [List.append_nil]; rfl⟩

theorem sortC_head (e : CErr) : ∃ i, (sortC e).head? = some i ∧ i < 5 := by
  cases e with
  | timeout w => cases w <;> exact ⟨3, rfl, by decide⟩
  | websocket e => exact ⟨0, rfl, by decide⟩
  | spawn => exact ⟨1, rfl, by decide⟩
  | processing e => exact ⟨2, rfl, by decide⟩
  | alreadyClosed => exact ⟨4, rfl, by decide⟩

/-- C74: the text of an error tells which it is. -/
theorem C74_sort (p q : CPrints) (e f : ConnectErr) (h : e.text p = f.text q) : sortConnect e = sortConnect f := by
  obtain ⟨i, x, hi, h1, h2⟩ := headConnect p e
  obtain ⟨j, y, hj, h3, h4⟩ := headConnect q f
  have h' := h
  rw [h2, h4] at h'
  have := heads_differ headsConnect_differ hi hj h'
  subst this
  rw [← h3] at h1
  cases e with
  | url _ _ =>
    cases f with
    | url _ _ => rfl
    | connection _ => simp [sortConnect] at h1
    | inner f => obtain ⟨k, hk, hl⟩ := sortC_head f; simp only [sortConnect, hk, List.head?_cons, Option.some.injEq] at h1; omega
  | connection _ =>
    cases f with
    | url _ _ => simp [sortConnect] at h1
    | connection _ => rfl
    | inner f => obtain ⟨k, hk, hl⟩ := sortC_head f; simp only [sortConnect, hk, List.head?_cons, Option.some.injEq] at h1; omega
  | inner e =>
    cases f with
    | inner f => exact C69_sort _ _ e f h
    | _ => obtain ⟨k, hk, hl⟩ := sortC_head e; simp only [sortConnect, hk, List.head?_cons, Option.some.injEq] at h1; omega

theorem begins {p : CPrints} {e : ConnectErr} {i : Nat} (hi : i < headsConnect.length) (h : headsConnect[i]! <+: e.text p) :
    (sortConnect e).head? = some i := by
  obtain ⟨j, x, hj, h1, h2⟩ := headConnect p e
  obtain ⟨y, hy⟩ := h
  rw [h2] at hy
  rw [h1, heads_differ headsConnect_differ hi hj hy]

/-- C74: whoever reads the text of an error of the call knows whether it was about the url, and sees the text that was given,
and whether it was the error of the function of the application, and sees what that prints. -/
theorem C74_read (cfg : RCfg) (parse : Str → Except Nat Url) (entry : Entry) (text : Str)
    (hp : ∀ u, parse text = .ok u → ParsedUrl u) (acts : List CAct) (st : CState) (tr : List CEv)
    (h : CRuns cfg parse entry text acts st tr) (p : CPrints) (e : ConnectErr) (he : .returned (.err e) ∈ tr) :
    ("Failed to parse URI ".toList <+: e.text p ↔ ∃ f, BadUrl parse text f) ∧
    ((∃ f, BadUrl parse text f) → "Failed to parse URI ".toList ++ text ++ ": ".toList <+: e.text p) ∧
    ("Connection error: ".toList <+: e.text p ↔ ∃ n, .dialed (.err n) ∈ acts) ∧
    (∀ n, .dialed (.err n) ∈ acts → e.text p = "Connection error: ".toList ++ p.connection n) := by
  have no : ∀ {i : Nat} {e : CErr}, 5 ≤ i → i < headsConnect.length → ¬ headsConnect[i]! <+: (ConnectErr.inner e).text p := by
    intro i e h5 hi hx
    have := begins hi hx
    obtain ⟨k, hk, hl⟩ := sortC_head e
    simp only [sortConnect, hk, Option.some.injEq] at this
    omega
  have good : ∀ {h p b v}, Target parse text h p b v → ¬ ∃ f, BadUrl parse text f := by
    rintro h p b v ht ⟨f, hf⟩
    rcases C74_target parse text hp with ⟨_, _, _, hn⟩ | ⟨_, _, _, _, _, _, hn⟩
    · exact hn _ _ _ _ ht
    · exact hn _ hf
  cases (C74_exact cfg parse entry text hp acts st tr).1 h with
  | start => simp at he
  | dropped => simp at he
  | dialing => simp at he
  | givenUp => simp at he
  | panicked => simp at he
  | badUrl f hb =>
    simp only [List.mem_singleton, CEv.returned.injEq, Res.err.injEq] at he
    subst he
    obtain ⟨y, hy⟩ := url_text p text f
    have hy : (ConnectErr.url text f).text p = _ := hy
    refine ⟨⟨fun _ => ⟨f, hb⟩, fun _ => by rw [hy]; exact List.prefix_append _ _⟩,
      fun _ => by rw [hy, ← app_tail]; exact List.prefix_append _ _, ⟨?_, by simp⟩, by simp⟩
    intro hx
    have := begins (i := 6) (by decide) (headsConnect_connection ▸ hx)
    simp [sortConnect] at this
  | refused host port sec v n ht hc =>
    simp only [List.mem_cons, reduceCtorEq, List.not_mem_nil, or_false, false_or, CEv.returned.injEq, Res.err.injEq] at he
    subst he
    refine ⟨⟨?_, fun hb => absurd hb (good ht)⟩, fun hb => absurd hb (good ht), ⟨fun _ => ⟨n, by simp⟩, fun _ => List.prefix_append _ _⟩, ?_⟩
    · intro hx
      have := begins (i := 5) (by decide) (headsConnect_url ▸ hx)
      simp [sortConnect] at this
    · intro m hm
      simp only [List.mem_cons, reduceCtorEq, List.not_mem_nil, or_false, false_or, CAct.dialed.injEq, Res.err.injEq] at hm
      rw [hm]
      rfl
  | inside host port sec v ht acts s tr ctr hr hf =>
    have hn : ∀ n, .dialed (.err n) ∉ entering entry ++ acts.map .inner := by
      intro n hm
      cases entry <;> simp [entering] at hm
    have hi : ∃ e', e = .inner e' := by
      have he : .returned (.err e) ∈ ctr := by
        cases entry <;> simpa [dials] using he
      obtain ⟨t1, t2, rfl⟩ := List.append_of_mem he
      obtain ⟨u1, x, u2, _, _, hx, _⟩ := callerSees_split hf rfl
      cases hx
      exact ⟨_, rfl⟩
    obtain ⟨e', rfl⟩ := hi
    refine ⟨⟨fun hx => absurd (headsConnect_url ▸ hx) (no (i := 5) (by decide) (by decide)), fun hb => absurd hb (good ht)⟩,
      fun hb => absurd hb (good ht), ⟨fun hx => absurd (headsConnect_connection ▸ hx) (no (i := 6) (by decide) (by decide)), fun ⟨n, hm⟩ => absurd hm (hn n)⟩,
      fun n hm => absurd hm (hn n)⟩

theorem dbg_plain (p : Prints) : ∀ s : Str, (∀ c ∈ s, 32 ≤ c.toNat ∧ c.toNat < 127 ∧ c ≠ '"' ∧ c ≠ '\\') → s.flatMap (dbgChar p) = s
  | [], _ => rfl
  | c :: s, h => by
    obtain ⟨h1, h2, h3, h4⟩ := h c (List.mem_cons_self ..)
    have ne : ∀ d : Char, d.toNat < 32 → c ≠ d := by rintro d hd rfl; omega
    have hc : dbgChar p c = [c] := by
      unfold dbgChar
      rw [if_neg (ne _ (by decide)), if_neg (ne _ (by decide)), if_neg (ne _ (by decide)), if_neg (ne _ (by decide)), if_neg h3, if_neg h4,
        if_pos (.inl ⟨h1, h2⟩)]
    rw [List.flatMap_cons, hc, dbg_plain p s fun d hd => h d (List.mem_cons_of_mem _ hd)]
    rfl

/-- C74: the exact text: of a text the url crate does not take, with what the crate prints; of a url with another scheme, with the
scheme in quotes (the scheme having only the characters that the url crate lets into one); and of an error of the connection, the text
of that error with nothing added. -/
theorem C74_text (cfg : RCfg) (parse : Str → Except Nat Url) (entry : Entry) (text : Str)
    (hp : ∀ u, parse text = .ok u → ParsedUrl u) (acts : List CAct) (st : CState) (tr : List CEv)
    (h : CRuns cfg parse entry text acts st tr) (p : CPrints) (e : ConnectErr) (he : .returned (.err e) ∈ tr) :
    (∀ n, parse text = .error n → e.text p = "Failed to parse URI ".toList ++ text ++ ": ".toList ++ p.urlParse n) ∧
    (∀ u, parse text = .ok u → u.scheme ∉ ["http".toList, "ws".toList, "https".toList, "wss".toList] →
      (∀ c ∈ u.scheme, c.isAlphanum = true ∨ c ∈ ['+', '-', '.']) →
      e.text p = "Failed to parse URI ".toList ++ text ++ ": Invalid scheme: \"".toList ++ u.scheme ++ ['"']) ∧
    (∀ f, e = .inner f → e.text p = f.text p.toPrints) := by
  have isBad : ∀ f, BadUrl parse text f → e = .url text f := by
    intro f hf
    have hd : ∀ {f g}, BadUrl parse text f → BadUrl parse text g → f = g := by
      intro f g h1 h2
      cases h1 with
      | parse n h1 =>
        cases h2 with
        | parse m h2 => rw [h1] at h2; cases h2; rfl
        | scheme u h2 => rw [h1] at h2; cases h2
      | scheme u h1 =>
        cases h2 with
        | parse m h2 => rw [h1] at h2; cases h2
        | scheme v h2 => rw [h1] at h2; cases h2; rfl
    have good : ∀ {h p b v}, ¬ Target parse text h p b v := by
      intro h p b v ht
      rcases C74_target parse text hp with ⟨_, _, _, hn⟩ | ⟨_, _, _, _, _, _, hn⟩
      · exact hn _ _ _ _ ht
      · exact hn _ hf
    cases (C74_exact cfg parse entry text hp acts st tr).1 h with
    | start => simp at he
    | dropped => simp at he
    | dialing => simp at he
    | givenUp => simp at he
    | panicked => simp at he
    | badUrl g hb =>
      simp only [List.mem_singleton, CEv.returned.injEq, Res.err.injEq] at he
      rw [he, hd hf hb]
    | refused host port sec v n ht hc => exact absurd ht good
    | inside host port sec v ht acts s tr ctr hr hc => exact absurd ht good
  refine ⟨?_, ?_, ?_⟩
  · intro n hn
    rw [isBad _ (.parse n hn)]
    rfl
  · intro u hu hs hc
    simp only [List.mem_cons, List.not_mem_nil, or_false, not_or] at hs
    rw [isBad _ (.scheme u hu ⟨hs.1, hs.2.1, hs.2.2.1, hs.2.2.2⟩)]
    have hpl := dbg_plain p.toPrints u.scheme (by
      intro c hm
      rcases hc c hm with ha | ha
      · have hr : (48 ≤ c.toNat ∧ c.toNat ≤ 57) ∨ (65 ≤ c.toNat ∧ c.toNat ≤ 90) ∨ (97 ≤ c.toNat ∧ c.toNat ≤ 122) := by
          simp only [Char.isAlphanum, Char.isAlpha, Char.isUpper, Char.isLower, Char.isDigit, Bool.or_eq_true, Bool.and_eq_true,
            decide_eq_true_eq, UInt32.le_iff_toNat_le, ge_iff_le] at ha
          have e : c.toNat = c.val.toNat := rfl
          rcases ha with (ha | ha) | ha <;> have h1 := ha.1 <;> have h2 := ha.2 <;> simp at h1 h2 <;> omega
        refine ⟨by omega, by omega, ?_, ?_⟩
        · rintro rfl; revert hr; decide
        · rintro rfl; revert hr; decide
      · simp only [List.mem_cons, List.not_mem_nil, or_false] at ha
        rcases ha with rfl | rfl | rfl <;> decide)
    show "Failed to parse URI ".toList ++ text ++ ": ".toList ++ ("Invalid scheme: ".toList ++ ('"' :: (u.scheme.flatMap (dbgChar p.toPrints) ++ ['"']))) = _
    rw [hpl]
    have hl : ": Invalid scheme: \"".toList = ": ".toList ++ ("Invalid scheme: ".toList ++ ['"']) := by decide +kernel
    rw [hl]
    simp only [List.append_assoc, List.cons_append, List.nil_append]
  · rintro f rfl
    rfl

-- non-vacuity: a text that is no url
example (p : CPrints) (hu : p.urlParse 7 = "relative URL without a base".toList) :
    (ConnectErr.url "x".toList (.parse 7)).text p = "Failed to parse URI x: relative URL without a base".toList :=
  (congrArg ("Failed to parse URI ".toList ++ "x".toList ++ ": ".toList ++ ·) hu).trans (by decide +kernel)

-- non-vacuity: a scheme that is not supported
example (p : CPrints) : (ConnectErr.url "ftp://h".toList (.bad (.invalidScheme "ftp".toList))).text p =
    "Failed to parse URI ftp://h: Invalid scheme: \"ftp\"".toList := by
  refine (C74_text exCfg exParse .connect "ftp://h".toList ?_ [.poll] .over _ ((C74_exact exCfg exParse .connect "ftp://h".toList ?_ [.poll] .over
    [.returned (.err (.url "ftp://h".toList (.bad (.invalidScheme "ftp".toList))))]).2 (.badUrl _ ?_)) p _ (by simp)).2.1
    ⟨"ftp".toList, [], some ['h'], none, ['/'], none, none⟩ rfl (by decide +kernel) (by decide +kernel) |>.trans (by decide +kernel)
  · intro u h; cases h; exact ⟨fun _ => by simp⟩
  · intro u h; cases h; exact ⟨fun _ => by simp⟩
  · exact .scheme ⟨"ftp".toList, [], some ['h'], none, ['/'], none, none⟩ rfl (by decide +kernel)

end SIO
