import Verif.Lemmas.Serialize
import Verif.Spec.WireText
/-
The serializers against the exact text of documents.  (The proofs are those of
`Lemmas/Serialize.lean`, with texts in place of sets of texts.)
-/
namespace SIO
open Spec

theorem lowHex_eq (n : Nat) (h : n < 16) : lowHex n = hexChar n := by
  have : ∀ n : Fin 16, lowHex n = hexChar n := by decide +kernel
  exact this ⟨n, h⟩

theorem quotedChar_eq (c : Char) : quotedChar c = escapeChar c := by
  unfold escapeChar
  by_cases h1 : c = '"'
  · subst h1; rfl
  by_cases h2 : c = '\\'
  · subst h2; rfl
  by_cases h3 : c = '\x08'
  · subst h3; rfl
  by_cases h4 : c = '\t'
  · subst h4; rfl
  by_cases h5 : c = '\n'
  · subst h5; rfl
  by_cases h6 : c = '\x0c'
  · subst h6; rfl
  by_cases h7 : c = '\r'
  · subst h7; rfl
  have hb : ∀ {d : Char}, c ≠ d → (c == d) = false := fun h => by simpa using h
  simp only [quotedChar, List.lookup_cons, List.lookup_nil, hb h1, hb h2, hb h3, hb h4, hb h5, hb h6, hb h7,
    if_neg h1, if_neg h2, if_neg h3, if_neg h4, if_neg h5, if_neg h6, if_neg h7]
  split
  · rw [lowHex_eq _ (by omega), lowHex_eq _ (by omega)]; rfl
  · rfl

theorem quotedBody_eq (s : Str) : quotedBody s = escape s := by
  induction s with
  | nil => rfl
  | cons c s ih =>
    simp only [quotedBody] at ih
    simp [quotedBody, escape, quotedChar_eq, ih]

theorem quoted_eq (s : Str) : quoted s = jsonStr s := by simp [quoted, jsonStr, quotedBody_eq]

theorem docTrees_eq_nil {ds : List Doc} : docTrees ds = [] ↔ ds = [] := by cases ds <;> simp [docTrees]

theorem memberTrees_eq_nil {ds : List (Str × Doc)} : memberTrees ds = [] ↔ ds = [] := by
  cases ds with
  | nil => simp [memberTrees]
  | cons x ds => obtain ⟨k, d⟩ := x; simp [memberTrees]

namespace Exact

/-- The text of the document, with its syntax tree. -/
def TextDenotes (s : Str) (d : Doc) : Prop := s = d.text ∧ IsVal d.tree s

/-- Element texts, comma separated. -/
def ElemsText (b : Str) (ds : List Doc) : Prop := b = commas (docTexts ds) ∧ IsElems (docTrees ds) b

/-- Member texts, comma separated. -/
def MembersText (b : Str) (kds : List (Str × Doc)) : Prop := b = commas (memberTexts kds) ∧ IsMembers (memberTrees kds) b

/-- Continuation of an element list: empty, or a comma and elements. -/
def TailText (b : Str) (ds : List Doc) : Prop :=
  (ds = [] ∧ b = []) ∨ (ds ≠ [] ∧ ∃ b', b = ',' :: b' ∧ ElemsText b' ds)

def TailTextM (b : Str) (ds : List (Str × Doc)) : Prop :=
  (ds = [] ∧ b = []) ∨ (ds ≠ [] ∧ ∃ b', b = ',' :: b' ∧ MembersText b' ds)

/-- Elements at the start of a list (`first`) or after an element. -/
def ListText (first : Bool) (b : Str) (ds : List Doc) : Prop :=
  if first then ElemsText b ds else TailText b ds

def ListTextM (first : Bool) (b : Str) (ds : List (Str × Doc)) : Prop :=
  if first then MembersText b ds else TailTextM b ds

theorem elemsText_nil : ElemsText [] [] := ⟨rfl, by simp [docTrees, IsElems, isWs_nil]⟩
theorem membersText_nil : MembersText [] [] := ⟨rfl, by simp [memberTrees, IsMembers, isWs_nil]⟩

theorem listText_nil (first : Bool) : ListText first [] [] := by
  cases first
  · exact Or.inl ⟨rfl, rfl⟩
  · exact elemsText_nil

theorem listTextM_nil (first : Bool) : ListTextM first [] [] := by
  cases first
  · exact Or.inl ⟨rfl, rfl⟩
  · exact membersText_nil

theorem elemsText_cons {v b : Str} {d : Doc} {ds : List Doc} (hv : TextDenotes v d)
    (hb : TailText b ds) : ElemsText (v ++ b) (d :: ds) := by
  obtain ⟨rfl, ht⟩ := hv
  rcases hb with ⟨rfl, rfl⟩ | ⟨hne, b', rfl, rfl, h⟩
  · refine ⟨by simp [docTexts, commas], ?_⟩
    simp only [docTrees, IsElems]
    exact ⟨[], d.text, [], [], by simp, isWs_nil, isWs_nil, ht, by simp⟩
  · refine ⟨?_, ?_⟩
    · cases ds with
      | nil => exact absurd rfl hne
      | cons e ds => simp [docTexts, commas]
    · simp only [docTrees, IsElems]
      exact ⟨[], d.text, [], _, by simp, isWs_nil, isWs_nil, ht,
        Or.inr ⟨fun e => hne (docTrees_eq_nil.1 e), _, rfl, h⟩⟩

theorem listText_cons {first : Bool} {v b : Str} {d : Doc} {ds : List Doc} (hv : TextDenotes v d)
    (hb : TailText b ds) : ListText first ((if first then [] else [',']) ++ (v ++ b)) (d :: ds) := by
  have := elemsText_cons hv hb
  cases first
  · exact Or.inr ⟨by simp, _, rfl, this⟩
  · exact this

theorem membersText_cons {k v b : Str} {d : Doc} {ds : List (Str × Doc)} (hv : TextDenotes v d)
    (hb : TailTextM b ds) : MembersText (jsonStr k ++ ':' :: (v ++ b)) ((k, d) :: ds) := by
  obtain ⟨rfl, ht⟩ := hv
  rcases hb with ⟨rfl, rfl⟩ | ⟨hne, b', rfl, rfl, h⟩
  · refine ⟨by simp [memberTexts, commas, quoted_eq], ?_⟩
    simp only [memberTrees, IsMembers, quotedBody_eq]
    exact ⟨[], [], [], d.text, [], [], by simp [jsonStr], isWs_nil, isWs_nil, isWs_nil, isWs_nil,
        escape_isStrBody k, ht, by simp⟩
  · refine ⟨?_, ?_⟩
    · cases ds with
      | nil => exact absurd rfl hne
      | cons e ds => obtain ⟨k', e⟩ := e; simp [memberTexts, commas, quoted_eq]
    · simp only [memberTrees, IsMembers, quotedBody_eq]
      exact ⟨[], [], [], d.text, [], _, by simp [jsonStr], isWs_nil, isWs_nil, isWs_nil, isWs_nil,
        escape_isStrBody k, ht, Or.inr ⟨fun e => hne (memberTrees_eq_nil.1 e), _, rfl, h⟩⟩

theorem listTextM_cons {first : Bool} {k v b : Str} {d : Doc} {ds : List (Str × Doc)}
    (hv : TextDenotes v d) (hb : TailTextM b ds) :
    ListTextM first ((if first then [] else [',']) ++ (jsonStr k ++ ':' :: (v ++ b))) ((k, d) :: ds) := by
  have := membersText_cons (k := k) hv hb
  cases first
  · exact Or.inr ⟨by simp, _, rfl, this⟩
  · exact this

theorem textDenotes_arr {b : Str} {ds : List Doc} (h : ElemsText b ds) :
    TextDenotes ('[' :: (b ++ [']'])) (.arr ds) := by
  obtain ⟨rfl, h⟩ := h
  exact ⟨by simp [Doc.text], by simp only [Doc.tree, IsVal]; exact ⟨_, rfl, h⟩⟩

theorem textDenotes_obj {b : Str} {ds : List (Str × Doc)} (h : MembersText b ds) :
    TextDenotes ('{' :: (b ++ ['}'])) (.obj ds) := by
  obtain ⟨rfl, h⟩ := h
  exact ⟨by simp [Doc.text], by simp only [Doc.tree, IsVal]; exact ⟨_, rfl, h⟩⟩

theorem textDenotes_obj1 {k v : Str} {d : Doc} (h : TextDenotes v d) :
    TextDenotes ('{' :: (jsonStr k ++ ':' :: (v ++ ['}']))) (.obj [(k, d)]) := by
  have := textDenotes_obj (membersText_cons (k := k) h (Or.inl ⟨rfl, rfl⟩))
  simpa using this

theorem textDenotes_str (s : Str) : TextDenotes (jsonStr s) (.str s) := by
  refine ⟨by simp [Doc.text, quoted_eq], ?_⟩
  simp only [Doc.tree, IsVal, quotedBody_eq]
  exact ⟨rfl, escape_isStrBody s⟩

theorem textDenotes_num {l : Str} (h : IsNum l) : TextDenotes l (.num l) :=
  ⟨by simp [Doc.text], by simp [Doc.tree, IsVal, h]⟩

theorem textDenotes_null : TextDenotes ['n', 'u', 'l', 'l'] .null :=
  ⟨by simp [Doc.text], by simp only [Doc.tree, IsVal]⟩

theorem textDenotes_bool (b : Bool) : TextDenotes (boolText b) (.bool b) := by
  cases b <;> exact ⟨by simp [Doc.text, boolText], by simp [Doc.tree, IsVal, boolText]⟩

theorem tailText_bytes : ∀ (b : Bytes), ElemsText (bytesElems b) (byteNums b)
  | [] => elemsText_nil
  | [x] => by
    have := elemsText_cons (b := []) (ds := []) (textDenotes_num (decimal_isNum x.toNat)) (Or.inl ⟨rfl, rfl⟩)
    simpa [bytesElems, byteNums, natDec_decimal] using this
  | x :: y :: bs => by
    have ih := tailText_bytes (y :: bs)
    have := elemsText_cons (textDenotes_num (decimal_isNum x.toNat))
      (Or.inr ⟨by simp [byteNums], _, rfl, ih⟩)
    simpa [bytesElems, byteNums, natDec_decimal] using this

mutual
theorem serJ_spec : ∀ v : SVal, v.FloatsOk → OutW (serJ v) (docOf v) (fun d s => TextDenotes s d.plain)
  | .bool b, _ => ⟨_, rfl, textDenotes_bool b⟩
  | .u8 n, _ => ⟨_, rfl, by rw [natDec_decimal]; exact textDenotes_num (decimal_isNum _)⟩
  | .int i, _ => ⟨_, rfl, by rw [intDec_intText]; exact textDenotes_num (intText_isNum _)⟩
  | .float none, _ => ⟨_, rfl, textDenotes_null⟩
  | .float (some l), h => ⟨_, rfl, textDenotes_num (by simpa [SVal.FloatsOk] using h)⟩
  | .char c, _ => ⟨_, rfl, textDenotes_str [c]⟩
  | .str s, _ => ⟨_, rfl, textDenotes_str s⟩
  | .bytes b, _ => ⟨_, rfl, by simp only [Doc.plain]; exact textDenotes_arr (tailText_bytes b)⟩
  | .none, _ => ⟨_, rfl, textDenotes_null⟩
  | .some v, h => by
    simpa [serJ, docOf, docWith] using serJ_spec v (by simpa [SVal.FloatsOk] using h)
  | .unit, _ => ⟨_, rfl, textDenotes_null⟩
  | .unitVariant n, _ => ⟨_, rfl, textDenotes_str n⟩
  | .newtype v, h => by
    simpa [serJ, docOf, docWith] using serJ_spec v (by simpa [SVal.FloatsOk] using h)
  | .newtypeVariant n v, h => by
    have ih := serJ_spec v (by simpa [SVal.FloatsOk] using h)
    simp only [docOf, docWith] at ih ⊢
    rw [serJ]
    cases hd : docWith false v with
    | none => rw [hd] at ih; exact (EmitsW.lit _).fails (FailsW.left _ ih)
    | some d =>
      rw [hd] at ih
      refine ((EmitsW.lit _).app (ih.app (EmitsW.lit _))).mono ?_
      rintro _ ⟨_, _, rfl, rfl, v', _, rfl, hv, rfl⟩
      have := textDenotes_obj1 (k := n) hv
      simpa [Doc.plain, plainMs] using this
  | .seq [], _ => ⟨['[', ']'], rfl, by
      simpa [Doc.plain, plains, docOf, docWith] using textDenotes_arr elemsText_nil⟩
  | .seq (v :: vs), h => by
    have ih := serElems_spec (v :: vs) (by simpa [SVal.FloatsOk] using h) true
    have key : OutW (serJ (.seq (v :: vs))) (docsWith false (v :: vs))
        (fun ds s => TextDenotes s (.arr (plains ds))) := by
      rw [serJ]
      cases hd : docsWith false (v :: vs) with
      | none => rw [hd] at ih; exact (EmitsW.lit _).fails (FailsW.left _ ih)
      | some ds =>
        rw [hd] at ih
        refine ((EmitsW.lit _).app (ih.app (EmitsW.lit _))).mono ?_
        rintro _ ⟨_, _, rfl, rfl, v', _, rfl, hv, rfl⟩
        exact textDenotes_arr hv
    unfold docOf docWith
    split
    · rename_i b hb
      rw [docsWith_u8 false _ _ hb] at key
      simpa [OutW, Doc.plain, plains_byteNums] using key
    · rw [if_neg (by simp)]
      cases hd : docsWith false (v :: vs) with
      | none => rw [hd] at key; exact key
      | some ds => rw [hd] at key; simpa [OutW, Doc.plain] using key
  | .tuple vs, h => by
    have ih := serElems_spec vs (by simpa [SVal.FloatsOk] using h) true
    simp only [docOf, docWith]
    rw [serJ]
    cases hd : docsWith false vs with
    | none => rw [hd] at ih; exact (EmitsW.lit _).fails (FailsW.left _ ih)
    | some ds =>
      rw [hd] at ih
      refine ((EmitsW.lit _).app (ih.app (EmitsW.lit _))).mono ?_
      rintro _ ⟨_, _, rfl, rfl, v', _, rfl, hv, rfl⟩
      simp only [Doc.plain]
      exact textDenotes_arr hv
  | .tupleVariant n vs, h => by
    have ih := serElems_spec vs (by simpa [SVal.FloatsOk] using h) true
    simp only [docOf, docWith]
    rw [serJ]
    cases hd : docsWith false vs with
    | none => rw [hd] at ih; exact (EmitsW.lit _).fails (FailsW.left _ ih)
    | some ds =>
      rw [hd] at ih
      refine ((EmitsW.lit _).app (ih.app (EmitsW.lit _))).mono ?_
      rintro _ ⟨_, _, rfl, rfl, v', _, rfl, hv, rfl⟩
      have := textDenotes_obj1 (k := n) (textDenotes_arr hv)
      simpa [Doc.plain, plainMs] using this
  | .map kvs, h => by
    have ih := serEntries_spec kvs (by simpa [SVal.FloatsOk] using h) true
    simp only [docOf, docWith]
    rw [serJ]
    cases hd : entriesWith false kvs with
    | none => rw [hd] at ih; exact (EmitsW.lit _).fails (FailsW.left _ ih)
    | some ds =>
      rw [hd] at ih
      refine ((EmitsW.lit _).app (ih.app (EmitsW.lit _))).mono ?_
      rintro _ ⟨_, _, rfl, rfl, v', _, rfl, hv, rfl⟩
      simp only [Doc.plain]
      exact textDenotes_obj hv
  | .struct fs, h => by
    have ih := serFields_spec fs (by simpa [SVal.FloatsOk] using h) true
    simp only [docOf, docWith]
    rw [serJ]
    cases hd : fieldsWith false fs with
    | none => rw [hd] at ih; exact (EmitsW.lit _).fails (FailsW.left _ ih)
    | some ds =>
      rw [hd] at ih
      refine ((EmitsW.lit _).app (ih.app (EmitsW.lit _))).mono ?_
      rintro _ ⟨_, _, rfl, rfl, v', _, rfl, hv, rfl⟩
      simp only [Doc.plain]
      exact textDenotes_obj hv
  | .structVariant n fs, h => by
    have ih := serFields_spec fs (by simpa [SVal.FloatsOk] using h) true
    simp only [docOf, docWith]
    rw [serJ]
    cases hd : fieldsWith false fs with
    | none => rw [hd] at ih; exact (EmitsW.lit _).fails (FailsW.left _ ih)
    | some ds =>
      rw [hd] at ih
      refine ((EmitsW.lit _).app (ih.app (EmitsW.lit _))).mono ?_
      rintro _ ⟨_, _, rfl, rfl, v', _, rfl, hv, rfl⟩
      have := textDenotes_obj1 (k := n) (textDenotes_obj hv)
      simpa [Doc.plain, plainMs] using this
  | .fail, _ => rfl
theorem serElems_spec : ∀ vs : List SVal, FloatsOkL vs → ∀ first,
    OutW (serElems first vs) (docsWith false vs) (fun ds s => ListText first s (plains ds))
  | [], _, first => ⟨_, rfl, by simpa [plains] using listText_nil first⟩
  | v :: vs, h, first => by
    obtain ⟨hv, hvs⟩ : v.FloatsOk ∧ FloatsOkL vs := by simpa [FloatsOkL] using h
    have ih1 := serJ_spec v hv
    have ih2 := serElems_spec vs hvs false
    rw [docsWith, serElems]
    simp only [docOf] at ih1
    cases hd : docWith false v with
    | none => rw [hd] at ih1; exact (EmitsW.lit _).fails (FailsW.left _ ih1)
    | some d =>
      rw [hd] at ih1
      cases hds : docsWith false vs with
      | none => rw [hds] at ih2; exact (EmitsW.lit _).fails (EmitsW.fails ih1 ih2)
      | some ds =>
        rw [hds] at ih2
        refine ((EmitsW.lit _).app (ih1.app ih2)).mono ?_
        rintro _ ⟨_, _, rfl, rfl, v', b', rfl, hv, hb⟩
        exact listText_cons hv hb
theorem serEntries_spec : ∀ kvs : List (SVal × SVal), FloatsOkM kvs → ∀ first,
    OutW (serEntries first kvs) (entriesWith false kvs) (fun ds s => ListTextM first s (plainMs ds))
  | [], _, first => ⟨_, rfl, by simpa [plainMs] using listTextM_nil first⟩
  | (k, v) :: kvs, h, first => by
    obtain ⟨hv, hvs⟩ : v.FloatsOk ∧ FloatsOkM kvs := by simpa [FloatsOkM] using h
    have ih0 := serKey_spec k
    have ih1 := serJ_spec v hv
    have ih2 := serEntries_spec kvs hvs false
    rw [entriesWith, serEntries]
    simp only [docOf] at ih1
    cases hk : keyOf k with
    | none => rw [hk] at ih0; exact (EmitsW.lit _).fails (FailsW.left _ ih0)
    | some k' =>
      rw [hk] at ih0
      cases hd : docWith false v with
      | none =>
        rw [hd] at ih1
        exact (EmitsW.lit _).fails (EmitsW.fails ih0 ((EmitsW.lit _).fails (FailsW.left _ ih1)))
      | some d =>
        rw [hd] at ih1
        cases hds : entriesWith false kvs with
        | none =>
          rw [hds] at ih2
          exact (EmitsW.lit _).fails (EmitsW.fails ih0 ((EmitsW.lit _).fails (EmitsW.fails ih1 ih2)))
        | some ds =>
          rw [hds] at ih2
          refine ((EmitsW.lit _).app (ih0.app ((EmitsW.lit _).app (ih1.app ih2)))).mono ?_
          rintro _ ⟨_, _, rfl, rfl, _, _, rfl, rfl, _, _, rfl, rfl, v', b', rfl, hv, hb⟩
          have := listTextM_cons (first := first) (k := k') hv hb
          simpa [plainMs] using this
theorem serFields_spec : ∀ kvs : List (Str × SVal), FloatsOkF kvs → ∀ first,
    OutW (serFields first kvs) (fieldsWith false kvs) (fun ds s => ListTextM first s (plainMs ds))
  | [], _, first => ⟨_, rfl, by simpa [plainMs] using listTextM_nil first⟩
  | (k, v) :: kvs, h, first => by
    obtain ⟨hv, hvs⟩ : v.FloatsOk ∧ FloatsOkF kvs := by simpa [FloatsOkF] using h
    have ih1 := serJ_spec v hv
    have ih2 := serFields_spec kvs hvs false
    rw [fieldsWith, serFields]
    simp only [docOf] at ih1
    cases hd : docWith false v with
    | none =>
      rw [hd] at ih1
      exact (EmitsW.lit _).fails ((EmitsW.lit _).fails (FailsW.left _ ih1))
    | some d =>
      rw [hd] at ih1
      cases hds : fieldsWith false kvs with
      | none =>
        rw [hds] at ih2
        exact (EmitsW.lit _).fails ((EmitsW.lit _).fails (EmitsW.fails ih1 ih2))
      | some ds =>
        rw [hds] at ih2
        refine ((EmitsW.lit _).app ((EmitsW.lit _).app (ih1.app ih2))).mono ?_
        rintro _ ⟨_, _, rfl, rfl, _, _, rfl, rfl, v', b', rfl, hv, hb⟩
        have := listTextM_cons (first := first) (k := k) hv hb
        simpa [plainMs] using this
end

theorem serJ_placeholder (n : Nat) : EmitsW (serJ (placeholder n)) (TextDenotes · (placeholderDoc n)) := by
  have h := serJ_spec (placeholder n) (by simp [placeholder, SVal.FloatsOk, FloatsOkF])
  simp only [placeholder, docOf, docWith, fieldsWith, OutW, Option.map, Doc.plain, plainMs] at h
  have hn : ¬ ((n : Int) < 0) := by omega
  simpa [placeholderDoc, placeholder, intText, hn] using h

theorem push_spec {mk : Res Empty Ws} {b : Bytes} (h : mk = .ok (attMsg b)) :
    EmitsB (pushPlaceholder mk serJ) [b] (fun n s => TextDenotes s (placeholderDoc n)) := by
  intro ms
  obtain ⟨s, hs, hp⟩ := serJ_placeholder ms.length
  exact ⟨s, by simp [pushPlaceholder, h, hs], hp⟩

mutual
/-- The attachment-extracting serializer sends the numbered document and its blobs. -/
theorem serB_spec : ∀ v : SVal, v.FloatsOk →
    OutB (serB v) (docWith true v) Doc.blobs (fun d n s => TextDenotes s (d.numbered n))
  | .bool b, _ => EmitsB.lift (serJ_spec (.bool b) trivial)
  | .u8 b, _ => EmitsB.lift (serJ_spec (.u8 b) trivial)
  | .int b, _ => EmitsB.lift (serJ_spec (.int b) trivial)
  | .float none, _ => EmitsB.lift (serJ_spec (.float none) trivial)
  | .float (some l), h => EmitsB.lift (serJ_spec (.float (some l)) h)
  | .char c, _ => EmitsB.lift (serJ_spec (.char c) trivial)
  | .str s, _ => EmitsB.lift (serJ_spec (.str s) trivial)
  | .bytes b, _ => by
    simp only [serB, docWith, OutB, Doc.blobs, Doc.numbered]
    exact push_spec (encodeBinary_ok b)
  | .none, _ => EmitsB.lift (serJ_spec .none trivial)
  | .some v, h => by
    simpa [serB, docWith] using serB_spec v (by simpa [SVal.FloatsOk] using h)
  | .unit, _ => EmitsB.lift (serJ_spec .unit trivial)
  | .unitVariant n, _ => EmitsB.lift (serJ_spec (.unitVariant n) trivial)
  | .newtype v, h => by
    simpa [serB, docWith] using serB_spec v (by simpa [SVal.FloatsOk] using h)
  | .newtypeVariant n v, h => by
    have ih := serB_spec v (by simpa [SVal.FloatsOk] using h)
    simp only [docWith]
    rw [serB]
    cases hd : docWith true v with
    | none => rw [hd] at ih; exact (EmitsB.lit _).fails (FailsB.left _ ih)
    | some d =>
      rw [hd, OutB_some] at ih
      have := (EmitsB.lit ('{' :: (jsonStr n ++ [':']))).app (EmitsB.app ih (EmitsB.lit ['}']))
      simp only [List.nil_append, List.append_nil] at this
      simp only [Option.map, OutB, Doc.blobs, blobsM, List.append_nil, Doc.numbered, numberedM]
      refine this.mono ?_
      rintro _ _ ⟨_, _, rfl, rfl, v', _, rfl, hv, rfl⟩
      simpa using textDenotes_obj1 (k := n) hv
  | .seq [], _ => by
    simp only [docWith, OutB, serB, serSeqB, endBytes, Doc.blobs, blobsL, Doc.numbered, numberedL]
    refine (EmitsB.lit _).mono ?_
    rintro _ _ rfl
    exact textDenotes_arr elemsText_nil
  | .seq (v :: vs), h => by
    have hf : FloatsOkL (v :: vs) := by simpa [SVal.FloatsOk] using h
    have ih := serElemsB_spec (v :: vs) hf
    unfold docWith
    split
    · rename_i b hb
      obtain ⟨x, bs, rfl, hbs, rfl⟩ := allU8_cons_some hb
      simp only [OutB, serB, serSeqB, asU8, pushByte_nil, Doc.blobs, Doc.numbered]
      rw [serSeqB_bytes vs [x] bs hbs, endBytes, if_neg (by simp)]
      exact push_spec (packageBinary_ok _)
    · rename_i hb
      split
      · rename_i hl
        obtain ⟨x, hx⟩ := Option.isSome_iff_exists.1 hl.2
        have hxv := asByte_some hx
        subst hxv
        have e : serB (.seq (.u8 x :: vs)) = serB (.tuple (.u8 4 :: .u8 x :: vs)) := by
          have hp := serSeqB_poison vs [4, x] (by simp) (allU8_cons_none hx hb)
          simp only [serB, serSeqB, asU8, pushByte_nil]
          rw [hp]
          simp only [List.map_cons, List.map_nil, List.cons_append, List.nil_append, serB]
        rw [e]
        have e2 : serB (.tuple (.u8 4 :: .u8 x :: vs)) =
            BM.app (BM.lit ('[' :: natDec 4)) (BM.app (serElemsB false (.u8 x :: vs)) (BM.lit [']'])) := by
          rw [serB, serElemsB]
          simp only [if_true, BM.nil_app, BM.app_assoc, serB, serJ, ← BM.lit.eq_def, BM.lit_app_app]
          rfl
        rw [e2]
        have ih := ih false
        cases hd : docsWith true (.u8 x :: vs) with
        | none => rw [hd] at ih; exact (EmitsB.lit _).fails (FailsB.left _ ih)
        | some ds =>
          rw [hd, OutB_some] at ih
          have := (EmitsB.lit ('[' :: natDec 4)).app (EmitsB.app ih (EmitsB.lit [']']))
          simp only [List.nil_append, List.append_nil] at this
          simp only [Option.map, OutB, Doc.blobs, blobsL, List.nil_append, Doc.numbered, numberedL]
          refine this.mono ?_
          rintro _ _ ⟨_, _, rfl, rfl, v', _, rfl, hv, rfl⟩
          have := textDenotes_arr (elemsText_cons (textDenotes_num (decimal_isNum 4)) hv)
          simpa [natDec_decimal] using this
      · rename_i hl
        have hx : asByte v = none := by
          cases hx : asByte v with
          | none => rfl
          | some x => simp [hx] at hl
        have e : serB (.seq (v :: vs)) = serB (.tuple (v :: vs)) := by
          simp only [serB, serSeqB, asU8_eq, hx, bytesElems, if_true, BM.nil_app, serElemsB, BM.app_assoc]
        rw [e, serB]
        have ih := ih true
        cases hd : docsWith true (v :: vs) with
        | none => rw [hd] at ih; exact (EmitsB.lit _).fails (FailsB.left _ ih)
        | some ds =>
          rw [hd, OutB_some] at ih
          have := (EmitsB.lit ['[']).app (EmitsB.app ih (EmitsB.lit [']']))
          simp only [List.nil_append, List.append_nil] at this
          simp only [Option.map, OutB, Doc.blobs, Doc.numbered]
          refine this.mono ?_
          rintro _ _ ⟨_, _, rfl, rfl, v', _, rfl, hv, rfl⟩
          exact textDenotes_arr hv
  | .tuple vs, h => by
    have ih := serElemsB_spec vs (by simpa [SVal.FloatsOk] using h) true
    simp only [docWith]
    rw [serB]
    cases hd : docsWith true vs with
    | none => rw [hd] at ih; exact (EmitsB.lit _).fails (FailsB.left _ ih)
    | some ds =>
      rw [hd, OutB_some] at ih
      have := (EmitsB.lit ['[']).app (EmitsB.app ih (EmitsB.lit [']']))
      simp only [List.nil_append, List.append_nil] at this
      simp only [Option.map, OutB, Doc.blobs, Doc.numbered]
      refine this.mono ?_
      rintro _ _ ⟨_, _, rfl, rfl, v', _, rfl, hv, rfl⟩
      exact textDenotes_arr hv
  | .tupleVariant n vs, h => by
    have ih := serElemsB_spec vs (by simpa [SVal.FloatsOk] using h) true
    simp only [docWith]
    rw [serB]
    cases hd : docsWith true vs with
    | none => rw [hd] at ih; exact (EmitsB.lit _).fails (FailsB.left _ ih)
    | some ds =>
      rw [hd, OutB_some] at ih
      have := (EmitsB.lit ('{' :: (jsonStr n ++ [':', '[']))).app (EmitsB.app ih (EmitsB.lit [']', '}']))
      simp only [List.nil_append, List.append_nil] at this
      simp only [Option.map, OutB, Doc.blobs, blobsM, List.append_nil, Doc.numbered, numberedM]
      refine this.mono ?_
      rintro _ _ ⟨_, _, rfl, rfl, v', _, rfl, hv, rfl⟩
      simpa using textDenotes_obj1 (k := n) (textDenotes_arr hv)
  | .map kvs, h => by
    have ih := serEntriesB_spec kvs (by simpa [SVal.FloatsOk] using h) true
    simp only [docWith]
    rw [serB]
    cases hd : entriesWith true kvs with
    | none => rw [hd] at ih; exact (EmitsB.lit _).fails (FailsB.left _ ih)
    | some ds =>
      rw [hd, OutB_some] at ih
      have := (EmitsB.lit ['{']).app (EmitsB.app ih (EmitsB.lit ['}']))
      simp only [List.nil_append, List.append_nil] at this
      simp only [Option.map, OutB, Doc.blobs, Doc.numbered]
      refine this.mono ?_
      rintro _ _ ⟨_, _, rfl, rfl, v', _, rfl, hv, rfl⟩
      exact textDenotes_obj hv
  | .struct fs, h => by
    have ih := serFieldsB_spec fs (by simpa [SVal.FloatsOk] using h) true
    simp only [docWith]
    rw [serB]
    cases hd : fieldsWith true fs with
    | none => rw [hd] at ih; exact (EmitsB.lit _).fails (FailsB.left _ ih)
    | some ds =>
      rw [hd, OutB_some] at ih
      have := (EmitsB.lit ['{']).app (EmitsB.app ih (EmitsB.lit ['}']))
      simp only [List.nil_append, List.append_nil] at this
      simp only [Option.map, OutB, Doc.blobs, Doc.numbered]
      refine this.mono ?_
      rintro _ _ ⟨_, _, rfl, rfl, v', _, rfl, hv, rfl⟩
      exact textDenotes_obj hv
  | .structVariant n fs, h => by
    have ih := serFieldsB_spec fs (by simpa [SVal.FloatsOk] using h) true
    simp only [docWith]
    rw [serB]
    cases hd : fieldsWith true fs with
    | none => rw [hd] at ih; exact (EmitsB.lit _).fails (FailsB.left _ ih)
    | some ds =>
      rw [hd, OutB_some] at ih
      have := (EmitsB.lit ('{' :: (jsonStr n ++ [':', '{']))).app (EmitsB.app ih (EmitsB.lit ['}', '}']))
      simp only [List.nil_append, List.append_nil] at this
      simp only [Option.map, OutB, Doc.blobs, blobsM, List.append_nil, Doc.numbered, numberedM]
      refine this.mono ?_
      rintro _ _ ⟨_, _, rfl, rfl, v', _, rfl, hv, rfl⟩
      simpa using textDenotes_obj1 (k := n) (textDenotes_obj hv)
  | .fail, _ => FailsB.lift rfl
theorem serElemsB_spec : ∀ vs : List SVal, FloatsOkL vs → ∀ first,
    OutB (serElemsB first vs) (docsWith true vs) blobsL (fun ds n s => ListText first s (numberedL n ds))
  | [], _, first => by
    simp only [serElemsB, docsWith, OutB, blobsL, numberedL]
    refine (EmitsB.lit _).mono ?_
    rintro _ _ rfl
    exact listText_nil first
  | v :: vs, h, first => by
    obtain ⟨hv, hvs⟩ : v.FloatsOk ∧ FloatsOkL vs := by simpa [FloatsOkL] using h
    have ih1 := serB_spec v hv
    have ih2 := serElemsB_spec vs hvs false
    rw [docsWith, serElemsB]
    cases hd : docWith true v with
    | none => rw [hd] at ih1; exact (EmitsB.lit _).fails (FailsB.left _ ih1)
    | some d =>
      rw [hd, OutB_some] at ih1
      cases hds : docsWith true vs with
      | none => rw [hds] at ih2; exact (EmitsB.lit _).fails (EmitsB.fails ih1 ih2)
      | some ds =>
        rw [hds, OutB_some] at ih2
        have := (EmitsB.lit (if first then [] else [','])).app (EmitsB.app ih1 ih2)
        simp only [List.nil_append] at this
        simp only [OutB, blobsL, numberedL]
        refine this.mono ?_
        rintro _ _ ⟨_, _, rfl, rfl, v', b', rfl, hv, hb⟩
        exact listText_cons hv hb
theorem serEntriesB_spec : ∀ kvs : List (SVal × SVal), FloatsOkM kvs → ∀ first,
    OutB (serEntriesB first kvs) (entriesWith true kvs) blobsM
      (fun ds n s => ListTextM first s (numberedM n ds))
  | [], _, first => by
    simp only [serEntriesB, entriesWith, OutB, blobsM, numberedM]
    refine (EmitsB.lit _).mono ?_
    rintro _ _ rfl
    exact listTextM_nil first
  | (k, v) :: kvs, h, first => by
    obtain ⟨hv, hvs⟩ : v.FloatsOk ∧ FloatsOkM kvs := by simpa [FloatsOkM] using h
    have ih0 := serKeyB_spec k
    have ih1 := serB_spec v hv
    have ih2 := serEntriesB_spec kvs hvs false
    rw [entriesWith, serEntriesB]
    cases hk : keyOf k with
    | none => rw [hk] at ih0; exact (EmitsB.lit _).fails (FailsB.left _ ih0)
    | some k' =>
      rw [hk, OutB_some] at ih0
      cases hd : docWith true v with
      | none =>
        rw [hd] at ih1
        exact (EmitsB.lit _).fails (EmitsB.fails ih0 ((EmitsB.lit _).fails (FailsB.left _ ih1)))
      | some d =>
        rw [hd, OutB_some] at ih1
        cases hds : entriesWith true kvs with
        | none =>
          rw [hds] at ih2
          exact (EmitsB.lit _).fails (EmitsB.fails ih0 ((EmitsB.lit _).fails (EmitsB.fails ih1 ih2)))
        | some ds =>
          rw [hds, OutB_some] at ih2
          have := (EmitsB.lit (if first then [] else [','])).app
            (EmitsB.app ih0 ((EmitsB.lit [':']).app (EmitsB.app ih1 ih2)))
          simp only [List.nil_append] at this
          simp only [OutB, blobsM, numberedM]
          refine this.mono ?_
          rintro _ _ ⟨_, _, rfl, rfl, _, _, rfl, rfl, _, _, rfl, rfl, v', b', rfl, hv, hb⟩
          simpa using listTextM_cons (first := first) (k := k') hv hb
theorem serFieldsB_spec : ∀ kvs : List (Str × SVal), FloatsOkF kvs → ∀ first,
    OutB (serFieldsB first kvs) (fieldsWith true kvs) blobsM
      (fun ds n s => ListTextM first s (numberedM n ds))
  | [], _, first => by
    simp only [serFieldsB, fieldsWith, OutB, blobsM, numberedM]
    refine (EmitsB.lit _).mono ?_
    rintro _ _ rfl
    exact listTextM_nil first
  | (k, v) :: kvs, h, first => by
    obtain ⟨hv, hvs⟩ : v.FloatsOk ∧ FloatsOkF kvs := by simpa [FloatsOkF] using h
    have ih1 := serB_spec v hv
    have ih2 := serFieldsB_spec kvs hvs false
    rw [fieldsWith, serFieldsB]
    cases hd : docWith true v with
    | none =>
      rw [hd] at ih1
      exact (EmitsB.lit _).fails ((EmitsB.lit _).fails (FailsB.left _ ih1))
    | some d =>
      rw [hd, OutB_some] at ih1
      cases hds : fieldsWith true kvs with
      | none =>
        rw [hds] at ih2
        exact (EmitsB.lit _).fails ((EmitsB.lit _).fails (EmitsB.fails ih1 ih2))
      | some ds =>
        rw [hds, OutB_some] at ih2
        have := (EmitsB.lit (if first then [] else [','])).app
          ((EmitsB.lit (jsonStr k ++ [':'])).app (EmitsB.app ih1 ih2))
        simp only [List.nil_append] at this
        simp only [OutB, blobsM, numberedM]
        refine this.mono ?_
        rintro _ _ ⟨_, _, rfl, rfl, _, _, rfl, rfl, v', b', rfl, hv, hb⟩
        simpa using listTextM_cons (first := first) (k := k) hv hb
end

end Exact
end SIO
