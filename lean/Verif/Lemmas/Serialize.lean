import Verif.Lemmas.Strings
/-
The serializers against the document specification of `Spec.Serde`.
-/
namespace SIO
open Spec

/-! ### Texts of documents -/

/-- Element texts, comma separated. -/
def ElemsText (b : Str) (ds : List Doc) : Prop := ∃ ts, IsElems ts b ∧ DenotesL ts ds

/-- Member texts, comma separated. -/
def MembersText (b : Str) (kds : List (Str × Doc)) : Prop := ∃ ts, IsMembers ts b ∧ DenotesM ts kds

/-- Continuation of an element list: empty, or a comma and elements. -/
def TailText (b : Str) (ds : List Doc) : Prop :=
  (ds = [] ∧ b = []) ∨ (ds ≠ [] ∧ ∃ b', b = ',' :: b' ∧ ElemsText b' ds)

def TailTextM (b : Str) (ds : List (Str × Doc)) : Prop :=
  (ds = [] ∧ b = []) ∨ (ds ≠ [] ∧ ∃ b', b = ',' :: b' ∧ MembersText b' ds)

/-- Elements at the start of a list (`first`) or after an element. -/
def ListText (first : Bool) (b : Str) (ds : List Doc) : Prop :=
  if first then ElemsText b ds else TailText b ds

def ListTextM (first : Bool) (b : Str) (ds : List (Str × Doc)) : Prop :=
  if first then MembersText b ds else TailTextM b ds

theorem isWs_nil : IsWs [] := by simp [IsWs]

theorem elemsText_nil : ElemsText [] [] := ⟨[], by simp [IsElems, isWs_nil], by simp [DenotesL]⟩
theorem membersText_nil : MembersText [] [] := ⟨[], by simp [IsMembers, isWs_nil], by simp [DenotesM]⟩

theorem listText_nil (first : Bool) : ListText first [] [] := by
  cases first
  · exact Or.inl ⟨rfl, rfl⟩
  · exact elemsText_nil

theorem listTextM_nil (first : Bool) : ListTextM first [] [] := by
  cases first
  · exact Or.inl ⟨rfl, rfl⟩
  · exact membersText_nil

theorem denotesL_nil_left {ts : List JTree} (h : DenotesL ts []) : ts = [] := by
  cases ts with
  | nil => rfl
  | cons t ts => simp [DenotesL] at h

theorem denotesM_nil_left {ts : List (Str × JTree)} (h : DenotesM ts []) : ts = [] := by
  cases ts with
  | nil => rfl
  | cons t ts => obtain ⟨k, t⟩ := t; simp [DenotesM] at h

theorem elemsText_cons {v b : Str} {d : Doc} {ds : List Doc} (hv : TextDenotes v d)
    (hb : TailText b ds) : ElemsText (v ++ b) (d :: ds) := by
  obtain ⟨t, hv, hd⟩ := hv
  rcases hb with ⟨rfl, rfl⟩ | ⟨hne, b', rfl, ts, hts, hds⟩
  · refine ⟨[t], ?_, ?_⟩
    · simp only [IsElems]
      exact ⟨[], v, [], [], by simp, isWs_nil, isWs_nil, hv, by simp⟩
    · simp only [DenotesL]
      exact ⟨d, [], rfl, hd, rfl⟩
  · refine ⟨t :: ts, ?_, ?_⟩
    · simp only [IsElems]
      refine ⟨[], v, [], _, by simp, isWs_nil, isWs_nil, hv, Or.inr ⟨?_, b', rfl, hts⟩⟩
      rintro rfl
      simp [DenotesL] at hds
      exact hne hds
    · simp only [DenotesL]
      exact ⟨d, ds, rfl, hd, hds⟩

theorem listText_cons {first : Bool} {v b : Str} {d : Doc} {ds : List Doc} (hv : TextDenotes v d)
    (hb : TailText b ds) : ListText first ((if first then [] else [',']) ++ (v ++ b)) (d :: ds) := by
  have := elemsText_cons hv hb
  cases first
  · exact Or.inr ⟨by simp, _, rfl, this⟩
  · exact this

theorem membersText_cons {k v b : Str} {d : Doc} {ds : List (Str × Doc)} (hv : TextDenotes v d)
    (hb : TailTextM b ds) : MembersText (jsonStr k ++ ':' :: (v ++ b)) ((k, d) :: ds) := by
  obtain ⟨t, hv, hd⟩ := hv
  rcases hb with ⟨rfl, rfl⟩ | ⟨hne, b', rfl, ts, hts, hds⟩
  · refine ⟨[(escape k, t)], ?_, ?_⟩
    · simp only [IsMembers]
      exact ⟨[], [], [], v, [], [], by simp [jsonStr], isWs_nil, isWs_nil, isWs_nil, isWs_nil,
        escape_isStrBody k, hv, by simp⟩
    · simp only [DenotesM]
      exact ⟨k, d, [], rfl, escape_denotes k, hd, rfl⟩
  · refine ⟨(escape k, t) :: ts, ?_, ?_⟩
    · simp only [IsMembers]
      refine ⟨[], [], [], v, [], _, by simp [jsonStr], isWs_nil, isWs_nil, isWs_nil, isWs_nil,
        escape_isStrBody k, hv, Or.inr ⟨?_, b', rfl, hts⟩⟩
      rintro rfl
      simp [DenotesM] at hds
      exact hne hds
    · simp only [DenotesM]
      exact ⟨k, d, ds, rfl, escape_denotes k, hd, hds⟩

theorem listTextM_cons {first : Bool} {k v b : Str} {d : Doc} {ds : List (Str × Doc)}
    (hv : TextDenotes v d) (hb : TailTextM b ds) :
    ListTextM first ((if first then [] else [',']) ++ (jsonStr k ++ ':' :: (v ++ b))) ((k, d) :: ds) := by
  have := membersText_cons (k := k) hv hb
  cases first
  · exact Or.inr ⟨by simp, _, rfl, this⟩
  · exact this

theorem textDenotes_arr {b : Str} {ds : List Doc} (h : ElemsText b ds) :
    TextDenotes ('[' :: (b ++ [']'])) (.arr ds) := by
  obtain ⟨ts, h1, h2⟩ := h
  refine ⟨.arr ts, ?_, ?_⟩
  · simp only [IsVal]; exact ⟨b, rfl, h1⟩
  · simp only [Denotes]; exact ⟨ds, rfl, h2⟩

theorem textDenotes_obj {b : Str} {ds : List (Str × Doc)} (h : MembersText b ds) :
    TextDenotes ('{' :: (b ++ ['}'])) (.obj ds) := by
  obtain ⟨ts, h1, h2⟩ := h
  refine ⟨.obj ts, ?_, ?_⟩
  · simp only [IsVal]; exact ⟨b, rfl, h1⟩
  · simp only [Denotes]; exact ⟨ds, rfl, h2⟩

theorem textDenotes_obj1 {k v : Str} {d : Doc} (h : TextDenotes v d) :
    TextDenotes ('{' :: (jsonStr k ++ ':' :: (v ++ ['}']))) (.obj [(k, d)]) := by
  have := textDenotes_obj (membersText_cons (k := k) h (Or.inl ⟨rfl, rfl⟩))
  simpa using this

theorem textDenotes_str (s : Str) : TextDenotes (jsonStr s) (.str s) := by
  refine ⟨.str (escape s), ?_, ?_⟩
  · simp only [IsVal]; exact ⟨rfl, escape_isStrBody s⟩
  · simp only [Denotes]; exact ⟨s, rfl, escape_denotes s⟩

theorem textDenotes_num {l : Str} (h : IsNum l) : TextDenotes l (.num l) :=
  ⟨.num l, by simp [IsVal, h], by simp only [Denotes]⟩

theorem textDenotes_null : TextDenotes ['n', 'u', 'l', 'l'] .null :=
  ⟨.null, by simp only [IsVal], by simp only [Denotes]⟩

theorem textDenotes_bool (b : Bool) : TextDenotes (boolText b) (.bool b) :=
  ⟨.bool b, by cases b <;> simp [IsVal, boolText], by simp only [Denotes]⟩

theorem tailText_bytes : ∀ (b : Bytes), ElemsText (bytesElems b) (byteNums b)
  | [] => elemsText_nil
  | [x] => by
    have := elemsText_cons (b := []) (ds := []) (textDenotes_num (decimal_isNum x.toNat)) (Or.inl ⟨rfl, rfl⟩)
    simpa [bytesElems, byteNums, natDec_decimal] using this
  | x :: y :: bs => by
    have ih := tailText_bytes (y :: bs)
    have := elemsText_cons (textDenotes_num (decimal_isNum x.toNat))
      (Or.inr ⟨by simp [byteNums], _, rfl, ih⟩)
    simpa [bytesElems, byteNums, natDec_decimal] using this

/-! ### The plain serializer -/

/-- The call succeeds and its text satisfies `P`. -/
def EmitsW (w : W) (P : Str → Prop) : Prop := ∃ s, w = (s, true) ∧ P s

theorem EmitsW.lit (s : Str) : EmitsW (W.lit s) (· = s) := ⟨s, rfl, rfl⟩

theorem EmitsW.app {a b : W} {P Q : Str → Prop} (ha : EmitsW a P) (hb : EmitsW b Q) :
    EmitsW (W.app a b) (fun s => ∃ s1 s2, s = s1 ++ s2 ∧ P s1 ∧ Q s2) := by
  obtain ⟨s1, rfl, h1⟩ := ha
  obtain ⟨s2, rfl, h2⟩ := hb
  exact ⟨s1 ++ s2, rfl, s1, s2, rfl, h1, h2⟩

theorem EmitsW.mono {w : W} {P Q : Str → Prop} (h : EmitsW w P) (hpq : ∀ s, P s → Q s) : EmitsW w Q := by
  obtain ⟨s, hs, hp⟩ := h
  exact ⟨s, hs, hpq s hp⟩

/-- The call fails. -/
def FailsW (w : W) : Prop := w.2 = false

theorem FailsW.left {a : W} (b : W) (h : FailsW a) : FailsW (W.app a b) := by
  unfold FailsW at h
  simp [W.app, h, FailsW]

theorem EmitsW.fails {a b : W} {P : Str → Prop} (ha : EmitsW a P) (h : FailsW b) : FailsW (W.app a b) := by
  obtain ⟨s1, rfl, h1⟩ := ha
  unfold FailsW at h
  simp [W.app, h, FailsW]

/-- Success with `P` of the payload, or failure. -/
def OutW {α : Type} (w : W) (r : Option α) (P : α → Str → Prop) : Prop :=
  match r with
  | some a => EmitsW w (P a)
  | none => FailsW w

theorem serKey_spec : ∀ k : SVal, OutW (serKey k) (keyOf k) (fun k s => s = jsonStr k)
  | .bool b => by cases b <;> exact ⟨_, rfl, rfl⟩
  | .u8 n => ⟨_, rfl, by simp [natDec_decimal]⟩
  | .int i => ⟨_, rfl, by simp [intDec_intText]⟩
  | .float none => rfl
  | .float (some l) => ⟨_, rfl, rfl⟩
  | .char c => ⟨_, rfl, rfl⟩
  | .str s => ⟨_, rfl, rfl⟩
  | .unitVariant n => ⟨_, rfl, rfl⟩
  | .newtype v => by simpa [serKey, keyOf] using serKey_spec v
  | .some v => by simpa [serKey, keyOf] using serKey_spec v
  | .bytes _ | .none | .unit | .newtypeVariant _ _ | .seq _ | .tuple _ | .tupleVariant _ _
  | .map _ | .struct _ | .structVariant _ _ | .fail => rfl

theorem docsWith_u8 (leak : Bool) : ∀ (vs : List SVal) (b : Bytes), allU8 vs = some b →
    docsWith leak vs = some (byteNums b)
  | [], b, h => by simp [allU8] at h; subst h; simp [docsWith, byteNums]
  | v :: vs, b, h => by
    unfold allU8 at h
    split at h
    · rename_i x bs hx hbs
      simp at h
      subst h
      cases v <;> simp [asByte] at hx
      subst hx
      simp [docsWith, docWith, docsWith_u8 leak vs bs hbs, byteNums]
    · simp at h

theorem plains_byteNums (b : Bytes) : plains (byteNums b) = byteNums b := by
  induction b with
  | nil => simp [byteNums, plains]
  | cons x b ih =>
    simp only [byteNums, List.map_cons, plains, Doc.plain] at ih ⊢
    rw [ih]

mutual
theorem serJ_spec : ∀ v : SVal, v.FloatsOk → OutW (serJ v) (docOf v) (fun d s => TextDenotes s d.plain)
  | .bool b, _ => ⟨_, rfl, textDenotes_bool b⟩
  | .u8 n, _ => ⟨_, rfl, by rw [natDec_decimal]; exact textDenotes_num (decimal_isNum _)⟩
  | .int i, _ => ⟨_, rfl, by rw [intDec_intText]; exact textDenotes_num (intText_isNum _)⟩
  | .float none, _ => ⟨_, rfl, textDenotes_null⟩
  | .float (some l), h => ⟨_, rfl, textDenotes_num (by simpa [SVal.FloatsOk] using h)⟩
  | .char c, _ => ⟨_, rfl, textDenotes_str [c]⟩
  | .str s, _ => ⟨_, rfl, textDenotes_str s⟩
  | .bytes b, _ => ⟨_, rfl, by simp only [Doc.plain]; exact textDenotes_arr (tailText_bytes b)⟩
  | .none, _ => ⟨_, rfl, textDenotes_null⟩
  | .some v, h => by
    simpa [serJ, docOf, docWith] using serJ_spec v (by simpa [SVal.FloatsOk] using h)
  | .unit, _ => ⟨_, rfl, textDenotes_null⟩
  | .unitVariant n, _ => ⟨_, rfl, textDenotes_str n⟩
  | .newtype v, h => by
    simpa [serJ, docOf, docWith] using serJ_spec v (by simpa [SVal.FloatsOk] using h)
  | .newtypeVariant n v, h => by
    have ih := serJ_spec v (by simpa [SVal.FloatsOk] using h)
    simp only [docOf, docWith] at ih ⊢
    rw [serJ]
    cases hd : docWith false v with
    | none => rw [hd] at ih; exact (EmitsW.lit _).fails (FailsW.left _ ih)
    | some d =>
      rw [hd] at ih
      refine ((EmitsW.lit _).app (ih.app (EmitsW.lit _))).mono ?_
      rintro _ ⟨_, _, rfl, rfl, v', _, rfl, hv, rfl⟩
      have := textDenotes_obj1 (k := n) hv
      simpa [Doc.plain, plainMs] using this
  | .seq [], _ => ⟨['[', ']'], rfl, by
      simpa [Doc.plain, plains, docOf, docWith] using textDenotes_arr elemsText_nil⟩
  | .seq (v :: vs), h => by
    have ih := serElems_spec (v :: vs) (by simpa [SVal.FloatsOk] using h) true
    have key : OutW (serJ (.seq (v :: vs))) (docsWith false (v :: vs))
        (fun ds s => TextDenotes s (.arr (plains ds))) := by
      rw [serJ]
      cases hd : docsWith false (v :: vs) with
      | none => rw [hd] at ih; exact (EmitsW.lit _).fails (FailsW.left _ ih)
      | some ds =>
        rw [hd] at ih
        refine ((EmitsW.lit _).app (ih.app (EmitsW.lit _))).mono ?_
        rintro _ ⟨_, _, rfl, rfl, v', _, rfl, hv, rfl⟩
        exact textDenotes_arr hv
    unfold docOf docWith
    split
    · rename_i b hb
      rw [docsWith_u8 false _ _ hb] at key
      simpa [OutW, Doc.plain, plains_byteNums] using key
    · rw [if_neg (by simp)]
      cases hd : docsWith false (v :: vs) with
      | none => rw [hd] at key; exact key
      | some ds => rw [hd] at key; simpa [OutW, Doc.plain] using key
  | .tuple vs, h => by
    have ih := serElems_spec vs (by simpa [SVal.FloatsOk] using h) true
    simp only [docOf, docWith]
    rw [serJ]
    cases hd : docsWith false vs with
    | none => rw [hd] at ih; exact (EmitsW.lit _).fails (FailsW.left _ ih)
    | some ds =>
      rw [hd] at ih
      refine ((EmitsW.lit _).app (ih.app (EmitsW.lit _))).mono ?_
      rintro _ ⟨_, _, rfl, rfl, v', _, rfl, hv, rfl⟩
      simp only [Doc.plain]
      exact textDenotes_arr hv
  | .tupleVariant n vs, h => by
    have ih := serElems_spec vs (by simpa [SVal.FloatsOk] using h) true
    simp only [docOf, docWith]
    rw [serJ]
    cases hd : docsWith false vs with
    | none => rw [hd] at ih; exact (EmitsW.lit _).fails (FailsW.left _ ih)
    | some ds =>
      rw [hd] at ih
      refine ((EmitsW.lit _).app (ih.app (EmitsW.lit _))).mono ?_
      rintro _ ⟨_, _, rfl, rfl, v', _, rfl, hv, rfl⟩
      have := textDenotes_obj1 (k := n) (textDenotes_arr hv)
      simpa [Doc.plain, plainMs] using this
  | .map kvs, h => by
    have ih := serEntries_spec kvs (by simpa [SVal.FloatsOk] using h) true
    simp only [docOf, docWith]
    rw [serJ]
    cases hd : entriesWith false kvs with
    | none => rw [hd] at ih; exact (EmitsW.lit _).fails (FailsW.left _ ih)
    | some ds =>
      rw [hd] at ih
      refine ((EmitsW.lit _).app (ih.app (EmitsW.lit _))).mono ?_
      rintro _ ⟨_, _, rfl, rfl, v', _, rfl, hv, rfl⟩
      simp only [Doc.plain]
      exact textDenotes_obj hv
  | .struct fs, h => by
    have ih := serFields_spec fs (by simpa [SVal.FloatsOk] using h) true
    simp only [docOf, docWith]
    rw [serJ]
    cases hd : fieldsWith false fs with
    | none => rw [hd] at ih; exact (EmitsW.lit _).fails (FailsW.left _ ih)
    | some ds =>
      rw [hd] at ih
      refine ((EmitsW.lit _).app (ih.app (EmitsW.lit _))).mono ?_
      rintro _ ⟨_, _, rfl, rfl, v', _, rfl, hv, rfl⟩
      simp only [Doc.plain]
      exact textDenotes_obj hv
  | .structVariant n fs, h => by
    have ih := serFields_spec fs (by simpa [SVal.FloatsOk] using h) true
    simp only [docOf, docWith]
    rw [serJ]
    cases hd : fieldsWith false fs with
    | none => rw [hd] at ih; exact (EmitsW.lit _).fails (FailsW.left _ ih)
    | some ds =>
      rw [hd] at ih
      refine ((EmitsW.lit _).app (ih.app (EmitsW.lit _))).mono ?_
      rintro _ ⟨_, _, rfl, rfl, v', _, rfl, hv, rfl⟩
      have := textDenotes_obj1 (k := n) (textDenotes_obj hv)
      simpa [Doc.plain, plainMs] using this
  | .fail, _ => rfl
theorem serElems_spec : ∀ vs : List SVal, FloatsOkL vs → ∀ first,
    OutW (serElems first vs) (docsWith false vs) (fun ds s => ListText first s (plains ds))
  | [], _, first => ⟨_, rfl, by simpa [plains] using listText_nil first⟩
  | v :: vs, h, first => by
    obtain ⟨hv, hvs⟩ : v.FloatsOk ∧ FloatsOkL vs := by simpa [FloatsOkL] using h
    have ih1 := serJ_spec v hv
    have ih2 := serElems_spec vs hvs false
    rw [docsWith, serElems]
    simp only [docOf] at ih1
    cases hd : docWith false v with
    | none => rw [hd] at ih1; exact (EmitsW.lit _).fails (FailsW.left _ ih1)
    | some d =>
      rw [hd] at ih1
      cases hds : docsWith false vs with
      | none => rw [hds] at ih2; exact (EmitsW.lit _).fails (EmitsW.fails ih1 ih2)
      | some ds =>
        rw [hds] at ih2
        refine ((EmitsW.lit _).app (ih1.app ih2)).mono ?_
        rintro _ ⟨_, _, rfl, rfl, v', b', rfl, hv, hb⟩
        exact listText_cons hv hb
theorem serEntries_spec : ∀ kvs : List (SVal × SVal), FloatsOkM kvs → ∀ first,
    OutW (serEntries first kvs) (entriesWith false kvs) (fun ds s => ListTextM first s (plainMs ds))
  | [], _, first => ⟨_, rfl, by simpa [plainMs] using listTextM_nil first⟩
  | (k, v) :: kvs, h, first => by
    obtain ⟨hv, hvs⟩ : v.FloatsOk ∧ FloatsOkM kvs := by simpa [FloatsOkM] using h
    have ih0 := serKey_spec k
    have ih1 := serJ_spec v hv
    have ih2 := serEntries_spec kvs hvs false
    rw [entriesWith, serEntries]
    simp only [docOf] at ih1
    cases hk : keyOf k with
    | none => rw [hk] at ih0; exact (EmitsW.lit _).fails (FailsW.left _ ih0)
    | some k' =>
      rw [hk] at ih0
      cases hd : docWith false v with
      | none =>
        rw [hd] at ih1
        exact (EmitsW.lit _).fails (EmitsW.fails ih0 ((EmitsW.lit _).fails (FailsW.left _ ih1)))
      | some d =>
        rw [hd] at ih1
        cases hds : entriesWith false kvs with
        | none =>
          rw [hds] at ih2
          exact (EmitsW.lit _).fails (EmitsW.fails ih0 ((EmitsW.lit _).fails (EmitsW.fails ih1 ih2)))
        | some ds =>
          rw [hds] at ih2
          refine ((EmitsW.lit _).app (ih0.app ((EmitsW.lit _).app (ih1.app ih2)))).mono ?_
          rintro _ ⟨_, _, rfl, rfl, _, _, rfl, rfl, _, _, rfl, rfl, v', b', rfl, hv, hb⟩
          have := listTextM_cons (first := first) (k := k') hv hb
          simpa [plainMs] using this
theorem serFields_spec : ∀ kvs : List (Str × SVal), FloatsOkF kvs → ∀ first,
    OutW (serFields first kvs) (fieldsWith false kvs) (fun ds s => ListTextM first s (plainMs ds))
  | [], _, first => ⟨_, rfl, by simpa [plainMs] using listTextM_nil first⟩
  | (k, v) :: kvs, h, first => by
    obtain ⟨hv, hvs⟩ : v.FloatsOk ∧ FloatsOkF kvs := by simpa [FloatsOkF] using h
    have ih1 := serJ_spec v hv
    have ih2 := serFields_spec kvs hvs false
    rw [fieldsWith, serFields]
    simp only [docOf] at ih1
    cases hd : docWith false v with
    | none =>
      rw [hd] at ih1
      exact (EmitsW.lit _).fails ((EmitsW.lit _).fails (FailsW.left _ ih1))
    | some d =>
      rw [hd] at ih1
      cases hds : fieldsWith false kvs with
      | none =>
        rw [hds] at ih2
        exact (EmitsW.lit _).fails ((EmitsW.lit _).fails (EmitsW.fails ih1 ih2))
      | some ds =>
        rw [hds] at ih2
        refine ((EmitsW.lit _).app ((EmitsW.lit _).app (ih1.app ih2))).mono ?_
        rintro _ ⟨_, _, rfl, rfl, _, _, rfl, rfl, v', b', rfl, hv, hb⟩
        have := listTextM_cons (first := first) (k := k) hv hb
        simpa [plainMs] using this
end

/-! ### The serializer with attachments -/

/-- An attachment message. -/
def attMsg (b : Bytes) : Ws := .binary (4 :: b)

/-- The call succeeds, appends the given attachments and its text satisfies `P` (which
may depend on the number of attachments before the call). -/
def EmitsB (m : BM) (bl : List Bytes) (P : Nat → Str → Prop) : Prop :=
  ∀ ms, ∃ s, m ⟨ms, false⟩ = ⟨s, ⟨ms ++ bl.map attMsg, false⟩, .ok⟩ ∧ P ms.length s

/-- The call fails (and does not panic), having appended some attachments. -/
def FailsB (m : BM) : Prop := ∀ ms, ∃ (s : Str) (bl : List Bytes), m ⟨ms, false⟩ = ⟨s, ⟨ms ++ bl.map attMsg, false⟩, .err⟩

theorem EmitsB.lift {w : W} {P : Str → Prop} (h : EmitsW w P) : EmitsB (BM.lift w) [] (fun _ => P) := by
  obtain ⟨s, rfl, hp⟩ := h
  intro ms
  exact ⟨s, by simp [BM.lift], hp⟩

theorem FailsB.lift {w : W} (h : FailsW w) : FailsB (BM.lift w) := by
  intro ms
  exact ⟨w.1, [], by simp [BM.lift, show w.2 = false from h]⟩

theorem EmitsB.lit (s : Str) : EmitsB (BM.lit s) [] (fun _ x => x = s) := .lift (.lit s)

theorem EmitsB.app {a b : BM} {l l' : List Bytes} {P Q : Nat → Str → Prop} (ha : EmitsB a l P)
    (hb : EmitsB b l' Q) :
    EmitsB (BM.app a b) (l ++ l')
      (fun n s => ∃ s1 s2, s = s1 ++ s2 ∧ P n s1 ∧ Q (n + l.length) s2) := by
  intro ms
  obtain ⟨s1, h1, hp⟩ := ha ms
  obtain ⟨s2, h2, hq⟩ := hb (ms ++ l.map attMsg)
  refine ⟨s1 ++ s2, ?_, s1, s2, rfl, hp, by simpa using hq⟩
  simp [BM.app, h1, h2]

theorem EmitsB.mono {m : BM} {l : List Bytes} {P Q : Nat → Str → Prop} (h : EmitsB m l P)
    (hpq : ∀ n s, P n s → Q n s) : EmitsB m l Q := by
  intro ms
  obtain ⟨s, hs, hp⟩ := h ms
  exact ⟨s, hs, hpq _ s hp⟩

theorem FailsB.left {a : BM} (b : BM) (h : FailsB a) : FailsB (BM.app a b) := by
  intro ms
  obtain ⟨s, l, h⟩ := h ms
  exact ⟨s, l, by simp [BM.app, h]⟩

theorem EmitsB.fails {a b : BM} {l : List Bytes} {P : Nat → Str → Prop} (ha : EmitsB a l P)
    (h : FailsB b) : FailsB (BM.app a b) := by
  intro ms
  obtain ⟨s1, h1, _⟩ := ha ms
  obtain ⟨s2, l2, h2⟩ := h (ms ++ l.map attMsg)
  exact ⟨s1 ++ s2, l ++ l2, by simp [BM.app, h1, h2]⟩

/-- Success with the payload's blobs and `P` of the payload, or failure. -/
def OutB {α : Type} (m : BM) (r : Option α) (bl : α → List Bytes) (P : α → Nat → Str → Prop) : Prop :=
  match r with
  | some a => EmitsB m (bl a) (P a)
  | none => FailsB m

theorem OutB_some {α : Type} (m : BM) (a : α) (bl : α → List Bytes) (P : α → Nat → Str → Prop) :
    OutB m (some a) bl P = EmitsB m (bl a) (P a) := rfl

theorem serJ_placeholder (n : Nat) : EmitsW (serJ (placeholder n)) (TextDenotes · (placeholderDoc n)) := by
  have h := serJ_spec (placeholder n) (by simp [placeholder, SVal.FloatsOk, FloatsOkF])
  simp only [placeholder, docOf, docWith, fieldsWith, OutW, Option.map, Doc.plain, plainMs] at h
  have hn : ¬ ((n : Int) < 0) := by omega
  simpa [placeholderDoc, placeholder, intText, hn] using h

theorem push_spec {mk : Res Empty Ws} {b : Bytes} (h : mk = .ok (attMsg b)) :
    EmitsB (pushPlaceholder mk serJ) [b] (fun n s => TextDenotes s (placeholderDoc n)) := by
  intro ms
  obtain ⟨s, hs, hp⟩ := serJ_placeholder ms.length
  exact ⟨s, by simp [pushPlaceholder, h, hs], hp⟩

theorem push_key {mk : Res Empty Ws} {b : Bytes} (h : mk = .ok (attMsg b)) :
    FailsB (pushPlaceholder mk serKey) := by
  intro ms
  exact ⟨[], [b], by simp [pushPlaceholder, h, placeholder, serKey]⟩

theorem encodeBinary_ok (b : Bytes) : encodeBinary b = .ok (attMsg b) := by
  simp [encodeBinary, packageBinary, attMsg]

theorem packageBinary_ok (b : Bytes) : packageBinary (4 :: b) = .ok (attMsg b) := by
  simp [packageBinary, attMsg]

theorem pushByte_four (d : Bytes) (b : UInt8) : pushByte (4 :: d) b = 4 :: (d ++ [b]) := by
  simp [pushByte]

theorem pushByte_nil (b : UInt8) : pushByte [] b = [4, b] := rfl

/-- Collected data: nothing yet, or the header and bytes. -/
def Framed (d : Bytes) : Prop := d = [] ∨ ∃ b, d = 4 :: b

theorem framed_pushByte {d : Bytes} (h : Framed d) (b : UInt8) : Framed (pushByte d b) := by
  rcases h with rfl | ⟨x, rfl⟩
  · exact Or.inr ⟨_, rfl⟩
  · exact Or.inr ⟨_, pushByte_four _ _⟩

theorem serKeySeqB_fails : ∀ (vs : List SVal) (d : Bytes), Framed d → FailsB (serKeySeqB d vs)
  | [], d, h => by
    rw [serKeySeqB]
    rcases h with rfl | ⟨x, rfl⟩
    · exact FailsB.lift rfl
    · rw [if_neg (by simp)]
      exact push_key (packageBinary_ok x)
  | v :: vs, d, h => by
    rw [serKeySeqB]
    split
    · exact serKeySeqB_fails vs _ (framed_pushByte h _)
    · exact FailsB.lift rfl

theorem serKeyB_spec : ∀ k : SVal, OutB (serKeyB k) (keyOf k) (fun _ => []) (fun k _ s => s = jsonStr k)
  | .bytes b => push_key (encodeBinary_ok b)
  | .seq vs => serKeySeqB_fails vs [] (Or.inl rfl)
  | .newtype v => by simpa [serKeyB, keyOf] using serKeyB_spec v
  | .some v => by simpa [serKeyB, keyOf] using serKeyB_spec v
  | .float none => FailsB.lift rfl
  | .float (some l) => EmitsB.lift (serKey_spec (.float (some l)))
  | .bool b => EmitsB.lift (serKey_spec (.bool b))
  | .u8 b => EmitsB.lift (serKey_spec (.u8 b))
  | .int b => EmitsB.lift (serKey_spec (.int b))
  | .char b => EmitsB.lift (serKey_spec (.char b))
  | .str b => EmitsB.lift (serKey_spec (.str b))
  | .unitVariant b => EmitsB.lift (serKey_spec (.unitVariant b))
  | .none | .unit | .newtypeVariant _ _ | .tuple _ | .tupleVariant _ _
  | .map _ | .struct _ | .structVariant _ _ | .fail => FailsB.lift rfl

theorem asU8_eq (v : SVal) : asU8 v = asByte v := by cases v <;> rfl

theorem asByte_some {v : SVal} {b : UInt8} (h : asByte v = some b) : v = .u8 b := by
  cases v <;> simp [asByte] at h
  rw [h]

/-! Equations of `BM`. -/

theorem BM.app_assoc (a b c : BM) : BM.app (BM.app a b) c = BM.app a (BM.app b c) := by
  funext x
  unfold BM.app
  cases ha : (a x).fin
  · cases hb : (b (a x).cell).fin <;> simp [hb]
  · simp [ha]
  · simp [ha]

theorem BM.lit_app (s t : Str) : BM.app (BM.lit s) (BM.lit t) = BM.lit (s ++ t) := by
  funext x
  simp [BM.app, BM.lit, BM.lift, W.lit]

theorem BM.lit_app_app (s t : Str) (c : BM) :
    BM.app (BM.lit s) (BM.app (BM.lit t) c) = BM.app (BM.lit (s ++ t)) c := by
  rw [← BM.app_assoc, BM.lit_app]

theorem BM.nil_app (c : BM) : BM.app (BM.lit []) c = c := by
  funext x
  simp [BM.app, BM.lit, BM.lift, W.lit]

theorem serElemsB_bytes (v : SVal) (vs : List SVal) (X : BM) :
    ∀ (d : Bytes), d ≠ [] →
      BM.app (BM.lit ('[' :: bytesElems d))
        (BM.app (BM.lit [',']) (BM.app (serB v) (BM.app (serElemsB false vs) X))) =
      BM.app (BM.lit ['[']) (BM.app (serElemsB true (d.map .u8 ++ v :: vs)) X)
  | [], h => absurd rfl h
  | b :: d, _ => by
    have key : ∀ (d : Bytes) (b : UInt8),
        BM.app (serElemsB true ((b :: d).map .u8 ++ v :: vs)) X =
        BM.app (BM.lit (bytesElems (b :: d)))
          (BM.app (BM.lit [',']) (BM.app (serB v) (BM.app (serElemsB false vs) X))) := by
      intro d
      induction d with
      | nil =>
        intro b
        simp only [List.map_cons, List.map_nil, List.cons_append, List.nil_append, serElemsB,
          bytesElems, BM.app_assoc, BM.nil_app, if_true, serB, serJ, ← BM.lit.eq_def]
        rfl
      | cons x d ih =>
        intro b
        have := ih x
        simp only [List.map_cons, List.cons_append, serElemsB, BM.app_assoc, BM.nil_app,
          if_true] at this ⊢
        rw [this]
        simp only [serB, serJ, ← BM.lit.eq_def, BM.lit_app_app, bytesElems]
        simp
    rw [key d b, BM.lit_app_app (s := ['['])]
    rfl

theorem allU8_cons_none {v : SVal} {vs : List SVal} {b : UInt8} (hv : asByte v = some b)
    (h : allU8 (v :: vs) = none) : allU8 vs = none := by
  unfold allU8 at h
  rw [hv] at h
  cases h' : allU8 vs with
  | none => rfl
  | some x => rw [h'] at h; simp at h

theorem allU8_cons_some {v : SVal} {vs : List SVal} {b : Bytes} (h : allU8 (v :: vs) = some b) :
    ∃ x bs, v = .u8 x ∧ allU8 vs = some bs ∧ b = x :: bs := by
  unfold allU8 at h
  split at h
  · rename_i x bs hx hbs
    simp at h
    exact ⟨x, bs, asByte_some hx, hbs, h.symm⟩
  · simp at h

/-- Collected data followed by a list that is not all `u8`. -/
theorem serSeqB_poison : ∀ (vs : List SVal) (d : Bytes), d ≠ [] → allU8 vs = none →
    serSeqB d vs = serB (.tuple (d.map .u8 ++ vs))
  | [], d, hd, h => by simp [allU8] at h
  | v :: vs, d, hd, h => by
    rw [serSeqB, asU8_eq]
    cases hv : asByte v with
    | some b =>
      have ih := serSeqB_poison vs (pushByte d b) (by simp [pushByte]) (allU8_cons_none hv h)
      simp only
      rw [ih]
      simp [pushByte, hd, asByte_some hv]
    | none =>
      simp only [if_neg hd]
      rw [serElemsB_bytes v vs _ d hd, serB]

/-- Collected data followed by bytes only. -/
theorem serSeqB_bytes : ∀ (vs : List SVal) (d b : Bytes), allU8 vs = some b →
    serSeqB (4 :: d) vs = endBytes (4 :: (d ++ b))
  | [], d, b, h => by
    simp [allU8] at h
    subst h
    simp [serSeqB]
  | v :: vs, d, b, h => by
    obtain ⟨x, bs, rfl, hbs, rfl⟩ := allU8_cons_some h
    rw [serSeqB]
    simp only [asU8]
    rw [pushByte_four, serSeqB_bytes vs _ bs hbs]
    simp

mutual
/-- The attachment-extracting serializer sends the numbered document and its blobs. -/
theorem serB_spec : ∀ v : SVal, v.FloatsOk →
    OutB (serB v) (docWith true v) Doc.blobs (fun d n s => TextDenotes s (d.numbered n))
  | .bool b, _ => EmitsB.lift (serJ_spec (.bool b) trivial)
  | .u8 b, _ => EmitsB.lift (serJ_spec (.u8 b) trivial)
  | .int b, _ => EmitsB.lift (serJ_spec (.int b) trivial)
  | .float none, _ => EmitsB.lift (serJ_spec (.float none) trivial)
  | .float (some l), h => EmitsB.lift (serJ_spec (.float (some l)) h)
  | .char c, _ => EmitsB.lift (serJ_spec (.char c) trivial)
  | .str s, _ => EmitsB.lift (serJ_spec (.str s) trivial)
  | .bytes b, _ => by
    simp only [serB, docWith, OutB, Doc.blobs, Doc.numbered]
    exact push_spec (encodeBinary_ok b)
  | .none, _ => EmitsB.lift (serJ_spec .none trivial)
  | .some v, h => by
    simpa [serB, docWith] using serB_spec v (by simpa [SVal.FloatsOk] using h)
  | .unit, _ => EmitsB.lift (serJ_spec .unit trivial)
  | .unitVariant n, _ => EmitsB.lift (serJ_spec (.unitVariant n) trivial)
  | .newtype v, h => by
    simpa [serB, docWith] using serB_spec v (by simpa [SVal.FloatsOk] using h)
  | .newtypeVariant n v, h => by
    have ih := serB_spec v (by simpa [SVal.FloatsOk] using h)
    simp only [docWith]
    rw [serB]
    cases hd : docWith true v with
    | none => rw [hd] at ih; exact (EmitsB.lit _).fails (FailsB.left _ ih)
    | some d =>
      rw [hd, OutB_some] at ih
      have := (EmitsB.lit ('{' :: (jsonStr n ++ [':']))).app (EmitsB.app ih (EmitsB.lit ['}']))
      simp only [List.nil_append, List.append_nil] at this
      simp only [Option.map, OutB, Doc.blobs, blobsM, List.append_nil, Doc.numbered, numberedM]
      refine this.mono ?_
      rintro _ _ ⟨_, _, rfl, rfl, v', _, rfl, hv, rfl⟩
      simpa using textDenotes_obj1 (k := n) hv
  | .seq [], _ => by
    simp only [docWith, OutB, serB, serSeqB, endBytes, Doc.blobs, blobsL, Doc.numbered, numberedL]
    refine (EmitsB.lit _).mono ?_
    rintro _ _ rfl
    exact textDenotes_arr elemsText_nil
  | .seq (v :: vs), h => by
    have hf : FloatsOkL (v :: vs) := by simpa [SVal.FloatsOk] using h
    have ih := serElemsB_spec (v :: vs) hf
    unfold docWith
    split
    · rename_i b hb
      obtain ⟨x, bs, rfl, hbs, rfl⟩ := allU8_cons_some hb
      simp only [OutB, serB, serSeqB, asU8, pushByte_nil, Doc.blobs, Doc.numbered]
      rw [serSeqB_bytes vs [x] bs hbs, endBytes, if_neg (by simp)]
      exact push_spec (packageBinary_ok _)
    · rename_i hb
      split
      · rename_i hl
        obtain ⟨x, hx⟩ := Option.isSome_iff_exists.1 hl.2
        have hxv := asByte_some hx
        subst hxv
        have e : serB (.seq (.u8 x :: vs)) = serB (.tuple (.u8 4 :: .u8 x :: vs)) := by
          have hp := serSeqB_poison vs [4, x] (by simp) (allU8_cons_none hx hb)
          simp only [serB, serSeqB, asU8, pushByte_nil]
          rw [hp]
          simp only [List.map_cons, List.map_nil, List.cons_append, List.nil_append, serB]
        rw [e]
        have e2 : serB (.tuple (.u8 4 :: .u8 x :: vs)) =
            BM.app (BM.lit ('[' :: natDec 4)) (BM.app (serElemsB false (.u8 x :: vs)) (BM.lit [']'])) := by
          rw [serB, serElemsB]
          simp only [if_true, BM.nil_app, BM.app_assoc, serB, serJ, ← BM.lit.eq_def, BM.lit_app_app]
          rfl
        rw [e2]
        have ih := ih false
        cases hd : docsWith true (.u8 x :: vs) with
        | none => rw [hd] at ih; exact (EmitsB.lit _).fails (FailsB.left _ ih)
        | some ds =>
          rw [hd, OutB_some] at ih
          have := (EmitsB.lit ('[' :: natDec 4)).app (EmitsB.app ih (EmitsB.lit [']']))
          simp only [List.nil_append, List.append_nil] at this
          simp only [Option.map, OutB, Doc.blobs, blobsL, List.nil_append, Doc.numbered, numberedL]
          refine this.mono ?_
          rintro _ _ ⟨_, _, rfl, rfl, v', _, rfl, hv, rfl⟩
          have := textDenotes_arr (elemsText_cons (textDenotes_num (decimal_isNum 4)) hv)
          simpa [natDec_decimal] using this
      · rename_i hl
        have hx : asByte v = none := by
          cases hx : asByte v with
          | none => rfl
          | some x => simp [hx] at hl
        have e : serB (.seq (v :: vs)) = serB (.tuple (v :: vs)) := by
          simp only [serB, serSeqB, asU8_eq, hx, bytesElems, if_true, BM.nil_app, serElemsB, BM.app_assoc]
        rw [e, serB]
        have ih := ih true
        cases hd : docsWith true (v :: vs) with
        | none => rw [hd] at ih; exact (EmitsB.lit _).fails (FailsB.left _ ih)
        | some ds =>
          rw [hd, OutB_some] at ih
          have := (EmitsB.lit ['[']).app (EmitsB.app ih (EmitsB.lit [']']))
          simp only [List.nil_append, List.append_nil] at this
          simp only [Option.map, OutB, Doc.blobs, Doc.numbered]
          refine this.mono ?_
          rintro _ _ ⟨_, _, rfl, rfl, v', _, rfl, hv, rfl⟩
          exact textDenotes_arr hv
  | .tuple vs, h => by
    have ih := serElemsB_spec vs (by simpa [SVal.FloatsOk] using h) true
    simp only [docWith]
    rw [serB]
    cases hd : docsWith true vs with
    | none => rw [hd] at ih; exact (EmitsB.lit _).fails (FailsB.left _ ih)
    | some ds =>
      rw [hd, OutB_some] at ih
      have := (EmitsB.lit ['[']).app (EmitsB.app ih (EmitsB.lit [']']))
      simp only [List.nil_append, List.append_nil] at this
      simp only [Option.map, OutB, Doc.blobs, Doc.numbered]
      refine this.mono ?_
      rintro _ _ ⟨_, _, rfl, rfl, v', _, rfl, hv, rfl⟩
      exact textDenotes_arr hv
  | .tupleVariant n vs, h => by
    have ih := serElemsB_spec vs (by simpa [SVal.FloatsOk] using h) true
    simp only [docWith]
    rw [serB]
    cases hd : docsWith true vs with
    | none => rw [hd] at ih; exact (EmitsB.lit _).fails (FailsB.left _ ih)
    | some ds =>
      rw [hd, OutB_some] at ih
      have := (EmitsB.lit ('{' :: (jsonStr n ++ [':', '[']))).app (EmitsB.app ih (EmitsB.lit [']', '}']))
      simp only [List.nil_append, List.append_nil] at this
      simp only [Option.map, OutB, Doc.blobs, blobsM, List.append_nil, Doc.numbered, numberedM]
      refine this.mono ?_
      rintro _ _ ⟨_, _, rfl, rfl, v', _, rfl, hv, rfl⟩
      simpa using textDenotes_obj1 (k := n) (textDenotes_arr hv)
  | .map kvs, h => by
    have ih := serEntriesB_spec kvs (by simpa [SVal.FloatsOk] using h) true
    simp only [docWith]
    rw [serB]
    cases hd : entriesWith true kvs with
    | none => rw [hd] at ih; exact (EmitsB.lit _).fails (FailsB.left _ ih)
    | some ds =>
      rw [hd, OutB_some] at ih
      have := (EmitsB.lit ['{']).app (EmitsB.app ih (EmitsB.lit ['}']))
      simp only [List.nil_append, List.append_nil] at this
      simp only [Option.map, OutB, Doc.blobs, Doc.numbered]
      refine this.mono ?_
      rintro _ _ ⟨_, _, rfl, rfl, v', _, rfl, hv, rfl⟩
      exact textDenotes_obj hv
  | .struct fs, h => by
    have ih := serFieldsB_spec fs (by simpa [SVal.FloatsOk] using h) true
    simp only [docWith]
    rw [serB]
    cases hd : fieldsWith true fs with
    | none => rw [hd] at ih; exact (EmitsB.lit _).fails (FailsB.left _ ih)
    | some ds =>
      rw [hd, OutB_some] at ih
      have := (EmitsB.lit ['{']).app (EmitsB.app ih (EmitsB.lit ['}']))
      simp only [List.nil_append, List.append_nil] at this
      simp only [Option.map, OutB, Doc.blobs, Doc.numbered]
      refine this.mono ?_
      rintro _ _ ⟨_, _, rfl, rfl, v', _, rfl, hv, rfl⟩
      exact textDenotes_obj hv
  | .structVariant n fs, h => by
    have ih := serFieldsB_spec fs (by simpa [SVal.FloatsOk] using h) true
    simp only [docWith]
    rw [serB]
    cases hd : fieldsWith true fs with
    | none => rw [hd] at ih; exact (EmitsB.lit _).fails (FailsB.left _ ih)
    | some ds =>
      rw [hd, OutB_some] at ih
      have := (EmitsB.lit ('{' :: (jsonStr n ++ [':', '{']))).app (EmitsB.app ih (EmitsB.lit ['}', '}']))
      simp only [List.nil_append, List.append_nil] at this
      simp only [Option.map, OutB, Doc.blobs, blobsM, List.append_nil, Doc.numbered, numberedM]
      refine this.mono ?_
      rintro _ _ ⟨_, _, rfl, rfl, v', _, rfl, hv, rfl⟩
      simpa using textDenotes_obj1 (k := n) (textDenotes_obj hv)
  | .fail, _ => FailsB.lift rfl
theorem serElemsB_spec : ∀ vs : List SVal, FloatsOkL vs → ∀ first,
    OutB (serElemsB first vs) (docsWith true vs) blobsL (fun ds n s => ListText first s (numberedL n ds))
  | [], _, first => by
    simp only [serElemsB, docsWith, OutB, blobsL, numberedL]
    refine (EmitsB.lit _).mono ?_
    rintro _ _ rfl
    exact listText_nil first
  | v :: vs, h, first => by
    obtain ⟨hv, hvs⟩ : v.FloatsOk ∧ FloatsOkL vs := by simpa [FloatsOkL] using h
    have ih1 := serB_spec v hv
    have ih2 := serElemsB_spec vs hvs false
    rw [docsWith, serElemsB]
    cases hd : docWith true v with
    | none => rw [hd] at ih1; exact (EmitsB.lit _).fails (FailsB.left _ ih1)
    | some d =>
      rw [hd, OutB_some] at ih1
      cases hds : docsWith true vs with
      | none => rw [hds] at ih2; exact (EmitsB.lit _).fails (EmitsB.fails ih1 ih2)
      | some ds =>
        rw [hds, OutB_some] at ih2
        have := (EmitsB.lit (if first then [] else [','])).app (EmitsB.app ih1 ih2)
        simp only [List.nil_append] at this
        simp only [OutB, blobsL, numberedL]
        refine this.mono ?_
        rintro _ _ ⟨_, _, rfl, rfl, v', b', rfl, hv, hb⟩
        exact listText_cons hv hb
theorem serEntriesB_spec : ∀ kvs : List (SVal × SVal), FloatsOkM kvs → ∀ first,
    OutB (serEntriesB first kvs) (entriesWith true kvs) blobsM
      (fun ds n s => ListTextM first s (numberedM n ds))
  | [], _, first => by
    simp only [serEntriesB, entriesWith, OutB, blobsM, numberedM]
    refine (EmitsB.lit _).mono ?_
    rintro _ _ rfl
    exact listTextM_nil first
  | (k, v) :: kvs, h, first => by
    obtain ⟨hv, hvs⟩ : v.FloatsOk ∧ FloatsOkM kvs := by simpa [FloatsOkM] using h
    have ih0 := serKeyB_spec k
    have ih1 := serB_spec v hv
    have ih2 := serEntriesB_spec kvs hvs false
    rw [entriesWith, serEntriesB]
    cases hk : keyOf k with
    | none => rw [hk] at ih0; exact (EmitsB.lit _).fails (FailsB.left _ ih0)
    | some k' =>
      rw [hk, OutB_some] at ih0
      cases hd : docWith true v with
      | none =>
        rw [hd] at ih1
        exact (EmitsB.lit _).fails (EmitsB.fails ih0 ((EmitsB.lit _).fails (FailsB.left _ ih1)))
      | some d =>
        rw [hd, OutB_some] at ih1
        cases hds : entriesWith true kvs with
        | none =>
          rw [hds] at ih2
          exact (EmitsB.lit _).fails (EmitsB.fails ih0 ((EmitsB.lit _).fails (EmitsB.fails ih1 ih2)))
        | some ds =>
          rw [hds, OutB_some] at ih2
          have := (EmitsB.lit (if first then [] else [','])).app
            (EmitsB.app ih0 ((EmitsB.lit [':']).app (EmitsB.app ih1 ih2)))
          simp only [List.nil_append] at this
          simp only [OutB, blobsM, numberedM]
          refine this.mono ?_
          rintro _ _ ⟨_, _, rfl, rfl, _, _, rfl, rfl, _, _, rfl, rfl, v', b', rfl, hv, hb⟩
          simpa using listTextM_cons (first := first) (k := k') hv hb
theorem serFieldsB_spec : ∀ kvs : List (Str × SVal), FloatsOkF kvs → ∀ first,
    OutB (serFieldsB first kvs) (fieldsWith true kvs) blobsM
      (fun ds n s => ListTextM first s (numberedM n ds))
  | [], _, first => by
    simp only [serFieldsB, fieldsWith, OutB, blobsM, numberedM]
    refine (EmitsB.lit _).mono ?_
    rintro _ _ rfl
    exact listTextM_nil first
  | (k, v) :: kvs, h, first => by
    obtain ⟨hv, hvs⟩ : v.FloatsOk ∧ FloatsOkF kvs := by simpa [FloatsOkF] using h
    have ih1 := serB_spec v hv
    have ih2 := serFieldsB_spec kvs hvs false
    rw [fieldsWith, serFieldsB]
    cases hd : docWith true v with
    | none =>
      rw [hd] at ih1
      exact (EmitsB.lit _).fails ((EmitsB.lit _).fails (FailsB.left _ ih1))
    | some d =>
      rw [hd, OutB_some] at ih1
      cases hds : fieldsWith true kvs with
      | none =>
        rw [hds] at ih2
        exact (EmitsB.lit _).fails ((EmitsB.lit _).fails (EmitsB.fails ih1 ih2))
      | some ds =>
        rw [hds, OutB_some] at ih2
        have := (EmitsB.lit (if first then [] else [','])).app
          ((EmitsB.lit (jsonStr k ++ [':'])).app (EmitsB.app ih1 ih2))
        simp only [List.nil_append] at this
        simp only [OutB, blobsM, numberedM]
        refine this.mono ?_
        rintro _ _ ⟨_, _, rfl, rfl, _, _, rfl, rfl, v', b', rfl, hv, hb⟩
        simpa using listTextM_cons (first := first) (k := k) hv hb
end

end SIO
