import Verif.Lemmas.Frame
import Verif.Lemmas.Decoded
import Verif.Spec.Builder
/-
The packet builder.
-/
namespace SIO
open Spec

/-! ### Comma separated texts -/

/-- Texts separated by commas. -/
def sepBy : List Str → Str
  | [] => []
  | [v] => v
  | v :: w :: vs => v ++ ',' :: sepBy (w :: vs)

theorem sepBy_snoc (vs : List Str) (v : Str) :
    sepBy (vs ++ [v]) = sepBy vs ++ ((if vs = [] then [] else [',']) ++ v) := by
  induction vs with
  | nil => simp [sepBy]
  | cons x vs ih =>
    cases vs with
    | nil => simp [sepBy]
    | cons y vs =>
      simp only [List.cons_append] at ih ⊢
      rw [sepBy, ih, sepBy]
      simp

theorem elemTexts_comma {v b : Str} {vs : List Str} (t : JTree) (hv : IsVal t v) (hne : vs ≠ [])
    (h : IsElemTexts vs b) : IsElemTexts (v :: vs) (v ++ (',' :: b)) :=
  ⟨[], [], ',' :: b, by simp, by simp [IsWs], by simp [IsWs], ⟨t, hv⟩, Or.inr ⟨hne, b, rfl, h⟩⟩

theorem elemTexts_one {v : Str} (t : JTree) (hv : IsVal t v) : IsElemTexts [v] v :=
  ⟨[], [], [], by simp, by simp [IsWs], by simp [IsWs], ⟨t, hv⟩, Or.inl ⟨rfl, rfl⟩⟩

theorem elemTexts_sepBy {vs : List Str} {ds : List Doc} (h : TextsDenote vs ds) : IsElemTexts vs (sepBy vs) := by
  induction h with
  | nil => simp [IsElemTexts, sepBy, IsWs]
  | cons hv hs ih =>
    obtain ⟨t, ht, _⟩ := hv
    cases hs with
    | nil => exact elemTexts_one t ht
    | cons _ _ => exact elemTexts_comma t ht (by simp) ih

theorem noNl_sepBy {vs : List Str} (h : ∀ v ∈ vs, NoNl v) : NoNl (sepBy vs) := by
  induction vs with
  | nil => exact noNl_nil
  | cons v vs ih =>
    cases vs with
    | nil => simpa [sepBy] using h
    | cons w vs =>
      exact (h v (by simp)).append (NoNl.cons (by decide) (ih fun x hx => h x (by simp [hx])))

theorem textsDenote_snoc {vs : List Str} {ds : List Doc} {v : Str} {d : Doc} (h : TextsDenote vs ds)
    (hv : TextDenotes v d) : TextsDenote (vs ++ [v]) (ds ++ [d]) := by
  induction h with
  | nil => exact .cons hv .nil
  | cons h1 _ ih => exact .cons h1 ih

theorem textsDenote_length {vs : List Str} {ds : List Doc} (h : TextsDenote vs ds) : vs.length = ds.length := by
  induction h with
  | nil => rfl
  | cons _ _ ih => simp [ih]

theorem blobsL_append (ds es : List Doc) : blobsL (ds ++ es) = blobsL ds ++ blobsL es := by
  induction ds with
  | nil => simp [blobsL]
  | cons d ds ih => simp [blobsL, ih]

theorem numberedL_append (ds es : List Doc) (n : Nat) :
    numberedL n (ds ++ es) = numberedL n ds ++ numberedL (n + (blobsL ds).length) es := by
  induction ds generalizing n with
  | nil => simp [numberedL, blobsL]
  | cons d ds ih => simp [numberedL, blobsL, ih, Nat.add_assoc]

theorem plains_append (ds es : List Doc) : plains (ds ++ es) = plains ds ++ plains es := by
  induction ds with
  | nil => simp [plains]
  | cons d ds ih => simp [plains, ih]

theorem numberedL_length (ds : List Doc) (n : Nat) : (numberedL n ds).length = ds.length := by
  induction ds generalizing n with
  | nil => simp [numberedL]
  | cons d ds ih => simp [numberedL, ih]

theorem plains_length (ds : List Doc) : (plains ds).length = ds.length := by
  induction ds with
  | nil => simp [plains]
  | cons d ds ih => simp [plains, ih]

/-! ### One addition -/

theorem shrinkText_append (a b : Str) : Builder.shrinkText (a ++ b) (blen a) = .ok a := by
  simp [Builder.shrinkText, takeB_append]

theorem shrinkMsgs_append (a b : List Ws) : Builder.shrinkMsgs (a ++ b) a.length = .ok a := by
  simp [Builder.shrinkMsgs]

/-- An addition succeeds, or fails leaving everything but `first`; it never panics. -/
theorem serializeArg_cases (b : Builder) (v : SVal) :
    ((b.serializeArg v).2 = .ok () ∧ (b.serializeArg v).1.first = false) ∨
    b.serializeArg v = ({ b with first := false }, .err ()) := by
  obtain ⟨buf, ap, first⟩ := b
  cases ap with
  | normal =>
    simp only [Builder.serializeArg]
    split
    · exact Or.inl ⟨rfl, rfl⟩
    · right
      rw [List.append_assoc, shrinkText_append]
  | binary k ns id att =>
    simp only [Builder.serializeArg]
    obtain ⟨s, bl, f, h, hf⟩ := goodB_serB v att
    rw [h]
    cases f with
    | panic => exact absurd rfl hf
    | ok => exact Or.inl ⟨rfl, rfl⟩
    | err =>
      right
      simp only
      rw [List.append_assoc, shrinkText_append, shrinkMsgs_append]

/-! ### The invariant -/

/-- The kind of a builder's packet. -/
def bKind (ack binary : Bool) : PKind :=
  match binary, ack with
  | false, false => .event
  | false, true => .ack
  | true, false => .binaryEvent
  | true, true => .binaryAck

theorem bKind_digit (ack binary : Bool) : (bKind ack binary).digit = kindDigit ack binary := by
  cases ack <;> cases binary <;> rfl

/-- The text of the arguments so far. -/
def argBuf (vs : List Str) : Str := if vs = [] then [] else '[' :: sepBy vs

/-- The builder that holds the given argument texts and attachments. -/
def mkB (ack binary : Bool) (ns : Str) (id : Option Nat) (vs : List Str) (bl : List Bytes) : Builder :=
  if binary then ⟨argBuf vs, .binary (bKind ack true) ns id (bl.map attMsg), vs.isEmpty⟩
  else ⟨serializeHeader (bKind ack false) none ns id ++ argBuf vs, .normal, vs.isEmpty⟩

/-- The documents as they appear in the text. -/
def wire (binary : Bool) (ds : List Doc) : List Doc := if binary then numberedL 0 ds else plains ds

/-- The builder holds the documents. -/
def BInv (ack binary : Bool) (ns : Str) (id : Option Nat) (ds : List Doc) (b : Builder) : Prop :=
  ∃ vs, TextsDenote vs (wire binary ds) ∧ (∀ v ∈ vs, NoNl v) ∧ b = mkB ack binary ns id vs (blobsL ds)

theorem wire_length (binary : Bool) (ds : List Doc) : (wire binary ds).length = ds.length := by
  unfold wire
  split
  · exact numberedL_length _ _
  · exact plains_length _

theorem bInv_new (ack binary : Bool) (ns : Str) (id : Option Nat) :
    BInv ack binary ns id [] (Builder.new ns id binary ack) := by
  refine ⟨[], ?_, by simp, ?_⟩
  · cases binary <;> simp [wire, numberedL, plains] <;> exact .nil
  · cases binary <;> cases ack <;> simp [Builder.new, mkB, argBuf, bKind, blobsL]

theorem bInv_first {ack binary : Bool} {ns : Str} {id : Option Nat} {ds : List Doc} {b : Builder}
    (h : BInv ack binary ns id ds b) : b.first = ds.isEmpty := by
  obtain ⟨vs, hv, _, rfl⟩ := h
  have hl := textsDenote_length hv
  rw [wire_length] at hl
  have : vs.isEmpty = ds.isEmpty := by cases vs <;> cases ds <;> simp at hl ⊢
  cases binary <;> simp [mkB, this]

theorem argBuf_snoc (vs : List Str) (v : Str) :
    argBuf (vs ++ [v]) = argBuf vs ++ ((if vs.isEmpty then ['['] else [',']) ++ v) := by
  unfold argBuf
  cases vs with
  | nil => simp [sepBy]
  | cons x vs =>
    rw [sepBy_snoc]
    simp

/-- Adding a value that can be serialized. -/
theorem bInv_add {ack binary : Bool} {ns : Str} {id : Option Nat} {ds : List Doc} {b : Builder} {v : SVal} {d : Doc}
    (h : BInv ack binary ns id ds b) (hf : v.FloatsOk) (hd : docWith binary v = some d) :
    ∃ b', b.serializeArg v = (b', .ok ()) ∧ BInv ack binary ns id (ds ++ [d]) b' := by
  obtain ⟨vs, hv, hn, rfl⟩ := h
  cases binary with
  | false =>
    have hs := serJ_spec v hf
    have hnl := nlW_serJ v hf
    simp only [docOf, hd, OutW] at hs
    obtain ⟨s, hs, ht⟩ := hs
    rw [hs] at hnl
    refine ⟨mkB ack false ns id (vs ++ [s]) (blobsL (ds ++ [d])), ?_, vs ++ [s], ?_, ?_, rfl⟩
    · simp [Builder.serializeArg, mkB, hs, argBuf_snoc]
    · simp only [wire, plains_append, plains, Bool.false_eq_true, if_false] at hv ⊢
      exact textsDenote_snoc hv ht
    · intro x hx
      rcases List.mem_append.1 hx with h | h
      · exact hn x h
      · simp at h; rw [h]; exact hnl
  | true =>
    have hs := serB_spec v hf
    rw [hd, OutB_some] at hs
    obtain ⟨s, hs, ht⟩ := hs ((blobsL ds).map attMsg)
    have hnl := nlB_serB v hf ⟨(blobsL ds).map attMsg, false⟩
    rw [hs] at hnl
    refine ⟨mkB ack true ns id (vs ++ [s]) (blobsL (ds ++ [d])), ?_, vs ++ [s], ?_, ?_, rfl⟩
    · simp [Builder.serializeArg, mkB, hs, argBuf_snoc, blobsL_append, blobsL]
    · simp only [wire, numberedL_append, numberedL, if_true] at hv ⊢
      exact textsDenote_snoc hv (by simpa using ht)
    · intro x hx
      rcases List.mem_append.1 hx with h | h
      · exact hn x h
      · simp at h; rw [h]; exact hnl

/-- Adding a value that cannot be serialized. -/
theorem bInv_fail {ack binary : Bool} {ns : Str} {id : Option Nat} {ds : List Doc} {b : Builder} {v : SVal}
    (h : BInv ack binary ns id ds b) (hf : v.FloatsOk) (hd : docWith binary v = none) :
    b.serializeArg v = ({ b with first := false }, .err ()) := by
  rcases serializeArg_cases b v with ⟨h1, _⟩ | h1
  · exfalso
    obtain ⟨vs, hv, hn, rfl⟩ := h
    cases binary with
    | false =>
      have hs := serJ_spec v hf
      simp only [docOf, hd, OutW] at hs
      unfold FailsW at hs
      simp only [Builder.serializeArg, mkB, hs, Bool.false_eq_true, if_false] at h1
      split at h1 <;> simp at h1
    | true =>
      have hs := serB_spec v hf
      simp only [hd, OutB] at hs
      obtain ⟨s, bl, hs⟩ := hs ((blobsL ds).map attMsg)
      simp only [Builder.serializeArg, mkB, hs, if_true] at h1
      split at h1 <;> simp at h1
  · exact h1

/-- A list of additions to a builder that already has an argument. -/
theorem bInv_adds {ack binary : Bool} {ns : Str} {id : Option Nat} (vs : List SVal) :
    ∀ {ds : List Doc} {b : Builder}, BInv ack binary ns id ds b → ds ≠ [] → (∀ v ∈ vs, v.FloatsOk) →
      BInv ack binary ns id (ds ++ docsOf binary vs) (adds b vs) ∧
      addResults b vs = vs.map fun v => if (docWith binary v).isSome then .ok () else .err () := by
  induction vs with
  | nil => intro ds b h _ _; exact ⟨by simpa [docsOf, adds] using h, rfl⟩
  | cons v vs ih =>
    intro ds b h hne hf
    have hfv := hf v (by simp)
    have hfs : ∀ x ∈ vs, x.FloatsOk := fun x hx => hf x (by simp [hx])
    cases hd : docWith binary v with
    | some d =>
      obtain ⟨b', he, hb⟩ := bInv_add h hfv hd
      obtain ⟨h1, h2⟩ := ih hb (by simp) hfs
      constructor
      · simpa [docsOf, adds, he, hd] using h1
      · simp [addResults, he, h2, hd]
    | none =>
      have he := bInv_fail h hfv hd
      have hb : ({ b with first := false } : Builder) = b := by
        have := bInv_first h
        cases ds with
        | nil => exact absurd rfl hne
        | cons _ _ =>
          simp at this
          obtain ⟨x, y, z⟩ := b
          simp at this
          simp [this]
      rw [hb] at he
      obtain ⟨h1, h2⟩ := ih h hne hfs
      constructor
      · simpa [docsOf, adds, he, hd] using h1
      · simp [addResults, he, h2, hd]

/-- The same for a builder without argument, if the first value can be serialized. -/
theorem bInv_adds_first {ack binary : Bool} {ns : Str} {id : Option Nat} (vs : List SVal) {b : Builder}
    (h : BInv ack binary ns id [] b) (hf : ∀ v ∈ vs, v.FloatsOk)
    (h1 : ∀ v vs', vs = v :: vs' → (docWith binary v).isSome) :
    BInv ack binary ns id (docsOf binary vs) (adds b vs) ∧
      addResults b vs = vs.map fun v => if (docWith binary v).isSome then .ok () else .err () := by
  cases vs with
  | nil => exact ⟨by simpa [docsOf, adds] using h, rfl⟩
  | cons v vs =>
    have hs := h1 v vs rfl
    cases hd : docWith binary v with
    | none => simp [hd] at hs
    | some d =>
      obtain ⟨b', he, hb⟩ := bInv_add h (hf v (by simp)) hd
      obtain ⟨h2, h3⟩ := bInv_adds vs hb (by simp) fun x hx => hf x (by simp [hx])
      constructor
      · simpa [docsOf, adds, he, hd] using h2
      · simp [addResults, he, h3, hd]

/-! ### Finishing -/

theorem header_text (kind : PKind) (att : Option Nat) (ns : Str) (id : Option Nat) (g : Option Str) :
    serializeHeader kind att ns id ++ part [] g =
      '4' :: (Pkt.mk kind.digit att (nsPart ns) id g).text := by
  unfold serializeHeader nsPart Pkt.text Pkt.parts Parts.text
  by_cases hn : ns = ['/'] <;> cases att <;> cases id <;> cases g <;> simp [hn, part, natDec_decimal]

/-- The packet a builder is about to send. -/
def bPkt (ack binary : Bool) (ns : Str) (id : Option Nat) (vs : List Str) (n : Nat) : Pkt :=
  ⟨kindDigit ack binary, if binary then some n else none, nsPart ns, id,
    if vs = [] then none else some ('[' :: (sepBy vs ++ [']']))⟩

theorem finish_mkB (ack binary : Bool) (ns : Str) (id : Option Nat) (vs : List Str) (bl : List Bytes) :
    (mkB ack binary ns id vs bl).finish =
      .ok (textMessage (bPkt ack binary ns id vs bl.length) :: (if binary then bl.map attachment else [])) := by
  have hg : ∀ h : Str, (h ++ argBuf vs) ++ (if !vs.isEmpty then [']'] else []) =
      h ++ part [] (if vs = [] then none else some ('[' :: (sepBy vs ++ [']']))) := by
    intro h
    cases vs <;> simp [argBuf, part]
  have hatt : bl.map attMsg = bl.map attachment := rfl
  cases binary with
  | false =>
    simp only [mkB, Builder.finish, bPkt, textMessage, Bool.false_eq_true, if_false]
    rw [hg, header_text, bKind_digit]
    rfl
  | true =>
    simp only [mkB, Builder.finish, bPkt, textMessage, if_true]
    rw [← List.append_assoc, hg, header_text, bKind_digit, hatt]
    simp [packageMessage]

theorem bPkt_wf {ack binary : Bool} {ns : Str} {id : Option Nat} {vs : List Str} {n : Nat} (hns : NsOk ns)
    (hnl : ∀ v ∈ vs, NoNl v) : (bPkt ack binary ns id vs n).Wf := by
  refine ⟨?_, ?_, ?_⟩
  · cases ack <;> cases binary <;> simp [bPkt, kindDigit]
  · intro m hm
    simp only [bPkt, nsPart] at hm
    rcases hns with rfl | hns
    · simp at hm
    · split at hm
      · simp at hm
      · simp at hm; rw [← hm]; exact hns
  · intro g hg
    simp only [bPkt] at hg
    split at hg
    · simp at hg
    · simp at hg
      exact ⟨sepBy vs, hg.symm, noNl_sepBy hnl⟩

theorem bPkt_args {ack binary : Bool} {ns : Str} {id : Option Nat} {vs : List Str} {n : Nat} {ds : List Doc}
    (h : TextsDenote vs ds) : (bPkt ack binary ns id vs n).ArgTexts vs := by
  unfold Pkt.ArgTexts
  simp only [bPkt]
  by_cases hv : vs = []
  · simp [hv]
  · simp only [hv, if_false]
    exact ⟨[], sepBy vs, [], by simp, by simp [IsWs], by simp [IsWs], elemTexts_sepBy h⟩

/-- What a builder sends. -/
theorem bInv_finish {ack binary : Bool} {ns : Str} {id : Option Nat} {ds : List Doc} {b : Builder}
    (h : BInv ack binary ns id ds b) :
    ∃ ws, b.finish = .ok ws ∧ (if binary then SentBinary ack ns id ds ws else SentText ack ns id ds ws) := by
  obtain ⟨vs, hv, hn, rfl⟩ := h
  refine ⟨_, finish_mkB ack binary ns id vs (blobsL ds), ?_⟩
  have hl := textsDenote_length hv
  rw [wire_length] at hl
  have hnil : (bPkt ack binary ns id vs (blobsL ds).length).args = none ↔ ds = [] := by
    cases vs <;> cases ds <;> simp [bPkt] at hl ⊢
  cases binary with
  | false =>
    exact ⟨_, vs, rfl, rfl, rfl, rfl, hnil, bPkt_args hv, by simpa [wire] using hv,
      fun hns => bPkt_wf hns hn, by simp⟩
  | true =>
    exact ⟨_, vs, rfl, rfl, rfl, rfl, hnil, bPkt_args hv, by simpa [wire] using hv,
      fun hns => bPkt_wf hns hn, by simp⟩

/-- Creating an event builder. -/
theorem newEvent_inv (event ns : Str) (id : Option Nat) (binary : Bool) :
    ∃ b, Builder.newEvent event ns id binary = .ok b ∧ BInv false binary ns id [.str event] b := by
  obtain ⟨b, he, hb⟩ := bInv_add (v := .str event) (d := .str event) (bInv_new false binary ns id) trivial
    (by simp [docWith])
  exact ⟨b, by simp [Builder.newEvent, he], hb⟩

end SIO
