import Verif.Lemmas.SerText
import Verif.Props.Builder
/-
C51: the messages of an event or ack, character by character.
-/
namespace SIO
open Spec

/-- Argument texts so far, with or without a failed first addition. -/
def bufOf (ts : List (Option Str)) : Str :=
  match ts with
  | [] => []
  | some t :: ts => '[' :: commas (t :: ts.filterMap id)
  | none :: ts => (ts.filterMap id).flatMap (',' :: ·)

/-- The builder after the given attempts. -/
def mkX (ack binary : Bool) (ns : Str) (id : Option Nat) (ds : List (Option Doc)) : Builder :=
  if binary then
    ⟨bufOf (attemptTexts true ds), .binary (bKind ack true) ns id ((attemptBlobs ds).map attMsg), ds.isEmpty⟩
  else ⟨serializeHeader (bKind ack false) none ns id ++ bufOf (attemptTexts false ds), .normal, ds.isEmpty⟩

theorem commas_snoc (vs : List Str) (v : Str) :
    commas (vs ++ [v]) = commas vs ++ ((if vs = [] then [] else [',']) ++ v) := by
  induction vs with
  | nil => simp [commas]
  | cons x vs ih =>
    cases vs with
    | nil => simp [commas]
    | cons y vs =>
      simp only [List.cons_append] at ih ⊢
      rw [commas, ih, commas]
      simp

theorem bufOf_fail (ts : List (Option Str)) : bufOf (ts ++ [none]) = bufOf ts := by
  cases ts with
  | nil => rfl
  | cons t ts => cases t <;> simp [bufOf]

theorem bufOf_snoc (ts : List (Option Str)) (t : Str) :
    bufOf (ts ++ [some t]) = bufOf ts ++ ((if ts.isEmpty then ['['] else [',']) ++ t) := by
  cases ts with
  | nil => simp [bufOf, commas]
  | cons u ts =>
    cases u with
    | none => simp [bufOf]
    | some u =>
      have := commas_snoc (u :: ts.filterMap id) t
      simp only [List.cons_append] at this
      simp [bufOf, this]

theorem numberedTexts_append (ds es : List (Option Doc)) (n : Nat) :
    numberedTexts n (ds ++ es) = numberedTexts n ds ++ numberedTexts (n + (attemptBlobs ds).length) es := by
  induction ds generalizing n with
  | nil => simp [numberedTexts, attemptBlobs, blobsL]
  | cons d ds ih =>
    cases d with
    | none => simp [numberedTexts, attemptBlobs, ih]
    | some d => simp [numberedTexts, attemptBlobs, blobsL, ih, Nat.add_assoc]

theorem attemptTexts_append (binary : Bool) (ds : List (Option Doc)) (d : Option Doc) :
    attemptTexts binary (ds ++ [d]) = attemptTexts binary ds ++
      [d.map fun d => if binary then (d.numbered (attemptBlobs ds).length).text else d.plain.text] := by
  cases binary with
  | false => simp [attemptTexts]
  | true =>
    simp only [attemptTexts, if_true, numberedTexts_append, Nat.zero_add]
    cases d <;> simp [numberedTexts]

theorem attemptBlobs_append (ds : List (Option Doc)) (d : Option Doc) :
    attemptBlobs (ds ++ [d]) = attemptBlobs ds ++ (d.map Doc.blobs).getD [] := by
  cases d <;> simp [attemptBlobs, blobsL_append, blobsL]

theorem numberedTexts_isEmpty (n : Nat) (ds : List (Option Doc)) : (numberedTexts n ds).isEmpty = ds.isEmpty := by
  cases ds with
  | nil => rfl
  | cons d ds => cases d <;> rfl

theorem attemptTexts_isEmpty (binary : Bool) (ds : List (Option Doc)) :
    (attemptTexts binary ds).isEmpty = ds.isEmpty := by
  cases binary with
  | false => simp [attemptTexts]
  | true => simp [attemptTexts, numberedTexts_isEmpty]

theorem mkX_add (ack binary : Bool) (ns : Str) (id : Option Nat) (ds : List (Option Doc)) {v : SVal} (hf : v.FloatsOk) :
    ((mkX ack binary ns id ds).serializeArg v) =
      (mkX ack binary ns id (ds ++ [docWith binary v]), if (docWith binary v).isSome then .ok () else .err ()) := by
  cases hd : docWith binary v with
  | some d =>
    cases binary with
    | false =>
      have hs := Exact.serJ_spec v hf
      simp only [docOf, hd, OutW] at hs
      obtain ⟨s, hs, ht⟩ := hs
      obtain ⟨rfl, _⟩ := ht
      have he := attemptTexts_isEmpty false ds
      simp [Builder.serializeArg, mkX, hs, attemptTexts_append, bufOf_snoc, he]
    | true =>
      have hs := Exact.serB_spec v hf
      rw [hd, OutB_some] at hs
      obtain ⟨s, hs, ht⟩ := hs ((attemptBlobs ds).map attMsg)
      obtain ⟨rfl, _⟩ := ht
      have he := attemptTexts_isEmpty true ds
      simp [Builder.serializeArg, mkX, hs, attemptTexts_append, bufOf_snoc, he, attemptBlobs_append]
  | none =>
    have hfail : ((mkX ack binary ns id ds).serializeArg v) = ({ mkX ack binary ns id ds with first := false }, .err ()) := by
      rcases serializeArg_cases (mkX ack binary ns id ds) v with ⟨h1, _⟩ | h1
      · exfalso
        cases binary with
        | false =>
          have hs := serJ_spec v hf
          simp only [docOf, hd, OutW] at hs
          unfold FailsW at hs
          simp only [Builder.serializeArg, mkX, hs, Bool.false_eq_true, if_false] at h1
          split at h1 <;> simp at h1
        | true =>
          have hs := serB_spec v hf
          simp only [hd, OutB] at hs
          obtain ⟨s, bl, hs⟩ := hs ((attemptBlobs ds).map attMsg)
          simp only [Builder.serializeArg, mkX, hs, if_true] at h1
          split at h1 <;> simp at h1
      · exact h1
    rw [hfail]
    cases binary <;> simp [mkX, attemptTexts_append, bufOf_fail, attemptBlobs_append]

theorem mkX_adds (ack binary : Bool) (ns : Str) (id : Option Nat) (vs : List SVal) :
    ∀ (ds : List (Option Doc)), (∀ v ∈ vs, v.FloatsOk) →
      adds (mkX ack binary ns id ds) vs = mkX ack binary ns id (ds ++ vs.map (docWith binary)) := by
  induction vs with
  | nil => intro ds _; simp [adds]
  | cons v vs ih =>
    intro ds h
    have := ih (ds ++ [docWith binary v]) fun x hx => h x (by simp [hx])
    simp only [adds, List.foldl_cons, mkX_add ack binary ns id ds (h v (by simp))] at this ⊢
    rw [this]
    simp

theorem mkX_finish (ack binary : Bool) (ns : Str) (id : Option Nat) (ds : List (Option Doc)) :
    (mkX ack binary ns id ds).finish = .ok (wireOf ack binary ns id ds) := by
  have hg : ∀ (h : Str) (ts : List (Option Str)), (h ++ bufOf ts) ++ (if !ts.isEmpty then [']'] else []) =
      h ++ part [] (argPart ts) := by
    intro h ts
    cases ts with
    | nil => simp [bufOf, argPart, part]
    | cons t ts => cases t <;> simp [bufOf, argPart, part]
  have hatt : (attemptBlobs ds).map attMsg = (attemptBlobs ds).map attachment := rfl
  cases binary with
  | false =>
    simp only [mkX, Builder.finish, wireOf, textMessage, Bool.false_eq_true, if_false]
    rw [← attemptTexts_isEmpty false ds, hg, header_text, bKind_digit]
    rfl
  | true =>
    simp only [mkX, Builder.finish, wireOf, textMessage, if_true]
    rw [← attemptTexts_isEmpty true ds, ← List.append_assoc, hg, header_text, bKind_digit, hatt]
    simp [packageMessage]

theorem mkX_nil (ack binary : Bool) (ns : Str) (id : Option Nat) : Builder.new ns id binary ack = mkX ack binary ns id [] := by
  cases binary <;> cases ack <;> simp [Builder.new, mkX, bufOf, bKind, attemptTexts, attemptBlobs, blobsL, numberedTexts]

/-- C51, events: the messages are, character by character, the packet header, the array of
the compact JSON texts of the event name and of the arguments that could be serialized, and
in binary mode the attachments.  -/
theorem C51_event (event ns : Str) (id : Option Nat) (binary : Bool) (args : List SVal) (hf : ∀ v ∈ args, v.FloatsOk) :
    ∃ b, Builder.newEvent event ns id binary = .ok b ∧
      (adds b args).finish = .ok (wireOf false binary ns id (some (.str event) :: args.map (docWith binary))) := by
  have h := mkX_add false binary ns id [] (v := .str event) trivial
  rw [← mkX_nil] at h
  refine ⟨mkX false binary ns id [some (.str event)], ?_, ?_⟩
  · simp [Builder.newEvent, h, docWith]
  · rw [mkX_adds false binary ns id args _ hf, mkX_finish]
    rfl

/-- An event with a text that has to be escaped and one that cannot be serialized. -/
example : wireOf false false ['/', 'a'] (some 7) (some (.str "e\"".toList) ::
      [.struct [(['k'], .bytes [1, 2])], .fail, .some (.str "\x01é".toList)].map (docWith false)) =
    [.text "42/a,7[\"e\\\"\",{\"k\":[1,2]},\"\\u0001é\"]".toList] := by decide +kernel

/-- The same in binary mode, in the default namespace and without id. -/
example : wireOf false true ['/'] none (some (.str ['e']) ::
      [.struct [(['k'], .bytes [1, 2])], .fail, .seq [.u8 3]].map (docWith true)) =
    [.text "452-[\"e\",{\"k\":{\"_placeholder\":true,\"num\":0}},{\"_placeholder\":true,\"num\":1}]".toList,
      .binary [4, 1, 2], .binary [4, 3]] := by decide +kernel

/-- C51, acks, whatever the arguments. -/
theorem C51_ack (ns : Str) (id : Nat) (binary : Bool) (args : List SVal) (hf : ∀ v ∈ args, v.FloatsOk) :
    (adds (Builder.newAck ns id binary) args).finish =
      .ok (wireOf true binary ns (some id) (args.map (docWith binary))) := by
  rw [Builder.newAck, mkX_nil, mkX_adds true binary ns (some id) args _ hf, mkX_finish]
  rfl

/-- No arguments, a first argument that cannot be serialized, and one that can. -/
example : wireOf true false ['/'] (some 3) [] = [.text "433".toList] := by decide +kernel
example : wireOf true false ['/'] (some 3) ([.fail, .bool true, .unit].map (docWith false)) =
    [.text "433,true,null]".toList] := by decide +kernel
example : wireOf true false ['/'] (some 3) ([.bool true, .unit].map (docWith false)) =
    [.text "433[true,null]".toList] := by decide +kernel

end SIO
