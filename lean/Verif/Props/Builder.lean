import Verif.Props.Decode
/-
C01, C02, C03 (on the level of packets and argument texts), C04, C05, C06, C07, C08, C09:
the packets the builders make.
-/
namespace SIO
open Spec

/-! ### C04 -/

theorem first_adds {b : Builder} (vs : List SVal) (h : b.first = false) : (adds b vs).first = false := by
  induction vs generalizing b with
  | nil => exact h
  | cons v vs ih =>
    refine ih ?_
    rcases serializeArg_cases b v with ⟨_, h1⟩ | h1
    · exact h1
    · show (b.serializeArg v).1.first = false
      rw [h1]

/-- C04, what holds: a failing addition leaves every event builder, and every ack builder
after its first addition, exactly as it was.  Missing for the full claim: ack builders
without a previous addition (`C04_counterexample`). -/
theorem C04_partial :
    (∀ (event ns : Str) (id : Option Nat) (binary : Bool) (b : Builder) (vs : List SVal) (v : SVal),
      Builder.newEvent event ns id binary = .ok b → ((adds b vs).serializeArg v).2 ≠ .ok () →
      ((adds b vs).serializeArg v).1 = adds b vs) ∧
    (∀ (ns : Str) (id : Nat) (binary : Bool) (u : SVal) (vs : List SVal) (v : SVal),
      ((adds (Builder.newAck ns id binary) (u :: vs)).serializeArg v).2 ≠ .ok () →
      ((adds (Builder.newAck ns id binary) (u :: vs)).serializeArg v).1 =
        adds (Builder.newAck ns id binary) (u :: vs)) := by
  have key : ∀ (b : Builder) (v : SVal), b.first = false → (b.serializeArg v).2 ≠ .ok () →
      (b.serializeArg v).1 = b := by
    intro b v hb hv
    rcases serializeArg_cases b v with ⟨h1, _⟩ | h1
    · exact absurd h1 hv
    · rw [h1, ← hb]
  constructor
  · intro event ns id binary b vs v hb hv
    refine key _ v (first_adds vs ?_) hv
    obtain ⟨b', hb', hi⟩ := newEvent_inv event ns id binary
    rw [hb] at hb'
    cases hb'
    simpa using bInv_first hi
  · intro ns id binary u vs v hv
    refine key _ v (first_adds vs ?_) hv
    rcases serializeArg_cases (Builder.newAck ns id binary) u with ⟨_, h1⟩ | h1
    · exact h1
    · show ((Builder.newAck ns id binary).serializeArg u).1.first = false
      rw [h1]

/-- C04 is false for ack builders: after a failing first addition, the ack `3` of the
default namespace with id 0 is sent as `430]` instead of `430`, and a later argument is
preceded by a comma instead of a bracket. -/
theorem C04_counterexample : ∃ (b : Builder) (v : SVal), b = Builder.newAck ['/'] 0 false ∧
    (b.serializeArg v).2 ≠ .ok () ∧
    b.finish = .ok [.text "430".toList] ∧
    (b.serializeArg v).1.finish = .ok [.text "430]".toList] ∧
    (adds b [.str ['x']]).finish = .ok [.text "430[\"x\"]".toList] ∧
    (adds b [v, .str ['x']]).finish = .ok [.text "430,\"x\"]".toList] :=
  ⟨_, .fail, rfl, by decide +kernel⟩

-- non-vacuity of `C04_partial`: a failing addition, after a partly written argument
example : ∃ b, Builder.newEvent ['e'] ['/'] none true = .ok b ∧
    ((adds b [.bytes [1]]).serializeArg (.seq [.bytes [2], .fail])).2 ≠ .ok () :=
  have ⟨b, hb, hf⟩ := Res.okWith_spec (r := Builder.newEvent ['e'] ['/'] none true)
    (f := fun b => ((adds b [.bytes [1]]).serializeArg (.seq [.bytes [2], .fail])).2 ≠ .ok ()) (by decide +kernel)
  ⟨b, hb, of_decide_eq_true hf⟩

/-! ### C05 -/

/-- The builders: an event builder or an ack builder. -/
def Created (ack binary : Bool) (ns : Str) (id : Option Nat) (b : Builder) : Prop :=
  if ack then ∃ i, id = some i ∧ b = Builder.newAck ns i binary
  else ∃ event, Builder.newEvent event ns id binary = .ok b

theorem serializeArg_binary {k : PKind} {ns : Str} {id : Option Nat} {bl : List Bytes} {b : Builder}
    (h : b.approach = .binary k ns id (bl.map attMsg)) (v : SVal) :
    ∃ bl' : List Bytes, (b.serializeArg v).1.approach = .binary k ns id (bl'.map attMsg) := by
  rcases serializeArg_cases b v with ⟨h1, _⟩ | h1
  · obtain ⟨buf, ap, first⟩ := b
    simp only at h
    subst h
    obtain ⟨s, bl', f, h, hf⟩ := goodB_serB v (bl.map attMsg)
    simp only [Builder.serializeArg, h] at h1 ⊢
    cases f with
    | panic => exact absurd rfl hf
    | ok => exact ⟨bl ++ bl', by simp⟩
    | err =>
      simp only at h1
      split at h1 <;> simp at h1
  · exact ⟨bl, by rw [h1]; exact h⟩

theorem serializeArg_normal {b : Builder} (h : b.approach = .normal) (v : SVal) :
    (b.serializeArg v).1.approach = .normal ∧ ∃ w, (b.serializeArg v).1.buffer = b.buffer ++ w := by
  rcases serializeArg_cases b v with ⟨h1, _⟩ | h1
  · obtain ⟨buf, ap, first⟩ := b
    simp only at h
    subst h
    simp only [Builder.serializeArg] at h1 ⊢
    split at h1
    · rename_i hw
      simp [hw]
    · split at h1 <;> simp at h1
  · rw [h1]
    exact ⟨h, [], by simp⟩

/-- Every builder, after any additions (also failing ones, also an ack whose first argument
failed), in text mode: what it holds begins with the header. -/
theorem text_form {ack : Bool} {ns : Str} {id : Option Nat} {b : Builder} (h : Created ack false ns id b)
    (vs : List SVal) : ∃ s, (adds b vs).approach = .normal ∧
      (adds b vs).buffer = serializeHeader (bKind ack false) none ns id ++ s := by
  have h0 : b.approach = .normal ∧ ∃ s, b.buffer = serializeHeader (bKind ack false) none ns id ++ s := by
    cases ack with
    | true =>
      obtain ⟨i, rfl, rfl⟩ : ∃ i, id = some i ∧ b = Builder.newAck ns i false := by simpa [Created] using h
      exact ⟨rfl, [], by simp [Builder.newAck, Builder.new, bKind]⟩
    | false =>
      obtain ⟨event, he⟩ : ∃ event, Builder.newEvent event ns id false = .ok b := by simpa [Created] using h
      obtain ⟨b', hb', vs, _, _, hb⟩ := newEvent_inv event ns id false
      rw [he] at hb'
      cases hb'
      rw [hb]
      exact ⟨rfl, _, rfl⟩
  clear h
  induction vs generalizing b with
  | nil => obtain ⟨h1, s, h2⟩ := h0; exact ⟨s, h1, h2⟩
  | cons v vs ih =>
    refine ih ?_
    obtain ⟨h1, s, h2⟩ := h0
    obtain ⟨h3, w, h4⟩ := serializeArg_normal h1 v
    exact ⟨h3, s ++ w, by rw [h4, h2]; simp⟩

/-- The same in binary mode. -/
theorem binary_form {ack : Bool} {ns : Str} {id : Option Nat} {b : Builder} (h : Created ack true ns id b)
    (vs : List SVal) : ∃ bl : List Bytes, (adds b vs).approach = .binary (bKind ack true) ns id (bl.map attMsg) := by
  have h0 : ∃ bl : List Bytes, b.approach = .binary (bKind ack true) ns id (bl.map attMsg) := by
    cases ack with
    | true =>
      obtain ⟨i, rfl, rfl⟩ : ∃ i, id = some i ∧ b = Builder.newAck ns i true := by simpa [Created] using h
      exact ⟨[], by simp [Builder.newAck, Builder.new, bKind]⟩
    | false =>
      obtain ⟨event, he⟩ : ∃ event, Builder.newEvent event ns id true = .ok b := by simpa [Created] using h
      obtain ⟨b', hb', vs, _, _, hb⟩ := newEvent_inv event ns id true
      rw [he] at hb'
      cases hb'
      rw [hb]
      exact ⟨_, rfl⟩
  clear h
  induction vs generalizing b with
  | nil => exact h0
  | cons v vs ih =>
    refine ih ?_
    obtain ⟨bl, h1⟩ := h0
    exact serializeArg_binary h1 v

/-- C05, count and framing: in binary mode, after any additions, successful or not, the
packet announces the number of messages that follow it, and these are binary messages that
start with the byte 4. -/
theorem C05_count (ack : Bool) (ns : Str) (id : Option Nat) (b : Builder) (h : Created ack true ns id b)
    (vs : List SVal) :
    ∃ (s : Str) (atts : List Ws), (adds b vs).finish =
        .ok (.text ('4' :: kindDigit ack true :: (decimal atts.length ++ '-' :: s)) :: atts) ∧
      ∀ a ∈ atts, ∃ x, a = .binary (4 :: x) := by
  obtain ⟨bl, hb⟩ := binary_form h vs
  generalize adds b vs = c at hb
  obtain ⟨buf, ap, first⟩ := c
  simp only at hb
  subst hb
  refine ⟨(if ns ≠ ['/'] then ns ++ [','] else []) ++ (match (generalizing := false) id with | some n => natDec n | none => []) ++
    (buf ++ if !first then [']'] else []), bl.map attMsg, ?_, ?_⟩
  · cases id <;> simp [Builder.finish, serializeHeader, packageMessage, bKind_digit, natDec_decimal]
  · intro a ha
    obtain ⟨x, _, rfl⟩ := List.mem_map.1 ha
    exact ⟨x, rfl⟩

/-- The value an ack starts with can be serialized (see C04 for acks with a failing first
argument); no condition on events. -/
def FirstOk (ack : Bool) (vs : List SVal) : Prop :=
  ack = true → ∀ v vs', vs = v :: vs' → (docOf v).isSome

/-- The documents a builder has to send: the event name first. -/
def created_docs (ack : Bool) (event : Str) (ds : List Doc) : List Doc := if ack then ds else .str event :: ds

/-- All builders: the results of the additions, and the documents held. -/
theorem created_inv {ack binary : Bool} {ns : Str} {id : Option Nat} {b : Builder} (h : Created ack binary ns id b)
    (vs : List SVal) (hf : ∀ v ∈ vs, v.FloatsOk) (h1 : FirstOk ack vs) :
    addResults b vs = vs.map (fun v => if (docOf v).isSome then .ok () else .err ()) ∧
    ∃ pre, BInv ack binary ns id (pre ++ docsOf binary vs) (adds b vs) ∧
      if ack then pre = [] else ∃ event, Builder.newEvent event ns id binary = .ok b ∧ pre = [.str event] := by
  have hs : ∀ v, (docWith binary v).isSome = (docOf v).isSome := fun v => docWith_isSome v binary false
  cases ack with
  | true =>
    obtain ⟨i, rfl, rfl⟩ : ∃ i, id = some i ∧ b = Builder.newAck ns i binary := by simpa [Created] using h
    obtain ⟨h2, h3⟩ := bInv_adds_first vs (bInv_new true binary ns (some i)) hf
      (fun v vs' hv => by rw [hs]; exact h1 rfl v vs' hv)
    simp only [hs] at h3
    exact ⟨h3, [], h2, by simp⟩
  | false =>
    obtain ⟨event, he⟩ : ∃ event, Builder.newEvent event ns id binary = .ok b := by simpa [Created] using h
    obtain ⟨b', hb', hi⟩ := newEvent_inv event ns id binary
    rw [he] at hb'
    cases hb'
    obtain ⟨h2, h3⟩ := bInv_adds vs hi (by simp) hf
    simp only [hs] at h3
    exact ⟨h3, [.str event], h2, by simpa using he⟩

/-- C05, numbering: the text announces the number of byte strings sent, its arguments denote
the values with each byte string replaced by a placeholder numbered from 0 in order of
appearance, and the attachments are the byte strings in the same order (`SentBinary`).
(`docsOf true` are the documents as the code writes them, see C07; an ack must not start
with a failing argument, see C04.) -/
theorem C05_numbering (ack : Bool) (ns : Str) (id : Option Nat) (b : Builder) (h : Created ack true ns id b)
    (vs : List SVal) (hf : ∀ v ∈ vs, v.FloatsOk) (h1 : FirstOk ack vs) :
    addResults b vs = vs.map (fun v => if (docOf v).isSome then .ok () else .err ()) ∧
    ∃ (pre : List Doc) (ws : List Ws), (adds b vs).finish = .ok ws ∧
      SentBinary ack ns id (pre ++ docsOf true vs) ws ∧
      if ack then pre = [] else ∃ event, Builder.newEvent event ns id true = .ok b ∧ pre = [.str event] := by
  obtain ⟨h2, pre, h3, h4⟩ := created_inv h vs hf h1
  obtain ⟨ws, h5, h6⟩ := bInv_finish h3
  exact ⟨h2, pre, ws, h5, h6, h4⟩

theorem phNumsM_flat (kvs : List (List Char × Doc))
    (h : ∀ k n k', kvs = [(k, .bool true), (k', .num n)] → k ≠ phKey) :
    phNums (.obj kvs) = phNumsM kvs := by
  unfold phNums
  split
  · rename_i k k' n
    have := h k n k' rfl
    rw [if_neg (fun h => this h.1)]
    simp only [phNumsM, phNums, List.append_nil]
  · rfl

theorem numerals_append (n a b : Nat) : numerals n (a + b) = numerals n a ++ numerals (n + a) b := by
  unfold numerals
  rw [← List.map_append, List.range'_append_1]

mutual
theorem phNums_numbered : ∀ (d : Doc) (n : Nat), phKey ∉ d.keys →
    phNums (d.numbered n) = numerals n d.blobs.length
  | .null, n, _ | .bool _, n, _ | .num _, n, _ | .str _, n, _ => by
    simp [Doc.numbered, phNums, Doc.blobs, numerals]
  | .blob b, n, _ => by
    simp only [Doc.numbered, placeholderDoc, phNums, Doc.blobs, numerals]
    rw [if_pos ⟨rfl, rfl⟩]
    rfl
  | .arr ds, n, h => by
    simp only [Doc.numbered, phNums, Doc.blobs]
    exact phNumsL_numbered ds n (by simpa [Doc.keys] using h)
  | .obj kvs, n, h => by
    have hk : phKey ∉ keysM kvs := by simpa [Doc.keys] using h
    simp only [Doc.numbered, Doc.blobs]
    rw [phNumsM_flat, phNumsM_numbered kvs n hk]
    intro k m k' he hkk
    subst hkk
    apply hk
    cases kvs with
    | nil => simp [numberedM] at he
    | cons kv kvs =>
      obtain ⟨k1, d1⟩ := kv
      simp [numberedM] at he
      simp [keysM, he.1.1]
theorem phNumsL_numbered : ∀ (ds : List Doc) (n : Nat), phKey ∉ keysL ds →
    phNumsL (numberedL n ds) = numerals n (blobsL ds).length
  | [], n, _ => by simp [numberedL, phNumsL, blobsL, numerals]
  | d :: ds, n, h => by
    simp only [keysL, List.mem_append, not_or] at h
    simp only [numberedL, phNumsL, blobsL, List.length_append]
    rw [phNums_numbered d n h.1, phNumsL_numbered ds _ h.2, numerals_append]
theorem phNumsM_numbered : ∀ (kvs : List (List Char × Doc)) (n : Nat), phKey ∉ keysM kvs →
    phNumsM (numberedM n kvs) = numerals n (blobsM kvs).length
  | [], n, _ => by simp [numberedM, phNumsM, blobsM, numerals]
  | (k, d) :: kvs, n, h => by
    simp only [keysM, List.mem_cons, List.mem_append, not_or] at h
    simp only [numberedM, phNumsM, blobsM, List.length_append]
    rw [phNums_numbered d n h.2.1, phNumsM_numbered kvs _ h.2.2, numerals_append]
end

/-- C05, no other placeholders: if no map or struct sent has a key `_placeholder`, the
placeholders that occur in the text are numbered 0, 1, 2, …, one for each attachment. -/
theorem C05_placeholders (ack : Bool) (ns : Str) (id : Option Nat) (ds : List Doc) (ws : List Ws)
    (h : SentBinary ack ns id ds ws) (hk : phKey ∉ keysL ds) :
    ∃ (p : Pkt) (vs : List Str) (es : List Doc) (atts : List Ws), ws = textMessage p :: atts ∧ p.ArgTexts vs ∧
      TextsDenote vs es ∧ phNumsL es = numerals 0 atts.length := by
  obtain ⟨p, vs, _, _, _, _, _, h1, h2, _, h3⟩ := h
  refine ⟨p, vs, numberedL 0 ds, _, h3, h1, h2, ?_⟩
  rw [phNumsL_numbered ds 0 hk]
  simp

/-- An application can send a map that looks like a placeholder; then there are more
placeholders in the text than attachments. -/
theorem C05_lookalike : ∃ b, Builder.newEvent ['e'] ['/'] none true = .ok b ∧
    (adds b [.map [(.str "_placeholder".toList, .bool true), (.str "num".toList, .int 0)]]).finish =
      .ok [.text "450-[\"e\",{\"_placeholder\":true,\"num\":0}]".toList] :=
  have ⟨b, hb, hf⟩ := Res.okWith_spec (r := Builder.newEvent ['e'] ['/'] none true)
    (f := fun b => (adds b [.map [(.str "_placeholder".toList, .bool true), (.str "num".toList, .int 0)]]).finish =
      .ok [.text "450-[\"e\",{\"_placeholder\":true,\"num\":0}]".toList]) (by decide +kernel)
  ⟨b, hb, of_decide_eq_true hf⟩

-- non-vacuity of `C05_count`, `C05_numbering` and `C05_placeholders`: two byte strings,
-- a failing value in between
example : ∃ b, Created false true ['/'] none b ∧
    (adds b [.bytes [1], .seq [.bytes [9], .fail], .seq [.u8 2, .u8 3]]).finish =
      .ok [.text "452-[\"e\",{\"_placeholder\":true,\"num\":0},{\"_placeholder\":true,\"num\":1}]".toList,
        .binary [4, 1], .binary [4, 2, 3]] :=
  have ⟨b, hb, hf⟩ := Res.okWith_spec (r := Builder.newEvent ['e'] ['/'] none true)
    (f := fun b => (adds b [.bytes [1], .seq [.bytes [9], .fail], .seq [.u8 2, .u8 3]]).finish =
      .ok [.text "452-[\"e\",{\"_placeholder\":true,\"num\":0},{\"_placeholder\":true,\"num\":1}]".toList,
        .binary [4, 1], .binary [4, 2, 3]]) (by decide +kernel)
  ⟨b, by simpa [Created] using ⟨_, hb⟩, of_decide_eq_true hf⟩

/-! ### C06 -/

/-- C06: no builder call panics: creating an event builder, adding any value to any builder,
finishing a builder after any additions. -/
theorem C06_no_panic :
    (∀ (event ns : Str) (id : Option Nat) (binary : Bool), Builder.newEvent event ns id binary ≠ .panic) ∧
    (∀ (b : Builder) (v : SVal), (b.serializeArg v).2 ≠ .panic) ∧
    (∀ (ack binary : Bool) (ns : Str) (id : Option Nat) (b : Builder), Created ack binary ns id b →
      ∀ vs, (adds b vs).finish ≠ .panic) ∧
    (∀ (s : Str) (d : Bytes), encodeMessage s ≠ .panic ∧ encodeBinary d ≠ .panic) := by
  refine ⟨?_, ?_, ?_, ?_⟩
  · intro event ns id binary h
    obtain ⟨b, hb, _⟩ := newEvent_inv event ns id binary
    rw [hb] at h
    simp at h
  · intro b v
    rcases serializeArg_cases b v with ⟨h, _⟩ | h
    · rw [h]; simp
    · rw [h]; simp
  · intro ack binary ns id b h vs
    cases binary with
    | true =>
      obtain ⟨s, atts, h1, _⟩ := C05_count ack ns id b h vs
      rw [h1]; simp
    | false =>
      obtain ⟨s, h1, h2⟩ := text_form h vs
      generalize adds b vs = c at h1 h2
      obtain ⟨buf, ap, first⟩ := c
      simp only at h1 h2
      subst h1 h2
      simp [Builder.finish, serializeHeader, packageMessage]
  · intro s d
    simp [encodeMessage, packageMessage, encodeBinary, packageBinary]

-- the assertion is not vacuous: packaging other data does panic
example : packageMessage ['2'] = .panic ∧ packageBinary [] = .panic := by decide

/-! ### C07 -/

/-- C07 is false: a sequence that starts with a `u8` and goes on with something else is sent
with an additional first element 4. -/
theorem C07_counterexample : ∃ b, Builder.newEvent ['e'] ['/'] none true = .ok b ∧
    (adds b [.seq [.u8 1, .int 300]]).finish = .ok [.text "450-[\"e\",[4,1,300]]".toList] ∧
    ∃ b', Builder.newEvent ['e'] ['/'] none false = .ok b' ∧
      (adds b' [.seq [.u8 1, .int 300]]).finish = .ok [.text "42[\"e\",[1,300]]".toList] :=
  have ⟨b, hb, hf⟩ := Res.okWith_spec (r := Builder.newEvent ['e'] ['/'] none true)
    (f := fun b => (adds b [.seq [.u8 1, .int 300]]).finish = .ok [.text "450-[\"e\",[4,1,300]]".toList])
    (by decide +kernel)
  have ⟨b', hb', hf'⟩ := Res.okWith_spec (r := Builder.newEvent ['e'] ['/'] none false)
    (f := fun b => (adds b [.seq [.u8 1, .int 300]]).finish = .ok [.text "42[\"e\",[1,300]]".toList])
    (by decide +kernel)
  ⟨b, hb, of_decide_eq_true hf, b', hb', of_decide_eq_true hf'⟩

theorem docsOf_noMixed {vs : List SVal} (h : ∀ v ∈ vs, v.NoMixed) : docsOf true vs = docsOf false vs := by
  induction vs with
  | nil => rfl
  | cons v vs ih =>
    have := ih fun x hx => h x (by simp [hx])
    unfold docsOf at this ⊢
    simp [List.filterMap_cons, docWith_noMixed v (h v (by simp)), this]

/-- C07, what holds: the values are sent as the documents they stand for, if no sequence
anywhere in them is mixed (starts with a `u8` and has an element that is no `u8`); in these
documents a byte string or a non-empty sequence of `u8` is a blob, which is an attachment
with exactly these bytes, and every other sequence is the array of its elements.  Missing for
the full claim: mixed sequences (`C07_counterexample`). -/
theorem C07_partial (ack : Bool) (ns : Str) (id : Option Nat) (b : Builder) (h : Created ack true ns id b)
    (vs : List SVal) (hf : ∀ v ∈ vs, v.FloatsOk) (h1 : FirstOk ack vs) (hm : ∀ v ∈ vs, v.NoMixed) :
    (∃ (pre : List Doc) (ws : List Ws), (adds b vs).finish = .ok ws ∧
      SentBinary ack ns id (pre ++ vs.filterMap docOf) ws ∧
      if ack then pre = [] else ∃ event, Builder.newEvent event ns id true = .ok b ∧ pre = [.str event]) ∧
    (∀ x, docOf (.bytes x) = some (.blob x)) ∧
    (∀ x : Bytes, x ≠ [] → docOf (.seq (x.map SVal.u8)) = some (.blob x)) ∧
    (∀ us, (∃ u ∈ us, ∀ n, u ≠ SVal.u8 n) ∨ us = [] →
      docOf (.seq us) = (us.mapM docOf).map Doc.arr) := by
  refine ⟨?_, fun x => by simp [docOf, docWith], ?_, ?_⟩
  · obtain ⟨_, pre, ws, h2, h3, h4⟩ := C05_numbering ack ns id b h vs hf h1
    rw [docsOf_noMixed hm] at h3
    exact ⟨pre, ws, h2, h3, h4⟩
  · intro x hx
    cases x with
    | nil => simp at hx
    | cons y x =>
      have : allU8 ((y :: x).map SVal.u8) = some (y :: x) := allU8_some_iff.2 rfl
      simp only [List.map_cons] at this
      simp only [docOf, List.map_cons, docWith, this]
  · intro us hus
    have hdocs : ∀ us : List SVal, docsWith false us = us.mapM docOf := by
      intro us
      induction us with
      | nil => simp [docsWith]
      | cons u us ih =>
        rw [docsWith, ih, List.mapM_cons]
        unfold docOf
        cases docWith false u <;> simp [Option.bind_eq_bind, Option.bind]
        cases List.mapM (docWith false) us <;> simp
    cases us with
    | nil => simp [docOf, docWith]
    | cons u us =>
      have hn : allU8 (u :: us) = none := by
        cases ha : allU8 (u :: us) with
        | none => rfl
        | some x =>
          exfalso
          rcases hus with ⟨w, hw, hne⟩ | hus
          · rw [allU8_some_iff.1 ha] at hw
            obtain ⟨n, _, rfl⟩ := List.mem_map.1 hw
            exact hne n rfl
          · simp at hus
      show docWith false (.seq (u :: us)) = _
      rw [docWith, hn, hdocs]
      simp

/-! ### C08 -/

/-- C08: in text mode there is exactly one message, a text message that begins with `4` and
the kind digit — after any additions; if the values are fit for it, its arguments are
the JSON documents with byte strings as arrays of numbers. -/
theorem C08_text_mode (ack : Bool) (ns : Str) (id : Option Nat) (b : Builder) (h : Created ack false ns id b)
    (vs : List SVal) :
    (∃ s, (adds b vs).finish = .ok [.text ('4' :: kindDigit ack false :: s)]) ∧
    ((∀ v ∈ vs, v.FloatsOk) → FirstOk ack vs →
      addResults b vs = vs.map (fun v => if (docOf v).isSome then .ok () else .err ()) ∧
      ∃ (pre : List Doc) (ws : List Ws), (adds b vs).finish = .ok ws ∧
        SentText ack ns id (pre ++ vs.filterMap docOf) ws ∧
        if ack then pre = [] else ∃ event, Builder.newEvent event ns id false = .ok b ∧ pre = [.str event]) := by
  constructor
  · obtain ⟨s, h1, h2⟩ := text_form h vs
    generalize adds b vs = c at h1 h2
    obtain ⟨buf, ap, first⟩ := c
    simp only at h1 h2
    subst h1 h2
    simp [Builder.finish, serializeHeader, packageMessage, bKind_digit]
  · intro hf h1
    obtain ⟨h2, pre, h3, h4⟩ := created_inv h vs hf h1
    obtain ⟨ws, h5, h6⟩ := bInv_finish h3
    exact ⟨h2, pre, ws, h5, h6, h4⟩

-- non-vacuity: bytes in text mode
example : Created true false ['/', 'n'] (some 7) (Builder.newAck ['/', 'n'] 7 false) ∧
    (adds (Builder.newAck ['/', 'n'] 7 false) [.bytes [1, 2]]).finish =
      .ok [.text "43/n,7[[1,2]]".toList] :=
  ⟨by simp [Created], by decide +kernel⟩

/-! ### C09 -/

theorem pkt_unique_of_len {p q : Pkt} (hp : p.Wf) (hq : q.Wf) (h : p.text = q.text)
    (hl : p.parts.nsLen = q.parts.nsLen) : p = q := by
  have := parts_unique_of_len (Pkt.partsWf hp) (Pkt.partsWf hq) h hl
  obtain ⟨k, a, n, i, g⟩ := p
  obtain ⟨k', a', n', i', g'⟩ := q
  simp only [Pkt.parts, Parts.mk.injEq] at this
  obtain ⟨rfl, ha, rfl, hi, rfl⟩ := this
  rw [map_decimal_inj ha, map_decimal_inj hi]

/-- C09: packets of the same text are the same packet, if their argument parts are JSON
arrays (or absent): same kind, count, namespace, id, and arguments. -/
theorem C09_injective (p q : Pkt) (vs vs' : List Str) (hp : p.Wf) (hq : q.Wf) (hv : p.ArgTexts vs)
    (hv' : q.ArgTexts vs') (he : p.text = q.text) : p = q ∧ vs = vs' := by
  have key : ∀ (p q : Pkt) (vs vs' : List Str), p.Wf → q.Wf → p.ArgTexts vs → q.ArgTexts vs' →
      p.text = q.text → ¬ p.parts.nsLen < q.parts.nsLen := by
    intro p q vs vs' hp hq hv hv' he hlt
    obtain ⟨n, g, u, g', h1, h2, h3, h4, h5⟩ :=
      longer_split (Pkt.partsWf hp) (Pkt.partsWf hq) he.symm hlt
    have h2 : p.args = some g := h2
    have h3 : q.args = some g' := h3
    unfold Pkt.ArgTexts at hv hv'
    rw [h2] at hv
    rw [h3] at hv'
    obtain ⟨b, hb, hbe⟩ := bracketed_array (hp.args g h2) hv
    obtain ⟨b', hb', hbe'⟩ := bracketed_array (hq.args g' h3) hv'
    rw [hb, hb'] at h5
    exact array_no_suffix hbe hbe' (part_id_digits (Pkt.partsWf hq).id) h5
  have hlen : p.parts.nsLen = q.parts.nsLen := by
    have h1 := key p q vs vs' hp hq hv hv' he
    have h2 := key q p vs' vs hq hp hv' hv he.symm
    omega
  have hpq : p = q := pkt_unique_of_len hp hq he hlen
  subst hpq
  exact ⟨rfl, argTexts_unique hv hv'⟩

/-- C09 for the builders: two builders whose first messages agree were created with the same
kind, namespace and id (and have the same number of attachments). -/
theorem C09_builders (ack binary ack' binary' : Bool) (ns ns' : Str) (id id' : Option Nat) (b b' : Builder)
    (h : Created ack binary ns id b) (h' : Created ack' binary' ns' id' b') (hn : NsOk ns) (hn' : NsOk ns')
    (vs vs' : List SVal) (hf : ∀ v ∈ vs, v.FloatsOk) (hf' : ∀ v ∈ vs', v.FloatsOk)
    (h1 : FirstOk ack vs) (h1' : FirstOk ack' vs') (w : Ws) (atts atts' : List Ws)
    (he : (adds b vs).finish = .ok (w :: atts)) (he' : (adds b' vs').finish = .ok (w :: atts')) :
    ack = ack' ∧ binary = binary' ∧ ns = ns' ∧ id = id' ∧ atts.length = atts'.length := by
  have form : ∀ (ack binary : Bool) (ns : Str) (id : Option Nat) (b : Builder), Created ack binary ns id b →
      NsOk ns → ∀ (vs : List SVal), (∀ v ∈ vs, v.FloatsOk) → FirstOk ack vs → ∀ atts,
      (adds b vs).finish = .ok (w :: atts) →
      ∃ (p : Pkt) (us : List Str), w = textMessage p ∧ p.Wf ∧ p.ArgTexts us ∧ p.kind = kindDigit ack binary ∧
        p.ns = nsPart ns ∧ p.id = id ∧ p.att = (if binary then some atts.length else none) ∧
        (binary = false → atts = []) := by
    intro ack binary ns id b h hn vs hf h1 atts he
    obtain ⟨_, pre, h3, _⟩ := created_inv h vs hf h1
    obtain ⟨ws, h5, h6⟩ := bInv_finish h3
    rw [he] at h5
    cases h5
    cases binary with
    | true =>
      obtain ⟨p, us, g1, g2, g3, g4, _, g5, _, g6, g7⟩ := h6
      simp only [List.cons.injEq] at g7
      exact ⟨p, us, g7.1, g6 hn, g5, g1, g3, g4, by simp [g2, g7.2], by simp⟩
    | false =>
      obtain ⟨p, us, g1, g2, g3, g4, _, g5, _, g6, g7⟩ := h6
      simp only [List.cons.injEq] at g7
      exact ⟨p, us, g7.1, g6 hn, g5, g1, g3, g4, by simp [g2], fun _ => g7.2⟩
  obtain ⟨p, us, f1, f2, f3, f4, f5, f6, f7, f8⟩ := form ack binary ns id b h hn vs hf h1 atts he
  obtain ⟨q, us', g1, g2, g3, g4, g5, g6, g7, g8⟩ := form ack' binary' ns' id' b' h' hn' vs' hf' h1' atts' he'
  have ht : p.text = q.text := by
    rw [f1] at g1
    simpa [textMessage] using g1
  obtain ⟨rfl, _⟩ := C09_injective p q us us' f2 g2 f3 g3 ht
  rw [f4] at g4
  rw [f5] at g5
  rw [f6] at g6
  rw [f7] at g7
  have hk : ack = ack' ∧ binary = binary' := by
    revert g4
    cases ack <;> cases ack' <;> cases binary <;> cases binary' <;> simp [kindDigit]
  obtain ⟨rfl, rfl⟩ := hk
  refine ⟨rfl, rfl, ?_, g6, ?_⟩
  · unfold nsPart at g5
    split at g5 <;> split at g5 <;> simp_all
  · cases binary with
    | true => simpa using g7
    | false => rw [f8 rfl, g8 rfl]

-- non-vacuity of `C09_injective`
example : ∃ (p : Pkt) (vs : List Str), p.Wf ∧ p.ArgTexts vs ∧ p.text = "3/n,7[\"a\"]".toList := by
  refine ⟨⟨'3', none, some ['/', 'n'], some 7, some "[\"a\"]".toList⟩, ["\"a\"".toList], ?_, ?_, by decide⟩
  · exact ⟨by simp, fun n hn => ⟨'n', [], by simpa using hn.symm, by simp⟩,
      fun g hg => ⟨"\"a\"".toList, by simpa using hg.symm, by decide⟩⟩
  · exact ⟨[], "\"a\"".toList, [], by decide, by simp [IsWs], by simp [IsWs],
      elemTexts_one (.str ['a']) ⟨rfl, .char 'a' [] (by decide) (by decide) (by decide) .nil⟩⟩
-- what the claim needs: without array arguments two packets can have the same text
example : Pkt.text ⟨'2', none, some "/n".toList, none, some "[,[]]".toList⟩ =
    Pkt.text ⟨'2', none, some "/n,[".toList, none, some "[]]".toList⟩ := by decide

/-! ### C01, C02, C03 -/

/-- The engine messages of a packet text and its attachments. -/
def msgOfText (p : Pkt) : EMsg := .text (OwnedSubslice.new ('4' :: p.text) 1 (blen ('4' :: p.text)))
def msgOfBytes (b : Bytes) : EMsg := .binary (OwnedSubslice.new (4 :: b) 1 (4 :: b).length)

theorem results_sent (p : Pkt) (bl : List Bytes) : results .active (textMessage p :: bl.map attachment) =
    (msgOfText p :: bl.map msgOfBytes).map (fun m => .ok (.message m)) := by
  have h : ∀ bl : List Bytes, results .active (bl.map attachment) =
      (bl.map msgOfBytes).map (fun m => .ok (.message m)) := by
    intro bl
    induction bl with
    | nil => rfl
    | cons b bl ih =>
      simp only [List.map_cons, results, List.cons.injEq]
      exact ⟨rfl, ih⟩
  simp only [List.map_cons, results, List.cons.injEq]
  exact ⟨rfl, h bl⟩

theorem payloads_sent (bl : List Bytes) : Payloads (bl.map msgOfBytes) (bl.map Payload.binary) := by
  induction bl with
  | nil => exact .nil
  | cons b bl ih => exact .cons (deref_binary b) ih

/-- What a peer reads from a packet text followed by its attachments. -/
theorem peer_reads {p : Pkt} {vs : List Str} {bs : List Bytes} {body : Body} (hw : p.Wf) (hf : p.Fits)
    (ha : p.ArgTexts vs) (hm : p.Means vs bs body) (hl : p.ns = none ∨ ∀ g, p.args = some g → ¬ Ambiguous g) :
    ∃ pk, PeerReads .active (textMessage p :: bs.map attachment) pk ∧ Shows pk (p.ns.getD ['/']) body := by
  have hl : p.Longest := by
    rcases hl with hl | hl
    · exact longest_of_none (Pkt.partsWf hw) hl
    · exact (longest_cases hw).2 fun n g _ hg => hl g hg
  have hp : HasPayload (msgOfText p) (.text p.text) := deref_text p.text
  rcases decode_complete hw hl hf ha hm hp (payloads_sent bs) with ⟨hb, pk, hd, hs⟩ | ⟨hb, q, hd, hq, pk, hd', hs⟩
  · exact ⟨pk, ⟨_, _, results_sent p bs, Or.inl ⟨by simp [hb], hd⟩⟩, hs⟩
  · refine ⟨pk, ⟨_, _, results_sent p bs, Or.inr ⟨by simpa using hb, q, hd, ?_, hd'⟩⟩, hs⟩
    simp [partialAttachments, hq]

/-- What a peer reads was decoded. -/
theorem peer_decoded {p : Pkt} {bl : List Bytes} {pk : Packet}
    (h : PeerReads .active (textMessage p :: bl.map attachment) pk) :
    Decoded p.text (bl.map msgOfBytes) pk := by
  obtain ⟨m, ms, h1, h2⟩ := h
  rw [results_sent] at h1
  have h1 : msgOfText p :: bl.map msgOfBytes = m :: ms :=
    List.map_inj_right (fun _ _ h => by simpa using h) |>.1 h1
  cases h1
  have hp : HasPayload (msgOfText p) (.text p.text) := deref_text p.text
  rcases h2 with ⟨hb, hd⟩ | ⟨hb, q, hd, _, hd'⟩
  · exact .alone _ (received_text _) hp hb hd
  · refine .withAttachments _ q (received_text _) hp hd ?_ hd'
    intro x hx
    obtain ⟨b, _, rfl⟩ := List.mem_map.1 hx
    exact received_binary b

/-- The messages are of the default namespace, or their argument text is unambiguous. -/
def Unambiguous (ns : Str) (ws : List Ws) : Prop := ns = ['/'] ∨ ∀ g, HasArgText ws g → ¬ Ambiguous g

theorem nsPart_getD (ns : Str) : (nsPart ns).getD ['/'] = ns := by
  unfold nsPart
  split <;> simp_all

theorem unambiguous_pkt {ns : Str} {p : Pkt} {us : List Str} {rest : List Ws} (hp : p.ns = nsPart ns) (hw : p.Wf)
    (ha : p.ArgTexts us) (h : Unambiguous ns (textMessage p :: rest)) :
    p.ns = none ∨ ∀ g, p.args = some g → ¬ Ambiguous g := by
  rcases h with h | h
  · left; simp [hp, nsPart, h]
  · exact Or.inr fun g hg => h g ⟨p, us, rest, rfl, hw, ha, hg⟩

/-- C01: an event sent in text mode is one message; a peer with an open connection reads
from it exactly the event: namespace, id, and argument texts that denote the event name and
the documents of the arguments that could be serialized, in order; byte strings are arrays
of numbers.  Condition (see C15): default namespace or an unambiguous argument text. -/
theorem C01_event_text (event ns : Str) (id : Option Nat) (hn : NsOk ns) (hid : ∀ i, id = some i → i < 2 ^ 64)
    (args : List SVal) (hf : ∀ v ∈ args, v.FloatsOk) :
    ∃ b w, Builder.newEvent event ns id false = .ok b ∧ (adds b args).finish = .ok [w] ∧
      (Unambiguous ns [w] → ∃ pk vs, PeerReads .active [w] pk ∧ Shows pk ns (.event id vs []) ∧
        TextsDenote vs (plains (.str event :: args.filterMap docOf))) := by
  obtain ⟨b, hb, hi⟩ := newEvent_inv event ns id false
  obtain ⟨h2, _⟩ := bInv_adds args hi (by simp) hf
  obtain ⟨ws, h5, p, us, g1, g2, g3, g4, _, g5, g6, g7, g8⟩ := bInv_finish h2
  subst g8
  refine ⟨b, _, hb, h5, ?_⟩
  intro hu
  have hus : us ≠ [] := by
    have := textsDenote_length g6
    intro h
    simp [h, plains] at this
  obtain ⟨pk, h6, h7⟩ := peer_reads (bs := []) (body := .event p.id us []) (g7 hn)
    ⟨by simp [g2], by rw [g4]; exact hid⟩ g5 (.event (Or.inl ⟨g1, rfl⟩) hus (by simp [g2]))
    (unambiguous_pkt g3 (g7 hn) g5 hu)
  rw [g3, g4, nsPart_getD] at h7
  exact ⟨pk, us, h6, h7, g6⟩

/-- C02, packet level: an event sent in binary mode is read by the peer, after its last
attachment, as the event: namespace, id, argument texts that denote the event name and the
documents with byte strings replaced by placeholders numbered in order, and the byte strings
as attachments.  (The reading of the arguments as values is in `C02_value_partial`.) -/
theorem C02_event_binary (event ns : Str) (id : Option Nat) (hn : NsOk ns) (hid : ∀ i, id = some i → i < 2 ^ 64)
    (args : List SVal) (hf : ∀ v ∈ args, v.FloatsOk) (hm : ∀ v ∈ args, v.NoMixed)
    (hc : (blobsL (args.filterMap docOf)).length < 2 ^ 64) :
    ∃ b ws, Builder.newEvent event ns id true = .ok b ∧ (adds b args).finish = .ok ws ∧
      (Unambiguous ns ws → ∃ pk vs, PeerReads .active ws pk ∧
        Shows pk ns (.event id vs (blobsL (args.filterMap docOf))) ∧
        TextsDenote vs (numberedL 0 (.str event :: args.filterMap docOf))) := by
  obtain ⟨b, hb, hi⟩ := newEvent_inv event ns id true
  obtain ⟨h2, _⟩ := bInv_adds args hi (by simp) hf
  obtain ⟨ws, h5, p, us, g1, g2, g3, g4, _, g5, g6, g7, g8⟩ := bInv_finish h2
  rw [docsOf_noMixed hm] at g2 g6 g8
  have hbl : blobsL ([.str event] ++ docsOf false args) = blobsL (args.filterMap docOf) := by
    simp [blobsL, Doc.blobs]; rfl
  rw [hbl] at g2 g8
  subst g8
  refine ⟨b, _, hb, h5, ?_⟩
  intro hu
  have hus : us ≠ [] := by
    have := textsDenote_length g6
    intro h
    simp [h, numberedL] at this
  obtain ⟨pk, h6, h7⟩ := peer_reads (bs := blobsL (args.filterMap docOf))
    (body := .event p.id us (blobsL (args.filterMap docOf))) (g7 hn)
    ⟨by rw [g2]; simpa using hc, by rw [g4]; exact hid⟩ g5 (.event (Or.inr ⟨g1, by simp [g2]⟩) hus (by simp [g2]))
    (unambiguous_pkt g3 (g7 hn) g5 hu)
  rw [g3, g4, nsPart_getD] at h7
  exact ⟨pk, us, h6, h7, g6⟩

/-- The documents of an ack as they appear in the text, and its attachments. -/
def ackWire (binary : Bool) (ds : List Doc) : List Doc := if binary then numberedL 0 ds else plains ds
def ackBlobs (binary : Bool) (ds : List Doc) : List Bytes := if binary then blobsL ds else []

/-- C03, what holds: an ack with at least one argument, of which the first can be serialized
(see C04), is read by the peer as the ack.  Missing for the full claim: acks without
arguments (`C03_counterexample`), ambiguous argument texts (C15), and mixed sequences in
binary mode (C07). -/
theorem C03_partial (binary : Bool) (ns : Str) (id : Nat) (hn : NsOk ns) (hid : id < 2 ^ 64)
    (arg : SVal) (args : List SVal) (hf : ∀ v ∈ arg :: args, v.FloatsOk) (hm : binary = true → ∀ v ∈ arg :: args, v.NoMixed)
    (h1 : (docOf arg).isSome) (hc : (ackBlobs binary ((arg :: args).filterMap docOf)).length < 2 ^ 64) :
    ∃ ws, (adds (Builder.newAck ns id binary) (arg :: args)).finish = .ok ws ∧
      (Unambiguous ns ws → ∃ pk vs, PeerReads .active ws pk ∧
        Shows pk ns (.ack id vs (ackBlobs binary ((arg :: args).filterMap docOf))) ∧
        TextsDenote vs (ackWire binary ((arg :: args).filterMap docOf))) := by
  obtain ⟨d, hd⟩ := Option.isSome_iff_exists.1 h1
  have hne : (arg :: args).filterMap docOf ≠ [] := by simp [hd]
  obtain ⟨h2, _⟩ := bInv_adds_first (arg :: args) (bInv_new true binary ns (some id)) hf
    (fun v vs' hv => by
      simp only [List.cons.injEq] at hv
      rw [← hv.1, docWith_isSome arg binary false]
      exact h1)
  have hdocs : docsOf binary (arg :: args) = (arg :: args).filterMap docOf := by
    cases binary with
    | false => rfl
    | true => exact docsOf_noMixed (hm rfl)
  rw [hdocs] at h2
  generalize (arg :: args).filterMap docOf = ds at *
  cases binary with
  | false =>
    obtain ⟨ws, h5, p, us, g1, g2, g3, g4, _, g5, g6, g7, g8⟩ := bInv_finish h2
    subst g8
    refine ⟨_, h5, fun hu => ?_⟩
    have hus : us ≠ [] := by
      have := textsDenote_length g6
      rw [plains_length] at this
      intro h
      rw [h] at this
      exact hne (List.length_eq_zero_iff.1 this.symm)
    obtain ⟨pk, h6, h7⟩ := peer_reads (bs := []) (body := .ack id us []) (g7 hn)
      ⟨by simp [g2], by rw [g4]; simpa using hid⟩ g5 (.ack id (Or.inl ⟨g1, rfl⟩) g4 hus (by simp [g2]))
      (unambiguous_pkt g3 (g7 hn) g5 hu)
    rw [g3, nsPart_getD] at h7
    exact ⟨pk, us, h6, h7, g6⟩
  | true =>
    obtain ⟨ws, h5, p, us, g1, g2, g3, g4, _, g5, g6, g7, g8⟩ := bInv_finish h2
    subst g8
    refine ⟨_, h5, fun hu => ?_⟩
    have hus : us ≠ [] := by
      have := textsDenote_length g6
      rw [numberedL_length] at this
      intro h
      rw [h] at this
      exact hne (List.length_eq_zero_iff.1 this.symm)
    obtain ⟨pk, h6, h7⟩ := peer_reads (bs := blobsL ds) (body := .ack id us (blobsL ds)) (g7 hn)
      ⟨by rw [g2]; simpa [ackBlobs] using hc, by rw [g4]; simpa using hid⟩ g5
      (.ack id (Or.inr ⟨g1, by simp [g2]⟩) g4 hus (by simp [g2])) (unambiguous_pkt g3 (g7 hn) g5 hu)
    rw [g3, nsPart_getD] at h7
    exact ⟨pk, us, h6, h7, g6⟩

/-- C03 is false for replies without arguments: no such ack is read by a peer as a packet. -/
theorem C03_counterexample (binary : Bool) (ns : Str) (id : Nat) (hn : NsOk ns) :
    ∃ ws, (Builder.newAck ns id binary).finish = .ok ws ∧ ∀ pk, ¬ PeerReads .active ws pk := by
  obtain ⟨ws, h5, h6⟩ := bInv_finish (bInv_new true binary ns (some id))
  refine ⟨ws, h5, fun pk hpk => ?_⟩
  have key : ∀ (p : Pkt) (us : List Str), p.Wf → p.ArgTexts us → us = [] → p.kind ∈ ['3', '6'] →
      ¬ PeerReads .active (textMessage p :: ([] : List Bytes).map attachment) pk := by
    intro p us hw ha hus hk hr
    obtain ⟨q, vs', bs, body, h1, h2, h3, h4, h5, h6, h7, h8⟩ := decoded_means (peer_decoded hr)
    obtain ⟨rfl, rfl⟩ := sent_is_read hw h1 h2 h3 ha h5
    cases h7 with
    | connect h => rw [h] at hk; simp at hk
    | disconnect h => rw [h] at hk; simp at hk
    | event h h' => exact h' hus
    | ack _ _ _ h' => exact h' hus
  cases binary with
  | false =>
    obtain ⟨p, us, g1, g2, g3, g4, _, g5, g6, g7, g8⟩ := h6
    subst g8
    exact key p us (g7 hn) g5 (by simpa [plains] using textsDenote_length g6) (by simp [g1, kindDigit]) hpk
  | true =>
    obtain ⟨p, us, g1, g2, g3, g4, _, g5, g6, g7, g8⟩ := h6
    subst g8
    exact key p us (g7 hn) g5 (by simpa [numberedL] using textsDenote_length g6) (by simp [g1, kindDigit]) hpk

/-- An argument text whose only bracket is the first character is unambiguous. -/
theorem unambiguous_of_no_bracket {t : Str} (h : '[' ∉ t) : ¬ Ambiguous ('[' :: t) := by
  rintro ⟨u, d, r, he, _⟩
  cases u with
  | nil => simp at he
  | cons x u =>
    simp only [List.cons_append, List.cons.injEq] at he
    rw [he.2] at h
    simp at h

-- non-vacuity of `C01_event_text`, `C02_event_binary`, `C03_partial`: values to which they
-- apply, and what the peer reads
example : NsOk "/n".toList ∧ NsOk ['/'] ∧ (SVal.seq [.bytes [1], .str ['a']]).FloatsOk ∧
    (SVal.seq [.bytes [1], .str ['a']]).NoMixed ∧ (docOf (.seq [.bytes [1], .str ['a']])).isSome ∧
    ¬ Ambiguous "[\"e\",1]".toList := by
  refine ⟨Or.inr ⟨'n', [], rfl, by decide, by simp⟩, Or.inl rfl, ?_, ?_, by decide,
    unambiguous_of_no_bracket (by decide)⟩
  · simp [SVal.FloatsOk, FloatsOkL]
  · simp [SVal.NoMixed, NoMixedL, Mixed]
example : ∃ b ws pk vs, Builder.newEvent ['e'] ['/'] (some 3) true = .ok b ∧
    (adds b [.seq [.bytes [1], .str ['a']]]).finish = .ok ws ∧ PeerReads .active ws pk ∧
    Shows pk ['/'] (.event (some 3) vs [[1]]) := by
  obtain ⟨b, ws, h1, h2, h3⟩ := C02_event_binary ['e'] ['/'] (some 3) (Or.inl rfl) (by simp)
    [.seq [.bytes [1], .str ['a']]] (by simp [SVal.FloatsOk, FloatsOkL]) (by simp [SVal.NoMixed, NoMixedL, Mixed])
    (by decide)
  obtain ⟨pk, vs, h4, h5, _⟩ := h3 (Or.inl rfl)
  exact ⟨b, ws, pk, vs, h1, h2, h4, h5⟩

end SIO
