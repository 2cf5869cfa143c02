import Verif.Lemmas.Typed
import Verif.Props.WireText
import Verif.Props.Deserialize
import Verif.Props.Loopback
/-
C52: typed values from the builder of one client to `Arg::deserialize` of another one.
-/
namespace SIO
open Spec

/-! ### The exact texts -/

mutual
theorem tree_denotes : ∀ d : Doc, d.blobs = [] → Denotes d.tree d
  | .null, _ | .bool _, _ | .num _, _ => by simp [Doc.tree, Denotes]
  | .str s, _ => by
    simp only [Doc.tree, Denotes, quotedBody_eq]
    exact ⟨s, rfl, escape_denotes s⟩
  | .blob b, h => by simp [Doc.blobs] at h
  | .arr ds, h => by
    simp only [Doc.blobs] at h
    simp only [Doc.tree, Denotes]
    exact ⟨ds, rfl, trees_denote ds h⟩
  | .obj ds, h => by
    simp only [Doc.blobs] at h
    simp only [Doc.tree, Denotes]
    exact ⟨ds, rfl, members_denote ds h⟩
theorem trees_denote : ∀ ds : List Doc, blobsL ds = [] → DenotesL (docTrees ds) ds
  | [], _ => by simp [docTrees, DenotesL]
  | d :: ds, h => by
    simp only [blobsL, List.append_eq_nil_iff] at h
    simp only [docTrees, DenotesL]
    exact ⟨d, ds, rfl, tree_denotes d h.1, trees_denote ds h.2⟩
theorem members_denote : ∀ ds : List (Str × Doc), blobsM ds = [] → DenotesM (memberTrees ds) ds
  | [], _ => by simp [memberTrees, DenotesM]
  | (k, d) :: ds, h => by
    simp only [blobsM, List.append_eq_nil_iff] at h
    simp only [memberTrees, DenotesM]
    exact ⟨k, d, ds, rfl, by rw [quotedBody_eq]; exact escape_denotes k, tree_denotes d h.1, members_denote ds h.2⟩
end

mutual
theorem blobs_numbered : ∀ (d : Doc) (n : Nat), (d.numbered n).blobs = []
  | .null, _ | .bool _, _ | .num _, _ | .str _, _ => by simp [Doc.numbered, Doc.blobs]
  | .blob b, n => by simp [Doc.numbered, placeholderDoc, Doc.blobs, blobsM]
  | .arr ds, n => by simp [Doc.numbered, Doc.blobs, blobsL_numbered ds n]
  | .obj ds, n => by simp [Doc.numbered, Doc.blobs, blobsM_numbered ds n]
theorem blobsL_numbered : ∀ (ds : List Doc) (n : Nat), blobsL (numberedL n ds) = []
  | [], _ => by simp [numberedL, blobsL]
  | d :: ds, n => by simp [numberedL, blobsL, blobs_numbered d, blobsL_numbered ds]
theorem blobsM_numbered : ∀ (ds : List (Str × Doc)) (n : Nat), blobsM (numberedM n ds) = []
  | [], _ => by simp [numberedM, blobsM]
  | (k, d) :: ds, n => by simp [numberedM, blobsM, blobs_numbered d, blobsM_numbered ds]
end

theorem wire_blobs (binary : Bool) (ds : List Doc) : blobsL (wire binary ds) = [] := by
  cases binary
  · exact blobsL_plain ds
  · exact blobsL_numbered ds 0

/-- The text is JSON in the canonical form and on one line. -/
def TextOk (d : Doc) : Prop := IsVal d.tree d.text ∧ NoNl d.text

/-- The builder holds exactly the texts of the documents. -/
def ExactInv (ack binary : Bool) (ns : Str) (id : Option Nat) (ds : List Doc) (b : Builder) : Prop :=
  (∀ d ∈ wire binary ds, TextOk d) ∧ b = mkB ack binary ns id (docTexts (wire binary ds)) (blobsL ds)

theorem docTexts_eq (ds : List Doc) : docTexts ds = ds.map Doc.text := by
  induction ds with
  | nil => simp [docTexts]
  | cons d ds ih => simp [docTexts, ih]

theorem exactInv_new (ack binary : Bool) (ns : Str) (id : Option Nat) :
    ExactInv ack binary ns id [] (Builder.new ns id binary ack) := by
  refine ⟨?_, ?_⟩
  · cases binary <;> simp [wire, numberedL, plains]
  · cases binary <;> cases ack <;> simp [Builder.new, mkB, argBuf, bKind, blobsL, wire, numberedL, plains, docTexts]

theorem exactInv_add {ack binary : Bool} {ns : Str} {id : Option Nat} {ds : List Doc} {b : Builder} {v : SVal} {d : Doc}
    (h : ExactInv ack binary ns id ds b) (hf : v.FloatsOk) (hd : docWith binary v = some d) :
    ∃ b', b.serializeArg v = (b', .ok ()) ∧ ExactInv ack binary ns id (ds ++ [d]) b' := by
  obtain ⟨hv, rfl⟩ := h
  cases binary with
  | false =>
    have hs := Exact.serJ_spec v hf
    have hnl := nlW_serJ v hf
    simp only [docOf, hd, OutW] at hs
    obtain ⟨s, hs, ht⟩ := hs
    rw [hs] at hnl
    obtain ⟨rfl, ht⟩ := ht
    simp only [wire, Bool.false_eq_true, if_false] at hv ⊢
    refine ⟨mkB ack false ns id (docTexts (plains ds) ++ [d.plain.text]) (blobsL (ds ++ [d])), ?_, ?_, ?_⟩
    · simp [Builder.serializeArg, mkB, hs, argBuf_snoc]
    · intro e he
      simp only [wire, plains_append, plains, Bool.false_eq_true, if_false, List.mem_append, List.mem_singleton] at he
      rcases he with he | rfl
      · exact hv e he
      · exact ⟨ht, hnl⟩
    · simp [wire, plains_append, plains, docTexts_eq]
  | true =>
    have hs := Exact.serB_spec v hf
    rw [hd, OutB_some] at hs
    obtain ⟨s, hs, ht⟩ := hs ((blobsL ds).map attMsg)
    have hnl := nlB_serB v hf ⟨(blobsL ds).map attMsg, false⟩
    rw [hs] at hnl
    obtain ⟨rfl, ht⟩ := ht
    simp only [wire, if_true] at hv ⊢
    refine ⟨mkB ack true ns id (docTexts (numberedL 0 ds) ++ [(d.numbered (blobsL ds).length).text]) (blobsL (ds ++ [d])), ?_, ?_, ?_⟩
    · simp [Builder.serializeArg, mkB, hs, argBuf_snoc, blobsL_append, blobsL]
    · intro e he
      simp only [wire, numberedL_append, numberedL, if_true, List.mem_append, List.mem_singleton, Nat.zero_add] at he
      rcases he with he | rfl
      · exact hv e he
      · exact ⟨by simpa using ht, by simpa using hnl⟩
    · simp [wire, numberedL_append, numberedL, docTexts_eq]

theorem exactInv_adds {ack binary : Bool} {ns : Str} {id : Option Nat} : ∀ (vs : List SVal) {ds es : List Doc} {b : Builder},
    ExactInv ack binary ns id ds b → (∀ v ∈ vs, v.FloatsOk) → vs.map (docWith binary) = es.map some →
    ExactInv ack binary ns id (ds ++ es) (adds b vs)
  | [], ds, es, b, h, hf, he => by
    have : es = [] := by cases es <;> simp at he ⊢
    subst this
    simpa [adds] using h
  | v :: vs, ds, es, b, h, hf, he => by
    cases es with
    | nil => simp at he
    | cons e es =>
      simp only [List.map_cons, List.cons.injEq] at he
      obtain ⟨b', h1, h2⟩ := exactInv_add h (hf v (by simp)) he.1
      have := exactInv_adds vs h2 (fun x hx => hf x (by simp [hx])) he.2
      simpa [adds, h1] using this

theorem textsDenote_exact : ∀ ds : List Doc, (∀ d ∈ ds, TextOk d) → blobsL ds = [] → TextsDenote (docTexts ds) ds
  | [], _, _ => .nil
  | d :: ds, h, hb => by
    simp only [blobsL, List.append_eq_nil_iff] at hb
    exact .cons ⟨d.tree, (h d (by simp)).1, tree_denotes d hb.1⟩
      (textsDenote_exact ds (fun e he => h e (by simp [he])) hb.2)


/-! ### Reading one argument -/

theorem plains_get : ∀ (ds : List Doc) (i : Nat), (plains ds)[i]? = ds[i]?.map Doc.plain
  | [], i => by simp [plains]
  | d :: ds, 0 => by simp [plains]
  | d :: ds, i + 1 => by simp [plains, plains_get ds i]

theorem numberedL_get : ∀ (ds : List Doc) (n i : Nat),
    (numberedL n ds)[i]? = ds[i]?.map (Doc.numbered (n + (blobsL (ds.take i)).length))
  | [], n, i => by simp [numberedL]
  | d :: ds, n, 0 => by simp [numberedL, blobsL]
  | d :: ds, n, i + 1 => by simp [numberedL, numberedL_get ds _ i, blobsL, Nat.add_assoc]

theorem blobsAt_get : ∀ {ds : List Doc} {i : Nat} {d : Doc}, ds[i]? = some d → (blobsL ds).length ≤ 2 ^ 64 →
    BlobsAt (blobsL ds) (blobsL (ds.take i)).length d.blobs := by
  intro ds i d hi hl
  have h1 : ds = ds.take i ++ d :: ds.drop (i + 1) := by
    obtain ⟨hlt, rfl⟩ := List.getElem?_eq_some_iff.1 hi
    simp
  have h2 : blobsL ds = blobsL (ds.take i) ++ (d.blobs ++ blobsL (ds.drop (i + 1))) := by
    conv => lhs; rw [h1, blobsL_append, blobsL]
  have h3 : BlobsAt (blobsL ds) 0 (blobsL ds) := ⟨by omega, fun j _ => by simp⟩
  rw [h2] at h3
  have h4 := (blobsAt_append h3).2
  rw [← h2, Nat.zero_add] at h4
  exact (blobsAt_append h4).1

theorem typed_read (x : Ext) {binary : Bool} {ds : List Doc} {A : Args}
    (hA : ArgsShow A (docTexts (wire binary ds)) (ackBlobs binary ds)) (hT : ∀ d ∈ wire binary ds, TextOk d)
    (hc : (ackBlobs binary ds).length < 2 ^ 64) {i : Nat} {d : Doc} (hi : ds[i]? = some d) {ty : Ty} {v : DVal} {s : SVal}
    (hg : Gives x.fin ty v s) (hd : docOf s = some d) (hn : s.NoSomeNull) (hf : ackBlobs binary ds ≠ [] → s.FirstKeys)
    (hk : docDepth d < 128) : ∃ a, A.get i = .ok (some a) ∧ a.deserialize x ty = .ok v := by
  have hnil : A.attachments = [] ↔ ackBlobs binary ds = [] := by
    have := congrArg List.length hA.atts
    simp at this
    rw [← List.length_eq_zero_iff, ← List.length_eq_zero_iff, this]
  by_cases hb : ackBlobs binary ds = []
  · have he : (wire binary ds)[i]? = some d.plain := by
      cases binary with
      | false => simp [wire, plains_get, hi]
      | true =>
        simp only [ackBlobs, if_true] at hb
        simp [wire, numberedL_noBlobs ds 0 hb, plains_get, hi]
    refine ⟨⟨d.plain.text, A.attachments⟩, ?_, ?_⟩
    · rw [hA.get i, docTexts_eq]
      simp [he]
    · have ht := (hT _ (List.mem_of_getElem? he)).1
      have := de_gives x hg d 128 d.plain.tree hn hd (tree_denotes _ (blobs_plain d)) hk
      have hat := allSome_deref hA.atts
      rw [hnil.2 hb] at hat
      simp only [Arg.deserialize, hnil.2 hb, hat, ne_eq, not_true_eq_false, if_false]
      rw [fromStr_text (isText_of_isVal ht), this]
      rfl
  · cases binary with
    | false => simp [ackBlobs] at hb
    | true =>
      have he : (wire true ds)[i]? = some (d.numbered (blobsL (ds.take i)).length) := by
        simp [wire, numberedL_get, hi]
      refine ⟨⟨(d.numbered (blobsL (ds.take i)).length).text, A.attachments⟩, ?_, ?_⟩
      · rw [hA.get i, docTexts_eq]
        simp [he]
      · have ht := (hT _ (List.mem_of_getElem? he)).1
        have hbl : ackBlobs true ds = blobsL ds := rfl
        rw [hbl] at hc
        have := deA_gives x (blobsL ds) hg d 128 _ hn (hf hb) hd (blobsAt_get hi (by omega)) hk
        have hne : A.attachments ≠ [] := fun h => hb (hnil.1 h)
        simp only [Arg.deserialize, allSome_deref hA.atts]
        rw [if_pos hne, fromStrA_whole (isText_of_isVal ht) (whole_gives _ hg d hd), hbl, this]
        rfl


/-! ### The statements -/

/-- What is handed over for the values of a list of typed arguments. -/
abbrev handed (l : List (Ty × DVal × SVal)) : List SVal := l.map fun e => e.2.2

/-- The conditions under which typed arguments are read back: each is what its type hands over
for the value, no `null` inside `Some`, nested less than 128 deep, and, if there are
attachments, all maps and structs start with a plain text key. -/
structure TypedArgs (fin : Str → Bool) (binary : Bool) (l : List (Ty × DVal × SVal)) : Prop where
  gives : ∀ e ∈ l, Gives fin e.1 e.2.1 e.2.2
  some : ∀ e ∈ l, e.2.2.NoSomeNull
  depth : ∀ d ∈ (handed l).filterMap docOf, docDepth d < 128
  blobs : (blobsL ((handed l).filterMap docOf)).length < 2 ^ 64
  keys : binary = true → blobsL ((handed l).filterMap docOf) ≠ [] → ∀ e ∈ l, e.2.2.FirstKeys

theorem handed_docs {fin : Str → Bool} : ∀ {l : List (Ty × DVal × SVal)}, (∀ e ∈ l, Gives fin e.1 e.2.1 e.2.2) →
    ∀ leak, (handed l).map (docWith leak) = ((handed l).filterMap docOf).map some
  | [], _, _ => by simp
  | e :: l, h, leak => by
    obtain ⟨d, hd⟩ := gives_doc (h e (by simp))
    have := handed_docs (l := l) (fun e he => h e (by simp [he])) leak
    simp only [handed] at this
    simp [handed, docOf, hd, this]

theorem handed_get {fin : Str → Bool} {l : List (Ty × DVal × SVal)} (h : ∀ e ∈ l, Gives fin e.1 e.2.1 e.2.2) {i : Nat}
    {e : Ty × DVal × SVal} (hi : l[i]? = some e) :
    ∃ d, docOf e.2.2 = some d ∧ ((handed l).filterMap docOf)[i]? = some d := by
  have h1 := congrArg (·[i]?) (handed_docs h false)
  simp only [List.getElem?_map, handed, hi, Option.map_some] at h1
  cases hd : ((handed l).filterMap docOf)[i]? with
  | none => simp [handed] at hd h1; simp [hd] at h1
  | some d =>
    refine ⟨d, ?_, rfl⟩
    simp only [handed] at hd
    rw [hd] at h1
    simpa [docOf] using h1

theorem handed_floats {fin : Str → Bool} {l : List (Ty × DVal × SVal)} (h : ∀ e ∈ l, Gives fin e.1 e.2.1 e.2.2) :
    ∀ v ∈ handed l, v.FloatsOk := by
  intro v hv
  obtain ⟨e, he, rfl⟩ := List.mem_map.1 hv
  exact gives_floats (h e he)

/-- Every argument, from number `k` on, is read back as the value it was. -/
def ReadBack (x : Ext) (A : Args) (k : Nat) (l : List (Ty × DVal × SVal)) : Prop :=
  ∀ i ty v s, l[i]? = some (ty, v, s) → ∃ a, A.get (k + i) = .ok (some a) ∧ a.deserialize x ty = .ok v

theorem readBack (x : Ext) {binary : Bool} {l : List (Ty × DVal × SVal)} {ds : List Doc} {k : Nat} {A : Args}
    (h : TypedArgs x.fin binary l) (hds : ∀ i, ds[k + i]? = ((handed l).filterMap docOf)[i]?)
    (hbl : blobsL ds = blobsL ((handed l).filterMap docOf))
    (hA : ArgsShow A (docTexts (wire binary ds)) (ackBlobs binary ds)) (hT : ∀ d ∈ wire binary ds, TextOk d) :
    ReadBack x A k l := by
  intro i ty v s hi
  obtain ⟨d, hd, hdi⟩ := handed_get h.gives hi
  have hm := List.mem_of_getElem? hi
  have hc : (ackBlobs binary ds).length < 2 ^ 64 := by
    cases binary with
    | false => simp [ackBlobs]
    | true => simp only [ackBlobs, if_true, hbl]; exact h.blobs
  refine typed_read x hA hT hc (by rw [hds, hdi]) (h.gives _ hm) hd (h.some _ hm) (fun hne => ?_)
    (h.depth d (List.mem_of_getElem? hdi))
  cases binary with
  | false => simp [ackBlobs] at hne
  | true =>
    simp only [ackBlobs, if_true, hbl] at hne
    exact h.keys rfl hne _ hm

/-- The contents of the packet of a builder. -/
def sentBody (ack : Option Nat) (id : Option Nat) (vs : List Str) (bl : List Bytes) : Body :=
  match ack with
  | some i => .ack i vs bl
  | none => .event id vs bl

theorem exact_reads {ack : Option Nat} {binary : Bool} {ns : Str} {id : Option Nat} {ds : List Doc} {b : Builder}
    (h : ExactInv ack.isSome binary ns id ds b) (hne : ds ≠ []) (hn : NsOk ns) (hid : ∀ i, id = some i → i < 2 ^ 64)
    (ha : ∀ i, ack = some i → id = some i) (hc : (ackBlobs binary ds).length < 2 ^ 64) :
    ∃ ws, b.finish = .ok ws ∧ (Unambiguous ns ws → ∃ pk, PeerReads .active ws pk ∧
      Shows pk ns (sentBody ack id (docTexts (wire binary ds)) (ackBlobs binary ds))) := by
  obtain ⟨h1, rfl⟩ := h
  have hden := textsDenote_exact _ h1 (wire_blobs binary ds)
  have hnl : ∀ v ∈ docTexts (wire binary ds), NoNl v := by
    rw [docTexts_eq]
    intro v hv
    obtain ⟨d, hd, rfl⟩ := List.mem_map.1 hv
    exact (h1 d hd).2
  have hvs : docTexts (wire binary ds) ≠ [] := by
    intro he
    have := textsDenote_length hden
    rw [he, wire_length] at this
    exact hne (List.length_eq_zero_iff.1 this.symm)
  refine ⟨_, finish_mkB _ _ _ _ _ _, fun hu => ?_⟩
  have hw : (bPkt ack.isSome binary ns id (docTexts (wire binary ds)) (blobsL ds).length).Wf := bPkt_wf hn hnl
  have hat := bPkt_args (ack := ack.isSome) (binary := binary) (ns := ns) (id := id) (n := (blobsL ds).length) hden
  have hbs : (if binary = true then (blobsL ds).map attachment else []) = (ackBlobs binary ds).map attachment := by
    cases binary <;> simp [ackBlobs]
  rw [hbs] at hu ⊢
  have hm : (bPkt ack.isSome binary ns id (docTexts (wire binary ds)) (blobsL ds).length).Means
      (docTexts (wire binary ds)) (ackBlobs binary ds) (sentBody ack id (docTexts (wire binary ds)) (ackBlobs binary ds)) := by
    cases ack with
    | none =>
      cases binary with
      | false => exact .event (Or.inl ⟨rfl, rfl⟩) hvs (by simp [bPkt, ackBlobs])
      | true => exact .event (Or.inr ⟨rfl, by simp [bPkt]⟩) hvs (by simp [bPkt, ackBlobs])
    | some i =>
      have hi := ha i rfl
      cases binary with
      | false => exact .ack i (Or.inl ⟨rfl, rfl⟩) hi hvs (by simp [bPkt, ackBlobs])
      | true => exact .ack i (Or.inr ⟨rfl, by simp [bPkt]⟩) hi hvs (by simp [bPkt, ackBlobs])
  have hfit : (bPkt ack.isSome binary ns id (docTexts (wire binary ds)) (blobsL ds).length).Fits := by
    refine ⟨?_, hid⟩
    cases binary with
    | false => simp [bPkt]
    | true => simpa [bPkt, ackBlobs] using hc
  obtain ⟨pk, h6, h7⟩ := peer_reads hw hfit hat hm (unambiguous_pkt rfl hw hat hu)
  have : (bPkt ack.isSome binary ns id (docTexts (wire binary ds)) (blobsL ds).length).ns.getD ['/'] = ns := nsPart_getD ns
  rw [this] at h7
  exact ⟨pk, h6, h7⟩

theorem typed_blobs {fin : Str → Bool} {binary : Bool} {l : List (Ty × DVal × SVal)} (h : TypedArgs fin binary l) :
    (ackBlobs binary ((handed l).filterMap docOf)).length < 2 ^ 64 := by
  cases binary with
  | false => simp [ackBlobs]
  | true => exact h.blobs

/-- C52, events: a peer reads typed arguments sent in text or binary mode back, with the types
they were sent with, as the values they were. -/
theorem C52_event (x : Ext) (binary : Bool) (event ns : Str) (id : Option Nat) (hn : NsOk ns)
    (hid : ∀ i, id = some i → i < 2 ^ 64) (l : List (Ty × DVal × SVal)) (h : TypedArgs x.fin binary l) :
    ∃ b ws, Builder.newEvent event ns id binary = .ok b ∧ (adds b (handed l)).finish = .ok ws ∧
      (Unambiguous ns ws → ∃ pk A, PeerReads .active ws pk ∧ pk.namespace_ = .ok ns ∧ pk.data = .ok (.event id A) ∧
        A.len = l.length + 1 ∧ ReadBack x A 1 l) := by
  obtain ⟨b, he, hb⟩ := exactInv_add (v := .str event) (d := .str event) (exactInv_new false binary ns id) trivial (by simp [docWith])
  have hi := exactInv_adds (handed l) hb (handed_floats h.gives) (handed_docs h.gives binary)
  simp only [List.nil_append, List.singleton_append] at hi
  have hbl : ackBlobs binary (.str event :: (handed l).filterMap docOf) = ackBlobs binary ((handed l).filterMap docOf) := by
    cases binary <;> simp [ackBlobs, blobsL, Doc.blobs]
  obtain ⟨ws, h1, h2⟩ := exact_reads (ack := none) hi (by simp) hn hid (by simp) (by rw [hbl]; exact typed_blobs h)
  refine ⟨b, ws, by simp [Builder.newEvent, he], h1, fun hu => ?_⟩
  obtain ⟨pk, h3, h4, A, h5, h6⟩ := h2 hu
  refine ⟨pk, A, h3, h4, h5, ?_, ?_⟩
  · rw [h6.len, docTexts_eq, List.length_map, wire_length, List.length_cons]
    have := congrArg List.length (handed_docs h.gives false)
    simp only [List.length_map, handed] at this
    rw [← this]
  · exact readBack x h (fun i => by rw [Nat.add_comm]; rfl) (by simp [blobsL, Doc.blobs]) h6 hi.1

/-- C52, replies: the same for replies with at least one argument. -/
theorem C52_reply (x : Ext) (binary : Bool) (ns : Str) (id : Nat) (hn : NsOk ns) (hid : id < 2 ^ 64)
    (l : List (Ty × DVal × SVal)) (hl : l ≠ []) (h : TypedArgs x.fin binary l) :
    ∃ ws, (adds (Builder.newAck ns id binary) (handed l)).finish = .ok ws ∧
      (Unambiguous ns ws → ∃ pk A, PeerReads .active ws pk ∧ pk.namespace_ = .ok ns ∧ pk.data = .ok (.ack id A) ∧
        A.len = l.length ∧ ReadBack x A 0 l) := by
  have hi := exactInv_adds (handed l) (exactInv_new true binary ns (some id)) (handed_floats h.gives) (handed_docs h.gives binary)
  simp only [List.nil_append] at hi
  have hlen := congrArg List.length (handed_docs h.gives false)
  simp only [List.length_map, handed] at hlen
  obtain ⟨ws, h1, h2⟩ := exact_reads (ack := some id) hi
    (fun he => hl (List.length_eq_zero_iff.1 (by rw [hlen]; simpa [handed] using he))) hn (by simpa using hid) (by simp)
    (typed_blobs h)
  refine ⟨ws, h1, fun hu => ?_⟩
  obtain ⟨pk, h3, h4, A, h5, h6⟩ := h2 hu
  refine ⟨pk, A, h3, h4, h5, ?_, ?_⟩
  · rw [h6.len, docTexts_eq, List.length_map, wire_length]
    exact hlen.symm
  · exact readBack x h (fun i => by rw [Nat.zero_add]) rfl h6 hi.1


theorem typed_readable {fin : Str → Bool} {binary : Bool} {l : List (Ty × DVal × SVal)} (h : TypedArgs fin binary l)
    (hr : ∀ d ∈ (handed l).filterMap docOf, NoRaw d) : ∀ d ∈ (handed l).filterMap docOf, DocReadable fin d := by
  intro d hd
  refine ⟨h.depth d hd, ?_, hr d hd⟩
  obtain ⟨s, hs, hds⟩ := List.mem_filterMap.1 hd
  obtain ⟨e, he, rfl⟩ := List.mem_map.1 hs
  exact gives_nums (h.gives e he) d hds

/-- C52, in the callback: the callback in charge of the event at a client that receives the
messages runs once, with arguments that read back as the values sent.  (The last two conditions
are that logging the packet does not fail, see C22.) -/
theorem C52_callback (cfg : RCfg) (binary : Bool) (event ns : Str) (id : Option Nat) (hn : NsOk ns)
    (hid : ∀ i, id = some i → i < 2 ^ 64) (l : List (Ty × DVal × SVal)) (h : TypedArgs cfg.ext.fin binary l)
    (hk : binary = true → ∀ d ∈ (handed l).filterMap docOf, phKey ∉ d.keys)
    (hraw : ∀ d ∈ (handed l).filterMap docOf, NoRaw d) :
    ∃ b ws, Builder.newEvent event ns id binary = .ok b ∧ (adds b (handed l)).finish = .ok ws ∧
      (Unambiguous ns ws → ∀ (st : RState), st.decoder = .active → st.inProgress = none →
        ∀ (r : List (Callbacks × Ws)), r.map Prod.snd = ws → ∀ (reg : Callbacks) (w : Ws), r.getLast? = some (reg, w) →
        ∀ cb, reg.getEvent ns event = some cb →
          ∃ A, (outs cfg st r).flatMap (·.effs) = [.event ns event cb A (id.map fun i => ⟨ns, i⟩)] ∧
            A.len = l.length + 1 ∧ ReadBack cfg.ext A 1 l) := by
  obtain ⟨b, he, hb⟩ := exactInv_add (v := .str event) (d := .str event) (exactInv_new false binary ns id) trivial (by simp [docWith])
  have hi := exactInv_adds (handed l) hb (handed_floats h.gives) (handed_docs h.gives binary)
  simp only [List.nil_append, List.singleton_append] at hi
  have hbl : ackBlobs binary (.str event :: (handed l).filterMap docOf) = ackBlobs binary ((handed l).filterMap docOf) := by
    cases binary <;> simp [ackBlobs, blobsL, Doc.blobs]
  have hc : (ackBlobs binary (.str event :: (handed l).filterMap docOf)).length < 2 ^ 64 := by rw [hbl]; exact typed_blobs h
  obtain ⟨ws, h1, h2⟩ := exact_reads (ack := none) hi (by simp) hn hid (by simp) hc
  refine ⟨b, ws, by simp [Builder.newEvent, he], h1, fun hu st hd hp r hr reg w hw cb hcb => ?_⟩
  obtain ⟨pk, h4, h5, A, h6, h7⟩ := h2 hu
  have h8 := textsDenote_exact _ hi.1 (wire_blobs binary (.str event :: (handed l).filterMap docOf))
  have hrun := peer_run (cfg := cfg) h4 hd hp r hr
  obtain ⟨s, ms, hdec⟩ := peerReads_decoded h4
  have hv : ShowsValues cfg.ext.fin A (.str event :: (handed l).filterMap docOf) := by
    refine wire_values h7 h8 hc (fun hb d hd => ?_) fun d hd => ?_
    · rcases List.mem_cons.1 hd with rfl | hd
      · simp [Doc.keys]
      · exact hk hb d hd
    · rcases List.mem_cons.1 hd with rfl | hd
      · simp [DocReadable, docDepth, docNums, NoRaw]
      · exact typed_readable h hraw d hd
  have hlog := readable_logs hdec (Or.inl ⟨id, h6⟩) hv
  have hlen : A.len = l.length + 1 := by
    rw [h7.len, docTexts_eq, List.length_map, wire_length, List.length_cons]
    have := congrArg List.length (handed_docs h.gives false)
    simp only [List.length_map, handed] at this
    rw [← this]
  have hback := readBack cfg.ext (k := 1) h (fun i => by rw [Nat.add_comm]; rfl) (by simp [blobsL, Doc.blobs]) h7 hi.1
  have hname : ∃ v vs', docTexts (wire binary (.str event :: (handed l).filterMap docOf)) = v :: vs' ∧
      TextDenotes v (.str event) := by
    have : ∃ ds, wire binary (.str event :: (handed l).filterMap docOf) = .str event :: ds := by
      cases binary
      · exact ⟨_, rfl⟩
      · exact ⟨_, rfl⟩
    obtain ⟨ds, e⟩ := this
    rw [e] at h8 ⊢
    cases h8 with
    | cons hv _ => exact ⟨_, _, rfl, hv⟩
  obtain ⟨v, vs', hvs, hname⟩ := hname
  rw [hvs] at h7
  have ⟨t, ht, _⟩ := hname
  have hno := nameOf_str (bs := ackBlobs binary (.str event :: (handed l).filterMap docOf)) hname
  have hproc : processPacket cfg reg pk = (reg, [.event ns event cb A (id.map fun i => ⟨ns, i⟩)], .ok ()) := by
    rcases processPacket_event (reg := reg) hlog h5 h6 h7 ht with ⟨name, hx, e⟩ | ⟨hx, _⟩
    · rw [nameOf_unique hno hx] at hcb ⊢
      rw [hcb] at e
      exact e
    · exact (hx event hno).elim
  obtain ⟨k1, _, _⟩ := hrun.flat hw hproc
  exact ⟨A, k1, hlen, hback⟩

/-- Argument `i` of the event `e` with the arguments, as the callback of a receiver reads it with the type. -/
def readsAs (binary : Bool) (args : List SVal) (i : Nat) (ty : Ty) : Option DVal :=
  match (do
      let b ← Builder.newEvent ['e'] ['/'] none binary
      (adds b args).finish : Res Empty (List Ws)) with
  | .ok ws =>
    match ((outs exCfg openState (ws.map fun w => (registry [.setEvent ['/'] ['e'] 5], w))).flatMap (·.effs) : List Eff) with
    | [.event _ _ _ A _] =>
      match A.get (1 + i) with
      | .ok (some a) =>
        match a.deserialize exExt ty with
        | .ok v => some v
        | _ => none
      | _ => none
    | _ => none
  | _ => none

/-- The enum of the examples: a unit, a newtype, a tuple and a struct variant. -/
def exEnum : Ty := .enum [(['u'], .unit), (['n'], .newtype (.uint 16)), (['t'], .tuple [.bool, .str]), (['s'], .struct [(['x'], .int 8)])]

/-- Typed arguments of the examples: byte strings in a struct and in a map, an enum, an option. -/
def exArgs : List (Ty × DVal × SVal) :=
  [(.struct [(['a'], .bytes), (['b'], .option (.seq (.uint 8)))], .struct [.bytes [8, 9], .some (.seq [.uint 1])],
      .struct [(['a'], .bytes [8, 9]), (['b'], .some (.seq [.u8 1]))]),
    (.map exEnum, .map [(['k'], .variant ['u'] .unit), (['l'], .variant ['s'] (.struct [.int (-3)]))],
      .map [(.str ['k'], .unitVariant ['u']), (.str ['l'], .structVariant ['s'] [(['x'], .int (-3))])]),
    (.option .str, .none, .none)]

-- non-vacuity: the conditions hold of typed arguments with attachments, and they are read back
example (fin : Str → Bool) (binary : Bool) : TypedArgs fin binary exArgs where
  gives e he := by
    simp only [exArgs, List.mem_cons, List.not_mem_nil, or_false] at he
    rcases he with rfl | rfl | rfl
    · exact .struct _ _ _ (.cons _ _ _ _ _ _ _ (.bytes _) (.cons _ _ _ _ _ _ _
        (.some _ _ _ (.seq _ _ _ (.cons _ _ _ _ _ (.byte 1) (.nil _)))) .nil)) (by decide)
    · exact .map _ _ _ (.cons _ _ _ _ _ _ (.unitVariant _ _ rfl) (.cons _ _ _ _ _ _
        (.structVariant _ _ _ _ _ rfl (.cons _ _ _ _ _ _ _ (.int 8 (-3) (by decide) (by decide) (by decide)) .nil) (by decide))
        (.nil _))) (by simp; decide)
    · exact .none _
  some e he := by
    simp only [exArgs, List.mem_cons, List.not_mem_nil, or_false] at he
    rcases he with rfl | rfl | rfl <;>
      simp [SVal.NoSomeNull, NoSomeNullF, NoSomeNullL, NoSomeNullM, docOf, docWith, allU8, asByte]
  depth := by decide +kernel
  blobs := by decide +kernel
  keys _ _ e he := by
    have hp : ∀ c ∈ ['a', 'x', 'k'], PlainKey [c] := by
      intro c hc
      simp at hc
      rcases hc with rfl | rfl | rfl <;> exact ⟨by decide, by decide +kernel⟩
    simp only [exArgs, List.mem_cons, List.not_mem_nil, or_false] at he
    rcases he with rfl | rfl | rfl
    · simp [SVal.FirstKeys, FirstKeysF, FirstKeysL]
      exact hp 'a' (by simp)
    · simp [SVal.FirstKeys, FirstKeysM, FirstKeysF]
      refine ⟨hp 'k' (by simp), ?_⟩
      rintro k v r rfl _ _
      exact hp 'x' (by simp)
    · trivial
example : (readsAs true (handed exArgs) 0 (.struct [(['a'], .bytes), (['b'], .option (.seq (.uint 8)))])).any (fun v => match v with
    | .struct [.bytes b, .some (.seq [.uint n])] => decide (b = [8, 9] ∧ n = 1)
    | _ => false) = true := by decide +kernel
example : (readsAs true (handed exArgs) 1 (.map exEnum)).any (fun v => match v with
    | .map [(k, .variant u .unit), (l, .variant s (.struct [.int i]))] =>
      decide (k = ['k'] ∧ u = ['u'] ∧ l = ['l'] ∧ s = ['s'] ∧ i = -3)
    | _ => false) = true := by decide +kernel

-- 128-bit integers and characters, alone and next to an attachment
example : ([[], [.bytes [1]]] : List (List SVal)).all (fun more =>
    (readsAs true (.int (-2 ^ 127) :: .char 'é' :: more) 0 (.wide true)).any (fun v => match v with
      | .int i => i == -2 ^ 127 | _ => false) &&
    (readsAs true (.int (-2 ^ 127) :: .char 'é' :: more) 1 .char).any (fun v => match v with
      | .char c => c == 'é' | _ => false)) = true := by decide +kernel
-- the conditions matter: `Some(None)` is read back as `None`
example : (readsAs false [.some .none] 0 (.option (.option .bool))).any (fun v => match v with
    | .none => true
    | _ => false) = true := by decide +kernel
-- a map with integer keys is read back alone, but not next to an attachment
example : (readsAs true [.map [(.int 7, .bool true)]] 0 (.imap .bool)).isSome = true ∧
    (readsAs true [.map [(.int 7, .bool true)], .bytes [1]] 0 (.imap .bool)).isSome = false := by decide +kernel
-- the same for a map whose first key is written with an escape, but not if it is the second one
example : (readsAs true [.map [(.str ['"'], .bool true)]] 0 (.map .bool)).isSome = true ∧
    (readsAs true [.map [(.str ['"'], .bool true)], .bytes [1]] 0 (.map .bool)).isSome = false ∧
    (readsAs true [.map [(.str ['!'], .bool true), (.str ['"'], .bool true)], .bytes [1]] 0 (.map .bool)).isSome = true := by
  decide +kernel
-- a map with the key `_placeholder` and a number is an attachment to the reader
example : (readsAs true [.map [(.str phKey, .bool true), (.str numKey, .int 0)], .bytes [1]] 0 .bytes).any (fun v => match v with
    | .bytes b => decide (b = [1])
    | _ => false) = true := by decide +kernel
-- a map that starts with serde_json's private key is read back with its type, but not as a dynamic value
example : (readsAs false [.map [(.str rawKey, .str ['7'])]] 0 (.map .str)).any (fun v => match v with
    | .map [(k, .str s)] => decide (k = rawKey ∧ s = ['7'])
    | _ => false) = true := by decide +kernel
example : (readsAs false [.map [(.str rawKey, .str ['7'])]] 0 .value).any (fun v => match v with
    | .value (.num (.pos n)) => decide (n = 7)
    | _ => false) = true := by decide +kernel

end SIO
