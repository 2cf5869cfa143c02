import Verif.Props.Builder
/-
C04: what comes of an ack whose first argument cannot be serialized.
-/
namespace SIO
open Spec

/-- An addition to a builder that is not at its first argument depends on the text before only by appending. -/
theorem add_after (Y : Str) (ap : Approach) (v : SVal) : ∃ Z ap', ∀ P : Str,
    ((⟨P ++ Y, ap, false⟩ : Builder).serializeArg v).1 = ⟨P ++ (Y ++ Z), ap', false⟩ ∧ (Z = [] ∨ ∃ r, Z = ',' :: r) := by
  cases ap with
  | normal =>
    by_cases hw : (serJ v).2 = true
    · exact ⟨',' :: (serJ v).1, .normal, fun P => ⟨by simp [Builder.serializeArg, hw], .inr ⟨_, rfl⟩⟩⟩
    · refine ⟨[], .normal, fun P => ⟨?_, .inl rfl⟩⟩
      simp only [Builder.serializeArg, hw, if_false, Bool.false_eq_true]
      rw [List.append_assoc (P ++ Y), shrinkText_append]
      simp
  | binary k ns id att =>
    obtain ⟨s, bl, f, h, hf⟩ := goodB_serB v att
    cases f with
    | panic => exact absurd rfl hf
    | ok => exact ⟨',' :: s, _, fun P => ⟨by simp [Builder.serializeArg, h]; rfl, .inr ⟨_, rfl⟩⟩⟩
    | err =>
      refine ⟨[], .binary k ns id att, fun P => ⟨?_, .inl rfl⟩⟩
      simp only [Builder.serializeArg, h, if_false, Bool.false_eq_true]
      rw [List.append_assoc (P ++ Y), shrinkText_append, shrinkMsgs_append]
      simp

theorem adds_after (vs : List SVal) : ∀ (Y : Str) (ap : Approach), (Y = [] ∨ ∃ r, Y = ',' :: r) → ∃ Z ap', (Z = [] ∨ ∃ r, Z = ',' :: r) ∧
    ∀ P : Str, adds ⟨P ++ Y, ap, false⟩ vs = ⟨P ++ Z, ap', false⟩ := by
  induction vs with
  | nil => intro Y ap hY; exact ⟨Y, ap, hY, fun P => rfl⟩
  | cons v vs ih =>
    intro Y ap hY
    obtain ⟨Z, ap', h⟩ := add_after Y ap v
    obtain ⟨Z', ap'', hZ, h'⟩ := ih (Y ++ Z) ap' (by
      rcases hY with rfl | ⟨r, rfl⟩
      · rcases (h []).2 with rfl | ⟨r, rfl⟩
        · exact .inl rfl
        · exact .inr ⟨r, rfl⟩
      · exact .inr ⟨_, rfl⟩)
    refine ⟨Z', ap'', hZ, fun P => ?_⟩
    rw [← h' P, ← (h P).1]
    rfl

/-- A text in the form of a packet, but without the opening bracket of its arguments, is not the text of a packet with arguments. -/
theorem headless_text {k : Char} {att : Option Nat} {ns : Str} {i : Nat} {Z b : Str} {ts : List Str} (hn : NsOk ns) (hbr : '[' ∉ ns)
    (hZ : Z = [] ∨ ∃ r, Z = ',' :: r) (hb : IsElemTexts ts b) (hX : ∃ x, '[' :: (b ++ [']']) = x ++ (Z ++ [']']))
    {q : Pkt} (hq : q.Wf) {g : Str} {us : List Str} (hg : q.args = some g) (hu : q.ArgTexts us)
    (h : q.text = (Pkt.mk k att (nsPart ns) (some i) (some (Z ++ [']']))).text) : False := by
  obtain ⟨x, hX⟩ := hX
  unfold Pkt.ArgTexts at hu
  rw [hg] at hu
  obtain ⟨b', rfl, hb'⟩ := bracketed_array (hq.args g hg) hu
  -- where the arguments of `q` would begin
  have hno : ∀ u d, (∀ c ∈ d, c.isDigit = true) → Z ++ [']'] = u ++ (',' :: (d ++ '[' :: (b' ++ [']']))) → False := by
    intro u d hd he
    rw [he, ← List.append_assoc] at hX
    exact array_no_suffix hb hb' hd hX
  have hhead : ∀ r, '[' :: r ≠ Z ++ [']'] := by
    intro r he
    rcases hZ with rfl | ⟨z, rfl⟩ <;> simp at he
  have hnd : NoDigitHead (Z ++ [']']) := by
    rcases hZ with rfl | ⟨z, rfl⟩
    · intro c hc; simp at hc; subst hc; rfl
    · intro c hc; simp at hc; subst hc; rfl
  have hid : ∀ c ∈ natDec i, c.isDigit = true := natDec_digits i
  have hqd : ∀ c ∈ part [] q.parts.id, c.isDigit = true := part_id_digits (Pkt.partsWf hq).id
  have hsame : part [] q.parts.id ++ '[' :: (b' ++ [']']) = natDec i ++ (Z ++ [']']) → False := by
    intro he
    obtain ⟨_, he⟩ := digits_split hqd hid (by intro c hc; simp at hc; subst hc; rfl) hnd he
    exact hhead _ he
  have htail : tailText q.parts.ns q.parts.id q.parts.args = tailText (nsPart ns) (some (natDec i)) (some (Z ++ [']'])) → False := by
    intro he
    have hqa : q.parts.args = some ('[' :: (b' ++ [']'])) := hg
    rw [hqa] at he
    have he : part [','] q.parts.ns ++ (part [] q.parts.id ++ '[' :: (b' ++ [']'])) = part [','] (nsPart ns) ++ (natDec i ++ (Z ++ [']'])) := by
      simpa only [tailText, part_some, List.append_nil] using he
    obtain ⟨d, ds, hd, hdd⟩ := (natDec_isDec i).head
    cases hm : q.parts.ns with
    | none =>
      rw [hm] at he
      by_cases hs : ns = ['/']
      · simp only [nsPart, hs, if_true, part_none, List.nil_append] at he
        exact hsame he
      · simp only [nsPart, hs, if_false, part_none, part_some, List.nil_append, List.append_assoc] at he
        obtain ⟨c, cs, rfl, _⟩ := hn.resolve_left hs
        refine tail_none_head (i := q.parts.id) (g := some ('[' :: (b' ++ [']']))) (Pkt.partsWf hq).id ?_ _ (by simpa [part] using he)
        intro x hx
        exact (Pkt.partsWf hq).args x (hqa.trans hx)
    | some m =>
      obtain ⟨c', cs', hc', _⟩ := (Pkt.partsWf hq).ns m hm
      rw [hm] at he
      by_cases hs : ns = ['/']
      · simp only [nsPart, hs, if_true, part_none, part_some, List.nil_append, hc', hd, List.cons_append, List.cons.injEq] at he
        rw [← he.1] at hdd
        simp at hdd
      · simp only [nsPart, hs, if_false, part_some, List.append_assoc, List.cons_append, List.nil_append] at he
        rcases List.append_eq_append_iff.1 he with ⟨a, ha, he⟩ | ⟨a, ha, he⟩
        · cases a with
          | nil =>
            simp only [List.nil_append, List.cons.injEq, true_and] at he
            exact hsame he
          | cons y a =>
            simp only [List.cons_append, List.cons.injEq] at he
            obtain ⟨rfl, he⟩ := he
            rcases List.append_eq_append_iff.1 he with ⟨c, hc, he⟩ | ⟨c, hc, he⟩
            · cases c with
              | nil => simp at he
              | cons z c =>
                simp only [List.cons_append, List.cons.injEq] at he
                rw [ha, hc, ← he.1] at hbr
                simp at hbr
            · cases c with
              | nil => simp at he
              | cons z c =>
                simp only [List.cons_append, List.cons.injEq] at he
                have := hqd z (by rw [hc]; simp)
                rw [← he.1] at this
                simp at this
        · cases a with
          | nil =>
            simp only [List.nil_append, List.cons.injEq, true_and] at he
            exact hsame he.symm
          | cons y a =>
            simp only [List.cons_append, List.cons.injEq] at he
            obtain ⟨rfl, he⟩ := he
            rcases List.append_eq_append_iff.1 he with ⟨c, hc, he⟩ | ⟨c, hc, he⟩
            · exact hno c _ hqd he
            · cases c with
              | nil =>
                simp only [List.nil_append] at he
                exact hno [] _ hqd he.symm
              | cons z c =>
                simp only [List.cons_append, List.cons.injEq] at he
                have := hid z (by rw [hc]; simp)
                rw [← he.1] at this
                simp at this
  have h' : q.parts.text = (Pkt.mk k att (nsPart ns) (some i) (some (Z ++ [']']))).parts.text := h
  rw [Parts.text_eq, Parts.text_eq] at h'
  simp only [Pkt.parts, List.cons.injEq, Option.map_some, ← natDec_decimal] at h'
  have h' := h'.2
  cases hqt : q.att with
  | none =>
    cases hpt : att with
    | none =>
      rw [hqt, hpt] at h'
      exact htail (by simpa [part, Pkt.parts, natDec_decimal] using h')
    | some n =>
      rw [hqt, hpt] at h'
      simp only [Option.map_none, Option.map_some, part, List.nil_append, List.append_assoc, List.cons_append] at h'
      rw [← natDec_decimal n] at h'
      exact tail_not_dash (natDec_isDec n) (Pkt.partsWf hq).tail h'.symm
  | some m =>
    cases hpt : att with
    | some n =>
      rw [hqt, hpt] at h'
      simp only [Option.map_some, part, List.append_assoc, List.cons_append, List.nil_append, ← natDec_decimal] at h'
      exact htail (by simpa [Pkt.parts, natDec_decimal] using (attDash_unique (natDec_isDec m) (natDec_isDec n) h').2)
    | none =>
      rw [hqt, hpt] at h'
      simp only [Option.map_none, Option.map_some, part, List.nil_append, List.append_assoc, List.cons_append, ← natDec_decimal] at h'
      by_cases hs : ns = ['/']
      · simp only [tailText, nsPart, hs, if_true, part, List.nil_append, List.append_nil] at h'
        obtain ⟨_, he⟩ := digits_split (natDec_digits m) hid (by intro c hc; simp at hc; subst hc; rfl) hnd h'
        rcases hZ with rfl | ⟨z, rfl⟩ <;> simp at he
      · obtain ⟨c, cs, rfl, _⟩ := hn.resolve_left hs
        obtain ⟨d, ds, hd, hdd⟩ := (natDec_isDec m).head
        simp only [tailText, nsPart, hs, if_false, part, List.cons_append, hd, List.cons.injEq] at h'
        rw [h'.1] at hdd
        simp at hdd

/-- C04: an ack the first argument of which failed can never be read by a peer, whatever is added afterwards. -/
theorem C04_extent (binary : Bool) (ns : Str) (id : Nat) (hn : NsOk ns) (hbr : '[' ∉ ns) (v : SVal) (vs : List SVal)
    (hv : ((Builder.newAck ns id binary).serializeArg v).2 ≠ .ok ()) (hf : ∀ v ∈ vs, v.FloatsOk) :
    ∃ ws, (adds (Builder.newAck ns id binary) (v :: vs)).finish = .ok ws ∧ ∀ pk, ¬ PeerReads .active ws pk := by
  have h1 : (Builder.newAck ns id binary).serializeArg v = ({ Builder.newAck ns id binary with first := false }, .err ()) :=
    (serializeArg_cases _ v).resolve_left fun h => hv h.1
  -- the same additions after a first argument that succeeds
  obtain ⟨Z, ap, hZ, hadd⟩ := adds_after vs [] (Builder.newAck ns id binary).approach (.inl rfl)
  obtain ⟨⟨ts, ht, _, he⟩, _⟩ := bInv_adds_first (.unit :: vs) (bInv_new true binary ns (some id))
    (fun x hx => by
      rcases List.mem_cons.1 hx with rfl | hx
      · trivial
      · exact hf x hx)
    (by
      intro x xs hx
      simp only [List.cons.injEq] at hx
      rw [← hx.1]
      simp [docWith])
  have hunit : adds (Builder.new ns (some id) binary true) (.unit :: vs) =
      adds ⟨(Builder.newAck ns id binary).buffer ++ "[null".toList ++ [], (Builder.newAck ns id binary).approach, false⟩ vs := by
    have h0 : ((Builder.newAck ns id binary).serializeArg .unit).1 =
        ⟨(Builder.newAck ns id binary).buffer ++ "[null".toList, (Builder.newAck ns id binary).approach, false⟩ := by
      cases binary <;> simp [Builder.newAck, Builder.new, Builder.serializeArg, serJ, serB, W.lit, BM.lift]
    rw [List.append_nil, ← h0]
    rfl
  have hfail : adds (Builder.newAck ns id binary) (v :: vs) = ⟨(Builder.newAck ns id binary).buffer ++ Z, ap, false⟩ := by
    rw [← hadd, List.append_nil]
    show adds ((Builder.newAck ns id binary).serializeArg v).1 vs = _
    rw [h1]
  rw [hunit, hadd] at he
  have unread : ∀ (k : Char) (att : Option Nat) (bl : List Bytes), k ∈ ['3', '6'] → '[' :: (sepBy ts ++ [']']) = "[null".toList ++ (Z ++ [']']) →
      ∀ pk, ¬ PeerReads .active (textMessage (Pkt.mk k att (nsPart ns) (some id) (some (Z ++ [']']))) :: bl.map attachment) pk := by
    intro k att bl hk hX pk hr
    obtain ⟨q, us, bs, body, q1, q2, _, _, q5, _, q7, _⟩ := decoded_means (peer_decoded hr)
    have hk' : q.kind ∈ ['3', '6'] := by
      have : q.kind = k := (List.cons.inj q2).1
      rw [this]; exact hk
    have hus : us ≠ [] := by
      cases q7 with
      | connect h => rw [h] at hk'; simp at hk'
      | disconnect h => rw [h] at hk'; simp at hk'
      | event _ h => exact h
      | ack _ _ _ h => exact h
    cases hg : q.args with
    | none =>
      unfold Pkt.ArgTexts at q5
      rw [hg] at q5
      exact hus q5
    | some g => exact headless_text hn hbr hZ (elemTexts_sepBy ht) ⟨_, hX⟩ q1 hg q5 q2
  have hts : ∀ X : Str, X ++ "[null".toList ++ Z = X ++ argBuf ts → '[' :: (sepBy ts ++ [']']) = "[null".toList ++ (Z ++ [']']) := by
    intro X h
    rw [List.append_assoc] at h
    have h := List.append_cancel_left h
    unfold argBuf at h
    split at h
    · simp at h
    · rw [← List.append_assoc, h, List.cons_append]
  rw [hfail]
  cases binary with
  | false =>
    simp only [mkB, Builder.newAck, Builder.new, Bool.not_false, if_true, Bool.false_eq_true, if_false, Builder.mk.injEq] at he
    obtain ⟨e1, rfl, -⟩ := he
    refine ⟨[textMessage (Pkt.mk '3' none (nsPart ns) (some id) (some (Z ++ [']'])))], ?_, unread '3' none [] (by simp) (hts _ e1)⟩
    have := header_text .ack none ns (some id) (some (Z ++ [']']))
    simp only [part_some, List.append_nil] at this
    simp only [Builder.finish, Builder.newAck, Builder.new, Bool.not_false, if_true, List.append_assoc, this, textMessage]
    rfl
  | true =>
    simp only [mkB, Builder.newAck, Builder.new, Bool.not_true, if_true, Bool.false_eq_true, if_false, Builder.mk.injEq] at he
    obtain ⟨e1, rfl, -⟩ := he
    refine ⟨_, ?_, unread '6' (some ((blobsL (docsOf true (.unit :: vs))).map attMsg).length) (blobsL (docsOf true (.unit :: vs))) (by simp) (hts [] e1)⟩
    have := header_text .binaryAck (some ((blobsL (docsOf true (.unit :: vs))).map attMsg).length) ns (some id) (some (Z ++ [']']))
    simp only [part_some, List.append_nil] at this
    simp only [Builder.finish, Builder.newAck, Builder.new, Bool.not_true, Bool.false_eq_true, if_false, Bool.not_false, if_true,
      List.nil_append, bKind, this, textMessage]
    rfl

-- An argument that fails, and one after it: no peer reads `430,"x"]`.
example : ∃ ws, (adds (Builder.newAck ['/'] 0 false) [.fail, .str ['x']]).finish = .ok ws ∧ ∀ pk, ¬ PeerReads .active ws pk :=
  C04_extent false ['/'] 0 (Or.inl rfl) (by decide) .fail [.str ['x']] (by decide +kernel) (by simp [SVal.FloatsOk])

-- With a bracket in the namespace it may be read, as an ack for another namespace and with another id.
example : (adds (Builder.newAck "/a,7[1".toList 5 false) [.fail, .str ['x']]).finish = .ok [.text "43/a,7[1,5,\"x\"]".toList] ∧
    (match deserialize (.text (OwnedSubslice.ofWhole "3/a,7[1,5,\"x\"]".toList)) with
      | .ok (.packet pk) => decide (pk.kind = .ack ∧ pk.id = some 7 ∧ pk.namespace_ = .ok "/a".toList ∧ pk.args.length = 3)
      | _ => false) = true := by
  decide +kernel

end SIO
