import Verif.Lemmas.Builder
/-
C13, C14, C15, C16, C17, C19: decoding of packets received from the network.
-/
namespace SIO
open Spec

/-! ### C13 -/

/-- The message text used in the counterexample: ack id 2^64. -/
def overflowText : Str := "218446744073709551616[\"a\"]".toList

/-- C13 is false: an ack id of 2^64 makes the decoder panic. -/
theorem C13_counterexample : ∃ m, Received m ∧ deserialize m = .panic :=
  ⟨_, received_text overflowText, by decide +kernel⟩

/-- C13, what holds: decoding panics exactly if the header has a number that does not fit
64 bits; binary messages and the completion with attachments never panic.  Missing for the
full claim: the oversized numbers (`C13_counterexample`). -/
theorem C13_partial (m : EMsg) (hm : Received m) :
    (deserialize m = .panic ↔
      ∃ p : Pkt, HasPayload m (.text p.text) ∧ p.Wf ∧ p.Longest ∧ ¬ p.Fits) ∧
    ∀ q, deserialize m = .ok (.dataNeeded q) →
      (∃ n, partialAttachments q = .ok n) ∧
      ∀ ms, (∀ x ∈ ms, Received x) → deserializePartial q ms ≠ .panic := by
  obtain ⟨pl, hpl⟩ := Received.payload hm
  cases pl with
  | binary b =>
    rw [deserialize_binary_eq hpl]
    refine ⟨⟨by simp, ?_⟩, by simp⟩
    rintro ⟨p, hp, _⟩
    have := hasPayload_unique hpl hp
    simp at this
  | text s =>
    have ho := deserialize_text_eq hpl
    constructor
    · constructor
      · intro h
        rw [h] at ho
        cases ho with
        | overflow p h1 h2 h3 h4 => exact ⟨p, by rw [h2]; exact hpl, h1, h3, h4⟩
      · rintro ⟨p, hp, hw, hl, hf⟩
        have hs : s = p.text := by simpa using hasPayload_unique hpl hp
        subst hs
        have uniq : ∀ p' : Pkt, p'.Wf → p'.text = p.text → p'.Longest → p' = p :=
          fun p' h1 h2 h3 => Pkt.longest_unique h1 hw h2 h3 hl
        generalize deserialize m = r at ho
        cases ho with
        | bad h => exact absurd rfl (h p hw)
        | overflow => rfl
        | json p' g h1 h2 h3 h4 => rw [uniq p' h1 h2 h3] at h4; exact absurd h4 hf
        | extra p' vs h1 h2 h3 h4 => rw [uniq p' h1 h2 h3] at h4; exact absurd h4 hf
        | missing p' vs h1 h2 h3 h4 => rw [uniq p' h1 h2 h3] at h4; exact absurd h4 hf
        | count p' vs n h1 h2 h3 h4 => rw [uniq p' h1 h2 h3] at h4; exact absurd h4 hf
        | packet p' vs b pk h1 h2 h3 h4 => rw [uniq p' h1 h2 h3] at h4; exact absurd h4 hf
        | needed p' vs n q h1 h2 h3 h4 h5 =>
          have h6 := h5.fits
          rw [uniq p' h5.wf h1 h5.longest] at h6
          exact absurd h6 hf
    · intro q hq
      rw [hq] at ho
      cases ho with
      | needed p vs n q h1 h2 h3 h4 h5 =>
        refine ⟨⟨n, by simp [partialAttachments, h5.att, h3]⟩, ?_⟩
        intro ms hms
        obtain ⟨pls, hp⟩ := received_payloads hms
        rcases deserializePartial_out h5 h2 h3 hp with ⟨_, _, _, _, he⟩ | ⟨bs, hbs, ⟨_, he⟩ | ⟨_, _, _, he⟩ |
          ⟨body, pk', hm, hs, he⟩⟩ <;> rw [he] <;> simp

/-- A packet that asks for an attachment. -/
def binSample : Str := "51-[\"a\",{\"_placeholder\":true,\"num\":0}]".toList

-- non-vacuity of `C13_partial`: a message that asks for an attachment
example : ∃ m q, Received m ∧ deserialize m = .ok (.dataNeeded q) :=
  have ⟨q, hq, _⟩ := Res.okWith_spec (f := fun d => d.packet?.isNone)
    (show (deserialize (.text (OwnedSubslice.new ('4' :: binSample) 1 (blen ('4' :: binSample))))).okWith _ = true by
      decide +kernel)
  match q, hq with
  | .dataNeeded q, hq => ⟨_, q, received_text binSample, hq⟩
  | .packet _, _ => by simp_all [DeResult.packet?]

/-! ### C14 -/

/-- C14, first part: the header parser rejects a text as no packet iff it is not in the
packet grammar. -/
theorem C14_accept (t : OwnedSubslice Str) (s : Str) (h : t.deref = some s) :
    (∃ e, parseText t = .err (.invalidMessage e)) ↔ ¬ ∃ p : Pkt, p.Wf ∧ p.text = s := by
  have ho := parseText_outP h
  generalize parseText t = r at ho
  cases ho with
  | bad h => exact ⟨fun _ ⟨p, hp, he⟩ => h p hp he, fun _ => ⟨_, rfl⟩⟩
  | overflow p h1 h2 => simp; exact ⟨p, h1, h2⟩
  | json p g h1 h2 => simp; exact ⟨p, h1, h2⟩
  | ok p vs q h1 h2 => simp; exact ⟨p, h2.wf, h1⟩

/-- C14, second part: the parts reported are those of the reading with the longest
namespace, of which there is just one. -/
theorem C14_parts (t : OwnedSubslice Str) (s : Str) (h : t.deref = some s) (q : Parse)
    (hq : parseText t = .ok q) :
    ∃ (p : Pkt) (vs : List Str), p.Wf ∧ p.text = s ∧ p.Longest ∧ p.ArgTexts vs ∧
      q.kind.digit = p.kind ∧ q.attachments = p.att ∧ q.id = p.id ∧
      q.ns.map (fun r => sliceB s r.1 r.2) = p.ns.map some ∧
      q.args.map (fun r => sliceB s r.1 r.2) = vs.map some ∧
      ∀ p' : Pkt, p'.Wf → p'.text = s → p'.Longest → p' = p := by
  have ho := parseText_outP h
  rw [hq] at ho
  cases ho with
  | ok p vs q h1 h2 =>
    subst h1
    exact ⟨p, vs, h2.wf, rfl, h2.longest, h2.args, h2.kind, h2.att, h2.id, h2.nsR, h2.argsR,
      fun p' g1 g2 g3 => Pkt.longest_unique g1 h2.wf g2 g3 h2.longest⟩

/-- C14, third part: every text of the grammar has a reading with the longest namespace, so
it is accepted, or rejected for its argument text, or (numbers of more than 64 bits) the
parser panics. -/
theorem C14_outcomes (t : OwnedSubslice Str) (p0 : Pkt) (hw : p0.Wf) (h : t.deref = some p0.text) :
    ∃ p : Pkt, p.Wf ∧ p.text = p0.text ∧ p.Longest ∧
      ((¬ p.Fits ∧ parseText t = .panic) ∨
       (p.Fits ∧ ∃ g, p.args = some g ∧ (¬ ∃ vs, IsArrayText vs g) ∧ parseText t = .err (.invalidDataJson g)) ∨
       (p.Fits ∧ (∃ vs, p.ArgTexts vs) ∧ ∃ q, parseText t = .ok q)) := by
  have ho := parseText_outP h
  generalize parseText t = r at ho
  cases ho with
  | bad h => exact absurd rfl (h p0 hw)
  | overflow p h1 h2 h3 h4 => exact ⟨p, h1, h2, h3, Or.inl ⟨h4, rfl⟩⟩
  | json p g h1 h2 h3 h4 h5 h6 => exact ⟨p, h1, h2, h3, Or.inr (Or.inl ⟨h4, g, h5, h6, rfl⟩)⟩
  | ok p vs q h1 h2 => exact ⟨p, h2.wf, h1, h2.longest, Or.inr (Or.inr ⟨h2.fits, ⟨vs, h2.args⟩, q, rfl⟩)⟩

-- non-vacuity: a text with all parts
example : ∃ q, parseText (OwnedSubslice.ofWhole "51-/n,7[\"a\"]".toList) = .ok q :=
  have ⟨q, hq, _⟩ := Res.okWith_spec (r := parseText _) (f := fun _ => true) (by decide +kernel)
  ⟨q, hq⟩
example : ∃ p : Pkt, p.Wf ∧ p.text = "51-/n,7[\"a\"]".toList :=
  ⟨⟨'5', some 1, some ['/', 'n'], some 7, some "[\"a\"]".toList⟩,
    ⟨by simp, fun n hn => ⟨'n', [], by simpa using hn.symm, by simp⟩,
      fun g hg => ⟨"\"a\"".toList, by simpa using hg.symm, by decide⟩⟩, by decide⟩

/-! ### C15 -/

/-- C15, safety: whatever is decoded from the text of a well-formed packet is that packet:
its namespace, id and arguments. -/
theorem C15_safe (p : Pkt) (vs : List Str) (hw : p.Wf) (ha : p.ArgTexts vs) (ms : List EMsg) (pk : Packet)
    (h : Decoded p.text ms pk) :
    ∃ (bs : List Bytes) (body : Body), Payloads ms (bs.map Payload.binary) ∧ p.Means vs bs body ∧
      Shows pk (p.ns.getD ['/']) body := by
  obtain ⟨q, vs', bs, body, h1, h2, h3, h4, h5, h6, h7, h8⟩ := decoded_means h
  obtain ⟨rfl, rfl⟩ := sent_is_read hw h1 h2 h3 ha h5
  exact ⟨bs, body, h6, h7, h8⟩

theorem longest_cases {p : Pkt} (hw : p.Wf) :
    p.Longest ↔ ∀ n g, p.ns = some n → p.args = some g → ¬ Ambiguous g := by
  constructor
  · intro hl n g hn hg
    exact (longest_iff (Pkt.partsWf hw) hn hg).1 hl
  · intro h
    cases hn : p.ns with
    | none => exact longest_of_none (Pkt.partsWf hw) hn
    | some n =>
      cases hg : p.args with
      | some g => exact (longest_iff (Pkt.partsWf hw) hn hg).2 (h n g hn hg)
      | none =>
        intro r hr he
        rcases Nat.lt_or_ge p.parts.nsLen r.nsLen with hlt | hge
        · obtain ⟨n', g, u, g', h1, h2, _⟩ := longer_split (Pkt.partsWf hw) hr he hlt
          have h2 : p.args = some g := h2
          rw [hg] at h2
          simp at h2
        · exact hge

/-- C15, acceptance: a well-formed packet with contents is accepted iff it has the default
namespace or no comma in its arguments is directly followed by `[` or a numeral and `[`.
Missing for the full claim: the ambiguous packets (`C15_counterexample`). -/
theorem C15_accept_partial (p : Pkt) (vs : List Str) (bs : List Bytes) (body : Body) (hw : p.Wf) (hf : p.Fits)
    (ha : p.ArgTexts vs) (hm : p.Means vs bs body) (ms : List EMsg) (hr : ∀ x ∈ ms, Received x)
    (hms : Payloads ms (bs.map Payload.binary)) :
    (∃ pk, Decoded p.text ms pk ∧ Shows pk (p.ns.getD ['/']) body) ↔
      ∀ n g, p.ns = some n → p.args = some g → ¬ Ambiguous g := by
  rw [← longest_cases hw]
  constructor
  · rintro ⟨pk, hd, _⟩
    obtain ⟨q, vs', bs, body, h1, h2, h3, h4, h5, h6, h7, h8⟩ := decoded_means hd
    obtain ⟨rfl, rfl⟩ := sent_is_read hw h1 h2 h3 ha h5
    exact h3
  · intro hl
    have hp : HasPayload (.text (OwnedSubslice.new ('4' :: p.text) 1 (blen ('4' :: p.text)))) (.text p.text) :=
      deref_text p.text
    rcases decode_complete hw hl hf ha hm hp hms with ⟨hb, pk, hd, hs⟩ | ⟨hb, q, hd, _, pk, hd', hs⟩
    · subst hb
      cases hms
      exact ⟨pk, .alone _ (received_text _) hp rfl hd, hs⟩
    · exact ⟨pk, .withAttachments _ q (received_text _) hp hd hr hd', hs⟩

/-- The packet `2/n,["a",[1]]`. -/
def nestedPkt : Pkt := ⟨'2', none, some ['/', 'n'], none, some "[\"a\",[1]]".toList⟩

theorem nestedPkt_wf : nestedPkt.Wf := by
  refine ⟨by simp [nestedPkt], ?_, ?_⟩
  · intro n hn
    exact ⟨'n', [], by simpa [nestedPkt] using hn.symm, by simp⟩
  · intro g hg
    exact ⟨"\"a\",[1]".toList, by simpa [nestedPkt] using hg.symm, by decide⟩

theorem strA_isVal : IsVal (.str ['a']) ['"', 'a', '"'] :=
  ⟨rfl, .char 'a' [] (by decide) (by decide) (by decide) .nil⟩

theorem one_isNum : IsNum ['1'] :=
  ⟨[], ['1'], [], [], rfl, Or.inl rfl, Or.inr ⟨'1', [], rfl, by decide, by decide, by simp⟩, Or.inl rfl, Or.inl rfl⟩

theorem nestedPkt_args : nestedPkt.ArgTexts ["\"a\"".toList, "[1]".toList] := by
  refine ⟨[], "\"a\",[1]".toList, [], by decide, by simp [IsWs], by simp [IsWs], ?_⟩
  apply elemTexts_comma _ strA_isVal (by simp)
  apply elemTexts_one (.arr [.num ['1']])
  refine ⟨['1'], rfl, [], ['1'], [], [], rfl, by simp [IsWs], by simp [IsWs], ⟨rfl, one_isNum⟩, Or.inl ⟨rfl, rfl⟩⟩

/-- C15, acceptance, is false in general: the packet `2/n,["a",[1]]` has contents but
nothing is decoded from it. -/
theorem C15_counterexample :
    ∃ (p : Pkt) (vs : List Str) (body : Body), p.Wf ∧ p.Fits ∧ p.ArgTexts vs ∧ p.Means vs [] body ∧
      ∀ ms pk, ¬ Decoded p.text ms pk := by
  refine ⟨nestedPkt, _, _, nestedPkt_wf, ⟨by simp [nestedPkt], by simp [nestedPkt]⟩, nestedPkt_args,
    .event (Or.inl ⟨rfl, rfl⟩) (by simp) rfl, ?_⟩
  intro ms pk hd
  obtain ⟨q, vs', bs, body, h1, h2, h3, h4, h5, h6, h7, h8⟩ := decoded_means hd
  obtain ⟨rfl, _⟩ := sent_is_read nestedPkt_wf h1 h2 h3 nestedPkt_args h5
  exact (longest_cases nestedPkt_wf).1 h3 _ _ rfl rfl
    ⟨"[\"a\"".toList, [], "1]]".toList, by decide, Or.inl rfl⟩

-- non-vacuity of `C15_accept_partial` (and of `C15_safe` through its conclusion)
example : ∃ (p : Pkt) (vs : List Str) (body : Body), p.Wf ∧ p.Fits ∧ p.ArgTexts vs ∧ p.Means vs [] body ∧
    ∀ n g, p.ns = some n → p.args = some g → ¬ Ambiguous g := by
  refine ⟨⟨'2', none, some ['/', 'n'], some 7, some "[\"a\"]".toList⟩, ["\"a\"".toList], _, ?_, ?_, ?_,
    .event (Or.inl ⟨rfl, rfl⟩) (by simp) rfl, ?_⟩
  · exact ⟨by simp, fun n hn => ⟨'n', [], by simpa using hn.symm, by simp⟩,
      fun g hg => ⟨"\"a\"".toList, by simpa using hg.symm, by decide⟩⟩
  · exact ⟨by simp, by simp⟩
  · exact ⟨[], "\"a\"".toList, [], by decide, by simp [IsWs], by simp [IsWs], elemTexts_one _ strA_isVal⟩
  · rintro n g hn hg ⟨u, d, r, he, _⟩
    simp at hg
    subst hg
    have : ',' ∈ (['[', '"', 'a', '"', ']'] : Str) := by rw [he]; simp
    simp at this

/-! ### C16 -/

/-- C16: reading the namespace, the kind-specific data and any argument of a decoded packet
never panics; an index is present iff it is below the length; iteration gives the arguments
in index order. -/
theorem C16_access (s : Str) (ms : List EMsg) (pk : Packet) (h : Decoded s ms pk) :
    (∃ ns, pk.namespace_ = .ok ns) ∧ (∃ d, pk.data = .ok d) ∧
    ∀ A, (∃ id, pk.data = .ok (.event id A) ∨ ∃ i, pk.data = .ok (.ack i A)) →
      (A.isEmpty = true ↔ A.len = 0) ∧
      ∃ as, A.iter = .ok as ∧ as.length = A.len ∧ ∀ i, A.get i = .ok as[i]? := by
  obtain ⟨p, vs, bs, body, h1, h2, h3, h4, h5, h6, h7, h8, h9⟩ := decoded_means h
  refine ⟨⟨_, h8⟩, ?_, ?_⟩
  · cases body with
    | connect => exact ⟨_, h9⟩
    | disconnect => exact ⟨_, h9⟩
    | event id ts bs => obtain ⟨A, h, _⟩ := h9; exact ⟨_, h⟩
    | ack id ts bs => obtain ⟨A, h, _⟩ := h9; exact ⟨_, h⟩
  · rintro A hA
    have show_of : ∀ {ts : List Str} {bs : List Bytes}, ArgsShow A ts bs →
        (A.isEmpty = true ↔ A.len = 0) ∧
        ∃ as, A.iter = .ok as ∧ as.length = A.len ∧ ∀ i, A.get i = .ok as[i]? := by
      intro ts bs hs
      refine ⟨by rw [hs.empty, hs.len]; cases ts <;> simp, _, hs.iter, by simp [hs.len], ?_⟩
      intro i
      rw [hs.get i, List.getElem?_map]
    cases body with
    | connect => simp only at h9; rw [h9] at hA; simp at hA
    | disconnect => simp only at h9; rw [h9] at hA; simp at hA
    | event id ts bs =>
      obtain ⟨A', h, hs⟩ := h9
      rw [h] at hA
      simp at hA
      rw [hA] at hs
      exact show_of hs
    | ack id ts bs =>
      obtain ⟨A', h, hs⟩ := h9
      rw [h] at hA
      simp at hA
      rw [hA] at hs
      exact show_of hs

/-- A decoded packet with multi-byte characters, used in the non-vacuity examples. -/
theorem decoded_sample : ∃ pk A, Decoded "2/é,7[\"ü\" , 1]".toList [] pk ∧ pk.data = .ok (.event (some 7) A) := by
  obtain ⟨d, hd, hf⟩ := Res.okWith_spec (r := deserialize (.text (OwnedSubslice.new
      ('4' :: "2/é,7[\"ü\" , 1]".toList) 1 (blen ('4' :: "2/é,7[\"ü\" , 1]".toList)))))
    (f := fun d => d.packet?.any fun pk => pk.data.okWith fun x => match x with
      | .event (some 7) _ => true
      | _ => false) (by decide +kernel)
  cases d with
  | dataNeeded q => simp [DeResult.packet?] at hf
  | packet pk =>
    simp only [DeResult.packet?, Option.any_some] at hf
    obtain ⟨x, hx, hf⟩ := Res.okWith_spec hf
    split at hf
    · exact ⟨pk, _, .alone _ (received_text _) (deref_text _) rfl hd, hx⟩
    · simp at hf

-- non-vacuity of `C16_access`
example : ∃ pk A, Decoded "2/é,7[\"ü\" , 1]".toList [] pk ∧ pk.data = .ok (.event (some 7) A) := decoded_sample

/-! ### C17 -/

/-- C17: the arguments of a decoded event or ack are the texts of the elements of the JSON
array that is the argument part of the message. -/
theorem C17_args (s : Str) (ms : List EMsg) (pk : Packet) (h : Decoded s ms pk) (A : Args)
    (hA : (∃ id, pk.data = .ok (.event id A)) ∨ ∃ i, pk.data = .ok (.ack i A)) :
    ∃ (p : Pkt) (g : Str) (vs : List Str), p.Wf ∧ p.text = s ∧ p.Longest ∧ p.args = some g ∧ IsArrayText vs g ∧
      ∃ as, A.iter = .ok as ∧ as.map Arg.arg = vs := by
  obtain ⟨p, vs, bs, body, h1, h2, h3, h4, h5, h6, h7, h8, h9⟩ := decoded_means h
  have hne : vs ≠ [] → ∃ g, p.args = some g ∧ IsArrayText vs g := by
    intro hv
    unfold Pkt.ArgTexts at h5
    cases hg : p.args with
    | none => rw [hg] at h5; exact absurd h5 hv
    | some g => rw [hg] at h5; exact ⟨g, rfl, h5⟩
  have fin : ∀ bs, vs ≠ [] → ArgsShow A vs bs → ∃ (p : Pkt) (g : Str) (vs : List Str), p.Wf ∧ p.text = s ∧
      p.Longest ∧ p.args = some g ∧ IsArrayText vs g ∧ ∃ as, A.iter = .ok as ∧ as.map Arg.arg = vs := by
    intro bs hv hs
    obtain ⟨g, hg, hga⟩ := hne hv
    exact ⟨p, g, vs, h1, h2, h3, hg, hga, _, hs.iter, by simp [Function.comp_def]⟩
  cases h7 with
  | connect => simp only at h9; rw [h9] at hA; simp at hA
  | disconnect => simp only at h9; rw [h9] at hA; simp at hA
  | event _ hv _ =>
    obtain ⟨A', h, hs⟩ := h9
    rw [h] at hA
    simp at hA
    rw [hA] at hs
    exact fin _ hv hs
  | ack i _ _ hv _ =>
    obtain ⟨A', h, hs⟩ := h9
    rw [h] at hA
    simp at hA
    rw [hA] at hs
    exact fin _ hv hs

/-- C17, rejection: a message whose argument part is no JSON array is rejected, with an
error that shows this part (numbers of more than 64 bits excepted, see C13). -/
theorem C17_reject (p : Pkt) (g : Str) (hw : p.Wf) (hl : p.Longest) (hg : p.args = some g)
    (hn : ¬ ∃ vs, IsArrayText vs g) :
    (∀ ms pk, ¬ Decoded p.text ms pk) ∧
    ∀ m, HasPayload m (.text p.text) → p.Fits → deserialize m = .err (.invalidDataJson g) := by
  constructor
  · intro ms pk hd
    obtain ⟨q, vs', bs, body, h1, h2, h3, h4, h5, h6, h7, h8⟩ := decoded_means hd
    have := Pkt.longest_unique h1 hw h2 h3 hl
    subst this
    unfold Pkt.ArgTexts at h5
    rw [hg] at h5
    exact hn ⟨vs', h5⟩
  · intro m hm hf
    have ho := deserialize_text_eq hm
    generalize deserialize m = r at ho
    have uniq : ∀ p' : Pkt, p'.Wf → p'.text = p.text → p'.Longest → p' = p :=
      fun p' h1 h2 h3 => Pkt.longest_unique h1 hw h2 h3 hl
    have contra : ∀ (p' : Pkt) vs, p'.Wf → p'.text = p.text → p'.Longest → p'.ArgTexts vs → False := by
      intro p' vs h1 h2 h3 h4
      rw [uniq p' h1 h2 h3] at h4
      unfold Pkt.ArgTexts at h4
      rw [hg] at h4
      exact hn ⟨vs, h4⟩
    cases ho with
    | bad h => exact absurd rfl (h p hw)
    | overflow p' h1 h2 h3 h4 => rw [uniq p' h1 h2 h3] at h4; exact absurd hf h4
    | json p' g' h1 h2 h3 h4 h5 h6 =>
      rw [uniq p' h1 h2 h3, hg] at h5
      simp at h5
      rw [h5]
    | extra p' vs h1 h2 h3 h4 h5 => exact (contra p' vs h1 h2 h3 h5).elim
    | missing p' vs h1 h2 h3 h4 h5 => exact (contra p' vs h1 h2 h3 h5).elim
    | count p' vs n h1 h2 h3 h4 h5 => exact (contra p' vs h1 h2 h3 h5).elim
    | packet p' vs b pk h1 h2 h3 h4 h5 => exact (contra p' vs h1 h2 h3 h5).elim
    | needed p' vs n q h1 h2 h3 h4 h5 => exact (contra p' vs h5.wf h1 h5.longest h5.args).elim

-- non-vacuity of `C17_reject`: argument part `[1,]`
example : ¬ ∃ vs, IsArrayText vs "[1,]".toList := by
  rintro ⟨vs, h⟩
  have := parseArgs_complete h
  obtain ⟨rs, h1, _⟩ := this
  have h2 : parseArgs "[1,]".toList = .err (.invalidDataJson "[1,]".toList) := by decide +kernel
  rw [h2] at h1
  simp at h1
-- non-vacuity of `C17_args`
example : ∃ pk A, Decoded "2/é,7[\"ü\" , 1]".toList [] pk ∧ pk.data = .ok (.event (some 7) A) := decoded_sample

/-! ### C19 -/

/-- C19: what a decoded packet has: an ack has an id and an argument, an event has an
argument, connect and disconnect have nothing; the attachments are as many as announced,
and they are the contents of the messages that followed. -/
theorem C19_wellformed (s : Str) (ms : List EMsg) (pk : Packet) (h : Decoded s ms pk) :
    ∃ (p : Pkt) (bs : List Bytes), p.Wf ∧ p.text = s ∧ p.Longest ∧ Payloads ms (bs.map Payload.binary) ∧
      bs.length = p.att.getD 0 ∧
      ((p.kind = '0' ∧ pk.data = .ok .connect ∧ p.att = none ∧ p.id = none) ∨
       (p.kind = '1' ∧ pk.data = .ok .disconnect ∧ p.att = none ∧ p.id = none) ∨
       (p.kind ∈ ['2', '5'] ∧ ∃ A, pk.data = .ok (.event p.id A) ∧ 0 < A.len ∧
          A.attachments.map OwnedSubslice.deref = bs.map some) ∨
       (p.kind ∈ ['3', '6'] ∧ ∃ A i, p.id = some i ∧ pk.data = .ok (.ack i A) ∧ 0 < A.len ∧
          A.attachments.map OwnedSubslice.deref = bs.map some)) := by
  obtain ⟨p, vs, bs, body, h1, h2, h3, h4, h5, h6, h7, h8, h9⟩ := decoded_means h
  refine ⟨p, bs, h1, h2, h3, h6, ?_⟩
  cases h7 with
  | connect g1 g2 g3 g4 g5 =>
    simp only at h9
    subst g5
    exact ⟨by simp [g2], Or.inl ⟨g1, h9, g2, g3⟩⟩
  | disconnect g1 g2 g3 g4 g5 =>
    simp only at h9
    subst g5
    exact ⟨by simp [g2], Or.inr (Or.inl ⟨g1, h9, g2, g3⟩)⟩
  | event g1 hv g3 =>
    obtain ⟨A, hA, hs⟩ := h9
    refine ⟨g3, Or.inr (Or.inr (Or.inl ⟨?_, A, hA, ?_, hs.atts⟩))⟩
    · rcases g1 with ⟨g, _⟩ | ⟨g, _⟩ <;> simp [g]
    · rw [hs.len]; exact List.length_pos_iff.2 hv
  | ack i g1 gi hv g3 =>
    obtain ⟨A, hA, hs⟩ := h9
    refine ⟨g3, Or.inr (Or.inr (Or.inr ⟨?_, A, i, gi, hA, ?_, hs.atts⟩))⟩
    · rcases g1 with ⟨g, _⟩ | ⟨g, _⟩ <;> simp [g]
    · rw [hs.len]; exact List.length_pos_iff.2 hv

/-- A binary ack with one attachment is decoded (used as non-vacuity of C19). -/
theorem decoded_binary_sample : ∃ ms pk, ms ≠ [] ∧
    Decoded "61-3[{\"_placeholder\":true,\"num\":0}]".toList ms pk := by
  obtain ⟨d, hd, hf⟩ := Res.okWith_spec (r := deserialize (.text (OwnedSubslice.new
      ('4' :: "61-3[{\"_placeholder\":true,\"num\":0}]".toList) 1
      (blen ('4' :: "61-3[{\"_placeholder\":true,\"num\":0}]".toList)))))
    (f := fun d => match d with
      | .dataNeeded q => (deserializePartial q [.binary (OwnedSubslice.new [4, 9, 8] 1 3)]).okWith fun _ => true
      | _ => false) (by decide +kernel)
  cases d with
  | packet pk => simp at hf
  | dataNeeded q =>
    obtain ⟨pk, hpk, _⟩ := Res.okWith_spec hf
    exact ⟨_, pk, by simp, .withAttachments _ q (received_text _) (deref_text _) hd
      (by intro x hx; simp at hx; subst hx; exact received_binary [9, 8]) hpk⟩

-- non-vacuity of `C19_wellformed`
example : ∃ ms pk, ms ≠ [] ∧ Decoded "61-3[{\"_placeholder\":true,\"num\":0}]".toList ms pk :=
  decoded_binary_sample

/-- C19: `DeserializeResult::packet` gives the packet exactly if there is one. -/
theorem C19_packet (r : DeResult) (pk : Packet) : r.packet? = some pk ↔ r = .packet pk := by
  cases r <;> simp [DeResult.packet?]

end SIO
