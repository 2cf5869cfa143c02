import Verif.Lemmas.Numbered
import Verif.Props.Builder
/-
C20, C21, C22: reading and displaying the arguments of decoded packets as JSON values; C02 on
the level of values.
-/
namespace SIO
open Spec

/-- `a` is an argument of a packet decoded from the text `s` and the attachment messages
`ms`. -/
def ArgOf (s : Str) (ms : List EMsg) (a : Arg) : Prop :=
  ∃ pk A i, Decoded s ms pk ∧ ((∃ id, pk.data = .ok (.event id A)) ∨ ∃ n, pk.data = .ok (.ack n A)) ∧
    A.get i = .ok (some a)

theorem elemTexts_isVal {vs : List Str} {b : Str} (h : IsElemTexts vs b) : ∀ v ∈ vs, ∃ t, IsVal t v := by
  induction vs generalizing b with
  | nil => simp
  | cons v vs ih =>
    obtain ⟨w1, w2, b', _, _, _, hv, h⟩ := h
    intro x hx
    simp only [List.mem_cons] at hx
    rcases hx with rfl | hx
    · exact hv
    · rcases h with ⟨rfl, _⟩ | ⟨_, b'', _, h⟩
      · simp at hx
      · exact ih h x hx

theorem argTexts_isVal {p : Pkt} {vs : List Str} (h : p.ArgTexts vs) : ∀ v ∈ vs, ∃ t, IsVal t v := by
  unfold Pkt.ArgTexts at h
  split at h
  · subst h; simp
  · obtain ⟨_, b, _, _, _, _, h⟩ := h
    exact elemTexts_isVal h

/-- The arguments of a decoded packet, its argument texts and attachments. -/
theorem decoded_args {s : Str} {ms : List EMsg} {pk : Packet} {A : Args} (h : Decoded s ms pk)
    (hA : (∃ id, pk.data = .ok (.event id A)) ∨ ∃ n, pk.data = .ok (.ack n A)) :
    ∃ (vs : List Str) (bs : List Bytes), (∀ v ∈ vs, ∃ t, IsVal t v) ∧ ArgsShow A vs bs ∧
      Payloads ms (bs.map Payload.binary) := by
  obtain ⟨p, vs, bs, body, h1, h2, h3, h4, h5, h6, h7, h8, h9⟩ := decoded_means h
  refine ⟨vs, bs, argTexts_isVal h5, ?_, h6⟩
  cases h7 with
  | connect => simp only at h9; rw [h9] at hA; simp at hA
  | disconnect => simp only at h9; rw [h9] at hA; simp at hA
  | event =>
    obtain ⟨A', h, hs⟩ := h9
    rw [h] at hA
    simp at hA
    rw [← hA]
    exact hs
  | ack =>
    obtain ⟨A', h, hs⟩ := h9
    rw [h] at hA
    simp at hA
    rw [← hA]
    exact hs

theorem argOf_spec {s : Str} {ms : List EMsg} {a : Arg} (h : ArgOf s ms a) :
    ∃ (t : JTree) (bs : List Bytes), IsVal t a.arg ∧ a.attachments.map OwnedSubslice.deref = bs.map some ∧
      Payloads ms (bs.map Payload.binary) := by
  obtain ⟨pk, A, i, hd, hA, hg⟩ := h
  obtain ⟨vs, bs, hv, hs, hp⟩ := decoded_args hd hA
  rw [hs.get i] at hg
  cases hx : vs[i]? with
  | none => rw [hx] at hg; simp at hg
  | some v =>
    rw [hx] at hg
    simp at hg
    subst hg
    obtain ⟨t, ht⟩ := hv v (List.mem_of_getElem? hx)
    exact ⟨t, bs, ht, hs.atts, hp⟩

mutual
theorem reads_exists (fin : Str → Bool) : ∀ (t : JTree) (d : Doc), Denotes t d →
    ((∃ v, Reads fin d v) ↔ ∀ l ∈ docNums d, ∃ n, NumReads fin l n)
  | .null, d, h | .bool _, d, h => by
    simp only [Denotes] at h
    subst h
    simp [Reads, docNums]
  | .num l, d, h => by
    simp only [Denotes] at h
    subst h
    simp only [Reads, docNums, List.mem_singleton, forall_eq]
    exact ⟨fun ⟨v, n, _, h⟩ => ⟨n, h⟩, fun ⟨n, h⟩ => ⟨_, n, rfl, h⟩⟩
  | .str raw, d, h => by
    simp only [Denotes] at h
    obtain ⟨s, rfl, _⟩ := h
    simp [Reads, docNums]
  | .arr ts, d, h => by
    simp only [Denotes] at h
    obtain ⟨ds, rfl, h⟩ := h
    rw [docNums, ← readsL_exists fin ts ds h]
    simp only [Reads]
    exact ⟨fun ⟨v, xs, _, h⟩ => ⟨xs, h⟩, fun ⟨xs, h⟩ => ⟨_, xs, rfl, h⟩⟩
  | .obj kts, d, h => by
    simp only [Denotes] at h
    obtain ⟨ds, rfl, h⟩ := h
    rw [docNums, ← readsM_exists fin kts ds h]
    simp only [Reads]
    exact ⟨fun ⟨v, w, m, _, h, _⟩ => ⟨w, h⟩, fun ⟨w, h⟩ => ⟨_, w, _, rfl, h, (isMap_iff w _).2 rfl⟩⟩
theorem readsL_exists (fin : Str → Bool) : ∀ (ts : List JTree) (ds : List Doc), DenotesL ts ds →
    ((∃ v, ReadsL fin ds v) ↔ ∀ l ∈ docNumsL ds, ∃ n, NumReads fin l n)
  | [], ds, h => by
    simp only [DenotesL] at h
    subst h
    simp [ReadsL, docNumsL]
  | t :: ts, ds, h => by
    simp only [DenotesL] at h
    obtain ⟨d, ds', rfl, h1, h2⟩ := h
    have ih1 := reads_exists fin t d h1
    have ih2 := readsL_exists fin ts ds' h2
    simp only [docNumsL, List.mem_append, ReadsL]
    constructor
    · rintro ⟨v, y, ys, rfl, h, h'⟩ l (hl | hl)
      · exact ih1.1 ⟨y, h⟩ l hl
      · exact ih2.1 ⟨ys, h'⟩ l hl
    · intro h
      obtain ⟨y, hy⟩ := ih1.2 fun l hl => h l (Or.inl hl)
      obtain ⟨ys, hys⟩ := ih2.2 fun l hl => h l (Or.inr hl)
      exact ⟨_, y, ys, rfl, hy, hys⟩
theorem readsM_exists (fin : Str → Bool) : ∀ (ts : List (Str × JTree)) (ds : List (Str × Doc)), DenotesM ts ds →
    ((∃ v, ReadsM fin ds v) ↔ ∀ l ∈ docNumsM ds, ∃ n, NumReads fin l n)
  | [], ds, h => by
    simp only [DenotesM] at h
    subst h
    simp [ReadsM, docNumsM]
  | (k, t) :: ts, ds, h => by
    simp only [DenotesM] at h
    obtain ⟨k', d, ds', rfl, _, h1, h2⟩ := h
    have ih1 := reads_exists fin t d h1
    have ih2 := readsM_exists fin ts ds' h2
    simp only [docNumsM, List.mem_append, ReadsM]
    constructor
    · rintro ⟨v, y, ys, rfl, h, h'⟩ l (hl | hl)
      · exact ih1.1 ⟨y, h⟩ l hl
      · exact ih2.1 ⟨ys, h'⟩ l hl
    · intro h
      obtain ⟨y, hy⟩ := ih1.2 fun l hl => h l (Or.inl hl)
      obtain ⟨ys, hys⟩ := ih2.2 fun l hl => h l (Or.inr hl)
      exact ⟨_, y, ys, rfl, hy, hys⟩
end

theorem reading_noRaw {fin : Str → Bool} {t : JTree} {d : Doc} (h : Denotes t d) (hn : NoRaw d) :
    Reading fin d ↔ ∀ l ∈ docNums d, ∃ n, NumReads fin l n := by
  rw [← reads_exists fin t d h, ← gets_exists]
  simp only [fun v => gets_iff_reads fin d v hn]

theorem isText_of_isVal {t : JTree} {s : Str} (h : IsVal t s) : IsText t s :=
  ⟨[], s, [], by simp, by simp [IsWs], by simp [IsWs], h⟩

theorem valueOfText_none_iff {fin : Str → Bool} {t : JTree} {s : Str} (h : IsVal t s) :
    valueOfText fin s = none ↔ ¬ Readable fin t := by
  constructor
  · rintro hn ⟨hd, doc, h1, h2⟩
    obtain ⟨v, hv⟩ := gets_exists.2 h2
    rw [(valueOfText_iff fin s v).2 ⟨t, doc, isText_of_isVal h, h1, hd, hv⟩] at hn
    simp at hn
  · intro hr
    cases hv : valueOfText fin s with
    | none => rfl
    | some v =>
      exfalso
      obtain ⟨t', doc, h1, h2, h3, h4⟩ := (valueOfText_iff fin s v).1 hv
      have := isText_unique h1 (isText_of_isVal h)
      subst this
      exact hr ⟨h3, doc, h2, gets_exists.1 ⟨v, h4⟩⟩

/-! ### C20 -/

/-- The outcome of reading an argument as a value, in terms of the value of its text. -/
theorem toJsonValue_out (fin : Str → Bool) {a : Arg} {t : JTree} {bs : List Bytes} (ht : IsVal t a.arg)
    (hb : a.attachments.map OwnedSubslice.deref = bs.map some) :
    (¬ Readable fin t ∧ a.toJsonValue fin = .panic) ∨
    (Readable fin t ∧ ∃ doc v, Denotes t doc ∧ Gets fin doc v ∧
      ((bs = [] ∧ a.toJsonValue fin = .ok v) ∨
       (bs ≠ [] ∧ a.toJsonValue fin = fillV a.attachments v ∧
        FillOut bs.length (phObjs v) (Filled bs v) (fillV a.attachments v)))) := by
  unfold Arg.toJsonValue
  cases hv : valueOfText fin a.arg with
  | none => exact Or.inl ⟨(valueOfText_none_iff ht).1 hv, rfl⟩
  | some v =>
    obtain ⟨t', doc, h1, h2, h3, h4⟩ := (valueOfText_iff fin a.arg v).1 hv
    have := isText_unique h1 (isText_of_isVal ht)
    subst this
    refine Or.inr ⟨⟨h3, doc, h2, gets_exists.1 ⟨v, h4⟩⟩, doc, v, h2, h4, ?_⟩
    have hl : a.attachments.length = bs.length := by simpa using congrArg List.length hb
    by_cases hn : bs = []
    · have : a.attachments = [] := List.length_eq_zero_iff.1 (by simp [hl, hn])
      exact Or.inl ⟨hn, by simp [this]⟩
    · have : a.attachments ≠ [] := by
        intro h
        rw [h] at hl
        exact hn (List.length_eq_zero_iff.1 hl.symm)
      exact Or.inr ⟨hn, by simp [this], fillV_out hb v⟩

/-- C20, what holds: reading an argument of a decoded packet panics exactly if its text is
not readable: a lone surrogate in some string, a nesting of 128 or more, a number
out of range, or an object that starts with serde_json's private key for raw values and is not
a readable raw value.  Missing for the full claim: these texts (`C20_counterexample`). -/
theorem C20_partial (fin : Str → Bool) (s : Str) (ms : List EMsg) (a : Arg) (h : ArgOf s ms a) :
    ∃ t, IsVal t a.arg ∧ (a.toJsonValue fin = .panic ↔ ¬ Readable fin t) := by
  obtain ⟨t, bs, ht, hb, _⟩ := argOf_spec h
  refine ⟨t, ht, ?_⟩
  rcases toJsonValue_out fin ht hb with ⟨h1, h2⟩ | ⟨h1, doc, v, _, _, ⟨_, h2⟩ | ⟨_, h2, h3⟩⟩
  · simp [h1, h2]
  · simp [h1, h2]
  · rw [h2]
    rcases h3 with ⟨y, h, _⟩ | ⟨_, _, _, e, _, _, _, h⟩ <;> simp [h, h1]

/-- Decoding a text message and the binary messages after it. -/
def decodeAll (s : Str) (bs : List Bytes) : Res SErr Packet :=
  match deserialize (.text (OwnedSubslice.new ('4' :: s) 1 (blen ('4' :: s)))) with
  | .ok (.packet pk) => if bs = [] then .ok pk else .panic
  | .ok (.dataNeeded q) => deserializePartial q (bs.map fun b => .binary (OwnedSubslice.new (4 :: b) 1 (4 :: b).length))
  | .err e => .err e
  | .panic => .panic

theorem decodeAll_decoded {s : Str} {bs : List Bytes} {pk : Packet} (h : decodeAll s bs = .ok pk) :
    Decoded s (bs.map fun b => .binary (OwnedSubslice.new (4 :: b) 1 (4 :: b).length)) pk := by
  unfold decodeAll at h
  split at h
  · rename_i pk' hd
    split at h
    · rename_i hb
      subst hb
      cases h
      exact .alone _ (received_text _) (deref_text _) rfl hd
    · simp at h
  · rename_i q hd
    refine .withAttachments _ q (received_text _) (deref_text _) hd ?_ h
    intro x hx
    obtain ⟨b, _, rfl⟩ := List.mem_map.1 hx
    exact received_binary b
  · simp at h
  · simp at h

/-- The first argument of the event packet, if it satisfies `f`. -/
def firstArg (f : Arg → Bool) (pk : Packet) : Bool := pk.data.okWith fun x => match x with
  | .event _ A => (A.get 0).okWith fun a => a.any f
  | _ => false

theorem firstArg_spec {f : Arg → Bool} {pk : Packet} (h : firstArg f pk = true) :
    ∃ id A a, pk.data = .ok (.event id A) ∧ A.get 0 = .ok (some a) ∧ f a = true := by
  obtain ⟨x, hx, hf⟩ := Res.okWith_spec h
  split at hf
  · rename_i id A
    obtain ⟨y, hy, hf⟩ := Res.okWith_spec hf
    cases y with
    | none => simp at hf
    | some a => exact ⟨id, A, a, hx, hy, by simpa using hf⟩
  · simp at hf

/-- The packet `2["\ud800"]`. -/
def surrogateText : Str := "2[\"\\ud800\"]".toList

theorem surrogate_decoded : ∃ pk id A, Decoded surrogateText [] pk ∧ pk.data = .ok (.event id A) ∧
    A.get 0 = .ok (some ⟨"\"\\ud800\"".toList, []⟩) := by
  obtain ⟨pk, hd, hf⟩ := Res.okWith_spec (r := decodeAll surrogateText [])
    (f := firstArg fun a => decide (a = ⟨"\"\\ud800\"".toList, []⟩)) (by decide +kernel)
  obtain ⟨id, A, a, h1, h2, h3⟩ := firstArg_spec hf
  exact ⟨pk, id, A, decodeAll_decoded hd, h1, (of_decide_eq_true h3) ▸ h2⟩

theorem surrogate_panics (fin : Str → Bool) : (⟨"\"\\ud800\"".toList, []⟩ : Arg).toJsonValue fin = .panic := by
  obtain ⟨raw, h1, h2⟩ : ∃ raw, parseTree "\"\\ud800\"".toList = some (.str raw) ∧ unescape raw = none := by
    have h : (match parseTree "\"\\ud800\"".toList with
      | some (.str raw) => (unescape raw).isNone
      | _ => false) = true := by decide +kernel
    split at h
    · exact ⟨_, by assumption, by simpa using h⟩
    · simp at h
  simp only [Arg.toJsonValue, valueOfText, h1, Option.bind_some, toValue_str, h2, Option.map_none]

/-- C20 is false: the argument of the decodable packet `2["\ud800"]` makes the reading panic. -/
theorem C20_counterexample : ∃ s ms a, ArgOf s ms a ∧ ∀ fin, a.toJsonValue fin = .panic := by
  obtain ⟨pk, id, A, h1, h2, h3⟩ := surrogate_decoded
  exact ⟨_, _, _, ⟨pk, A, 0, h1, Or.inl ⟨id, h2⟩, h3⟩, surrogate_panics⟩

/-- The argument `{"$serde_json::private::RawValue":"x"}`. -/
def privateArg : Str := "{\"$serde_json::private::RawValue\":\"x\"}".toList

/-- The tree is a raw value with the text. -/
def isRaw (o : Option JTree) (s : Str) : Bool :=
  match o with
  | some (.obj kts) =>
    match rawView kts with
    | .raw s' => decide (s' = s)
    | _ => false
  | _ => false

theorem isRaw_spec {o : Option JTree} {s : Str} (h : isRaw o s = true) : ∃ kts, o = some (.obj kts) ∧ rawView kts = .raw s := by
  unfold isRaw at h
  split at h
  · split at h
    · rename_i hr
      exact ⟨_, rfl, by rw [hr, of_decide_eq_true h]⟩
    · simp at h
  · simp at h

theorem private_panics (fin : Str → Bool) : (⟨privateArg, []⟩ : Arg).toJsonValue fin = .panic := by
  obtain ⟨kts, h1, h2⟩ := isRaw_spec (o := parseTree privateArg) (s := ['x']) (by decide +kernel)
  have h3 : parseTree ['x'] = none := Option.isNone_iff_eq_none.1 (by decide +kernel)
  have h4 : valueOfText fin privateArg = none := by
    rw [valueOfText, h1, Option.bind_some, toValue_obj, h2]
    simp only [valueOfText, h3, Option.bind_none]
    rfl
  simp only [Arg.toJsonValue, h4]

/-- C20 is false for text without any escape, too: the packet
`2[{"$serde_json::private::RawValue":"x"}]` makes the reading panic. -/
theorem C20_private_counterexample : ∃ s ms a, ArgOf s ms a ∧ '\\' ∉ s ∧ ∀ fin, a.toJsonValue fin = .panic := by
  obtain ⟨pk, hd, hf⟩ := Res.okWith_spec (r := decodeAll ("2[".toList ++ privateArg ++ "]".toList) [])
    (f := firstArg fun a => decide (a = ⟨privateArg, []⟩)) (by decide +kernel)
  obtain ⟨id, A, a, h1, h2, h3⟩ := firstArg_spec hf
  exact ⟨_, _, _, ⟨pk, A, 0, decodeAll_decoded hd, Or.inl ⟨id, h1⟩, (of_decide_eq_true h3) ▸ h2⟩, by decide +kernel, private_panics⟩

-- An argument of that form with a text in it reads as the value of that text.
example : (⟨"{\"$serde_json::private::RawValue\":\" [1 ,true] \"}".toList, []⟩ : Arg).toJsonValue (fun _ => true) =
    .ok (.arr [.num (.pos 1), .bool true]) := by decide +kernel
-- It must be the first key, and there must be nothing else.
example : (⟨"{\"$serde_json::private::RawValue\":\"1\",\"a\":2}".toList, []⟩ : Arg).toJsonValue (fun _ => true) =
    .panic := by decide +kernel
example : (⟨"{\"a\":2,\"$serde_json::private::RawValue\":\"1\"}".toList, []⟩ : Arg).toJsonValue (fun _ => true) =
    .ok (.obj [(rawKey, .str ['1']), (['a'], .num (.pos 2))]) := by decide +kernel

/-- The packet `51-[[1,{"_placeholder":true,"num":0}]]`. -/
def filledText : Str := "51-[[1,{\"_placeholder\":true,\"num\":0}]]".toList

theorem filled_decoded : ∃ s ms a, ArgOf s ms a ∧
    a.toJsonValue (fun _ => true) = .ok (.arr [.num (.pos 1), .arr [.num (.pos 7), .num (.pos 9)]]) := by
  obtain ⟨pk, hd, hf⟩ := Res.okWith_spec (r := decodeAll filledText [[7, 9]])
    (f := firstArg fun a => decide (a.toJsonValue (fun _ => true) =
      .ok (.arr [.num (.pos 1), .arr [.num (.pos 7), .num (.pos 9)]]))) (by decide +kernel)
  obtain ⟨id, A, a, h1, h2, h3⟩ := firstArg_spec hf
  exact ⟨_, _, a, ⟨pk, A, 0, decodeAll_decoded hd, Or.inl ⟨id, h1⟩, h2⟩, of_decide_eq_true h3⟩

-- non-vacuity of `C20_partial`: an argument that is readable, and one that is not
example : ∃ s ms a, ArgOf s ms a ∧ ∃ v, a.toJsonValue (fun _ => true) = .ok v :=
  let ⟨s, ms, a, h, e⟩ := filled_decoded
  ⟨s, ms, a, h, _, e⟩
example : ∃ s ms a, ArgOf s ms a ∧ ∃ t, IsVal t a.arg ∧ ¬ Readable (fun _ => true) t := by
  obtain ⟨s, ms, a, h, hp⟩ := C20_counterexample
  obtain ⟨t, ht, hi⟩ := C20_partial (fun _ => true) s ms a h
  exact ⟨s, ms, a, h, t, ht, hi.1 (hp _)⟩

/-! ### C21 -/

/-- C21: filling a value.  It succeeds iff every placeholder object has an unsigned `num`
that is below the number of attachments, and then every placeholder object is replaced by the
bytes it designates and nothing else changes; otherwise the error is that of the first bad
placeholder object, with its number and the number of attachments. -/
theorem C21_fill (bufs : List (OwnedSubslice Bytes)) (bs : List Bytes)
    (hb : bufs.map OwnedSubslice.deref = bs.map some) (v : Value) :
    ((∃ v', fillV bufs v = .ok v') ↔ ∀ o ∈ phObjs v, PhGood bs.length o) ∧
    (∀ v', fillV bufs v = .ok v' ↔ Filled bs v v') ∧
    (∀ e, fillV bufs v = .err e → ∃ pre o post, phObjs v = pre ++ o :: post ∧
      (∀ x ∈ pre, PhGood bs.length x) ∧
      ((PhBad bs.length o none ∧ e = .noNumInPlaceholderObject (.obj o)) ∨
       ∃ i, PhBad bs.length o (some i) ∧ e = .placeholderIndexOutOfRange i bs.length)) ∧
    fillV bufs v ≠ .panic := by
  rcases fillV_out hb v with ⟨y, h1, h2, h3⟩ | ⟨pre, o, post, e, h1, h2, h3, h4⟩
  · refine ⟨⟨fun _ => h3, fun _ => ⟨y, h1⟩⟩, ?_, by simp [h1], by simp [h1]⟩
    intro v'
    constructor
    · intro h
      rw [h1] at h
      cases h
      exact h2
    · intro h
      rw [h1, filled_unique bs v y v' h2 h]
  · have hbad : ¬ PhGood bs.length o := by
      cases h3 with
      | noNum h => exact phBad_not_good h
      | range i h => exact phBad_not_good h
    have hmem : o ∈ phObjs v := by rw [h1]; simp
    refine ⟨⟨fun ⟨v', h⟩ => by simp [h4] at h, fun h => absurd (h o hmem) hbad⟩, ?_, ?_, by simp [h4]⟩
    · intro v'
      constructor
      · intro h; simp [h4] at h
      · intro h
        exact absurd (filled_good bs v v' h o hmem) hbad
    · intro e' he
      rw [h4] at he
      cases he
      refine ⟨pre, o, post, h1, h2, ?_⟩
      cases h3 with
      | noNum h => exact Or.inl ⟨h, rfl⟩
      | range i h => exact Or.inr ⟨i, h, rfl⟩

/-- C21 for the arguments of decoded packets: a readable argument reads as the value of its
text, filled if the packet has attachments. -/
theorem C21_argument (fin : Str → Bool) (s : Str) (ms : List EMsg) (a : Arg) (h : ArgOf s ms a) :
    ∃ (t : JTree) (bs : List Bytes), IsVal t a.arg ∧ Payloads ms (bs.map Payload.binary) ∧
      ∀ v, a.toJsonValue fin = .ok v ↔
        Readable fin t ∧ ∃ doc u, Denotes t doc ∧ Gets fin doc u ∧ if bs = [] then v = u else Filled bs u v := by
  obtain ⟨t, bs, ht, hb, hp⟩ := argOf_spec h
  refine ⟨t, bs, ht, hp, ?_⟩
  intro v
  have uniq : ∀ doc doc' u u', Denotes t doc → Denotes t doc' → Gets fin doc u → Gets fin doc' u' → u = u' := by
    intro doc doc' u u' h1 h2 h3 h4
    have := denotes_unique t doc doc' h1 h2
    subst this
    exact gets_unique fin h3 h4
  rcases toJsonValue_out fin ht hb with ⟨h1, h2⟩ | ⟨h1, doc, u, h4, h5, ⟨h6, h2⟩ | ⟨h6, h2, h3⟩⟩
  · simp [h1, h2]
  · rw [h2]
    constructor
    · intro h
      cases h
      exact ⟨h1, doc, v, h4, h5, by simp [h6]⟩
    · rintro ⟨_, doc', u', h7, h8, h9⟩
      simp only [h6, if_true] at h9
      rw [h9, uniq doc doc' u u' h4 h7 h5 h8]
  · rw [h2, (C21_fill a.attachments bs hb u).2.1]
    constructor
    · intro h
      exact ⟨h1, doc, u, h4, h5, by simpa [h6] using h⟩
    · rintro ⟨_, doc', u', h7, h8, h9⟩
      simp only [h6, if_false] at h9
      rw [uniq doc doc' u u' h4 h7 h5 h8]
      exact h9

/-- C21, the errors: reading an argument of a decoded packet is an error only if the packet has
attachments, and the error is about the first placeholder object in the value of the text that
does not designate an attachment: it names that object, or its index and the number of attachments. -/
theorem C21_error (fin : Str → Bool) (s : Str) (ms : List EMsg) (a : Arg) (h : ArgOf s ms a) :
    ∃ (t : JTree) (bs : List Bytes), IsVal t a.arg ∧ Payloads ms (bs.map Payload.binary) ∧
      ∀ e, a.toJsonValue fin = .err e →
        bs ≠ [] ∧ Readable fin t ∧ ∃ doc u pre o post, Denotes t doc ∧ Gets fin doc u ∧ phObjs u = pre ++ o :: post ∧
          (∀ x ∈ pre, PhGood bs.length x) ∧
          ((PhBad bs.length o none ∧ e = .noNumInPlaceholderObject (.obj o)) ∨
           ∃ i, PhBad bs.length o (some i) ∧ e = .placeholderIndexOutOfRange i bs.length) := by
  obtain ⟨t, bs, ht, hb, hp⟩ := argOf_spec h
  refine ⟨t, bs, ht, hp, fun e he => ?_⟩
  rcases toJsonValue_out fin ht hb with ⟨_, h2⟩ | ⟨h1, doc, u, h4, h5, ⟨_, h2⟩ | ⟨h6, h2, _⟩⟩
  · rw [h2] at he; cases he
  · rw [h2] at he; cases he
  · obtain ⟨pre, o, post, h7, h8, h9⟩ := (C21_fill a.attachments bs hb u).2.2.1 e (h2 ▸ he)
    exact ⟨h6, h1, doc, u, pre, o, post, h4, h5, h7, h8, h9⟩

-- non-vacuity of `C21_error`: the second placeholder object has an index too large
example : ∃ s ms a, ArgOf s ms a ∧ a.toJsonValue (fun _ => true) = .err (.placeholderIndexOutOfRange 5 1) := by
  obtain ⟨pk, hd, hf⟩ := Res.okWith_spec
    (r := decodeAll "51-[[{\"_placeholder\":true,\"num\":0},{\"_placeholder\":true,\"num\":5}]]".toList [[7, 9]])
    (f := firstArg fun a => decide (a.toJsonValue (fun _ => true) = .err (.placeholderIndexOutOfRange 5 1))) (by decide +kernel)
  obtain ⟨id, A, a, h1, h2, h3⟩ := firstArg_spec hf
  exact ⟨_, _, a, ⟨pk, A, 0, decodeAll_decoded hd, Or.inl ⟨id, h1⟩, h2⟩, of_decide_eq_true h3⟩

-- non-vacuity of `C21_argument`: an argument with a placeholder that is filled
example : ∃ s ms a, ArgOf s ms a ∧
    a.toJsonValue (fun _ => true) = .ok (.arr [.num (.pos 1), .arr [.num (.pos 7), .num (.pos 9)]]) := filled_decoded
-- non-vacuity of `C21_fill`: both kinds of error
example : fillV [⟨[7], 0, 1⟩] (.obj [(phKey, .bool true)]) = .err (.noNumInPlaceholderObject (.obj [(phKey, .bool true)])) := by
  decide +kernel
example : fillV [⟨[7], 0, 1⟩] (.arr [.obj [(phKey, .bool true), (numKey, .num (.pos 4))]]) =
    .err (.placeholderIndexOutOfRange 4 1) := by
  decide +kernel

/-! ### C22 -/

theorem displayArgs_panic (fin : Str → Bool) (first : Bool) (as : List Arg) :
    displayArgs fin first as = .panic ↔ ∃ a ∈ as, ∀ v, a.toJsonValue fin ≠ .ok v := by
  induction as generalizing first with
  | nil => simp [displayArgs]
  | cons a as ih =>
    have ih := ih false
    simp only [displayArgs, Arg.display, List.mem_cons, exists_eq_or_imp, ← ih]
    cases h : a.toJsonValue fin with
    | ok v =>
      cases h' : displayArgs fin false as with
      | ok t => simp [bind, Res.bind, pure]
      | err e => exact e.elim
      | panic => simp [bind, Res.bind]
    | err e => simp [bind, Res.bind]
    | panic => simp [bind, Res.bind]

/-- C22, what holds: displaying a decoded packet panics exactly if some argument of it does
not read as a JSON value (see `C20_partial` and `C21_argument` for when that is).  Missing
for the full claim: packets with such arguments (`C22_counterexample`). -/
theorem C22_partial (fin : Str → Bool) (s : Str) (ms : List EMsg) (pk : Packet) (h : Decoded s ms pk) :
    pk.display fin = .panic ↔
      ∃ A i a, ((∃ id, pk.data = .ok (.event id A)) ∨ ∃ n, pk.data = .ok (.ack n A)) ∧
        A.get i = .ok (some a) ∧ ∀ v, a.toJsonValue fin ≠ .ok v := by
  have key : ∀ A : Args, ((∃ id, pk.data = .ok (.event id A)) ∨ ∃ n, pk.data = .ok (.ack n A)) →
      (A.display fin = .panic ↔ ∃ i a, A.get i = .ok (some a) ∧ ∀ v, a.toJsonValue fin ≠ .ok v) := by
    intro A hA
    obtain ⟨vs, bs, hv, hs, _⟩ := decoded_args h hA
    have e : A.display fin = .panic ↔ displayArgs fin true (vs.map fun t => ⟨t, A.attachments⟩) = .panic := by
      unfold Args.display
      rw [hs.iter]
      simp only [bind, Res.bind]
      generalize displayArgs fin true (vs.map fun t => (⟨t, A.attachments⟩ : Arg)) = r
      cases r with
      | ok t => simp [pure]
      | err e => exact e.elim
      | panic => simp
    rw [e, displayArgs_panic]
    constructor
    · rintro ⟨a, ha, hn⟩
      obtain ⟨t, ht, rfl⟩ := List.mem_map.1 ha
      obtain ⟨i, hi⟩ := List.getElem?_of_mem ht
      exact ⟨i, _, by rw [hs.get i, hi]; rfl, hn⟩
    · rintro ⟨i, a, ha, hn⟩
      rw [hs.get i] at ha
      cases hx : vs[i]? with
      | none => rw [hx] at ha; simp at ha
      | some t =>
        rw [hx] at ha
        simp at ha
        exact ⟨a, List.mem_map.2 ⟨t, List.mem_of_getElem? hx, ha⟩, hn⟩
  obtain ⟨p, vs, bs, body, h1, h2, h3, h4, h5, h6, h7, h8, h9⟩ := decoded_means h
  cases h7 with
  | connect =>
    simp only at h9
    simp [Packet.display, h9, bind, Res.bind, Data.display]
  | disconnect =>
    simp only at h9
    simp [Packet.display, h9, bind, Res.bind, Data.display]
  | event =>
    obtain ⟨A', h, hs⟩ := h9
    have k := key A' (Or.inl ⟨_, h⟩)
    simp only [Packet.display, h, bind, Res.bind, Data.display]
    constructor
    · intro hp
      have : A'.display fin = .panic := by
        cases hd : A'.display fin with
        | ok t => rw [hd] at hp; simp [pure] at hp
        | err e => exact e.elim
        | panic => rfl
      obtain ⟨i, a, x⟩ := k.1 this
      exact ⟨A', i, a, Or.inl ⟨_, rfl⟩, x⟩
    · rintro ⟨A, i, a, hA, x⟩
      simp at hA
      rw [k.2 ⟨i, a, hA ▸ x⟩]
  | ack =>
    obtain ⟨A', h, hs⟩ := h9
    have k := key A' (Or.inr ⟨_, h⟩)
    simp only [Packet.display, h, bind, Res.bind, Data.display]
    constructor
    · intro hp
      have : A'.display fin = .panic := by
        cases hd : A'.display fin with
        | ok t => rw [hd] at hp; simp [pure] at hp
        | err e => exact e.elim
        | panic => rfl
      obtain ⟨i, a, x⟩ := k.1 this
      exact ⟨A', i, a, Or.inr ⟨_, rfl⟩, x⟩
    · rintro ⟨A, i, a, hA, x⟩
      simp at hA
      rw [k.2 ⟨i, a, hA ▸ x⟩]

/-- C22 is false: displaying the decodable packet `2["\ud800"]` panics. -/
theorem C22_counterexample : ∃ s ms pk, Decoded s ms pk ∧ ∀ fin, pk.display fin = .panic := by
  obtain ⟨pk, id, A, h1, h2, h3⟩ := surrogate_decoded
  refine ⟨_, _, pk, h1, fun fin => (C22_partial fin _ _ pk h1).2 ⟨A, 0, _, Or.inl ⟨id, h2⟩, h3, ?_⟩⟩
  rw [surrogate_panics]
  simp

/-- C22 also fails for a packet all of whose arguments are readable: a placeholder that
designates no attachment. -/
theorem C22_counterexample_placeholder : ∃ s ms pk, Decoded s ms pk ∧ pk.display (fun _ => true) = .panic := by
  obtain ⟨pk, hd, hf⟩ := Res.okWith_spec (r := decodeAll "51-[{\"_placeholder\":true,\"num\":5}]".toList [[7, 9]])
    (f := fun pk => decide (pk.display (fun _ => true) = .panic)) (by decide +kernel)
  exact ⟨_, _, pk, decodeAll_decoded hd, of_decide_eq_true hf⟩

-- non-vacuity of `C22_partial`: a packet that is displayed
example : ∃ s ms pk t, Decoded s ms pk ∧ pk.display (fun _ => true) = .ok t := by
  obtain ⟨pk, hd, hf⟩ := Res.okWith_spec (r := decodeAll filledText [[7, 9]])
    (f := fun pk => decide (pk.display (fun _ => true) = .ok "Event { id: None, args: [[1,[7,9]]] }".toList))
    (by decide +kernel)
  exact ⟨_, _, pk, _, decodeAll_decoded hd, of_decide_eq_true hf⟩

/-! ### C01, C02 and C03 on the level of values -/

theorem textsDenote_getElem {vs : List Str} {ds : List Doc} (h : TextsDenote vs ds) {i : Nat} {d : Doc}
    (hi : ds[i]? = some d) : ∃ v, vs[i]? = some v ∧ TextDenotes v d := by
  induction h generalizing i with
  | nil => simp at hi
  | @cons v e vs ds h _ ih =>
    cases i with
    | zero => simp at hi; exact ⟨v, rfl, hi ▸ h⟩
    | succ i =>
      simp only [List.getElem?_cons_succ] at hi ⊢
      exact ih hi

/-- The arguments read as the values of the documents. -/
theorem args_values (fin : Str → Bool) {A : Args} {vs : List Str} {ds : List Doc} (hs : ArgsShow A vs (blobsL ds))
    (ht : TextsDenote vs (numberedL 0 ds)) (hc : (blobsL ds).length < 2 ^ 64) {i : Nat} {d : Doc}
    (hi : ds[i]? = some d) (hk : phKey ∉ d.keys ∨ blobsL ds = []) (hr : DocReadable fin d) :
    ∃ a v, A.get i = .ok (some a) ∧ a.toJsonValue fin = .ok v ∧ Reads fin d.plain v := by
  have hn := numberedL_getElem ds 0 i d hi
  rw [Nat.zero_add] at hn
  obtain ⟨s, hv, t, ht, hdn⟩ := textsDenote_getElem ht hn
  obtain ⟨post, hbl⟩ := blobsL_getElem ds i d hi
  have hlen := congrArg List.length hbl
  simp only [List.length_append] at hlen
  have hread : Readable fin t := by
    refine ⟨?_, _, hdn, ?_⟩
    · rw [denotes_depth t _ hdn, depth_numbered]
      exact hr.1
    · refine (reading_noRaw hdn (noRaw_numbered d _ hr.2.2)).2 ?_
      intro l hl
      rcases nums_numbered d _ l hl with h | ⟨j, hj, rfl⟩
      · exact hr.2.1 l h
      · exact ⟨.pos j, Or.inl ⟨j, rfl, by omega, rfl⟩⟩
  refine ⟨⟨s, A.attachments⟩, ?_⟩
  have hget : A.get i = .ok (some ⟨s, A.attachments⟩) := by rw [hs.get i, hv]; rfl
  rcases toJsonValue_out fin (a := ⟨s, A.attachments⟩) ht hs.atts with ⟨h, _⟩ | ⟨_, doc, u, h1, h2, h3⟩
  · exact absurd hread h
  · have := denotes_unique t _ _ h1 hdn
    subst this
    have h2 := (gets_iff_reads fin _ u (noRaw_numbered d _ hr.2.2)).1 h2
    rcases h3 with ⟨h3, h4⟩ | ⟨h3, h4, _⟩
    · refine ⟨u, hget, h4, ?_⟩
      have hb : d.blobs = [] := by
        rw [h3] at hbl
        have := hbl.symm
        simp only [List.append_eq_nil_iff] at this
        exact this.2.1
      rwa [numbered_noBlobs d _ hb] at h2
    · rcases hk with hk | hk
      · obtain ⟨v, h5, h6⟩ := filled_numbered fin (blobsL ds) d _ u hk (by omega) (fun j hj => by
          rw [hbl, List.getElem?_append_right (by omega)]
          simp only [Nat.add_sub_cancel_left]
          rw [List.getElem?_append_left hj]) h2
        exact ⟨v, hget, by rw [h4]; exact ((C21_fill _ _ hs.atts u).2.1 v).2 h5, h6⟩
      · exact absurd hk h3

/-- The same for texts without placeholders. -/
theorem args_values_plain (fin : Str → Bool) {A : Args} {vs : List Str} {ds : List Doc} (hs : ArgsShow A vs [])
    (ht : TextsDenote vs (plains ds)) {i : Nat} {d : Doc} (hi : ds[i]? = some d) (hr : DocReadable fin d) :
    ∃ a v, A.get i = .ok (some a) ∧ a.toJsonValue fin = .ok v ∧ Reads fin d.plain v := by
  have hb := blobsL_plain ds
  have := args_values fin (ds := plains ds) (d := d.plain) (vs := vs) (A := A) (i := i) (by rw [hb]; exact hs)
    (by rw [numberedL_noBlobs _ _ hb, plains_plains]; exact ht) (by simp [hb]) (plains_getElem ds i d hi) (Or.inr hb)
    (by
      refine ⟨by rw [depth_plain]; exact hr.1, ?_, noRaw_plain d hr.2.2⟩
      intro l hl
      rcases nums_plain d l hl with h | ⟨j, hj, rfl⟩
      · exact hr.2.1 l h
      · exact ⟨.pos j, Or.inl ⟨j, rfl, by omega, rfl⟩⟩)
  rwa [plain_plain] at this

theorem textsDenote_plains_length {vs : List Str} {ds : List Doc} (h : TextsDenote vs (plains ds)) :
    vs.length = ds.length := by
  rw [textsDenote_length h]
  induction ds with
  | nil => rfl
  | cons d ds ih => simp [plains]; exact plains_length ds
  where plains_length : ∀ ds : List Doc, (plains ds).length = ds.length
    | [] => rfl
    | d :: ds => by simp [plains, plains_length ds]

/-- What the peer's application sees of an event: its arguments read as the values of the
documents, byte strings being arrays of numbers. -/
def ShowsValues (fin : Str → Bool) (A : Args) (ds : List Doc) : Prop :=
  A.len = ds.length ∧ ∀ i d, ds[i]? = some d →
    ∃ a v, A.get i = .ok (some a) ∧ a.toJsonValue fin = .ok v ∧ Reads fin d.plain v

/-- C01 on the level of values. -/
theorem C01_value (fin : Str → Bool) (event ns : Str) (id : Option Nat) (hn : NsOk ns)
    (hid : ∀ i, id = some i → i < 2 ^ 64) (args : List SVal) (hf : ∀ v ∈ args, v.FloatsOk)
    (hr : ∀ d ∈ args.filterMap docOf, DocReadable fin d) :
    ∃ b w, Builder.newEvent event ns id false = .ok b ∧ (adds b args).finish = .ok [w] ∧
      (Unambiguous ns [w] → ∃ pk A, PeerReads .active [w] pk ∧ pk.namespace_ = .ok ns ∧
        pk.data = .ok (.event id A) ∧ ShowsValues fin A (.str event :: args.filterMap docOf)) := by
  obtain ⟨b, w, h1, h2, h3⟩ := C01_event_text event ns id hn hid args hf
  refine ⟨b, w, h1, h2, fun hu => ?_⟩
  obtain ⟨pk, vs, h4, ⟨h5, A, h6, h7⟩, h8⟩ := h3 hu
  refine ⟨pk, A, h4, h5, h6, by rw [h7.len]; exact textsDenote_plains_length h8, fun i d hi => ?_⟩
  refine args_values_plain fin h7 h8 hi ?_
  rcases List.mem_cons.1 (List.mem_of_getElem? hi) with rfl | h
  · simp [DocReadable, docDepth, docNums, NoRaw]
  · exact hr d h

/-- C02, what holds: an event sent in binary mode is read by the peer, after its last attachment, as the
event: namespace, id, and arguments whose values are those of the documents, byte strings
being arrays of numbers.  Missing for the full claim: arguments with an object that starts with
serde_json's private key for raw values (`C02_counterexample`). -/
theorem C02_value_partial (fin : Str → Bool) (event ns : Str) (id : Option Nat) (hn : NsOk ns)
    (hid : ∀ i, id = some i → i < 2 ^ 64) (args : List SVal) (hf : ∀ v ∈ args, v.FloatsOk)
    (hm : ∀ v ∈ args, v.NoMixed) (hc : (blobsL (args.filterMap docOf)).length < 2 ^ 64)
    (hk : ∀ d ∈ args.filterMap docOf, phKey ∉ d.keys)
    (hr : ∀ d ∈ args.filterMap docOf, DocReadable fin d) :
    ∃ b ws, Builder.newEvent event ns id true = .ok b ∧ (adds b args).finish = .ok ws ∧
      (Unambiguous ns ws → ∃ pk A, PeerReads .active ws pk ∧ pk.namespace_ = .ok ns ∧
        pk.data = .ok (.event id A) ∧ ShowsValues fin A (.str event :: args.filterMap docOf)) := by
  obtain ⟨b, ws, h1, h2, h3⟩ := C02_event_binary event ns id hn hid args hf hm hc
  refine ⟨b, ws, h1, h2, fun hu => ?_⟩
  obtain ⟨pk, vs, h4, ⟨h5, A, h6, h7⟩, h8⟩ := h3 hu
  refine ⟨pk, A, h4, h5, h6, ?_, fun i d hi => ?_⟩
  · rw [h7.len, textsDenote_length h8, numberedL_length]
  · have hbl : blobsL (.str event :: args.filterMap docOf) = blobsL (args.filterMap docOf) := rfl
    rw [← hbl] at h7 hc
    refine args_values fin h7 h8 hc hi ?_ ?_
    · rcases List.mem_cons.1 (List.mem_of_getElem? hi) with rfl | h
      · simp [Doc.keys]
      · exact Or.inl (hk d h)
    · rcases List.mem_cons.1 (List.mem_of_getElem? hi) with rfl | h
      · simp [DocReadable, docDepth, docNums, NoRaw]
      · exact hr d h

/-- C02 is false for a map with serde_json's private key: `{"$serde_json::private::RawValue":"7"}`
is read by the peer as the number 7. -/
theorem C02_counterexample : ∃ (arg : SVal) (d : Doc), docOf arg = some d ∧ arg.FloatsOk ∧ arg.NoMixed ∧ phKey ∉ d.keys ∧
    docDepth d < 128 ∧ docNums d = [] ∧
    ∃ b ws pk A a, Builder.newEvent ['e'] ['/'] none true = .ok b ∧ (adds b [arg]).finish = .ok ws ∧
      PeerReads .active ws pk ∧ pk.data = .ok (.event none A) ∧ A.get 1 = .ok (some a) ∧
      ∀ fin, a.toJsonValue fin = .ok (.num (.pos 7)) ∧ ¬ Reads fin d.plain (.num (.pos 7)) := by
  have hd : docOf (.map [(.str rawKey, .str ['7'])]) = some (.obj [(rawKey, .str ['7'])]) := by
    simp [docOf, docWith, entriesWith, keyOf]
  refine ⟨.map [(.str rawKey, .str ['7'])], .obj [(rawKey, .str ['7'])], hd, by simp [SVal.FloatsOk, FloatsOkM],
    by simp [SVal.NoMixed, NoMixedM], ?_, by decide, rfl, ?_⟩
  · simp only [Doc.keys, keysM]
    decide
  have hd' : [SVal.map [(.str rawKey, .str ['7'])]].filterMap docOf = [.obj [(rawKey, .str ['7'])]] := by
    simp only [List.filterMap_cons, hd, List.filterMap_nil]
  obtain ⟨b, ws, h1, h2, h3⟩ := C02_event_binary ['e'] ['/'] none (Or.inl rfl) (by simp) [.map [(.str rawKey, .str ['7'])]]
    (by simp [SVal.FloatsOk, FloatsOkM]) (by simp [SVal.NoMixed, NoMixedM]) (by rw [hd']; decide)
  obtain ⟨pk, vs, h4, ⟨_, A, h6, h7⟩, h8⟩ := h3 (Or.inl rfl)
  rw [hd'] at h7 h8
  obtain ⟨s, hv, t, ht, hdn⟩ := textsDenote_getElem (i := 1) (d := .obj [(rawKey, .str ['7'])]) h8 rfl
  refine ⟨b, ws, pk, A, ⟨s, A.attachments⟩, h1, h2, h4, h6, by rw [h7.get 1, hv]; rfl, fun fin => ⟨?_, by simp [Doc.plain, Reads]⟩⟩
  have h7t : IsText (.num ['7']) ['7'] := isText_of_isVal ⟨rfl, by exact decimal_isNum 7⟩
  have hn : NumReads fin ['7'] (.pos 7) := Or.inl ⟨7, rfl, by decide, rfl⟩
  have hg : Gets fin (.obj [(rawKey, .str ['7'])]) (.num (.pos 7)) :=
    gets_raw.2 ⟨_, .num ['7'], h7t, rfl, by decide, .num _ _ hn⟩
  have hread : Readable fin t :=
    ⟨by rw [denotes_depth t _ hdn]; decide, _, hdn, gets_exists.1 ⟨_, hg⟩⟩
  rcases toJsonValue_out fin (a := ⟨s, A.attachments⟩) ht h7.atts with ⟨h, _⟩ | ⟨_, doc, u, h9, h10, ⟨_, h11⟩ | ⟨h11, _⟩⟩
  · exact absurd hread h
  · have := denotes_unique t _ _ h9 hdn
    subst this
    rw [h11, gets_unique fin h10 hg]
  · exact absurd rfl h11

/-- C03 on the level of values, under the conditions of `C03_partial`. -/
theorem C03_value_partial (fin : Str → Bool) (binary : Bool) (ns : Str) (id : Nat) (hn : NsOk ns) (hid : id < 2 ^ 64)
    (arg : SVal) (args : List SVal) (hf : ∀ v ∈ arg :: args, v.FloatsOk) (hm : binary = true → ∀ v ∈ arg :: args, v.NoMixed)
    (h1 : (docOf arg).isSome) (hc : (ackBlobs binary ((arg :: args).filterMap docOf)).length < 2 ^ 64)
    (hk : binary = true → ∀ d ∈ (arg :: args).filterMap docOf, phKey ∉ d.keys)
    (hr : ∀ d ∈ (arg :: args).filterMap docOf, DocReadable fin d) :
    ∃ ws, (adds (Builder.newAck ns id binary) (arg :: args)).finish = .ok ws ∧
      (Unambiguous ns ws → ∃ pk A, PeerReads .active ws pk ∧ pk.namespace_ = .ok ns ∧
        pk.data = .ok (.ack id A) ∧ ShowsValues fin A ((arg :: args).filterMap docOf)) := by
  obtain ⟨ws, h2, h3⟩ := C03_partial binary ns id hn hid arg args hf hm h1 hc
  refine ⟨ws, h2, fun hu => ?_⟩
  obtain ⟨pk, vs, h4, ⟨h5, A, h6, h7⟩, h8⟩ := h3 hu
  generalize (arg :: args).filterMap docOf = ds at *
  cases binary with
  | false =>
    simp only [ackBlobs, ackWire, Bool.false_eq_true, if_false] at h7 h8
    exact ⟨pk, A, h4, h5, h6, by rw [h7.len]; exact textsDenote_plains_length h8, fun i d hi =>
      args_values_plain fin h7 h8 hi (hr d (List.mem_of_getElem? hi))⟩
  | true =>
    simp only [ackBlobs, ackWire, if_true] at h7 h8 hc
    exact ⟨pk, A, h4, h5, h6, by rw [h7.len, textsDenote_length h8, numberedL_length], fun i d hi =>
      args_values fin h7 h8 hc hi (Or.inl (hk rfl d (List.mem_of_getElem? hi))) (hr d (List.mem_of_getElem? hi))⟩

-- non-vacuity of `C02_value_partial`: a document with byte strings inside, and what the peer reads
example (fin : Str → Bool) : ∃ b ws pk A a, Builder.newEvent ['e'] ['/'] (some 3) true = .ok b ∧
    (adds b [.seq [.bytes [1], .str ['a'], .bytes [2, 3]]]).finish = .ok ws ∧ PeerReads .active ws pk ∧
    pk.data = .ok (.event (some 3) A) ∧ A.get 1 = .ok (some a) ∧
    a.toJsonValue fin = .ok (.arr [.arr [.num (.pos 1)], .str ['a'], .arr [.num (.pos 2), .num (.pos 3)]]) := by
  have hd : docOf (.seq [.bytes [1], .str ['a'], .bytes [2, 3]]) = some (.arr [.blob [1], .str ['a'], .blob [2, 3]]) := by
    rfl
  have hd' : [SVal.seq [.bytes [1], .str ['a'], .bytes [2, 3]]].filterMap docOf =
      [.arr [.blob [1], .str ['a'], .blob [2, 3]]] := by
    simp only [List.filterMap_cons, hd, List.filterMap_nil]
  obtain ⟨b, ws, h1, h2, h3⟩ := C02_value_partial fin ['e'] ['/'] (some 3) (Or.inl rfl) (by simp)
    [.seq [.bytes [1], .str ['a'], .bytes [2, 3]]] (by simp [SVal.FloatsOk, FloatsOkL])
    (by simp [SVal.NoMixed, NoMixedL, Mixed]) (by decide)
    (by rw [hd']; simp [Doc.keys, keysL]) (by rw [hd']; simp [DocReadable, docDepth, docDepthL, docNums, docNumsL, NoRaw, NoRawL])
  obtain ⟨pk, A, h4, _, h5, _, h6⟩ := h3 (Or.inl rfl)
  rw [hd'] at h6
  obtain ⟨a, v, h7, h8, h9⟩ := h6 1 _ rfl
  refine ⟨b, ws, pk, A, a, h1, h2, h4, h5, h7, ?_⟩
  have hx : Reads fin (Doc.arr [.blob [1], .str ['a'], .blob [2, 3]]).plain
      (.arr [.arr [.num (.pos 1)], .str ['a'], .arr [.num (.pos 2), .num (.pos 3)]]) := by
    simp only [Doc.plain, plains, Reads, ReadsL]
    exact ⟨_, rfl, _, _, rfl, ⟨_, rfl, readsL_bytes fin [1]⟩, _, _, rfl, rfl, _, _, rfl,
      ⟨_, rfl, readsL_bytes fin [2, 3]⟩, rfl⟩
  rw [h8, reads_unique fin _ _ _ h9 hx]

end SIO
