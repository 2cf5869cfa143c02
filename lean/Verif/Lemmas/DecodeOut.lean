import Verif.Lemmas.ParseText
import Verif.Lemmas.Header
import Verif.Lemmas.Strings
import Verif.Spec.Packet
/-
All outcomes of `deserialize` and `deserialize_partial`.
-/
namespace SIO
open Spec

theorem u64Bound_eq : u64Bound = 2 ^ 64 := by decide

theorem decVal_decimal (n : Nat) : decVal (decimal n) = n := by
  rw [← natDec_decimal]; exact decVal_natDec n

theorem isDec_decimal {s : Str} (h : IsDec s) : s = decimal (decVal s) := by
  rw [← natDec_decimal, natDec_decVal (isDec_canon h)]

theorem decimal_injective {m n : Nat} (h : decimal m = decimal n) : m = n := by
  rw [← decVal_decimal m, h, decVal_decimal]

theorem map_decimal_inj {a b : Option Nat} (h : a.map decimal = b.map decimal) : a = b := by
  cases a <;> cases b <;> simp at h
  · rfl
  · rw [decimal_injective h]

theorem Pkt.partsWf {p : Pkt} (h : p.Wf) : p.parts.Wf := by
  refine ⟨h.kind, ?_, h.ns, ?_, h.args⟩
  · intro a ha
    simp only [Pkt.parts, Option.map_eq_some_iff] at ha
    obtain ⟨n, _, rfl⟩ := ha
    exact decimal_isDec n
  · intro a ha
    simp only [Pkt.parts, Option.map_eq_some_iff] at ha
    obtain ⟨n, _, rfl⟩ := ha
    exact decimal_isDec n

/-- The packet of well-formed textual parts. -/
def pktOf (p : Parts) : Pkt := ⟨p.kind, optVal p.att, p.ns, optVal p.id, p.args⟩

theorem optVal_dec {o : Option Str} (h : ∀ x, o = some x → IsDec x) : (optVal o).map decimal = o := by
  cases o with
  | none => rfl
  | some x => simp [optVal, ← isDec_decimal (h x rfl)]

theorem pktOf_parts {p : Parts} (h : p.Wf) : (pktOf p).parts = p := by
  obtain ⟨k, a, n, i, g⟩ := p
  simp [pktOf, Pkt.parts, optVal_dec h.att, optVal_dec h.id]

theorem pktOf_wf {p : Parts} (h : p.Wf) : (pktOf p).Wf := ⟨h.kind, h.ns, h.args⟩

theorem pktOf_fits {p : Parts} (ha : optFits p.att) (hi : optFits p.id) : (pktOf p).Fits := by
  constructor
  · intro n hn
    simp only [pktOf, optVal, Option.map_eq_some_iff] at hn
    obtain ⟨x, hx, rfl⟩ := hn
    rw [← u64Bound_eq]; exact ha x hx
  · intro n hn
    simp only [pktOf, optVal, Option.map_eq_some_iff] at hn
    obtain ⟨x, hx, rfl⟩ := hn
    rw [← u64Bound_eq]; exact hi x hx

theorem pktOf_not_fits {p : Parts} (h : ¬ optFits p.att ∨ ¬ optFits p.id) : ¬ (pktOf p).Fits := by
  rintro ⟨h1, h2⟩
  rw [← u64Bound_eq] at h1 h2
  rcases h with h | h <;> apply h <;> intro x hx
  · exact h1 (decVal x) (by simp [pktOf, optVal, hx])
  · exact h2 (decVal x) (by simp [pktOf, optVal, hx])

theorem Pkt.longest_unique {p q : Pkt} (hp : p.Wf) (hq : q.Wf) (h : p.text = q.text)
    (lp : p.Longest) (lq : q.Longest) : p = q := by
  have := SIO.longest_unique (Pkt.partsWf hp) (Pkt.partsWf hq) h lp lq
  obtain ⟨k, a, n, i, g⟩ := p
  obtain ⟨k', a', n', i', g'⟩ := q
  simp only [Pkt.parts, Parts.mk.injEq] at this
  obtain ⟨rfl, ha, rfl, hi, rfl⟩ := this
  rw [map_decimal_inj ha, map_decimal_inj hi]

/-- A parse result reports the packet `p` with argument texts `vs`. -/
structure Parsed (q : Parse) (p : Pkt) (vs : List Str) : Prop where
  wf : p.Wf
  longest : p.Longest
  fits : p.Fits
  args : p.ArgTexts vs
  kind : q.kind.digit = p.kind
  msg : q.message.deref = some p.text
  att : q.attachments = p.att
  id : q.id = p.id
  nsR : RngOf p.text q.ns p.ns
  argsR : RngsOf p.text q.args vs

/-- Everything `parse_text` can do, in terms of packets. -/
inductive ParseOut (s : Str) : Res SErr Parse → Prop where
  | bad : (∀ p : Pkt, p.Wf → p.text ≠ s) → ParseOut s (.err (.invalidMessage s))
  | overflow (p : Pkt) : p.Wf → p.text = s → p.Longest → ¬ p.Fits → ParseOut s .panic
  | json (p : Pkt) (g : Str) : p.Wf → p.text = s → p.Longest → p.Fits →
      p.args = some g → (¬ ∃ vs, IsArrayText vs g) → ParseOut s (.err (.invalidDataJson g))
  | ok (p : Pkt) (vs : List Str) (q : Parse) : p.text = s → Parsed q p vs → ParseOut s (.ok q)

theorem parseText_outP {text : OwnedSubslice Str} {s : Str} (hs : text.deref = some s) :
    ParseOut s (parseText text) := by
  have key : ∀ p : Parts, p.Wf → p.text = s → p.Longest →
      (pktOf p).Wf ∧ (pktOf p).text = s ∧ (pktOf p).Longest := by
    intro p hp ht hl
    refine ⟨pktOf_wf hp, ?_, ?_⟩
    · rw [Pkt.text, pktOf_parts hp, ht]
    · rw [Pkt.Longest, pktOf_parts hp]; exact hl
  generalize hr : parseText text = r
  have h := parseText_out hs
  rw [hr] at h
  cases h with
  | bad h => exact .bad fun p hp he => h p.parts (Pkt.partsWf hp) he
  | overflow p hp ht hl hf =>
    obtain ⟨h1, h2, h3⟩ := key p hp ht hl
    exact .overflow _ h1 h2 h3 (pktOf_not_fits hf)
  | json p g hp ht hl h3 h6 hg hv =>
    obtain ⟨h1, h2, h3'⟩ := key p hp ht hl
    exact .json _ g h1 h2 h3' (pktOf_fits h3 h6) hg hv
  | ok p k ns rs vs hp ht hl h3 h6 hk hn ha hrs =>
    obtain ⟨h1, h2, h3'⟩ := key p hp ht hl
    refine .ok (pktOf p) vs _ h2 ⟨h1, h3', pktOf_fits h3 h6, ?_, hk, by rw [h2]; exact hs, rfl, rfl,
      by rw [h2]; exact hn, by rw [h2]; exact hrs⟩
    unfold Pkt.ArgTexts
    simp only [pktOf]
    cases hg : p.args <;> rw [hg] at ha <;> exact ha

/-! ### What is seen of a decoded packet -/

theorem rngsOf_length {s : Str} {rs : List Rng} {vs : List Str} (h : RngsOf s rs vs) :
    rs.length = vs.length := by
  have := congrArg List.length h
  simpa using this

theorem args_get {s : Str} {rs : List Rng} {vs : List Str} {att : List (OwnedSubslice Bytes)}
    (h : RngsOf s rs vs) (i : Nat) :
    (Args.mk s rs att).get i = .ok (vs[i]?.map fun t => ⟨t, att⟩) := by
  have hi : (rs.map (fun x => sliceB s x.1 x.2))[i]? = (vs.map some)[i]? := by rw [h]
  simp only [List.getElem?_map] at hi
  unfold Args.get
  cases hr : rs[i]? with
  | none =>
    rw [hr] at hi
    have : vs[i]? = none := by cases hv : vs[i]? <;> simp [hv] at hi ⊢
    simp [this]
  | some r =>
    rw [hr] at hi
    cases hv : vs[i]? with
    | none => simp [hv] at hi
    | some v =>
      simp [hv] at hi
      simp [hi]

theorem args_iterFrom {A : Args} {ts : List Str} (hg : ∀ i, A.get i = .ok (ts[i]?.map fun t => ⟨t, A.attachments⟩)) :
    ∀ (n i : Nat), ts.length < i + n →
      A.iterFrom n i = .ok ((ts.drop i).map fun t => ⟨t, A.attachments⟩) := by
  intro n
  induction n with
  | zero =>
    intro i h
    simp [Args.iterFrom, List.drop_eq_nil_of_le (show ts.length ≤ i by omega)]
  | succ n ih =>
    intro i h
    rw [Args.iterFrom, hg]
    rcases Nat.lt_or_ge i ts.length with hlt | hge
    · rw [List.getElem?_eq_getElem hlt]
      simp only [Option.map_some, Res.bind_ok]
      rw [ih (i + 1) (by omega), List.drop_eq_getElem_cons hlt, List.map_cons]
      rfl
    · rw [List.getElem?_eq_none hge, List.drop_eq_nil_of_le hge]
      simp

theorem argsShow_mk {s : Str} {rs : List Rng} {vs : List Str} {att : List (OwnedSubslice Bytes)}
    {bs : List Bytes} (h : RngsOf s rs vs) (hb : att.map OwnedSubslice.deref = bs.map some) :
    ArgsShow ⟨s, rs, att⟩ vs bs := by
  have hl := rngsOf_length h
  have hg : ∀ i, (Args.mk s rs att).get i = .ok (vs[i]?.map fun t => ⟨t, att⟩) := args_get h
  refine ⟨hl, ?_, hg, ?_, hb⟩
  · simp only [Args.isEmpty, Args.len, hl]
    cases vs <;> rfl
  · have := args_iterFrom (A := ⟨s, rs, att⟩) (ts := vs) hg (rs.length + 1) 0 (by omega)
    simpa [Args.iter, Args.len] using this

theorem namespace_of {q : Parse} {p : Pkt} {vs : List Str} (h : Parsed q p vs) (pk : Packet)
    (hm : pk.message = q.message) (hn : pk.ns = q.ns) : pk.namespace_ = .ok (p.ns.getD ['/']) := by
  have hr := h.nsR
  unfold Packet.namespace_
  rw [hn, hm]
  unfold RngOf at hr
  cases hq : q.ns with
  | none =>
    rw [hq] at hr
    cases hp : p.ns with
    | none => rfl
    | some n => simp [hp] at hr
  | some r =>
    rw [hq] at hr
    cases hp : p.ns with
    | none => simp [hp] at hr
    | some n =>
      simp [hp] at hr
      simp [h.msg, hr]

/-- A successful event or ack shows the packet. -/
theorem event_shows {q : Parse} {p : Pkt} {vs : List Str} (h : Parsed q p vs) (kind : Kind) (name : Str)
    (hk : kind = .event ∨ kind = .ack) {att : List (OwnedSubslice Bytes)} {bs : List Bytes}
    (hb : att.map OwnedSubslice.deref = bs.map some) :
    ((vs = [] ∨ (kind = .ack ∧ p.id = none)) ∧ deserializeEvent q kind name att = .err (.missingData name p.text)) ∨
    (vs ≠ [] ∧ (kind = .ack → p.id ≠ none) ∧ bs.length ≠ p.att.getD 0 ∧
      deserializeEvent q kind name att = .err (.invalidAttachmentCount bs.length (p.att.getD 0))) ∨
    (vs ≠ [] ∧ bs.length = p.att.getD 0 ∧ ∃ pk, deserializeEvent q kind name att = .ok pk ∧
      ((kind = .event ∧ Shows pk (p.ns.getD ['/']) (.event p.id vs bs)) ∨
        (kind = .ack ∧ ∃ i, p.id = some i ∧ Shows pk (p.ns.getD ['/']) (.ack i vs bs)))) := by
  have hlen : att.length = bs.length := by simpa using congrArg List.length hb
  have hemp : q.args = [] ↔ vs = [] := by
    have := rngsOf_length h.argsR
    rw [← List.length_eq_zero_iff, ← List.length_eq_zero_iff, this]
  unfold deserializeEvent
  simp only [h.id, hemp, hlen, h.att]
  by_cases h1 : (kind = .ack ∧ p.id = none) ∨ vs = []
  · left
    refine ⟨h1.symm, ?_⟩
    rw [if_pos h1]
    simp [msgText, h.msg]
  · right
    rw [if_neg h1]
    have hv : vs ≠ [] := fun hv => h1 (Or.inr hv)
    have hi : kind = .ack → p.id ≠ none := fun hk hi => h1 (Or.inl ⟨hk, hi⟩)
    by_cases h2 : bs.length = p.att.getD 0
    · right
      rw [if_neg (by simpa using h2)]
      refine ⟨hv, h2, _, rfl, ?_⟩
      have hns := fun k => namespace_of h ⟨q.message, k, q.ns, p.id, q.args, att⟩ rfl rfl
      have hA := argsShow_mk h.argsR hb
      rcases hk with rfl | rfl
      · exact Or.inl ⟨rfl, hns _, _, by simp [Packet.data, Packet.args_, h.msg], hA⟩
      · obtain ⟨i, hi⟩ := Option.ne_none_iff_exists'.1 (hi rfl)
        exact Or.inr ⟨rfl, i, hi, hns _, _, by simp [Packet.data, Packet.args_, h.msg, hi], hA⟩
    · left
      rw [if_pos (by simpa using h2)]
      exact ⟨hv, hi, h2, rfl⟩

theorem dataless_shows {q : Parse} {p : Pkt} {vs : List Str} (h : Parsed q p vs) (kind : Kind) (name : Str) :
    ((p.att ≠ none ∨ p.id ≠ none ∨ vs ≠ []) ∧ deserializeDataless q kind name = .err (.invalidExtraData name p.text)) ∨
    (p.att = none ∧ p.id = none ∧ vs = [] ∧ ∃ pk, deserializeDataless q kind name = .ok pk ∧
      pk.namespace_ = .ok (p.ns.getD ['/']) ∧ pk.kind = kind) := by
  have hemp : q.args = [] ↔ vs = [] := by
    have := rngsOf_length h.argsR
    rw [← List.length_eq_zero_iff, ← List.length_eq_zero_iff, this]
  unfold deserializeDataless
  simp only [h.id, h.att, ne_eq, hemp]
  by_cases hc : p.att.isSome = true ∨ p.id.isSome = true ∨ ¬ vs = []
  · left
    rw [if_pos hc]
    refine ⟨?_, by simp [msgText, h.msg]⟩
    simpa [Option.isSome_iff_ne_none] using hc
  · right
    rw [if_neg hc]
    simp at hc
    exact ⟨hc.1, hc.2.1, hc.2.2, _, rfl, namespace_of h _ rfl rfl, rfl⟩

/-- Everything `deserialize` can do on a text. -/
inductive DeOut (s : Str) : Res SErr DeResult → Prop where
  | bad : (∀ p : Pkt, p.Wf → p.text ≠ s) → DeOut s (.err (.invalidMessage s))
  | overflow (p : Pkt) : p.Wf → p.text = s → p.Longest → ¬ p.Fits → DeOut s .panic
  | json (p : Pkt) (g : Str) : p.Wf → p.text = s → p.Longest → p.Fits →
      p.args = some g → (¬ ∃ vs, IsArrayText vs g) → DeOut s (.err (.invalidDataJson g))
  | extra (p : Pkt) (vs : List Str) : p.Wf → p.text = s → p.Longest → p.Fits → p.ArgTexts vs →
      p.kind ∈ ['0', '1'] → (p.att ≠ none ∨ p.id ≠ none ∨ vs ≠ []) → 
      DeOut s (.err (.invalidExtraData (typeName p.kind) s))
  | missing (p : Pkt) (vs : List Str) : p.Wf → p.text = s → p.Longest → p.Fits → p.ArgTexts vs →
      p.kind ∈ ['2', '3', '5', '6'] →
      (vs = [] ∨ (p.kind ∈ ['3', '6'] ∧ p.id = none) ∨ (p.kind ∈ ['5', '6'] ∧ p.att = none)) →
      (p.kind ∈ ['5', '6'] → p.att.getD 0 = 0) →
      DeOut s (.err (.missingData (typeName p.kind) s))
  | count (p : Pkt) (vs : List Str) (n : Nat) : p.Wf → p.text = s → p.Longest → p.Fits → p.ArgTexts vs →
      p.kind ∈ ['2', '3'] → vs ≠ [] → (p.kind = '3' → p.id ≠ none) → p.att = some n → n ≠ 0 →
      DeOut s (.err (.invalidAttachmentCount 0 n))
  | packet (p : Pkt) (vs : List Str) (body : Body) (pk : Packet) : p.Wf → p.text = s → p.Longest →
      p.Fits → p.ArgTexts vs → p.Means vs [] body → Shows pk (p.ns.getD ['/']) body →
      DeOut s (.ok (.packet pk))
  | needed (p : Pkt) (vs : List Str) (n : Nat) (q : Parse) : p.text = s → p.kind ∈ ['5', '6'] →
      p.att = some n → 0 < n → Parsed q p vs → DeOut s (.ok (.dataNeeded q))

theorem digit_cases (k : PKind) {c : Char} (h : k.digit = c) :
    (k = .connect ∧ c = '0') ∨ (k = .disconnect ∧ c = '1') ∨ (k = .event ∧ c = '2') ∨
    (k = .ack ∧ c = '3') ∨ (k = .binaryEvent ∧ c = '5') ∨ (k = .binaryAck ∧ c = '6') := by
  subst h
  cases k <;> simp [PKind.digit]

theorem ok_event_body {p : Pkt} {vs : List Str} {bs : List Bytes} {kind : Kind} {pk : Packet}
    (hkind : (kind = .event ∧ ((p.kind = '2' ∧ bs = []) ∨ (p.kind = '5' ∧ p.att ≠ none))) ∨
      (kind = .ack ∧ ((p.kind = '3' ∧ bs = []) ∨ (p.kind = '6' ∧ p.att ≠ none))))
    (hv : vs ≠ []) (hl : bs.length = p.att.getD 0)
    (h : (kind = .event ∧ Shows pk (p.ns.getD ['/']) (.event p.id vs bs)) ∨
        (kind = .ack ∧ ∃ i, p.id = some i ∧ Shows pk (p.ns.getD ['/']) (.ack i vs bs))) :
    ∃ body, p.Means vs bs body ∧ Shows pk (p.ns.getD ['/']) body := by
  rcases h with ⟨rfl, h⟩ | ⟨rfl, i, hi, h⟩
  · exact ⟨_, .event (by simpa using hkind) hv hl, h⟩
  · exact ⟨_, .ack i (by simpa using hkind) hi hv hl, h⟩

theorem deserializeText_out {text : OwnedSubslice Str} {s : Str} (hs : text.deref = some s) :
    DeOut s (deserializeText text) := by
  unfold deserializeText
  generalize hr : parseText text = r
  have hpo := parseText_outP hs
  rw [hr] at hpo
  cases hpo with
  | bad h => exact .bad h
  | overflow p h1 h2 h3 h4 => exact .overflow p h1 h2 h3 h4
  | json p g h1 h2 h3 h4 h5 h6 => exact .json p g h1 h2 h3 h4 h5 h6
  | ok p vs q ht hp =>
    simp only [Res.bind_ok]
    obtain ⟨hw, hl, hf, ha⟩ := (⟨hp.wf, hp.longest, hp.fits, hp.args⟩ : p.Wf ∧ p.Longest ∧ p.Fits ∧ p.ArgTexts vs)
    have hnil : ([] : List (OwnedSubslice Bytes)).map OwnedSubslice.deref = ([] : List Bytes).map some := rfl
    rcases digit_cases _ hp.kind with ⟨hk, hc⟩ | ⟨hk, hc⟩ | ⟨hk, hc⟩ | ⟨hk, hc⟩ | ⟨hk, hc⟩ | ⟨hk, hc⟩ <;>
      rw [hk] <;> simp only
    · rcases dataless_shows hp .connect _ with ⟨h, he⟩ | ⟨h1, h2, h3, pk, he, hn, hkk⟩
      · rw [he, ht]; have := DeOut.extra p vs hw ht hl hf ha (by simp [hc]) h; rw [hc] at this; exact this
      · rw [he]
        exact .packet p vs .connect pk hw ht hl hf ha (.connect hc h1 h2 h3 rfl)
          ⟨hn, by simp [Packet.data, hkk]⟩
    · rcases dataless_shows hp .disconnect _ with ⟨h, he⟩ | ⟨h1, h2, h3, pk, he, hn, hkk⟩
      · rw [he, ht]; have := DeOut.extra p vs hw ht hl hf ha (by simp [hc]) h; rw [hc] at this; exact this
      · rw [he]
        exact .packet p vs .disconnect pk hw ht hl hf ha (.disconnect hc h1 h2 h3 rfl)
          ⟨hn, by simp [Packet.data, hkk]⟩
    · rcases event_shows hp .event _ (by simp) hnil with ⟨h, he⟩ | ⟨h1, h2, h3, he⟩ | ⟨h1, h2, pk, he, h3⟩
      · rw [he, ht]
        rw [show "event".toList = typeName p.kind by rw [hc]; rfl]
        exact .missing p vs hw ht hl hf ha (by simp [hc]) (Or.inl (by simpa using h)) (by simp [hc])
      · rw [he]
        obtain ⟨n, hn⟩ : ∃ n, p.att = some n := by
          cases h : p.att with
          | none => simp [h] at h3
          | some n => exact ⟨n, rfl⟩
        rw [hn]
        exact .count p vs n hw ht hl hf ha (by simp [hc]) h1 (by simp [hc]) hn (by simp [hn] at h3; omega)
      · rw [he]
        obtain ⟨body, hm, hsh⟩ := ok_event_body (Or.inl ⟨rfl, Or.inl ⟨hc, rfl⟩⟩) h1 h2 h3
        exact .packet p vs body pk hw ht hl hf ha hm hsh
    · rcases event_shows hp .ack _ (by simp) hnil with ⟨h, he⟩ | ⟨h1, h2, h3, he⟩ | ⟨h1, h2, pk, he, h3⟩
      · rw [he, ht]
        rw [show "ack".toList = typeName p.kind by rw [hc]; rfl]
        refine .missing p vs hw ht hl hf ha (by simp [hc]) ?_ (by simp [hc])
        rcases h with h | ⟨_, h⟩
        · exact Or.inl h
        · exact Or.inr (Or.inl ⟨by simp [hc], h⟩)
      · rw [he]
        obtain ⟨n, hn⟩ : ∃ n, p.att = some n := by
          cases h : p.att with
          | none => simp [h] at h3
          | some n => exact ⟨n, rfl⟩
        rw [hn]
        exact .count p vs n hw ht hl hf ha (by simp [hc]) h1 (fun _ => h2 rfl) hn (by simp [hn] at h3; omega)
      · rw [he]
        obtain ⟨body, hm, hsh⟩ := ok_event_body (Or.inr ⟨rfl, Or.inl ⟨hc, rfl⟩⟩) h1 h2 h3
        exact .packet p vs body pk hw ht hl hf ha hm hsh
    · unfold deserializeBinary
      rw [hp.att]
      cases hatt : p.att with
      | none =>
        simp only [msgText, hp.msg, Res.unwrap_some, Res.bind_ok, ht]
        rw [show "binary event".toList = typeName p.kind by rw [hc]; rfl]
        exact .missing p vs hw ht hl hf ha (by simp [hc]) (Or.inr (Or.inr ⟨by simp [hc], hatt⟩)) (by simp [hatt])
      | some n =>
        simp only
        by_cases hn : n = 0
        · rw [if_pos hn]
          subst hn
          rcases event_shows hp .event _ (by simp) hnil with ⟨h, he⟩ | ⟨h1, h2, h3, he⟩ | ⟨h1, h2, pk, he, h3⟩
          · rw [he, ht]
            rw [show "binary event".toList = typeName p.kind by rw [hc]; rfl]
            exact .missing p vs hw ht hl hf ha (by simp [hc]) (Or.inl (by simpa using h)) (by simp [hatt])
          · simp [hatt] at h3
          · rw [he]
            obtain ⟨body, hm, hsh⟩ := ok_event_body (Or.inl ⟨rfl, Or.inr ⟨hc, by simp [hatt]⟩⟩) h1 h2 h3
            exact .packet p vs body pk hw ht hl hf ha hm hsh
        · rw [if_neg hn]
          exact .needed p vs n q ht (by simp [hc]) hatt (by omega) hp
    · unfold deserializeBinary
      rw [hp.att]
      cases hatt : p.att with
      | none =>
        simp only [msgText, hp.msg, Res.unwrap_some, Res.bind_ok, ht]
        rw [show "binary ack".toList = typeName p.kind by rw [hc]; rfl]
        exact .missing p vs hw ht hl hf ha (by simp [hc]) (Or.inr (Or.inr ⟨by simp [hc], hatt⟩)) (by simp [hatt])
      | some n =>
        simp only
        by_cases hn : n = 0
        · rw [if_pos hn]
          subst hn
          rcases event_shows hp .ack _ (by simp) hnil with ⟨h, he⟩ | ⟨h1, h2, h3, he⟩ | ⟨h1, h2, pk, he, h3⟩
          · rw [he, ht]
            rw [show "binary ack".toList = typeName p.kind by rw [hc]; rfl]
            refine .missing p vs hw ht hl hf ha (by simp [hc]) ?_ (by simp [hatt])
            rcases h with h | ⟨_, h⟩
            · exact Or.inl h
            · exact Or.inr (Or.inl ⟨by simp [hc], h⟩)
          · simp [hatt] at h3
          · rw [he]
            obtain ⟨body, hm, hsh⟩ := ok_event_body (Or.inr ⟨rfl, Or.inr ⟨hc, by simp [hatt]⟩⟩) h1 h2 h3
            exact .packet p vs body pk hw ht hl hf ha hm hsh
        · rw [if_neg hn]
          exact .needed p vs n q ht (by simp [hc]) hatt (by omega) hp

end SIO
