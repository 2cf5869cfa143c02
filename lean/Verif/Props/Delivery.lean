import Verif.Spec.Delivery
import Verif.Props.Stream
import Verif.Props.Loopback
import Verif.Props.ClientReply
import Verif.Props.ClientEmit
import Verif.Props.WireText
/-
C55: what one client sends and another one receives.
-/
namespace SIO
open Spec

/-! ### The packets sent -/

/-- The namespace and the contents of the packet of an event or a reply. -/
def IsBody (vs : List Str) (ns : Str) (body : Body) : Sent → Prop
  | .event n name ack binary args =>
    ns = n ∧ body = .event (ack.map Prod.fst) vs (ackBlobs binary (.str name :: args.filterMap docOf))
  | .reply n id binary args => ns = n ∧ body = .ack id vs (ackBlobs binary (args.filterMap docOf))
  | .pong => False

/-- The packet an event or a reply is, as the other side reads it. -/
theorem sent_packet {s : Sent} {ws : List Ws} (hg : s.Group ws) (ha : s.Address) (hs : s.Sendable) (hu : s.Clear ws)
    (hp : s ≠ .pong) :
    ∃ (p : Pkt) (vs : List Str) (body : Body), ws = textMessage p :: (ackBlobs s.binary s.docs).map attachment ∧
      p.Reads vs ∧ p.Means vs (ackBlobs s.binary s.docs) body ∧ TextsDenote vs (ackWire s.binary s.docs) ∧
      IsBody vs (p.ns.getD ['/']) body s := by
  have reads : ∀ {ns : Str} {p : Pkt} {us : List Str} {rest : List Ws}, p.ns = nsPart ns → p.Wf → p.ArgTexts us → p.Fits →
      Unambiguous ns (textMessage p :: rest) → p.Reads us := by
    intro ns p us rest h1 h2 h3 h4 h5
    refine ⟨h2, ?_, h4, h3⟩
    rcases unambiguous_pkt h1 h2 h3 h5 with hl | hl
    · exact longest_of_none (Pkt.partsWf h2) hl
    · exact (longest_cases h2).2 fun n g _ hg => hl g hg
  cases s with
  | pong => exact absurd rfl hp
  | event ns name ack binary args =>
    obtain ⟨b, hb, hfin⟩ := hg
    obtain ⟨hn, hid⟩ := ha
    obtain ⟨hf, hm, hc⟩ := hs
    have hu : Unambiguous ns ws := hu
    have hid : ∀ n, (ack.map Prod.fst) = some n → n < 2 ^ 64 := by
      intro n h
      cases ack with
      | none => simp at h
      | some x => simp at h; rw [← h]; exact hid x rfl
    obtain ⟨b', hb', hi⟩ := newEvent_inv name ns (ack.map Prod.fst) binary
    rw [hb] at hb'
    cases hb'
    obtain ⟨h2, _⟩ := bInv_adds args hi (by simp) hf
    have hdocs : docsOf binary args = args.filterMap docOf := by
      cases binary with
      | false => rfl
      | true => exact docsOf_noMixed (hm rfl)
    rw [hdocs] at h2
    simp only [Sent.docs, Sent.binary, IsBody]
    rw [show [Doc.str name] ++ args.filterMap docOf = .str name :: args.filterMap docOf from rfl] at h2
    generalize hds : (.str name :: args.filterMap docOf : List Doc) = ds at *
    have hne : ds ≠ [] := by rw [← hds]; simp
    obtain ⟨ws', h5, h6⟩ := bInv_finish h2
    rw [hfin] at h5
    cases h5
    cases binary with
    | false =>
      obtain ⟨p, us, g1, g2, g3, g4, _, g5, g6, g7, g8⟩ := h6
      have hus : us ≠ [] := by
        have := textsDenote_length g6
        rw [plains_length] at this
        intro h
        rw [h] at this
        exact hne (List.length_eq_zero_iff.1 this.symm)
      subst g8
      refine ⟨p, us, .event p.id us [], rfl, reads g3 (g7 hn) g5 ⟨by simp [g2], by rw [g4]; exact hid⟩ hu,
        .event (Or.inl ⟨g1, rfl⟩) hus (by simp [g2, ackBlobs]), g6, by rw [g3, nsPart_getD], by rw [g4]; rfl⟩
    | true =>
      obtain ⟨p, us, g1, g2, g3, g4, _, g5, g6, g7, g8⟩ := h6
      have hus : us ≠ [] := by
        have := textsDenote_length g6
        rw [numberedL_length] at this
        intro h
        rw [h] at this
        exact hne (List.length_eq_zero_iff.1 this.symm)
      subst g8
      refine ⟨p, us, .event p.id us (blobsL ds), rfl,
        reads g3 (g7 hn) g5 ⟨by rw [g2]; simpa [ackBlobs] using hc, by rw [g4]; exact hid⟩ hu,
        .event (Or.inr ⟨g1, by simp [g2]⟩) hus (by simp [g2, ackBlobs]), g6, by rw [g3, nsPart_getD], by rw [g4]; rfl⟩
  | reply ns id binary args =>
    obtain ⟨hn, hid⟩ := ha
    obtain ⟨hf, hm, hc, arg, rest, rfl, h1⟩ := hs
    have hu : Unambiguous ns ws := hu
    obtain ⟨d, hd⟩ := Option.isSome_iff_exists.1 h1
    have hne : (arg :: rest).filterMap docOf ≠ [] := by simp [hd]
    obtain ⟨h2, _⟩ := bInv_adds_first (arg :: rest) (bInv_new true binary ns (some id)) hf
      (fun v vs' hv => by
        simp only [List.cons.injEq] at hv
        rw [← hv.1, docWith_isSome arg binary false]
        exact h1)
    have hdocs : docsOf binary (arg :: rest) = (arg :: rest).filterMap docOf := by
      cases binary with
      | false => rfl
      | true => exact docsOf_noMixed (hm rfl)
    rw [hdocs] at h2
    simp only [Sent.docs, Sent.binary, IsBody]
    generalize (arg :: rest).filterMap docOf = ds at *
    obtain ⟨ws', h5, h6⟩ := bInv_finish h2
    have hg : (adds (Builder.newAck ns id binary) (arg :: rest)).finish = .ok ws := hg
    rw [show (adds (Builder.new ns (some id) binary true) (arg :: rest)).finish = .ok ws from hg] at h5
    cases h5
    cases binary with
    | false =>
      obtain ⟨p, us, g1, g2, g3, g4, _, g5, g6, g7, g8⟩ := h6
      have hus : us ≠ [] := by
        have := textsDenote_length g6
        rw [plains_length] at this
        intro h
        rw [h] at this
        exact hne (List.length_eq_zero_iff.1 this.symm)
      subst g8
      refine ⟨p, us, .ack id us [], rfl, reads g3 (g7 hn) g5 ⟨by simp [g2], by rw [g4]; simpa using hid⟩ hu,
        .ack id (Or.inl ⟨g1, rfl⟩) g4 hus (by simp [g2, ackBlobs]), g6, by rw [g3, nsPart_getD], rfl⟩
    | true =>
      obtain ⟨p, us, g1, g2, g3, g4, _, g5, g6, g7, g8⟩ := h6
      have hus : us ≠ [] := by
        have := textsDenote_length g6
        rw [numberedL_length] at this
        intro h
        rw [h] at this
        exact hne (List.length_eq_zero_iff.1 this.symm)
      subst g8
      refine ⟨p, us, .ack id us (blobsL ds), rfl,
        reads g3 (g7 hn) g5 ⟨by rw [g2]; simpa [ackBlobs] using hc, by rw [g4]; simpa using hid⟩ hu,
        .ack id (Or.inr ⟨g1, by simp [g2]⟩) g4 hus (by simp [g2, ackBlobs]), g6, by rw [g3, nsPart_getD], rfl⟩

theorem payloads_group (p : Pkt) (bs : List Bytes) :
    (textMessage p :: bs.map attachment).filterMap payload? = .text p.text :: bs.map .binary := by
  simp only [textMessage, List.filterMap_cons, payload?]
  congr 1
  induction bs with
  | nil => rfl
  | cons b bs ih => simp only [List.map_cons, attachment, List.filterMap_cons, payload?]; rw [← ih]

/-- Fit to be sent. -/
structure Fit (x : Sent × List Ws) : Prop where
  group : x.1.Group x.2
  address : x.1.Address
  sendable : x.1.Sendable
  clear : x.1.Clear x.2

/-- Two readings of the same first messages. -/
theorem same_packet {p q : Pkt} {vs us : List Str} (hp : p.Reads vs) (hq : q.Reads us)
    (h : q.text = p.text) : q = p ∧ us = vs := by
  obtain ⟨h1, h2⟩ := sent_is_read hp.wf hq.wf h hq.longest hp.args hq.args
  exact ⟨h1.symm, h2.symm⟩

theorem means_count {p : Pkt} {vs : List Str} {bs : List Bytes} {body : Body} (hm : p.Means vs bs body) :
    bs.length = p.att.getD 0 ∨ (bs = [] ∧ p.kind ∉ ['5', '6']) := by
  cases hm with
  | connect h _ _ _ hb => exact Or.inr ⟨hb, by simp [h]⟩
  | disconnect h _ _ _ hb => exact Or.inr ⟨hb, by simp [h]⟩
  | event _ _ h => exact Or.inl h
  | ack _ _ _ _ h => exact Or.inl h

theorem same_count {p : Pkt} {vs : List Str} {bs bs' : List Bytes} {body body' : Body} (h : p.Means vs bs body)
    (h' : p.Means vs bs' body') : bs.length = bs'.length := by
  rcases means_count h with h1 | ⟨rfl, h1⟩ <;> rcases means_count h' with h2 | ⟨rfl, h2⟩
  · rw [h1, h2]
  · by_cases hb : bs = []
    · simp [hb]
    · exact absurd (means_att h hb).1 h2
  · by_cases hb : bs' = []
    · simp [hb]
    · exact absurd (means_att h' hb).1 h1
  · rfl

theorem told_acts {s : Sent} {who : Who} {ns : Str} {vs : List Str} {body : Body} {now : List Call} (hp : s ≠ .pong)
    (hd : TextsDenote vs (ackWire s.binary s.docs))
    (hb : IsBody vs ns body s) (ha : Acts who ns body now) : Told who s now := by
  cases s with
  | pong => exact absurd rfl hp
  | event n name ack binary args =>
    obtain ⟨rfl, rfl⟩ := hb
    have hname : ∀ {v : Str} {us : List Str} {nm : Str} {bs : List Bytes}, vs = v :: us → NameOf v bs nm → nm = name := by
      intro v us nm bs e h
      subst e
      have : ∃ ds, ackWire binary (.str name :: args.filterMap docOf) = .str name :: ds := by
        cases binary <;> exact ⟨_, rfl⟩
      obtain ⟨ds, e⟩ := this
      simp only [Sent.binary, Sent.docs, e] at hd
      cases hd with
      | cons hv _ => exact nameOf_unique h (nameOf_str hv)
    have hid : ∀ (o : Option (Nat × Cb)), ((o.map Prod.fst).map fun i => (⟨ns, i⟩ : AckHandle)) = o.map fun x => ⟨ns, x.1⟩ := by
      intro o; cases o <;> rfl
    generalize hvs : Body.event (ack.map Prod.fst) vs (ackBlobs binary (.str name :: args.filterMap docOf)) = b at ha
    cases ha with
    | connect => cases hvs
    | disconnect => cases hvs
    | ack => cases hvs
    | event h1 h2 =>
      simp only [Body.event.injEq] at hvs
      obtain ⟨rfl, rfl, rfl⟩ := hvs
      have := hname rfl h1
      subst this
      rw [hid]
      exact .event h2 hd
    | unhandled h1 h2 =>
      simp only [Body.event.injEq] at hvs
      obtain ⟨rfl, rfl, rfl⟩ := hvs
      have := hname rfl h1
      subst this
      exact .nobody h2
  | reply n id binary args =>
    obtain ⟨rfl, rfl⟩ := hb
    cases ha with
    | ack h => exact .reply h hd

theorem dispatched_nil {cfg : RCfg} {cs : List Call} (h : Dispatched cfg [] cs) : cs = [] := by
  generalize hx : ([] : List (Who × Payload)) = x at h
  cases h with
  | done => rfl
  | waiting => simp at hx
  | packet => simp at hx

theorem delivered_of {cfg : RCfg} : ∀ (ss : List (Sent × List Ws)) (ms : List (Who × Payload)) (cs : List Call),
    (∀ x ∈ ss, Fit x) → ms.map Prod.snd <+: ss.flatMap (fun x => x.2.filterMap payload?) → Dispatched cfg ms cs →
    Delivered ms ss cs := by
  intro ss
  induction ss with
  | nil =>
    intro ms cs _ hm hd
    have : ms = [] := by simpa using hm
    subst this
    rw [dispatched_nil hd]
    exact .nothing _
  | cons x ss ih =>
    obtain ⟨s, g⟩ := x
    intro ms cs hf hm hd
    have hx := hf (s, g) (by simp)
    have ih := fun ms cs => ih ms cs (fun x hx => hf x (by simp [hx]))
    rw [List.flatMap_cons] at hm
    by_cases hp : s = .pong
    · subst hp
      have : g = [.text ['3']] := hx.group
      subst this
      exact .pong (ih ms cs (by simpa [payload?] using hm) hd)
    obtain ⟨p, vs, body, rfl, hr, hme, hden, hb⟩ := sent_packet (s := s) (ws := g) hx.group hx.address hx.sendable hx.clear hp
    generalize hbs : ackBlobs s.binary s.docs = bs at *
    rw [payloads_group] at hm
    cases hd with
    | done => exact .nothing _
    | @waiting q us n who ms' h1 h2 h3 h4 =>
      simp only [List.map_cons, List.cons_append, List.cons_prefix_cons, Payload.text.injEq] at hm
      obtain ⟨he, hm⟩ := hm
      obtain ⟨rfl, rfl⟩ := same_packet hr h1 he
      have hn : bs.length = n := by
        rcases means_count hme with h | ⟨_, h⟩
        · rw [h, h3]; rfl
        · exact absurd h2 h
      have hpre : ms'.map Prod.snd <+: bs.map .binary := by
        rcases List.prefix_or_prefix_of_prefix hm (List.prefix_append _ _) with h | h
        · exact h
        · have := h.length_le
          simp at this
          omega
      obtain ⟨more, hmore⟩ := hpre
      refine .cut (more := more) ?_ ?_
      · rw [payloads_group]
        simp [hmore]
      · rintro rfl
        have := congrArg List.length hmore
        simp at this
        omega
    | @packet q us bs' body' who pl pre rest now later h1 h2 h3 h4 h5 h6 =>
      have e : (pre ++ (who, pl) :: rest).map Prod.snd = (.text q.text :: bs'.map .binary) ++ rest.map Prod.snd := by
        rw [← h1]; simp
      rw [e] at hm
      simp only [List.cons_append, List.cons_prefix_cons, Payload.text.injEq] at hm
      obtain ⟨he, hm⟩ := hm
      obtain ⟨rfl, rfl⟩ := same_packet hr h2 he
      have hl := same_count h3 hme
      obtain ⟨t, ht⟩ := hm
      rw [List.append_assoc] at ht
      obtain ⟨ht1, ht2⟩ := List.append_inj ht (by simpa using hl)
      have hbb : bs' = bs := (List.map_inj_right (fun _ _ h => by simpa using h)).1 ht1
      subst hbb
      have := means_unique h3 hme
      subst this
      refine .whole (by rw [payloads_group, h1]) ?_ (ih rest later ⟨t, ht2⟩ h6)
      subst hbs
      refine told_acts hp hden ?_ h5
      exact hb

/-! ### What was sent is accepted -/

theorem acts_told {s : Sent} {who : Who} {ns : Str} {vs : List Str} {body : Body} {now : List Call}
    (hd : TextsDenote vs (ackWire s.binary s.docs)) (hb : IsBody vs ns body s) (ht : Told who s now) :
    ∃ now', Acts who ns body now' := by
  have name : ∀ {name : Str} {binary : Bool} {ds : List Doc} (bs : List Bytes), TextsDenote vs (ackWire binary (.str name :: ds)) →
      ∃ v us, vs = v :: us ∧ NameOf v bs name := by
    intro name binary ds bs hd
    have : ∃ ds', ackWire binary (.str name :: ds) = .str name :: ds' := by
      cases binary <;> exact ⟨_, rfl⟩
    obtain ⟨ds', e⟩ := this
    rw [e] at hd
    cases hd with
    | cons hv _ => exact ⟨_, _, rfl, nameOf_str hv⟩
  cases ht with
  | event h _ =>
    obtain ⟨rfl, rfl⟩ := hb
    obtain ⟨v, us, rfl, hn⟩ := name _ hd
    exact ⟨_, .event hn h⟩
  | nobody h =>
    obtain ⟨rfl, rfl⟩ := hb
    obtain ⟨v, us, rfl, hn⟩ := name _ hd
    exact ⟨_, .unhandled hn h⟩
  | reply h _ =>
    obtain ⟨rfl, rfl⟩ := hb
    exact ⟨_, .ack h⟩

/-- What was sent and reads as values can be put into the log. -/
theorem sent_loggable {cfg : RCfg} {s : Sent} {p : Pkt} {vs : List Str} {body : Body} (hr : p.Reads vs)
    (hm : p.Means vs (ackBlobs s.binary s.docs) body) (hd : TextsDenote vs (ackWire s.binary s.docs))
    (hb : IsBody vs (p.ns.getD ['/']) body s) (hs : s.Sendable) (hread : s.Readable cfg.ext.fin) : Loggable cfg body := by
  have hl : p.ns = none ∨ ∀ g, p.args = some g → ¬ Ambiguous g := by
    cases hn : p.ns with
    | none => exact Or.inl rfl
    | some n => exact Or.inr fun g hg => (longest_cases hr.wf).1 hr.longest n g hn hg
  obtain ⟨pk, h1, h2⟩ := peer_reads hr.wf hr.fits hr.args hm hl
  have ht : ∀ v ∈ body.content.1, ∃ t, IsVal t v := by
    have : ∀ {us : List Str} {ds : List Doc}, TextsDenote us ds → ∀ v ∈ us, ∃ t, IsVal t v := by
      intro us ds h
      induction h with
      | nil => simp
      | cons h _ ih =>
        intro v hv
        rcases List.mem_cons.1 hv with rfl | hv
        · obtain ⟨t, ht, _⟩ := h
          exact ⟨t, ht⟩
        · exact ih v hv
    cases s with
    | pong => exact hb.elim
    | event => obtain ⟨_, rfl⟩ := hb; exact this hd
    | reply => obtain ⟨_, rfl⟩ := hb; exact this hd
  rw [loggable_iff h2 ht]
  obtain ⟨s', ms, hdec⟩ := peerReads_decoded h1
  cases s with
  | pong => exact hb.elim
  | event n name ack binary args =>
    obtain ⟨_, rfl⟩ := hb
    obtain ⟨_, A, h3, h4⟩ := h2
    exact readable_logs hdec (Or.inl ⟨_, h3⟩) (wire_values h4 hd hs.2.2 hread.2 hread.1)
  | reply n id binary args =>
    obtain ⟨_, rfl⟩ := hb
    obtain ⟨_, A, h3, h4⟩ := h2
    exact readable_logs hdec (Or.inr ⟨_, h3⟩) (wire_values h4 hd hs.2.2.1 hread.2 hread.1)

theorem dispatched_of {cfg : RCfg} {ms : List (Who × Payload)} {ss : List (Sent × List Ws)} {cs : List Call}
    (h : Delivered ms ss cs) (hf : ∀ x ∈ ss, Fit x) (hr : ∀ x ∈ ss, x.1.Readable cfg.ext.fin) :
    ∃ cs', Dispatched cfg ms cs' := by
  induction h with
  | nothing => exact ⟨_, .done⟩
  | pong _ ih => exact ih (fun x hx => hf x (by simp [hx])) (fun x hx => hr x (by simp [hx]))
  | @cut ms s g ss more h1 h2 =>
    have hx := hf (s, g) (by simp)
    by_cases hp : s = .pong
    · subst hp
      have : g = [.text ['3']] := hx.group
      subst this
      simp [payload?] at h1
      exact absurd h1.2 h2
    obtain ⟨p, vs, body, rfl, hrd, hme, hden, hb⟩ := sent_packet (s := s) (ws := g) hx.group hx.address hx.sendable hx.clear hp
    rw [payloads_group] at h1
    cases ms with
    | nil => exact ⟨_, .done⟩
    | cons y ms =>
      obtain ⟨who, pl⟩ := y
      simp only [List.map_cons, List.cons_append, List.cons.injEq] at h1
      obtain ⟨rfl, h1⟩ := h1
      have hl : ms.length < (ackBlobs s.binary s.docs).length := by
        have := congrArg List.length h1
        simp only [List.length_append, List.length_map] at this
        have := List.length_pos_iff.2 h2
        omega
      obtain ⟨k1, k2⟩ := means_att hme (by rintro h; rw [h] at hl; simp at hl)
      exact ⟨_, .waiting hrd k1 k2 hl⟩
  | @whole pre rest who pl s g ss now later h1 h2 _ ih =>
    obtain ⟨cs', ih⟩ := ih (fun x hx => hf x (by simp [hx])) (fun x hx => hr x (by simp [hx]))
    have hx := hf (s, g) (by simp)
    have hp : s ≠ .pong := by rintro rfl; cases h2
    obtain ⟨p, vs, body, rfl, hrd, hme, hden, hb⟩ := sent_packet (s := s) (ws := g) hx.group hx.address hx.sendable hx.clear hp
    obtain ⟨now', ha⟩ := acts_told hden hb h2
    have hread : s.Readable cfg.ext.fin := hr (s, textMessage p :: (ackBlobs s.binary s.docs).map attachment) (by simp)
    rw [payloads_group] at h1
    exact ⟨_, .packet h1 hrd hme (sent_loggable hrd hme hden hb hx.sendable hread) ha ih⟩

/-! ### Two clients -/

theorem payload_dataOf (ws : List Ws) : (dataOf ws).filterMap payload? = ws.filterMap payload? := by
  induction ws with
  | nil => rfl
  | cons w ws ih =>
    unfold dataOf at ih ⊢
    cases w <;> simp [List.filterMap_cons, payload?, ih]

theorem incomingFrom_payloads (b tr : List Ev) : (incomingFrom b tr).map Prod.snd = (inbox tr).filterMap payload? := by
  induction tr generalizing b with
  | nil => rfl
  | cons e tr ih =>
    cases e with
    | received w =>
      simp only [incomingFrom, List.map_append, ih, inbox, List.filterMap_cons]
      cases payload? w <;> simp
    | _ => simpa [incomingFrom, inbox] using ih _

theorem payload_opening {o : Ws} {op : Open} (h : Wire o (.opened op)) : payload? o = none := by
  cases h
  rfl

/-- The messages that came are those of what was sent. -/
theorem link_prefix {trA trB : List Ev} {cfg : RCfg} {acts : List Act} {s : Sys} (hA : Runs cfg acts s trA)
    {ss : List (Sent × List Ws)} (hs : ss.map Prod.snd = groups trA) {o : Ws} {op : Open} (ho : Wire o (.opened op))
    (hc : dataOf (inbox trB) <+: o :: written trA) :
    (incoming trB).map Prod.snd <+: ss.flatMap (fun x => x.2.filterMap payload?) := by
  obtain ⟨whole, more, part, h1, h2, h3⟩ := C32_wire cfg acts s trA hA
  have h4 : written trA <+: (groups trA).flatten := by
    rw [h1, h2, List.flatten_append]
    refine List.prefix_append_right_inj _ |>.2 ?_
    rcases h3 with rfl | ⟨g, rest, rfl, h3⟩
    · exact List.nil_prefix
    · rw [List.flatten_cons]
      exact h3.trans (List.prefix_append _ _)
  have h5 : (dataOf (inbox trB)).filterMap payload? <+: (o :: written trA).filterMap payload? := by
    obtain ⟨t, ht⟩ := hc
    exact ⟨t.filterMap payload?, by rw [← List.filterMap_append, ht]⟩
  rw [payload_dataOf, List.filterMap_cons, payload_opening ho] at h5
  unfold incoming
  rw [incomingFrom_payloads]
  refine h5.trans ?_
  obtain ⟨t, ht⟩ := h4
  refine ⟨t.filterMap payload?, ?_⟩
  rw [← List.filterMap_append, ht, ← hs]
  clear hs h1 h2 h3 h5 ht hc
  induction ss with
  | nil => rfl
  | cons x ss ih => simp [List.filterMap_append, ih]

/-- C55: one client sends events and replies, and another one receives what the first one writes, after an open
packet.  As long as the second one does not end with an error of its receiver or a panic, its callbacks are called exactly for what
was sent, in the order in which it was sent: everything that has come completely and somebody has asked for. -/
theorem C55_delivered (cfgA cfgB : RCfg) (actsA actsB : List Act) (sA sB : Sys) (trA trB : List Ev)
    (hA : Runs cfgA actsA sA trA) (hB : Runs cfgB actsB sB trB) (ss : List (Sent × List Ws))
    (hs : ss.map Prod.snd = groups trA) (hf : ∀ x ∈ ss, Fit x) (o : Ws) (op : Open) (ho : Wire o (.opened op))
    (hc : dataOf (inbox trB) <+: o :: written trA) (hr : ¬ Rejected trB) (hp : .taskEnd .panic ∉ trB) :
    ∃ cs, Makes (effects trB) cs ∧ Delivered (incoming trB) ss cs := by
  obtain ⟨_, cs, h1, h2⟩ := C54_system cfgB actsB sB trB hB hr hp
  exact ⟨cs, h2, delivered_of ss _ cs hf (link_prefix hA hs ho hc) h1⟩

theorem engineOk_data {st : Stage} {ws : List Ws} : EngineOk st (dataOf ws) → EngineOk st ws := by
  induction ws generalizing st with
  | nil => exact fun h => h
  | cons w ws ih =>
    intro h
    cases w with
    | ping b => exact .control (Or.inl ⟨b, rfl⟩) (ih h)
    | pong b => exact .control (Or.inr (Or.inl ⟨b, rfl⟩)) (ih h)
    | close => exact .control (Or.inr (Or.inr rfl)) (ih h)
    | text t =>
      have e : dataOf (.text t :: ws) = .text t :: dataOf ws := rfl
      rw [e] at h
      generalize hx : Ws.text t = w at h ⊢
      cases h with
      | control h1 h2 => exact .control h1 (ih h2)
      | opening h1 h2 => exact .opening h1 (ih h2)
      | closing h1 h2 => exact .closing h1 (ih h2)
      | ping h1 h2 => exact .ping h1 (ih h2)
      | pong h1 h2 => exact .pong h1 (ih h2)
      | binary h1 h2 => exact .binary h1 (ih h2)
      | text h0 h1 h2 => exact .text h0 h1 (ih h2)
    | binary t =>
      have e : dataOf (.binary t :: ws) = .binary t :: dataOf ws := rfl
      rw [e] at h
      generalize hx : Ws.binary t = w at h ⊢
      cases h with
      | control h1 h2 => exact .control h1 (ih h2)
      | opening h1 h2 => exact .opening h1 (ih h2)
      | closing h1 h2 => exact .closing h1 (ih h2)
      | ping h1 h2 => exact .ping h1 (ih h2)
      | pong h1 h2 => exact .pong h1 (ih h2)
      | binary h1 h2 => exact .binary h1 (ih h2)
      | text h0 h1 h2 => exact .text h0 h1 (ih h2)

/-- Messages as an open connection may bring them. -/
def Steady (w : Ws) : Prop := Wire w .pong ∨ (∃ t, Wire w (.text t)) ∨ ∃ b, Wire w (.binary b)

theorem engineOk_steady {ws : List Ws} (h : ∀ w ∈ ws, Steady w) : EngineOk .opened ws := by
  induction ws with
  | nil => exact .nil _
  | cons w ws ih =>
    have ih := ih fun w hw => h w (by simp [hw])
    rcases h w (by simp) with h | ⟨t, h⟩ | ⟨b, h⟩
    · exact .pong h ih
    · exact .text (by simp) h ih
    · exact .binary h ih

theorem fit_steady {x : Sent × List Ws} (h : Fit x) : ∀ w ∈ x.2, Steady w := by
  obtain ⟨s, g⟩ := x
  by_cases hp : s = .pong
  · subst hp
    have : g = [.text ['3']] := h.group
    subst this
    intro w hw
    simp at hw
    subst hw
    exact Or.inl (.pong [])
  · obtain ⟨p, vs, body, rfl, _⟩ := sent_packet (s := s) (ws := g) h.group h.address h.sendable h.clear hp
    intro w hw
    rcases List.mem_cons.1 hw with rfl | hw
    · exact Or.inr (Or.inl ⟨_, .text _⟩)
    · obtain ⟨b, _, rfl⟩ := List.mem_map.1 hw
      exact Or.inr (Or.inr ⟨_, .binary _⟩)

/-- C55: if what was sent reads as values, and for every reply that comes somebody waits, then the second client's
receiver takes everything (and `C55_delivered` says what it does with it). -/
theorem C55_accepted (cfgA cfgB : RCfg) (actsA actsB : List Act) (sA sB : Sys) (trA trB : List Ev)
    (hA : Runs cfgA actsA sA trA) (hB : Runs cfgB actsB sB trB) (ss : List (Sent × List Ws))
    (hs : ss.map Prod.snd = groups trA) (hf : ∀ x ∈ ss, Fit x) (hread : ∀ x ∈ ss, x.1.Readable cfgB.ext.fin)
    (o : Ws) (op : Open) (ho : Wire o (.opened op)) (hc : dataOf (inbox trB) <+: o :: written trA)
    (hw : ∃ cs, Delivered (incoming trB) ss cs) :
    ¬ Rejected trB ∧ ∃ cs, Makes (effects trB) cs ∧ Delivered (incoming trB) ss cs := by
  obtain ⟨cs, hw⟩ := hw
  obtain ⟨cs', hd⟩ := dispatched_of (cfg := cfgB) hw hf hread
  have he : EngineOk .fresh (inbox trB) := by
    refine engineOk_data ?_
    have hall : ∀ w ∈ written trA, Steady w := by
      intro w hw
      obtain ⟨whole, more, part, h1, h2, h3⟩ := C32_wire cfgA actsA sA trA hA
      have hg : ∃ g ∈ groups trA, w ∈ g := by
        rw [h2] at hw
        rcases List.mem_append.1 hw with hw | hw
        · obtain ⟨g, hg, hw⟩ := List.mem_flatten.1 hw
          exact ⟨g, by rw [h1]; simp [hg], hw⟩
        · rcases h3 with rfl | ⟨g, rest, rfl, h3⟩
          · simp at hw
          · exact ⟨g, by rw [h1]; simp, h3.subset hw⟩
      obtain ⟨g, hg, hw⟩ := hg
      rw [← hs] at hg
      obtain ⟨x, hx, rfl⟩ := List.mem_map.1 hg
      exact fit_steady (hf x hx) w hw
    generalize dataOf (inbox trB) = d at hc
    cases d with
    | nil => exact .nil _
    | cons y d =>
      rw [List.cons_prefix_cons] at hc
      obtain ⟨rfl, hc⟩ := hc
      exact .opening ho (engineOk_steady fun w hw => hall w (hc.subset hw))
  obtain ⟨h1, h2⟩ := C54_system_ok cfgB actsB sB trB hB he cs' hd
  exact ⟨h1, cs', h2, delivered_of ss _ cs' hf (link_prefix hA hs ho hc) hd⟩

/-! ### What a client sends -/

theorem pong_group {cfg : RCfg} {acts : List Act} {s : Sys} {tr : List Ev} (h : Runs cfg acts s tr) :
    ∀ g, .enqueued .pong g ∈ tr → g = [.text ['3']] := by
  refine exec_induct (P := fun tr _ => ∀ g, .enqueued .pong g ∈ tr → g = [.text ['3']]) (by simp) ?_ acts s tr h
  intro tr s s' evs hi ht g hm
  rcases List.mem_append.1 hm with hm | hm
  · exact hi g hm
  · cases ht with
    | sendOk src g' s0 evs hs hl hc => cases hs <;> simp at hm; exact hm
    | sendFail src g' s0 evs hs hc => cases hs <;> simp at hm
    | recvEvent _ _ _ _ _ _ ack => cases ack <;> simp at hm
    | recvEventPanic _ _ _ _ _ _ ack => cases ack <;> simp at hm
    | _ => simp at hm

/-- C55, what a client sends: unless the application puts messages of its own into the queue, every group in it is
an event, a reply or a pong, with the ids of the client. -/
theorem C55_sent (cfg : RCfg) (acts : List Act) (s : Sys) (tr : List Ev) (h : Runs cfg acts s tr)
    (hraw : ∀ g, .enqueued .raw g ∉ tr) :
    ∃ ss : List (Sent × List Ws), ss.map (fun x => (x.1.src, x.2)) = sources tr ∧ ss.map Prod.snd = groups tr ∧
      ∀ x ∈ ss, x.1.Group x.2 ∧ x.1.Given := by
  have one : ∀ src g, .enqueued src g ∈ tr → ∃ x : Sent, x.src = src ∧ x.Group g ∧ x.Given := by
    intro src g hm
    cases src with
    | raw => exact absurd hm (hraw g)
    | pong => exact ⟨.pong, rfl, pong_group h g hm, trivial⟩
    | emit ns cb =>
      obtain ⟨t1, t2, he⟩ := mem_split hm
      obtain ⟨_, _, _, _, ev, opts, vs, b0, _, _, _, _, h1, h2, _, _⟩ := C48_emit cfg acts s tr h t1 t2 _ ns cb g he (Or.inl rfl)
      refine ⟨.event ns ev cb (lastBinary opts) vs, rfl, ⟨b0, h1, h2⟩, ?_⟩
      rintro ⟨id, c⟩ rfl
      have h3 := (ack_before h _ _ _ he).2 ns id c g (Or.inl rfl)
      have h4 := ((ainv h).regd ns id c (by rw [he]; exact List.mem_append_left _ h3)).2
      simp only
      omega
    | reply x =>
      obtain ⟨b, vs, h1⟩ := (C41_handles cfg acts s tr h x).2 g hm
      refine ⟨.reply x.ns x.id b vs, rfl, h1, ?_⟩
      have h2 : x ∈ replied tr := by
        simp only [replied, List.mem_filterMap]
        exact ⟨_, hm, rfl⟩
      have h3 := (C41_handles cfg acts s tr h x).1
      have h4 := List.count_pos_iff.2 h2
      exact handed_ok h (List.count_pos_iff.1 (by omega))
  clear h hraw
  induction tr with
  | nil => exact ⟨[], rfl, rfl, by simp⟩
  | cons e tr ih =>
    obtain ⟨ss, h1, h2, h3⟩ := ih fun src g hm => one src g (by simp [hm])
    cases e with
    | enqueued src g =>
      obtain ⟨x, k1, k2, k3⟩ := one src g (by simp)
      refine ⟨(x, g) :: ss, ?_, ?_, ?_⟩
      · simp only [List.map_cons, h1, k1]; rfl
      · simp only [List.map_cons, h2]; rfl
      · intro y hy
        rcases List.mem_cons.1 hy with rfl | hy
        · exact ⟨k2, k3⟩
        · exact h3 y hy
    | _ => exact ⟨ss, h1, h2, h3⟩

/-! ### Events -/

theorem after_incoming (b tr : List Ev) : ∀ x ∈ incomingFrom b tr, ∃ h, x.1 = Who.after h := by
  induction tr generalizing b with
  | nil => simp [incomingFrom]
  | cons e tr ih =>
    cases e with
    | received w =>
      intro x hx
      simp only [incomingFrom, List.mem_append, Option.mem_toList, Option.map_eq_some_iff] at hx
      rcases hx with ⟨pl, _, rfl⟩ | hx
      · exact ⟨_, rfl⟩
      · exact ih _ x hx
    | _ => simpa only [incomingFrom] using ih _

theorem after_event (h : List RegOp) (ns name : Str) : ∃ o, (Who.after h).event ns name o :=
  ⟨_, (C26_lookup h ns name _).1 rfl⟩

theorem told_event {who : Who} (hw : ∃ h, who = Who.after h) {ns name : Str} {ack : Option (Nat × Cb)} {binary : Bool}
    {args : List SVal} (ht : ∃ vs, TextsDenote vs (ackWire binary (.str name :: args.filterMap docOf))) :
    ∃ now, Told who (.event ns name ack binary args) now := by
  obtain ⟨h, rfl⟩ := hw
  obtain ⟨vs, ht⟩ := ht
  obtain ⟨o, ho⟩ := after_event h ns name
  cases o with
  | none => exact ⟨_, .nobody ho⟩
  | some cb => exact ⟨_, .event ho ht⟩

theorem delivered_events : ∀ (ss : List (Sent × List Ws)) (ms : List (Who × Payload)), (∀ x ∈ ss, Fit x) →
    (∀ x ∈ ss, ∀ ns id binary args, x.1 ≠ .reply ns id binary args) → (∀ x ∈ ms, ∃ h, x.1 = Who.after h) →
    ms.map Prod.snd <+: ss.flatMap (fun x => x.2.filterMap payload?) → ∃ cs, Delivered ms ss cs := by
  intro ss
  induction ss with
  | nil =>
    intro ms _ _ _ hm
    have : ms = [] := by simpa using hm
    subst this
    exact ⟨_, .nothing _⟩
  | cons x ss ih =>
    obtain ⟨s, g⟩ := x
    intro ms hf hn hw hm
    have hx := hf (s, g) (by simp)
    have ih := fun ms => ih ms (fun x hx => hf x (by simp [hx])) (fun x hx => hn x (by simp [hx]))
    rw [List.flatMap_cons] at hm
    simp only at hm
    by_cases hp : s = .pong
    · subst hp
      have : g = [.text ['3']] := hx.group
      subst this
      obtain ⟨cs, h⟩ := ih ms hw (by simpa [payload?] using hm)
      exact ⟨cs, .pong h⟩
    by_cases hlt : ms.length < (g.filterMap payload?).length
    · rcases List.prefix_or_prefix_of_prefix hm (List.prefix_append _ _) with h | h
      · obtain ⟨more, h⟩ := h
        refine ⟨_, .cut (more := more) h ?_⟩
        rintro rfl
        have := congrArg List.length h
        simp at this
        omega
      · have := h.length_le
        simp at this
        omega
    · obtain ⟨p, vs, body, he, hr, hme, hden, hb⟩ := sent_packet (s := s) (ws := g) hx.group hx.address hx.sendable hx.clear hp
      have hg : 0 < (g.filterMap payload?).length := by rw [he, payloads_group]; simp
      generalize hk : (g.filterMap payload?).length = k at *
      have hsplit : ms = ms.take (k - 1) ++ (ms.drop (k - 1)) := (List.take_append_drop _ _).symm
      cases hd : ms.drop (k - 1) with
      | nil =>
        have := congrArg List.length hd
        simp at this
        omega
      | cons y rest =>
        obtain ⟨who, pl⟩ := y
        rw [hd] at hsplit
        generalize hpre : ms.take (k - 1) = pre at *
        have hl : pre.length = k - 1 := by rw [← hpre, List.length_take]; omega
        rw [hsplit] at hm hw
        have e : (pre ++ (who, pl) :: rest).map Prod.snd = (pre ++ [(who, pl)]).map Prod.snd ++ rest.map Prod.snd := by simp
        rw [e] at hm
        obtain ⟨t, ht⟩ := hm
        rw [List.append_assoc] at ht
        obtain ⟨e1, e2⟩ := List.append_inj ht (by simp [hk, hl]; omega)
        obtain ⟨cs, h⟩ := ih rest (fun x hx => hw x (by simp [hx])) ⟨t, e2⟩
        cases s with
        | pong => exact absurd rfl hp
        | reply ns id binary args => exact absurd rfl (hn (.reply ns id binary args, g) (by simp) ns id binary args)
        | event ns name ack binary args =>
          obtain ⟨now, hnow⟩ := told_event (ns := ns) (ack := ack) (hw (who, pl) (by simp)) ⟨vs, hden⟩
          rw [hsplit]
          exact ⟨_, .whole e1 hnow h⟩

/-- C55, events only: they are accepted whatever is registered, and the calls are as they have to be. -/
theorem C55_events (cfgA cfgB : RCfg) (actsA actsB : List Act) (sA sB : Sys) (trA trB : List Ev)
    (hA : Runs cfgA actsA sA trA) (hB : Runs cfgB actsB sB trB) (ss : List (Sent × List Ws))
    (hs : ss.map Prod.snd = groups trA) (hf : ∀ x ∈ ss, Fit x) (hread : ∀ x ∈ ss, x.1.Readable cfgB.ext.fin)
    (hev : ∀ x ∈ ss, ∀ ns id binary args, x.1 ≠ .reply ns id binary args)
    (o : Ws) (op : Open) (ho : Wire o (.opened op)) (hc : dataOf (inbox trB) <+: o :: written trA) :
    ¬ Rejected trB ∧ ∃ cs, Makes (effects trB) cs ∧ Delivered (incoming trB) ss cs :=
  C55_accepted cfgA cfgB actsA actsB sA sB trA trB hA hB ss hs hf hread o op ho hc
    (delivered_events ss _ hf hev (after_incoming [] trB) (link_prefix hA hs ho hc))

/-- C55, the arguments: what a callback gets reads as the values of the documents sent. -/
theorem C55_values (fin : Str → Bool) (who : Who) (s : Sent) (now : List Call) (c : Call) (e : Eff) (hs : s.Sendable)
    (hread : s.Readable fin) (ht : Told who s now) (hc : c ∈ now) (he : IsCall e c) :
    (∃ ns name cb A h, e = .event ns name cb A h ∧ ShowsValues fin A s.docs) ∨
    (∃ ns id cb A, e = .ack ns id cb A ∧ ShowsValues fin A s.docs) := by
  cases ht with
  | event h1 h2 =>
    rw [List.mem_singleton] at hc
    subst hc
    cases he with
    | event h => exact Or.inl ⟨_, _, _, _, _, rfl, wire_values h h2 hs.2.2 hread.2 hread.1⟩
  | nobody => simp at hc
  | reply h1 h2 =>
    rw [List.mem_singleton] at hc
    subst hc
    cases he with
    | ack h => exact Or.inr ⟨_, _, _, _, rfl, wire_values h h2 hs.2.2.1 hread.2 hread.1⟩

/-! ### There and back -/

theorem makes_mem {es : List Eff} {cs : List Call} (h : Makes es cs) {e : Eff} (he : e ∈ es) (hr : RunsCallback e) :
    ∃ c ∈ cs, IsCall e c := by
  induction h with
  | nil => simp at he
  | call h1 _ ih =>
    rcases List.mem_cons.1 he with rfl | he
    · exact ⟨_, by simp, h1⟩
    · obtain ⟨c, hc, h⟩ := ih he
      exact ⟨c, by simp [hc], h⟩
  | other h1 _ ih =>
    rcases List.mem_cons.1 he with rfl | he
    · exact absurd hr h1
    · exact ih he

theorem delivered_mem {ms : List (Who × Payload)} {ss : List (Sent × List Ws)} {cs : List Call} (h : Delivered ms ss cs)
    {c : Call} (hc : c ∈ cs) : ∃ x ∈ ss, ∃ who now, Told who x.1 now ∧ c ∈ now := by
  induction h with
  | nothing => simp at hc
  | pong _ ih =>
    obtain ⟨x, hx, h⟩ := ih hc
    exact ⟨x, by simp [hx], h⟩
  | cut => simp at hc
  | whole _ h2 _ ih =>
    rcases List.mem_append.1 hc with hc | hc
    · exact ⟨_, List.mem_cons_self, _, _, h2, hc⟩
    · obtain ⟨x, hx, h⟩ := ih hc
      exact ⟨x, by simp [hx], h⟩

theorem groups_sources (tr : List Ev) : groups tr = (sources tr).map Prod.snd := by
  induction tr with
  | nil => rfl
  | cons e tr ih => cases e <;> simp [groups, sources] at ih ⊢ <;> exact ih

theorem mem_sources {tr : List Ev} {src : Src} {g : List Ws} : (src, g) ∈ sources tr ↔ .enqueued src g ∈ tr := by
  simp only [sources, List.mem_filterMap]
  constructor
  · rintro ⟨e, he, h⟩
    cases e <;> simp at h
    obtain ⟨rfl, rfl⟩ := h
    exact he
  · intro h
    exact ⟨_, h, rfl⟩

theorem mem_effects {tr : List Ev} {e : Eff} : e ∈ effects tr ↔ .eff e ∈ tr := by
  simp only [effects, List.mem_filterMap]
  constructor
  · rintro ⟨x, hx, h⟩
    cases x <;> simp at h
    subst h
    exact hx
  · intro h
    exact ⟨_, h, rfl⟩

/-- C55, there and back: two clients receive what the other one writes.  When the first one calls the callback of an event it has
sent, then it did send that event; the second one called its callback for it with a handle, and used the handle for a reply; and the arguments
are those of the reply.  (As long as the ids have not wrapped around, C29.) -/
theorem C55_roundtrip (cfgA cfgB : RCfg) (actsA actsB : List Act) (sA sB : Sys) (trA trB : List Ev)
    (hA : Runs cfgA actsA sA trA) (hB : Runs cfgB actsB sB trB) (ssA ssB : List (Sent × List Ws))
    (hsA : ssA.map (fun x => (x.1.src, x.2)) = sources trA) (hsB : ssB.map (fun x => (x.1.src, x.2)) = sources trB)
    (hfA : ∀ x ∈ ssA, Fit x) (hfB : ∀ x ∈ ssB, Fit x) (hread : ∀ x ∈ ssB, x.1.Readable cfgA.ext.fin)
    (oA oB : Ws) (opA opB : Open) (hoA : Wire oA (.opened opA)) (hoB : Wire oB (.opened opB))
    (hcA : dataOf (inbox trA) <+: oA :: written trB) (hcB : dataOf (inbox trB) <+: oB :: written trA)
    (hrA : ¬ Rejected trA) (hpA : .taskEnd .panic ∉ trA) (hrB : ¬ Rejected trB) (hpB : .taskEnd .panic ∉ trB)
    (hids : (ackIds trA).length ≤ 2 ^ 64) (ns : Str) (id : Nat) (cb : Cb) (A : Args) (he : .eff (.ack ns id cb A) ∈ trA) :
    (∃ g, .enqueued (.emit ns (some (id, cb))) g ∈ trA) ∧
    (∃ name cb' A', .eff (.event ns name cb' A' (some ⟨ns, id⟩)) ∈ trB) ∧
    ∃ binary args g, .enqueued (.reply ⟨ns, id⟩) g ∈ trB ∧
      (adds (Builder.newAck ns id binary) args).finish = .ok g ∧ ShowsValues cfgA.ext.fin A (args.filterMap docOf) := by
  have hgA : ssA.map Prod.snd = groups trA := by rw [groups_sources, ← hsA, List.map_map]; rfl
  have hgB : ssB.map Prod.snd = groups trB := by rw [groups_sources, ← hsB, List.map_map]; rfl
  obtain ⟨csA, mA, dA⟩ := C55_delivered cfgB cfgA actsB actsA sB sA trB trA hB hA ssB hgB hfB oA opA hoA hcA hrA hpA
  obtain ⟨csB, mB, dB⟩ := C55_delivered cfgA cfgB actsA actsB sA sB trA trB hA hB ssA hgA hfA oB opB hoB hcB hrB hpB
  obtain ⟨c, hc, hcall⟩ := makes_mem mA (mem_effects.2 he) trivial
  obtain ⟨⟨s, g⟩, hx, who, now, ht, hcn⟩ := delivered_mem dA hc
  have hval := C55_values cfgA.ext.fin who s now c _ (hfB _ hx).sendable (hread _ hx) ht hcn hcall
  have hsent : ∃ binary args, s = .reply ns id binary args := by
    cases ht with
    | event =>
      rw [List.mem_singleton] at hcn
      subst hcn
      cases hcall
    | nobody => simp at hcn
    | reply =>
      rw [List.mem_singleton] at hcn
      subst hcn
      cases hcall
      exact ⟨_, _, rfl⟩
  obtain ⟨binary, args, rfl⟩ := hsent
  have hgrp : (adds (Builder.newAck ns id binary) args).finish = .ok g := (hfB _ hx).group
  have hv : ShowsValues cfgA.ext.fin A (args.filterMap docOf) := by
    rcases hval with ⟨_, _, _, _, _, h, _⟩ | ⟨_, _, _, _, h, hv⟩
    · simp at h
    · simp only [Eff.ack.injEq] at h
      obtain ⟨rfl, rfl, rfl, rfl⟩ := h
      exact hv
  have henq : .enqueued (.reply ⟨ns, id⟩) g ∈ trB := by
    rw [← mem_sources, ← hsB]
    exact List.mem_map.2 ⟨_, hx, rfl⟩
  have hhand : (⟨ns, id⟩ : AckHandle) ∈ handed trB := by
    have h2 : (⟨ns, id⟩ : AckHandle) ∈ replied trB := by
      simp only [replied, List.mem_filterMap]
      exact ⟨_, henq, rfl⟩
    have h3 := (C41_handles cfgB actsB sB trB hB ⟨ns, id⟩).1
    have h4 := List.count_pos_iff.2 h2
    exact List.count_pos_iff.1 (by omega)
  obtain ⟨t1, t2, ns', name, cb', A', hev⟩ := handed_mem hhand
  have hev : .eff (.event ns' name cb' A' (some ⟨ns, id⟩)) ∈ trB := by rw [hev]; simp
  obtain ⟨c', hc', hcall'⟩ := makes_mem mB (mem_effects.2 hev) trivial
  obtain ⟨⟨s', g'⟩, hx', who', now', ht', hcn'⟩ := delivered_mem dB hc'
  have hsent' : ns' = ns ∧ ∃ name' binary' args' c'', s' = .event ns name' (some (id, c'')) binary' args' := by
    cases ht' with
    | @event ns1 name1 ack1 binary1 args1 cb1 vs1 k1 k2 =>
      rw [List.mem_singleton] at hcn'
      subst hcn'
      generalize hack : (ack1.map fun x => (⟨ns1, x.1⟩ : AckHandle)) = o at hcall'
      cases hcall'
      cases ack1 with
      | none => simp at hack
      | some x =>
        obtain ⟨i, c1⟩ := x
        simp only [Option.map_some, Option.some.injEq, AckHandle.mk.injEq] at hack
        obtain ⟨rfl, rfl⟩ := hack
        exact ⟨rfl, _, _, _, _, rfl⟩
    | nobody => simp at hcn'
    | reply =>
      rw [List.mem_singleton] at hcn'
      subst hcn'
      cases hcall'
  obtain ⟨rfl, name', binary', args', c'', rfl⟩ := hsent'
  have hem : .enqueued (.emit ns' (some (id, c''))) g' ∈ trA := by
    rw [← mem_sources, ← hsA]
    exact List.mem_map.2 ⟨_, hx', rfl⟩
  have hcb : c'' = cb := by
    obtain ⟨u1, u2, hu⟩ := mem_split he
    obtain ⟨v1, v2, hv⟩ := mem_split hem
    have k1 := ((ack_before hA _ _ _ hu).1 ns' id cb A rfl).2
    have k2 := (ack_before hA _ _ _ hv).2 ns' id c'' g' (Or.inl rfl)
    have r1 := (ainv hA).regd ns' id cb (by rw [hu]; exact List.mem_append_left _ k1)
    have r2 := (ainv hA).regd ns' id c'' (by rw [hv]; exact List.mem_append_left _ k2)
    have hl : sA.allocs ≤ 2 ^ 64 := by
      rw [(ainv hA).ids, List.length_map, List.length_range] at hids
      exact hids
    have e1 := Nat.mod_eq_of_lt (Nat.lt_of_lt_of_le r1.1 hl)
    have e2 := Nat.mod_eq_of_lt (Nat.lt_of_lt_of_le r2.1 hl)
    rw [← e1, ← e2, ← r1.2, ← r2.2]
  subst hcb
  exact ⟨⟨g', hem⟩, ⟨name, cb', A', hev⟩, binary, args, g, henq, hgrp, hv⟩

-- non-vacuity: the first client sends an event with a byte string and one with an id and answers a ping in between; the
-- second one has asked for both, gets a control frame between the messages, and the third event only in part
def exSends : List Act :=
  exConnect ++ [.emitStart ['/'] ['a'], .emitBinary true, .emitArgs, .emitArg (.bytes [7, 8]), .emitSend, .emitEnqueue,
    .recv (.text ['2']) false, .emitStart ['/'] ['b'], .emitCallback, .emitArgs, .emitArg (.bool true), .emitSend, .emitEnqueue,
    .emitStart ['/'] ['a'], .emitBinary true, .emitArgs, .emitArg (.bytes []), .emitSend, .emitEnqueue,
    .dequeue, .write, .write, .endGroup, .dequeue, .write, .endGroup, .dequeue, .write, .endGroup, .dequeue, .write]

def exSent : List (Sent × List Ws) :=
  [(.event ['/'] ['a'] none true [.bytes [7, 8]],
      [.text "451-[\"a\",{\"_placeholder\":true,\"num\":0}]".toList, .binary [4, 7, 8]]),
   (.pong, [.text ['3']]),
   (.event ['/'] ['b'] (some (0, 0)) false [.bool true], [.text "420[\"b\",true]".toList]),
   (.event ['/'] ['a'] none true [.bytes []],
      [.text "451-[\"a\",{\"_placeholder\":true,\"num\":0}]".toList, .binary [4]])]

def exGets : List Act :=
  exConnect ++ [.reg (.setEvent ['/'] ['a'] 1), .reg (.setEvent ['/'] ['b'] 2),
    .recv (.text "451-[\"a\",{\"_placeholder\":true,\"num\":0}]".toList) false, .recv (.ping [1]) false,
    .recv (.binary [4, 7, 8]) false, .recv (.text ['3']) false, .recv (.text "420[\"b\",true]".toList) false,
    .recv (.text "451-[\"a\",{\"_placeholder\":true,\"num\":0}]".toList) false]

theorem exSent_group {name : Str} {ack : Option (Nat × Cb)} {binary : Bool} {args : List SVal} {ws : List Ws}
    (hf : ∀ v ∈ args, v.FloatsOk)
    (h : wireOf false binary ['/'] (ack.map Prod.fst) (some (.str name) :: args.map (docWith binary)) = ws) :
    (Sent.event ['/'] name ack binary args).Group ws := by
  obtain ⟨b, h1, h2⟩ := C51_event name ['/'] (ack.map Prod.fst) binary args hf
  exact ⟨b, h1, by rw [h2, h]⟩

theorem exSent_fit : ∀ x ∈ exSent, Fit x := by
  intro x hx
  simp only [exSent, List.mem_cons, List.not_mem_nil, or_false] at hx
  rcases hx with rfl | rfl | rfl | rfl
  · exact ⟨exSent_group (by simp [SVal.FloatsOk]) (by decide +kernel), ⟨Or.inl rfl, by simp⟩,
      ⟨by simp [SVal.FloatsOk], by simp [SVal.NoMixed], by decide +kernel⟩, Or.inl rfl⟩
  · exact ⟨rfl, trivial, trivial, trivial⟩
  · exact ⟨exSent_group (by simp [SVal.FloatsOk]) (by decide +kernel), ⟨Or.inl rfl, by simp⟩,
      ⟨by simp [SVal.FloatsOk], by simp, by decide +kernel⟩, Or.inl rfl⟩
  · exact ⟨exSent_group (by simp [SVal.FloatsOk]) (by decide +kernel), ⟨Or.inl rfl, by simp⟩,
      ⟨by simp [SVal.FloatsOk], by simp [SVal.NoMixed], by decide +kernel⟩, Or.inl rfl⟩

theorem exSent_readable (fin : Str → Bool) : ∀ x ∈ exSent, x.1.Readable fin := by
  intro x hx
  simp only [exSent, List.mem_cons, List.not_mem_nil, or_false] at hx
  rcases hx with rfl | rfl | rfl | rfl <;>
    simp [Sent.Readable, Sent.docs, docOf, docWith, DocReadable, docDepth, docNums, NoRaw, Doc.keys, Sent.binary]

example : ((exec exCfg Sys.init exSends).map fun x => (groups x.2, written x.2)) =
    some (exSent.map Prod.snd, ((exSent.map Prod.snd).flatten).dropLast) := by decide +kernel
example : ((exec exCfg Sys.init exGets).map fun x => dataOf (inbox x.2)) =
    some (exOpen :: ((exSent.map Prod.snd).flatten).dropLast) := by decide +kernel
example : ((seen exCfg exGets).map fun l => l.filter fun t => match t with
      | .event _ _ _ _ => true
      | _ => false) =
    some [.event ['/'] ['a'] 1 none, .event ['/'] ['b'] 2 (some ⟨['/'], 0⟩)] := by decide +kernel

-- there and back
def exAsks : List Act :=
  exConnect ++ [.emitStart ['/'] ['b'], .emitCallback, .emitArgs, .emitSend, .emitEnqueue, .dequeue, .write, .endGroup,
    .recv (.text "430[true]".toList) false]
def exAnswers : List Act :=
  exConnect ++ [.reg (.setEvent ['/'] ['b'] 2), .recv (.text "420[\"b\"]".toList) false,
    .reply ⟨['/'], 0⟩ false [.bool true], .dequeue, .write, .endGroup]

example : ((exec exCfg Sys.init exAsks).map fun x => (dataOf (inbox x.2), written x.2)) =
    some ([exOpen, .text "430[true]".toList], [.text "420[\"b\"]".toList]) := by decide +kernel
example : ((exec exCfg Sys.init exAnswers).map fun x => (dataOf (inbox x.2), written x.2)) =
    some ([exOpen, .text "420[\"b\"]".toList], [.text "430[true]".toList]) := by decide +kernel
example : ((seen exCfg exAsks).map fun l => l.filter fun t => match t with
      | .ack _ _ _ => true
      | _ => false) = some [.ack ['/'] 0 0] := by decide +kernel

end SIO
