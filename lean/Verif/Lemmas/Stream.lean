import Verif.Spec.Stream
import Verif.Lemmas.Receiver
/-
The receiver on a whole connection.
-/
namespace SIO
open Spec

/-! ### Printing a packet -/

theorem printable_iff {fin : Str → Bool} {a : Arg} {t : JTree} {bs : List Bytes} (ht : IsVal t a.arg)
    (hb : a.attachments.map OwnedSubslice.deref = bs.map some) :
    (∃ v, a.toJsonValue fin = .ok v) ↔ Printable fin bs a.arg := by
  have uniq : ∀ {t' doc doc' u u'}, IsVal t' a.arg → Denotes t doc → Denotes t' doc' → Gets fin doc u →
      Gets fin doc' u' → u = u' := by
    intro t' doc doc' u u' h0 h1 h2 h3 h4
    have := isVal_unique ht h0
    subst this
    have := denotes_unique t doc doc' h1 h2
    subst this
    exact gets_unique fin h3 h4
  rcases toJsonValue_out fin ht hb with ⟨h1, h2⟩ | ⟨h1, doc, u, h4, h5, ⟨h6, h2⟩ | ⟨h6, h2, h3⟩⟩
  · rw [h2]
    simp only [reduceCtorEq, exists_false, false_iff]
    rintro ⟨t', doc, u, g1, g2, _⟩
    rw [isVal_unique ht g1] at h1
    exact h1 g2
  · rw [h2]
    simp only [Res.ok.injEq, exists_eq', true_iff]
    exact ⟨t, doc, u, ht, h1, h4, h5, Or.inl h6⟩
  · rw [h2]
    have hf := (C21_fill a.attachments bs hb u).2.1
    constructor
    · rintro ⟨v, hv⟩
      exact ⟨t, doc, u, ht, h1, h4, h5, Or.inr ⟨v, (hf v).1 hv⟩⟩
    · rintro ⟨t', doc', u', g1, g2, g3, g4, g5 | ⟨x, g5⟩⟩
      · exact absurd g5 h6
      · rw [← uniq g1 h4 g3 h5 g4] at g5
        exact ⟨x, (hf x).2 g5⟩

theorem args_display_ok {fin : Str → Bool} {A : Args} {vs : List Str} {bs : List Bytes} (hs : ArgsShow A vs bs)
    (ht : ∀ v ∈ vs, ∃ t, IsVal t v) : A.display fin ≠ .panic ↔ ∀ v ∈ vs, Printable fin bs v := by
  have e : A.display fin = .panic ↔ displayArgs fin true (vs.map fun t => ⟨t, A.attachments⟩) = .panic := by
    unfold Args.display
    rw [hs.iter]
    simp only [bind, Res.bind]
    generalize displayArgs fin true (vs.map fun t => (⟨t, A.attachments⟩ : Arg)) = r
    cases r with
    | ok t => simp [pure]
    | err e => exact e.elim
    | panic => simp
  rw [ne_eq, e, displayArgs_panic]
  constructor
  · intro h v hv
    obtain ⟨t, ht⟩ := ht v hv
    refine (printable_iff (a := ⟨v, A.attachments⟩) ht hs.atts).1 ?_
    refine Classical.byContradiction fun hn => h ⟨_, List.mem_map.2 ⟨v, hv, rfl⟩, fun x hx => hn ⟨x, hx⟩⟩
  · rintro h ⟨a, ha, hn⟩
    obtain ⟨v, hv, rfl⟩ := List.mem_map.1 ha
    obtain ⟨t, ht⟩ := ht v hv
    obtain ⟨x, hx⟩ := (printable_iff (a := ⟨v, A.attachments⟩) ht hs.atts).2 (h v hv)
    exact hn x hx

theorem loggable_iff {cfg : RCfg} {pk : Packet} {ns : Str} {body : Body} (hs : Shows pk ns body)
    (ht : ∀ v ∈ body.content.1, ∃ t, IsVal t v) : Loggable cfg body ↔ ¬ LogPanics cfg pk := by
  have key : ∀ {A : Args} {vs : List Str} {bs : List Bytes} (f : Args → Data), ArgsShow A vs bs →
      (∀ v ∈ vs, ∃ t, IsVal t v) → pk.data = .ok (f A) →
      ((f A).display cfg.ext.fin = .panic ↔ A.display cfg.ext.fin = .panic) →
      (pk.display cfg.ext.fin = .panic ↔ ¬ ∀ v ∈ vs, Printable cfg.ext.fin bs v) := by
    intro A vs bs f h1 h2 h3 h4
    rw [← args_display_ok h1 h2, ne_eq, Classical.not_not, ← h4]
    simp only [Packet.display, h3, bind, Res.bind]
  unfold Loggable LogPanics
  cases body with
  | connect =>
    have h : pk.data = .ok .connect := hs.2
    simp [Body.content, Packet.display, h, bind, Res.bind, Data.display]
  | disconnect =>
    have h : pk.data = .ok .disconnect := hs.2
    simp [Body.content, Packet.display, h, bind, Res.bind, Data.display]
  | event id vs bs =>
    obtain ⟨A, h, hA⟩ := hs.2
    have := key (.event id) hA ht h (by
      simp only [Data.display, bind, Res.bind]
      cases hd : A.display cfg.ext.fin with
      | ok t => simp [pure]
      | err e => exact e.elim
      | panic => simp)
    rw [this]
    simp only [Body.content]
    constructor
    · rintro h ⟨h1, h2⟩; exact h2 (h h1)
    · intro h h1
      exact Classical.byContradiction fun h2 => h ⟨h1, h2⟩
  | ack id vs bs =>
    obtain ⟨A, h, hA⟩ := hs.2
    have := key (.ack id) hA ht h (by
      simp only [Data.display, bind, Res.bind]
      cases hd : A.display cfg.ext.fin with
      | ok t => simp [pure]
      | err e => exact e.elim
      | panic => simp)
    rw [this]
    simp only [Body.content]
    constructor
    · rintro h ⟨h1, h2⟩; exact h2 (h h1)
    · intro h h1
      exact Classical.byContradiction fun h2 => h ⟨h1, h2⟩

/-! ### One packet -/

/-- Whom a registry has. -/
def whoOf (reg : Callbacks) : Who :=
  ⟨fun ns name o => reg.getEvent ns name = o, fun ns id cb => (reg.getAndClearAck ns id).1 = some cb⟩

/-- Whether a packet is acted on. -/
theorem processPacket_acts {cfg : RCfg} {reg : Callbacks} {pk : Packet} {ns : Str} {body : Body} (hs : Shows pk ns body)
    (ht : ∀ v ∈ body.content.1, ∃ t, IsVal t v) (hne : ∀ id bs, body ≠ .event id [] bs) :
    ((processPacket cfg reg pk).2.2 = .ok () → Loggable cfg body ∧ ∃ cs, Acts (whoOf reg) ns body cs) ∧
    (∀ cs, Loggable cfg body → Acts (whoOf reg) ns body cs →
      (processPacket cfg reg pk).2.2 = .ok () ∧ Makes (processPacket cfg reg pk).2.1 cs) := by
  have hlog := loggable_iff (cfg := cfg) hs ht
  by_cases hl : LogPanics cfg pk
  · rw [hlog, processPacket_log hl]
    exact ⟨by simp, fun _ h => absurd hl h⟩
  · cases body with
    | connect =>
      rw [processPacket_dataless hl (Or.inl hs)]
      refine ⟨fun _ => ⟨hlog.2 hl, _, .connect⟩, fun cs _ h => ?_⟩
      cases h
      exact ⟨rfl, .nil⟩
    | disconnect =>
      rw [processPacket_dataless hl (Or.inr hs)]
      refine ⟨fun _ => ⟨hlog.2 hl, _, .disconnect⟩, fun cs _ h => ?_⟩
      cases h
      exact ⟨rfl, .nil⟩
    | event id vs bs =>
      obtain ⟨A, h, hA⟩ := hs.2
      cases vs with
      | nil => exact absurd rfl (hne id bs)
      | cons v vs =>
        obtain ⟨t, ht⟩ := ht v (by simp [Body.content])
        rcases processPacket_event (cfg := cfg) (reg := reg) hl hs.1 h hA ht with ⟨name, h1, h2⟩ | ⟨h1, h2⟩
        · rw [h2]
          cases hg : reg.getEvent ns name with
          | some cb =>
            refine ⟨fun _ => ⟨hlog.2 hl, _, .event h1 hg⟩, fun cs _ h => ?_⟩
            cases h with
            | event g1 g2 =>
              have := nameOf_unique h1 g1
              subst this
              rw [show reg.getEvent ns name = _ from g2] at hg
              simp only [Option.some.injEq] at hg
              subst hg
              exact ⟨rfl, .call (.event hA) .nil⟩
            | unhandled g1 g2 =>
              have := nameOf_unique h1 g1
              subst this
              rw [show reg.getEvent ns name = _ from g2] at hg
              simp at hg
          | none =>
            refine ⟨fun _ => ⟨hlog.2 hl, _, .unhandled h1 hg⟩, fun cs _ h => ?_⟩
            cases h with
            | event g1 g2 =>
              have := nameOf_unique h1 g1
              subst this
              rw [show reg.getEvent ns name = _ from g2] at hg
              simp at hg
            | unhandled g1 g2 => exact ⟨rfl, .nil⟩
        · rw [h2]
          refine ⟨by simp, fun cs _ h => ?_⟩
          cases h with
          | event g1 _ => exact absurd g1 (h1 _)
          | unhandled g1 _ => exact absurd g1 (h1 _)
    | ack id vs bs =>
      obtain ⟨A, h, hA⟩ := hs.2
      rw [processPacket_ack hl hs.1 h]
      cases hg : (reg.getAndClearAck ns id).1 with
      | some cb =>
        refine ⟨fun _ => ⟨hlog.2 hl, _, .ack hg⟩, fun cs _ h => ?_⟩
        cases h with
        | ack g =>
          rw [show (reg.getAndClearAck ns id).1 = _ from g] at hg
          simp only [Option.some.injEq] at hg
          subst hg
          exact ⟨rfl, .call (.ack hA) .nil⟩
      | none =>
        refine ⟨by simp, fun cs _ h => ?_⟩
        cases h with
        | ack g => rw [show (reg.getAndClearAck ns id).1 = _ from g] at hg; simp at hg

theorem means_content {p : Pkt} {vs : List Str} {bs : List Bytes} {body : Body} (ha : p.ArgTexts vs)
    (hm : p.Means vs bs body) :
    (∀ v ∈ body.content.1, ∃ t, IsVal t v) ∧ ∀ id bs', body ≠ .event id [] bs' := by
  have hv := argTexts_isVal ha
  cases hm with
  | connect => exact ⟨by simp [Body.content], by simp⟩
  | disconnect => exact ⟨by simp [Body.content], by simp⟩
  | event _ h => exact ⟨hv, by simp [h]⟩
  | ack => exact ⟨hv, by simp⟩

/-! ### The engine protocol -/

/-- The stage a decoder is in. -/
def stageOf : EState → Stage
  | .initial => .fresh
  | .active => .opened
  | .closed => .closed

theorem decode_tells {st : EState} {w : Ws} {p : EPacket} (h : (decode st w).2 = .ok p) : ∃ m, Tells p m := by
  cases p with
  | opened o => exact ⟨_, .opened o⟩
  | close => exact ⟨_, .close⟩
  | ping => exact ⟨_, .ping⟩
  | pong => exact ⟨_, .pong⟩
  | message m =>
    have hd : decode st w = ((decode st w).1, .ok (.message m)) := by rw [← h]
    obtain ⟨pl, _, hp⟩ := decode_message_payload hd
    cases m with
    | text o =>
      cases pl with
      | text s => exact ⟨_, .text o s hp⟩
      | binary b => exact hp.elim
    | binary o =>
      cases pl with
      | text s => exact hp.elim
      | binary b => exact ⟨_, .binary o b hp⟩

theorem wire_control {w : Ws} {m : Says} (h : Wire w m) : ¬ IsControl w := by
  cases h <;> simp [IsControl]

theorem control_decode {st : EState} {w : Ws} (h : IsControl w) (p : EPacket) : (decode st w).2 ≠ .ok p := by
  intro hd
  obtain ⟨m, hm⟩ := decode_tells hd
  exact wire_control ((decode_ok_iff st w m).1 ⟨p, hd, hm⟩).2.1 h

/-- One message of the engine protocol. -/
theorem engine_step {d : EState} {w : Ws} {ws : List Ws} : EngineOk (stageOf d) (w :: ws) ↔
    (IsControl w ∧ EngineOk (stageOf d) ws) ∨
    (¬ IsControl w ∧ (∃ p, (decode d w).2 = .ok p) ∧ EngineOk (stageOf (decode d w).1) ws) := by
  have dec : ∀ m, Wire w m → d ≠ .closed → InTime (d ≠ .initial) m → ∃ p, (decode d w).2 = .ok p ∧ Tells p m :=
    fun m h1 h2 h3 => (decode_ok_iff d w m).2 ⟨h2, h1, h3⟩
  have same : ∀ {p}, (decode d w).2 = .ok p → (∀ o, p ≠ .opened o) → p ≠ .close → (decode d w).1 = d := by
    intro p hp h1 h2
    rcases decode_state d w with ⟨o, h, _⟩ | ⟨h, _⟩ | ⟨_, _, h⟩
    · rw [hp] at h; simp at h; exact absurd h (h1 o)
    · rw [hp] at h; simp at h; exact absurd h h2
    · exact h
  constructor
  · intro h
    generalize hs : stageOf d = s at h
    cases h with
    | control h1 h2 => exact Or.inl ⟨h1, h2⟩
    | opening h1 h2 =>
      have hd : d = .initial := by cases d <;> simp [stageOf] at hs ⊢
      obtain ⟨p, hp, ht⟩ := dec _ h1 (by simp [hd]) (by simp [InTime, hd])
      refine Or.inr ⟨wire_control h1, ⟨p, hp⟩, ?_⟩
      cases ht
      rcases decode_state d w with ⟨o, h, _, h'⟩ | ⟨h, _⟩ | ⟨h, _⟩
      · rw [h']; exact h2
      · rw [hp] at h; simp at h
      · exact absurd hp (h _)
    | closing h1 h2 =>
      have hd : d = .active := by cases d <;> simp [stageOf] at hs ⊢
      obtain ⟨p, hp, ht⟩ := dec _ h1 (by simp [hd]) (by simp [InTime, hd])
      refine Or.inr ⟨wire_control h1, ⟨p, hp⟩, ?_⟩
      cases ht
      rcases decode_state d w with ⟨o, h, _, h'⟩ | ⟨h, _, h'⟩ | ⟨_, h, _⟩
      · rw [hp] at h; simp at h
      · rw [h']; exact h2
      · exact absurd hp h
    | ping h1 h2 =>
      have hd : d = .active := by cases d <;> simp [stageOf] at hs ⊢
      obtain ⟨p, hp, ht⟩ := dec _ h1 (by simp [hd]) (by simp [InTime, hd])
      refine Or.inr ⟨wire_control h1, ⟨p, hp⟩, ?_⟩
      cases ht
      rw [same hp (by simp) (by simp), hs]; exact h2
    | pong h1 h2 =>
      have hd : d = .active := by cases d <;> simp [stageOf] at hs ⊢
      obtain ⟨p, hp, ht⟩ := dec _ h1 (by simp [hd]) (by simp [InTime, hd])
      refine Or.inr ⟨wire_control h1, ⟨p, hp⟩, ?_⟩
      cases ht
      rw [same hp (by simp) (by simp), hs]; exact h2
    | binary h1 h2 =>
      have hd : d = .active := by cases d <;> simp [stageOf] at hs ⊢
      obtain ⟨p, hp, ht⟩ := dec _ h1 (by simp [hd]) (by simp [InTime, hd])
      refine Or.inr ⟨wire_control h1, ⟨p, hp⟩, ?_⟩
      cases ht
      rw [same hp (by simp) (by simp), hs]; exact h2
    | text h0 h1 h2 =>
      have hd : d ≠ .closed := by rintro rfl; exact h0 (by simp [stageOf] at hs; exact hs.symm)
      obtain ⟨p, hp, ht⟩ := dec _ h1 hd (by simp [InTime])
      refine Or.inr ⟨wire_control h1, ⟨p, hp⟩, ?_⟩
      cases ht
      rw [same hp (by simp) (by simp), hs]; exact h2
  · rintro (⟨h1, h2⟩ | ⟨_, ⟨p, hp⟩, h2⟩)
    · exact .control h1 h2
    · obtain ⟨m, hm⟩ := decode_tells hp
      obtain ⟨g1, g2, g3⟩ := (decode_ok_iff d w m).1 ⟨p, hp, hm⟩
      cases hm with
      | opened o =>
        rcases decode_state d w with ⟨o, h, h', h''⟩ | ⟨h, _⟩ | ⟨h, _⟩
        · rw [h'] at h'' ⊢
          rw [h', h''] at h2
          exact .opening g2 h2
        · rw [hp] at h; simp at h
        · exact absurd hp (h _)
      | close =>
        rcases decode_state d w with ⟨o, h, _, _⟩ | ⟨h, h', h''⟩ | ⟨_, h, _⟩
        · rw [hp] at h; simp at h
        · rw [h'] at h'' ⊢
          rw [h', h''] at h2
          exact .closing g2 h2
        · exact absurd hp h
      | ping =>
        rw [same hp (by simp) (by simp)] at h2
        have hd : d = .active := by simp only [InTime] at g3; cases d <;> simp at g1 g3 ⊢
        subst hd
        exact .ping g2 h2
      | pong =>
        rw [same hp (by simp) (by simp)] at h2
        have hd : d = .active := by simp only [InTime] at g3; cases d <;> simp at g1 g3 ⊢
        subst hd
        exact .pong g2 h2
      | text o t =>
        rw [same hp (by simp) (by simp)] at h2
        exact .text (by cases d <;> simp [stageOf] at g1 ⊢) g2 h2
      | binary o b =>
        rw [same hp (by simp) (by simp)] at h2
        have hd : d = .active := by simp only [InTime] at g3; cases d <;> simp at g1 g3 ⊢
        subst hd
        exact .binary g2 h2

theorem control_ws {cfg : RCfg} {st : RState} {reg : Callbacks} {w : Ws} (h : IsControl w) :
    processWs cfg st reg w = ⟨st, reg, [], .ok ()⟩ := by
  rcases h with ⟨b, rfl⟩ | ⟨b, rfl⟩ | rfl <;> rfl

theorem data_ws {cfg : RCfg} {st : RState} {reg : Callbacks} {w : Ws} (h : ¬ IsControl w) :
    processWs cfg st reg w = processMessage cfg st reg w := by
  cases w with
  | ping b => simp [IsControl] at h
  | pong b => simp [IsControl] at h
  | close => simp [IsControl] at h
  | text t => rfl
  | binary b => rfl

theorem processEngineMessage_decoder (cfg : RCfg) (st : RState) (reg : Callbacks) (m : EMsg) :
    (processEngineMessage cfg st reg m).st.decoder = st.decoder := by
  unfold processEngineMessage
  split
  · split
    · rfl
    · simp only
      split
      · split <;> rfl
      · rfl
  · split <;> rfl

/-- What the decoder does with a message is not changed by the rest of the receiver. -/
theorem processWs_decoder {cfg : RCfg} {st : RState} {reg : Callbacks} {w : Ws} (h : ¬ IsControl w) :
    (processWs cfg st reg w).st.decoder = (decode st.decoder w).1 := by
  rw [data_ws h]
  unfold processMessage
  cases hd : decode st.decoder w with
  | mk d r =>
    simp only
    cases r with
    | panic => rfl
    | err e => rfl
    | ok p =>
      cases p with
      | opened o => simp only; split <;> rfl
      | close => rfl
      | ping => rfl
      | pong => rfl
      | message m => exact processEngineMessage_decoder _ _ _ _

/-- Messages that are no engine messages are taken if the engine protocol allows them. -/
theorem other_ok {cfg : RCfg} {st : RState} {reg : Callbacks} {w : Ws} (hp : payload? w = none)
    (h : IsControl w ∨ ∃ p, (decode st.decoder w).2 = .ok p) : (processWs cfg st reg w).res = .ok () := by
  by_cases hc : IsControl w
  · rw [control_ws hc]
  · obtain ⟨p, h⟩ := h.resolve_left hc
    rw [data_ws hc]
    unfold processMessage
    cases hd : decode st.decoder w with
    | mk d r =>
      rw [hd] at h
      simp only at h
      subst h
      cases p with
      | opened o => simp only; split <;> rfl
      | close => rfl
      | ping => rfl
      | pong => rfl
      | message m =>
        obtain ⟨pl, h, _⟩ := decode_message_payload hd
        rw [hp] at h
        simp at h

theorem res_ok_decoded {cfg : RCfg} {st : RState} {reg : Callbacks} {w : Ws} (h : (processWs cfg st reg w).res = .ok ())
    (hc : ¬ IsControl w) : ∃ p, (decode st.decoder w).2 = .ok p := by
  rw [data_ws hc] at h
  unfold processMessage at h
  cases hd : decode st.decoder w with
  | mk d r =>
    rw [hd] at h
    simp only at h
    cases r with
    | panic => simp at h
    | err e => simp at h
    | ok p => exact ⟨p, rfl⟩

/-- The engine side of one message. -/
theorem engine_message {cfg : RCfg} {st : RState} {reg : Callbacks} {w : Ws} {ws : List Ws} :
    EngineOk (stageOf st.decoder) (w :: ws) ↔
      (IsControl w ∨ ∃ p, (decode st.decoder w).2 = .ok p) ∧ EngineOk (stageOf (processWs cfg st reg w).st.decoder) ws := by
  rw [engine_step]
  by_cases hc : IsControl w
  · rw [control_ws hc]
    simp [hc]
  · rw [processWs_decoder hc]
    simp [hc]

/-- An engine message the protocol allows is given on. -/
theorem payload_given {cfg : RCfg} {st : RState} {reg : Callbacks} {w : Ws} {pl : Payload} (hp : payload? w = some pl)
    (h : IsControl w ∨ ∃ p, (decode st.decoder w).2 = .ok p) :
    ∃ m, HasPayload m pl ∧ st.decoder ≠ .closed ∧ processWs cfg st reg w = processEngineMessage cfg st reg m := by
  have hc : ¬ IsControl w := by
    rintro (⟨b, rfl⟩ | ⟨b, rfl⟩ | rfl) <;> simp [payload?] at hp
  obtain ⟨p, h⟩ := h.resolve_left hc
  obtain ⟨m', hm'⟩ := decode_tells h
  obtain ⟨hcl, hw, _⟩ := (decode_ok_iff _ w m').1 ⟨p, h, hm'⟩
  have hm : ∃ m, p = .message m := by
    cases hm' with
    | text o t => exact ⟨_, rfl⟩
    | binary o b => exact ⟨_, rfl⟩
    | opened o => cases hw; simp [payload?] at hp
    | close => cases hw; simp [payload?] at hp
    | ping => cases hw; simp [payload?] at hp
    | pong => cases hw; simp [payload?] at hp
  obtain ⟨m, rfl⟩ := hm
  have hd : decode st.decoder w = (st.decoder, .ok (.message m)) := by
    rcases decode_state st.decoder w with ⟨o, g, _⟩ | ⟨g, _⟩ | ⟨_, _, g⟩
    · rw [h] at g; simp at g
    · rw [h] at g; simp at g
    · exact Prod.ext g h
  obtain ⟨pl', g1, g2⟩ := decode_message_payload hd
  rw [hp] at g1
  simp only [Option.some.injEq] at g1
  subst g1
  refine ⟨m, g2, hcl, ?_⟩
  rw [data_ws hc]
  unfold processMessage
  rw [hd]

/-! ### Packets of one message, and headers -/

theorem idle_packet {cfg : RCfg} {st : RState} {reg : Callbacks} {m : EMsg} {p : Pkt} {vs : List Str} {body : Body}
    {cs : List Call} (hi : st.inProgress = none) (hp : HasPayload m (.text p.text)) (hr : p.Reads vs)
    (hm : p.Means vs [] body) (hl : Loggable cfg body) (ha : Acts (whoOf reg) (p.ns.getD ['/']) body cs) :
    (processEngineMessage cfg st reg m).res = .ok () ∧ (processEngineMessage cfg st reg m).st = st ∧
      Makes (processEngineMessage cfg st reg m).effs cs := by
  rcases decode_complete hr.wf hr.longest hr.fits hr.args hm hp (ms := []) .nil with ⟨_, pk, h1, h2⟩ | ⟨h, _⟩
  · obtain ⟨c1, c2⟩ := means_content hr.args hm
    obtain ⟨g1, g2⟩ := (processPacket_acts (cfg := cfg) (reg := reg) h2 c1 c2).2 cs hl ha
    unfold processEngineMessage
    rw [hi]
    simp only [h1]
    exact ⟨g1, trivial, g2⟩
  · simp at h

theorem idle_header {cfg : RCfg} {st : RState} {reg : Callbacks} {m : EMsg} {p : Pkt} {vs : List Str} {n : Nat}
    (hi : st.inProgress = none) (hp : HasPayload m (.text p.text)) (hr : p.Reads vs) (hk : p.kind ∈ ['5', '6'])
    (hn : p.att = some n) (h0 : 0 < n) :
    (processEngineMessage cfg st reg m).res = .ok () ∧ (processEngineMessage cfg st reg m).effs = [] ∧
      Pending (processEngineMessage cfg st reg m).st p vs n [] := by
  have ho := deserialize_text_eq hp
  have uniq : ∀ p' : Pkt, p'.Wf → p'.text = p.text → p'.Longest → p' = p :=
    fun p' h1 h2 h3 => Pkt.longest_unique h1 hr.wf h2 h3 hr.longest
  have hq : ∃ q, deserialize m = .ok (.dataNeeded q) ∧ Parsed q p vs := by
    generalize deserialize m = r at ho
    cases ho with
    | bad h => exact absurd rfl (h p hr.wf)
    | overflow p' h1 h2 h3 h4 => rw [uniq p' h1 h2 h3] at h4; exact absurd hr.fits h4
    | json p' g h1 h2 h3 h4 h5 h6 =>
      rw [uniq p' h1 h2 h3] at h5
      have ha := hr.args
      unfold Pkt.ArgTexts at ha
      rw [h5] at ha
      exact absurd ⟨vs, ha⟩ h6
    | extra p' vs' h1 h2 h3 h4 h5 h6 => rw [uniq p' h1 h2 h3] at h6; simp at hk h6; rcases hk with hk | hk <;> simp [hk] at h6
    | missing p' vs' h1 h2 h3 h4 h5 h6 h7 h8 =>
      rw [uniq p' h1 h2 h3] at h8
      have := h8 hk
      rw [hn] at this
      simp at this
      omega
    | count p' vs' k h1 h2 h3 h4 h5 h6 => rw [uniq p' h1 h2 h3] at h6; simp at hk h6; rcases hk with hk | hk <;> simp [hk] at h6
    | packet p' vs' body pk h1 h2 h3 h4 h5 h6 =>
      rw [uniq p' h1 h2 h3] at h6
      cases h6 with
      | connect _ h => rw [hn] at h; simp at h
      | disconnect _ h => rw [hn] at h; simp at h
      | event _ _ h => rw [hn] at h; simp at h; omega
      | ack _ _ _ _ h => rw [hn] at h; simp at h; omega
    | needed p' vs' k q h1 h2 h3 h4 h5 =>
      obtain ⟨rfl, rfl⟩ := sent_is_read hr.wf h5.wf h1 h5.longest hr.args h5.args
      exact ⟨q, rfl, h5⟩
  obtain ⟨q, hq, hpq⟩ := hq
  have e2 : processEngineMessage cfg st reg m = ⟨{ st with inProgress := some ⟨q, []⟩ }, reg, [], .ok ()⟩ := by
    unfold processEngineMessage
    rw [hi]
    simp only [hq]
  rw [e2]
  exact ⟨rfl, rfl, ⟨⟨q, [], rfl, hpq, .nil⟩, hk, hn, h0⟩⟩

/-- Without a pending packet, a message that is taken is a packet or a header. -/
theorem idle_only {cfg : RCfg} {st : RState} {reg : Callbacks} {m : EMsg} {pl : Payload}
    (hi : st.inProgress = none) (hp : HasPayload m pl) (ho : (processEngineMessage cfg st reg m).res = .ok ()) :
    (∃ (p : Pkt) (vs : List Str) (body : Body) (cs : List Call), pl = .text p.text ∧ p.Reads vs ∧ p.Means vs [] body ∧ Loggable cfg body ∧
      Acts (whoOf reg) (p.ns.getD ['/']) body cs) ∨
    (∃ (p : Pkt) (vs : List Str) (n : Nat), pl = .text p.text ∧ p.Reads vs ∧ p.kind ∈ ['5', '6'] ∧ p.att = some n ∧ 0 < n) := by
  cases pl with
  | binary b =>
    unfold processEngineMessage at ho
    rw [hi] at ho
    simp only [deserialize_binary_eq hp] at ho
    simp at ho
  | text s =>
    unfold processEngineMessage at ho
    rw [hi] at ho
    simp only at ho
    have hd := deserialize_text_eq hp
    generalize deserialize m = r at hd ho
    cases hd with
    | bad _ => simp at ho
    | overflow => simp at ho
    | json => simp at ho
    | extra => simp at ho
    | missing => simp at ho
    | count => simp at ho
    | packet p vs body pk h1 h2 h3 h4 h5 h6 h7 =>
      obtain ⟨c1, c2⟩ := means_content h5 h6
      obtain ⟨g1, cs, g2⟩ := (processPacket_acts (cfg := cfg) (reg := reg) h7 c1 c2).1 ho
      exact Or.inl ⟨p, vs, body, cs, by rw [h2], ⟨h1, h3, h4, h5⟩, h6, g1, g2⟩
    | needed p vs n q h1 h2 h3 h4 h5 =>
      exact Or.inr ⟨p, vs, n, by rw [h1], ⟨h5.wf, h5.longest, h5.fits, h5.args⟩, h2, h3, h4⟩

/-! ### The whole stream -/

/-- The rest of the stream when `got` of the `n` attachments of `p` have arrived. -/
inductive Rest (cfg : RCfg) (p : Pkt) (vs : List Str) (n : Nat) (got : List Payload) :
    List (Who × Payload) → List Call → Prop where
  | waiting {ms : List (Who × Payload)} : got.length + ms.length < n → Rest cfg p vs n got ms []
  | packet {bs : List Bytes} {body : Body} {who : Who} {pl : Payload} {pre rest : List (Who × Payload)}
      {now later : List Call} : got ++ (pre ++ [(who, pl)]).map Prod.snd = bs.map .binary → bs.length = n →
      p.Means vs bs body → Loggable cfg body → Acts who (p.ns.getD ['/']) body now → Dispatched cfg rest later →
      Rest cfg p vs n got (pre ++ (who, pl) :: rest) (now ++ later)

theorem means_att {p : Pkt} {vs : List Str} {bs : List Bytes} {body : Body} (hm : p.Means vs bs body)
    (hb : bs ≠ []) : p.kind ∈ ['5', '6'] ∧ p.att = some bs.length := by
  have att : p.att ≠ none → bs.length = p.att.getD 0 → p.att = some bs.length := by
    intro h1 h2
    cases h : p.att with
    | none => exact absurd h h1
    | some k => rw [h] at h2; simp at h2; rw [h2]
  cases hm with
  | connect _ _ _ _ h => exact absurd h hb
  | disconnect _ _ _ _ h => exact absurd h hb
  | event h _ h' =>
    rcases h with ⟨_, h⟩ | ⟨h1, h2⟩
    · exact absurd h hb
    · exact ⟨by simp [h1], att h2 h'⟩
  | ack _ h _ _ h' =>
    rcases h with ⟨_, h⟩ | ⟨h1, h2⟩
    · exact absurd h hb
    · exact ⟨by simp [h1], att h2 h'⟩

/-- The first message of a stream: a packet, or the header of one. -/
theorem dispatched_cons {cfg : RCfg} {who : Who} {pl : Payload} {ms : List (Who × Payload)} {cs : List Call} :
    Dispatched cfg ((who, pl) :: ms) cs ↔
      (∃ (p : Pkt) (vs : List Str) (body : Body) (now later : List Call), pl = .text p.text ∧ p.Reads vs ∧
        p.Means vs [] body ∧ Loggable cfg body ∧ Acts who (p.ns.getD ['/']) body now ∧ Dispatched cfg ms later ∧
        cs = now ++ later) ∨
      (∃ (p : Pkt) (vs : List Str) (n : Nat), pl = .text p.text ∧ p.Reads vs ∧ p.kind ∈ ['5', '6'] ∧ p.att = some n ∧
        0 < n ∧ Rest cfg p vs n [] ms cs) := by
  constructor
  · intro h
    generalize hx : (who, pl) :: ms = x at h
    cases h with
    | done => simp at hx
    | waiting h1 h2 h3 h4 =>
      simp only [List.cons.injEq, Prod.mk.injEq] at hx
      obtain ⟨⟨rfl, rfl⟩, rfl⟩ := hx
      exact Or.inr ⟨_, _, _, rfl, h1, h2, h3, by omega, .waiting (by simpa using h4)⟩
    | @packet p vs bs body reg' pl' pre rest now later h1 h2 h3 h4 h5 h6 =>
      cases pre with
      | nil =>
        simp only [List.nil_append, List.cons.injEq, Prod.mk.injEq] at hx
        obtain ⟨⟨rfl, rfl⟩, rfl⟩ := hx
        simp only [List.nil_append, List.map_cons, List.map_nil, List.cons.injEq] at h1
        obtain ⟨rfl, hb⟩ := h1
        have : bs = [] := by simpa using hb.symm
        subst this
        exact Or.inl ⟨p, vs, body, now, later, rfl, h2, h3, h4, h5, h6, rfl⟩
      | cons y pre =>
        simp only [List.cons_append, List.cons.injEq] at hx
        obtain ⟨rfl, rfl⟩ := hx
        simp only [List.cons_append, List.map_cons, List.cons.injEq] at h1
        obtain ⟨rfl, hb⟩ := h1
        have hne : bs ≠ [] := by rintro rfl; simp at hb
        obtain ⟨k1, k2⟩ := means_att h3 hne
        refine Or.inr ⟨p, vs, bs.length, rfl, h2, k1, k2, ?_, .packet (by simpa using hb) rfl h3 h4 h5 h6⟩
        exact List.length_pos_iff.2 hne
  · rintro (⟨p, vs, body, now, later, rfl, h1, h2, h3, h4, h5, rfl⟩ | ⟨p, vs, n, rfl, h1, h2, h3, h4, h5⟩)
    · exact .packet (pre := []) (bs := []) rfl h1 h2 h3 h4 h5
    · cases h5 with
      | waiting h => exact .waiting h1 h2 h3 (by simpa using h)
      | @packet bs body reg' pl' pre rest now later g1 g2 g3 g4 g5 g6 =>
        have := Dispatched.packet (cfg := cfg) (pre := (who, .text p.text) :: pre) (bs := bs) (by simpa using g1) h1 g3 g4 g5 g6
        simpa using this

/-- The next message of a pending packet. -/
theorem rest_cons {cfg : RCfg} {who : Who} {p : Pkt} {vs : List Str} {n : Nat} {got : List Payload} {pl : Payload}
    {ms : List (Who × Payload)} {cs : List Call} (hlt : got.length < n) :
    Rest cfg p vs n got ((who, pl) :: ms) cs ↔
      (got.length + 1 < n ∧ Rest cfg p vs n (got ++ [pl]) ms cs) ∨
      (got.length + 1 = n ∧ ∃ (bs : List Bytes) (body : Body) (now later : List Call), got ++ [pl] = bs.map .binary ∧
        p.Means vs bs body ∧ Loggable cfg body ∧ Acts who (p.ns.getD ['/']) body now ∧ Dispatched cfg ms later ∧
        cs = now ++ later) := by
  constructor
  · intro h
    generalize hx : (who, pl) :: ms = x at h
    cases h with
    | waiting h1 =>
      subst hx
      simp only [List.length_cons] at h1
      exact Or.inl ⟨by omega, .waiting (by simp; omega)⟩
    | @packet bs body reg' pl' pre rest now later h1 h0 h3 h4 h5 h6 =>
      have hlen := congrArg List.length h1
      simp at hlen
      cases pre with
      | nil =>
        simp only [List.nil_append, List.cons.injEq, Prod.mk.injEq] at hx
        obtain ⟨⟨rfl, rfl⟩, rfl⟩ := hx
        simp at hlen
        exact Or.inr ⟨by omega, bs, body, now, later, by simpa using h1, h3, h4, h5, h6, rfl⟩
      | cons y pre =>
        simp only [List.cons_append, List.cons.injEq] at hx
        obtain ⟨rfl, rfl⟩ := hx
        simp at hlen
        refine Or.inl ⟨by omega, .packet (by simpa using h1) h0 h3 h4 h5 h6⟩
  · rintro (⟨h1, h2⟩ | ⟨h1, bs, body, now, later, h2, h3, h4, h5, h6, rfl⟩)
    · cases h2 with
      | waiting h => exact .waiting (by simp at h ⊢; omega)
      | @packet bs body reg' pl' pre rest now later g1 g2 g3 g4 g5 g6 =>
        exact .packet (pre := (who, pl) :: pre) (by simpa using g1) g2 g3 g4 g5 g6
    · have hlen := congrArg List.length h2
      simp at hlen
      exact .packet (pre := []) (bs := bs) (by simpa using h2) (by omega) h3 h4 h5 h6

theorem pending_act {cfg : RCfg} {st : RState} {reg : Callbacks} {p : Pkt} {vs : List Str} {n : Nat}
    {got : List Payload} {m : EMsg} {pl : Payload} (h : Pending st p vs n got) (hp : HasPayload m pl)
    (hl : got.length + 1 = n) :
    (processEngineMessage cfg st reg m).st.inProgress = none ∧
    ((processEngineMessage cfg st reg m).res = .ok () → ∃ (bs : List Bytes) (body : Body) (cs : List Call),
      got ++ [pl] = bs.map .binary ∧ p.Means vs bs body ∧ Loggable cfg body ∧ Acts (whoOf reg) (p.ns.getD ['/']) body cs) ∧
    (∀ (bs : List Bytes) (body : Body) (cs : List Call), got ++ [pl] = bs.map .binary → p.Means vs bs body →
      Loggable cfg body → Acts (whoOf reg) (p.ns.getD ['/']) body cs →
      (processEngineMessage cfg st reg m).res = .ok () ∧ Makes (processEngineMessage cfg st reg m).effs cs) := by
  have ha : p.ArgTexts vs := by obtain ⟨q, ms, _, h2, _⟩ := h.ip; exact h2.args
  obtain ⟨h1, h2⟩ := pending_last (cfg := cfg) (reg := reg) h hp hl
  refine ⟨by rw [h1], ?_⟩
  have binj : ∀ a b : List Bytes, a.map Payload.binary = b.map Payload.binary → a = b := by
    intro a b hab
    exact List.map_inj_right (fun x y h => by simpa using h) |>.1 hab
  rcases h2 with ⟨pre, t, post, g1, _, _, g2⟩ | ⟨bs, g1, ⟨g2, _, _, g3⟩ | ⟨body, pk, g2, g3, g4⟩⟩
  · rw [g2]
    refine ⟨by simp, fun bs body cs k1 => ?_⟩
    rw [g1] at k1
    have : Payload.text t ∈ bs.map Payload.binary := by rw [← k1]; simp
    simp at this
  · rw [g3]
    refine ⟨by simp, fun bs body cs _ k2 => ?_⟩
    exfalso
    have hk := h.kind
    cases k2 with
    | connect hk' => rw [hk'] at hk; simp at hk
    | disconnect hk' => rw [hk'] at hk; simp at hk
    | event hk' hv =>
      rcases g2 with g2 | ⟨g2, _⟩
      · exact hv g2
      · rcases hk' with ⟨hk', _⟩ | ⟨hk', _⟩ <;> rw [g2] at hk' <;> simp at hk'
    | ack i _ hi hv =>
      rcases g2 with g2 | ⟨_, g2⟩
      · exact hv g2
      · rw [hi] at g2; simp at g2
  · obtain ⟨c1, c2⟩ := means_content ha g2
    have key := processPacket_acts (cfg := cfg) (reg := reg) g3 c1 c2
    rw [← g4] at key
    simp only at key
    refine ⟨fun ho => ?_, fun bs' body' cs k1 k2 k3 k4 => ?_⟩
    · obtain ⟨j1, cs, j2⟩ := key.1 ho
      exact ⟨bs, body, cs, g1, g2, j1, j2⟩
    · rw [g1] at k1
      have := binj _ _ k1
      subst this
      have : body' = body := means_unique k2 g2
      subst this
      exact key.2 cs k3 k4

theorem makes_append {a b : List Eff} {c d : List Call} (h1 : Makes a c) (h2 : Makes b d) : Makes (a ++ b) (c ++ d) := by
  induction h1 with
  | nil => exact h2
  | call h _ ih => exact .call h ih
  | other h _ ih => exact .other h ih

theorem makes_none {a : List Eff} (h : ∀ e ∈ a, ¬ RunsCallback e) : Makes a [] := by
  induction a with
  | nil => exact .nil
  | cons e a ih => exact .other (h e (by simp)) (ih fun x hx => h x (by simp [hx]))

theorem marks_none {who : Who} {w : Ws} {l : List (Who × Ws)} (h : payload? w = none) :
    marks ((who, w) :: l) = marks l := by simp [marks, h]

theorem marks_some {who : Who} {w : Ws} {pl : Payload} {l : List (Who × Ws)} (h : payload? w = some pl) :
    marks ((who, w) :: l) = (who, pl) :: marks l := by simp [marks, h]

/-- The messages with whom their registries have. -/
def whos (l : List (Callbacks × Ws)) : List (Who × Ws) := l.map fun x => (whoOf x.1, x.2)

/-- A stream as it has to be is taken, and the calls are made. -/
theorem stream_runs (cfg : RCfg) (l : List (Callbacks × Ws)) : ∀ (st : RState) (cs : List Call),
    EngineOk (stageOf st.decoder) (l.map Prod.snd) →
    ((st.inProgress = none ∧ Dispatched cfg (marks (whos l)) cs) ∨
      ∃ p vs n got, Pending st p vs n got ∧ Rest cfg p vs n got (marks (whos l)) cs) →
    (∀ o ∈ outs cfg st l, o.res = .ok ()) ∧ Makes ((outs cfg st l).flatMap ROut.effs) cs := by
  induction l with
  | nil =>
    intro st cs _ h
    simp only [outs, whos, List.map_nil, marks, List.filterMap_nil] at h ⊢
    refine ⟨by simp, ?_⟩
    rcases h with ⟨_, h⟩ | ⟨p, vs, n, got, _, h⟩
    · generalize hx : ([] : List (Who × Payload)) = x at h
      cases h with
      | done => exact .nil
      | waiting => simp at hx
      | packet => simp at hx
    · generalize hx : ([] : List (Who × Payload)) = x at h
      cases h with
      | waiting => exact .nil
      | packet => simp at hx
  | cons x l ih =>
    intro st cs he h
    obtain ⟨reg, w⟩ := x
    obtain ⟨h0, he'⟩ := (engine_message (cfg := cfg) (reg := reg)).1 he
    have comb : ∀ now later, (processWs cfg st reg w).res = .ok () → Makes (processWs cfg st reg w).effs now →
        (((processWs cfg st reg w).st.inProgress = none ∧ Dispatched cfg (marks (whos l)) later) ∨
          ∃ p vs n got, Pending (processWs cfg st reg w).st p vs n got ∧ Rest cfg p vs n got (marks (whos l)) later) →
        (∀ o ∈ outs cfg st ((reg, w) :: l), o.res = .ok ()) ∧
          Makes ((outs cfg st ((reg, w) :: l)).flatMap ROut.effs) (now ++ later) := by
      intro now later h1 h2 h3
      obtain ⟨g1, g2⟩ := ih _ later he' h3
      simp only [outs, List.mem_cons, forall_eq_or_imp, List.flatMap_cons]
      exact ⟨⟨h1, g1⟩, makes_append h2 g2⟩
    cases hp : payload? w with
    | none =>
      rw [show whos ((reg, w) :: l) = (whoOf reg, w) :: whos l from rfl, marks_none hp] at h
      obtain ⟨h1, _, h3⟩ := processWs_other cfg st reg hp
      refine comb [] cs (other_ok hp h0) (makes_none h3) ?_
      rcases h with ⟨h, hd⟩ | ⟨p, vs, n, got, h, hd⟩
      · exact Or.inl ⟨by rw [h1, h], hd⟩
      · refine Or.inr ⟨p, vs, n, got, ⟨?_, h.kind, h.att, h.lt⟩, hd⟩
        obtain ⟨q, ms, g1, g2⟩ := h.ip
        exact ⟨q, ms, by rw [h1, g1], g2⟩
    | some pl =>
      rw [show whos ((reg, w) :: l) = (whoOf reg, w) :: whos l from rfl, marks_some hp] at h
      obtain ⟨m, hm, hcl, e⟩ := payload_given (cfg := cfg) (reg := reg) hp h0
      rw [e] at comb
      rcases h with ⟨h, hd⟩ | ⟨p, vs, n, got, h, hd⟩
      · rcases dispatched_cons.1 hd with ⟨p, vs, body, now, later, rfl, h1, h2, h3, h4, h5, rfl⟩ |
          ⟨p, vs, n, rfl, h1, h2, h3, h4, h5⟩
        · obtain ⟨g1, g2, g3⟩ := idle_packet (cfg := cfg) h hm h1 h2 h3 h4
          exact comb now later g1 g3 (Or.inl ⟨by rw [g2, h], h5⟩)
        · obtain ⟨g1, g2, g3⟩ := idle_header (cfg := cfg) (reg := reg) h hm h1 h2 h3 h4
          exact comb [] cs g1 (by rw [g2]; exact .nil) (Or.inr ⟨p, vs, n, [], g3, h5⟩)
      · rcases (rest_cons h.lt).1 hd with ⟨h1, h2⟩ | ⟨h1, bs, body, now, later, h2, h3, h4, h5, h6, rfl⟩
        · obtain ⟨g1, _, g3, g4⟩ := pending_more (cfg := cfg) (reg := reg) h hm h1
          exact comb [] cs g4 (by rw [g3]; exact .nil) (Or.inr ⟨p, vs, n, _, g1, h2⟩)
        · obtain ⟨g1, _, g3⟩ := pending_act (cfg := cfg) (reg := reg) h hm h1
          obtain ⟨k1, k2⟩ := g3 bs body now h2 h3 h4 h5
          exact comb now later k1 k2 (Or.inl ⟨g1, h6⟩)

/-- Only such a stream is taken. -/
theorem stream_only (cfg : RCfg) (l : List (Callbacks × Ws)) : ∀ (st : RState),
    (∀ o ∈ outs cfg st l, o.res = .ok ()) →
    EngineOk (stageOf st.decoder) (l.map Prod.snd) ∧
    (st.inProgress = none → ∃ cs, Dispatched cfg (marks (whos l)) cs) ∧
    (∀ p vs n got, Pending st p vs n got → ∃ cs, Rest cfg p vs n got (marks (whos l)) cs) := by
  induction l with
  | nil =>
    intro st _
    exact ⟨.nil _, fun _ => ⟨[], .done⟩, fun p vs n got h => ⟨[], .waiting (by simpa [marks, whos] using h.lt)⟩⟩
  | cons x l ih =>
    intro st hok
    obtain ⟨reg, w⟩ := x
    simp only [outs, List.mem_cons, forall_eq_or_imp] at hok
    obtain ⟨hok, hok'⟩ := hok
    obtain ⟨i1, i2, i3⟩ := ih _ hok'
    have h0 : IsControl w ∨ ∃ p, (decode st.decoder w).2 = .ok p := by
      by_cases hc : IsControl w
      · exact Or.inl hc
      · exact Or.inr (res_ok_decoded hok hc)
    refine ⟨(engine_message (cfg := cfg) (reg := reg)).2 ⟨h0, i1⟩, ?_⟩
    cases hp : payload? w with
    | none =>
      rw [show whos ((reg, w) :: l) = (whoOf reg, w) :: whos l from rfl, marks_none hp]
      obtain ⟨h1, _, _⟩ := processWs_other cfg st reg hp
      refine ⟨fun h => i2 (by rw [h1, h]), fun p vs n got h => i3 p vs n got ⟨?_, h.kind, h.att, h.lt⟩⟩
      obtain ⟨q, ms, g1, g2⟩ := h.ip
      exact ⟨q, ms, by rw [h1, g1], g2⟩
    | some pl =>
      rw [show whos ((reg, w) :: l) = (whoOf reg, w) :: whos l from rfl, marks_some hp]
      obtain ⟨m, hm, hcl, e⟩ := payload_given (cfg := cfg) (reg := reg) hp h0
      rw [e] at hok i2 i3
      refine ⟨fun h => ?_, fun p vs n got h => ?_⟩
      · rcases idle_only h hm hok with ⟨p, vs, body, now, rfl, h1, h2, h3, h4⟩ | ⟨p, vs, n, rfl, h1, h2, h3, h4⟩
        · obtain ⟨_, g2, _⟩ := idle_packet (cfg := cfg) h hm h1 h2 h3 h4
          obtain ⟨later, g⟩ := i2 (by rw [g2, h])
          exact ⟨_, dispatched_cons.2 (Or.inl ⟨p, vs, body, now, later, rfl, h1, h2, h3, h4, g, rfl⟩)⟩
        · obtain ⟨_, _, g3⟩ := idle_header (cfg := cfg) (reg := reg) h hm h1 h2 h3 h4
          obtain ⟨cs, g⟩ := i3 p vs n [] g3
          exact ⟨cs, dispatched_cons.2 (Or.inr ⟨p, vs, n, rfl, h1, h2, h3, h4, g⟩)⟩
      · have hlt := h.lt
        by_cases h1 : got.length + 1 = n
        · obtain ⟨g1, g2, _⟩ := pending_act (cfg := cfg) (reg := reg) h hm h1
          obtain ⟨bs, body, now, k1, k2, k3, k4⟩ := g2 hok
          obtain ⟨later, g⟩ := i2 g1
          exact ⟨_, (rest_cons hlt).2 (Or.inr ⟨h1, bs, body, now, later, k1, k2, k3, k4, g, rfl⟩)⟩
        · have h1 : got.length + 1 < n := by omega
          obtain ⟨g1, _, _, _⟩ := pending_more (cfg := cfg) (reg := reg) h hm h1
          obtain ⟨cs, g⟩ := i3 p vs n _ g1
          exact ⟨cs, (rest_cons hlt).2 (Or.inl ⟨h1, g⟩)⟩

end SIO
