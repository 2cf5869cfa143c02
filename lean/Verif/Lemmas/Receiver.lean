import Verif.Spec.Receiver
import Verif.Lemmas.Callbacks
import Verif.Lemmas.Decoded
import Verif.Lemmas.Fill
import Verif.Props.Engine
import Verif.Props.Args
/-
The receiver, one message at a time.
-/
namespace SIO
open Spec

/-! ### Event names -/

theorem utf8OfBytes_iff (b : Bytes) (s : Str) : utf8OfBytes b = some s ↔ b = utf8Bytes s := by
  have henc : ∀ l : List Char, l.utf8Encode.data.toList = utf8Bytes l := by
    intro l
    simp [List.utf8Encode, utf8Bytes]
  constructor
  · intro h
    simp only [utf8OfBytes, Option.map_eq_some_iff] at h
    obtain ⟨a, ha, rfl⟩ := h
    have := ByteArray.utf8Encode_get_utf8Decode? (b := ⟨b.toArray⟩) (h := by rw [ha]; rfl)
    simp only [ha, Option.get_some] at this
    rw [← henc, this]
  · rintro rfl
    have h : s.utf8Encode = ⟨(utf8Bytes s).toArray⟩ := by
      have := henc s
      cases hs : s.utf8Encode with
      | mk d =>
        rw [hs] at this
        simp only at this
        rw [← this]
    rw [utf8OfBytes, ← h, List.utf8Decode?_utf8Encode]
    simp

theorem isVal_text {t : JTree} {v : Str} (h : IsVal t v) : IsText t v :=
  ⟨[], v, [], by simp, by simp [IsWs], by simp [IsWs], h⟩

theorem parseTree_isVal {t : JTree} {v : Str} (h : IsVal t v) : parseTree v = some t :=
  (parseTree_iff v t).2 (isVal_text h)

theorem allSome_deref {as : List (OwnedSubslice Bytes)} {bs : List Bytes}
    (h : as.map OwnedSubslice.deref = bs.map some) : allSome OwnedSubslice.deref as = some bs := by
  induction as generalizing bs with
  | nil =>
    cases bs with
    | nil => rfl
    | cons b bs => simp at h
  | cons a as ih =>
    cases bs with
    | nil => simp at h
    | cons b bs =>
      simp only [List.map_cons, List.cons.injEq] at h
      simp [allSome, h.1, ih h.2]

theorem backslash_not_mem_ph : '\\' ∉ phKey := by decide

theorem isMembers_num {kts : List (Str × JTree)} {b : Str} (h : IsMembers kts b) :
    ∀ k l, (k, JTree.num l) ∈ kts → IsNum l := by
  induction kts generalizing b with
  | nil => simp
  | cons kt kts ih =>
    obtain ⟨k, t⟩ := kt
    obtain ⟨w1, w2, w3, v, w4, b', _, _, _, _, _, _, hv, h⟩ := h
    intro k' l hm
    rcases List.mem_cons.1 hm with he | hm
    · cases he
      exact hv.2
    · rcases h with ⟨rfl, _⟩ | ⟨_, b'', _, h⟩
      · simp at hm
      · exact ih h k' l hm

theorem readNum_decimal (fin : Str → Bool) {i : Nat} (hi : i < 2 ^ 64) :
    readNum fin (decimal i) = some (.pos i) :=
  (readNum_iff (decimal_isNum i) _).2 (Or.inl ⟨i, rfl, hi, rfl⟩)

theorem mapView_ph (fin : Str → Bool) (bs : List Bytes) (z : Bool) (l : Str) :
    mapView fin bs [(phKey, .bool z), (numKey, .num l)] =
      match readNum fin l with
      | some (.pos n) => match bs[n]? with
        | some b => .placeholder b
        | none => .err
      | _ => .err := by
  rw [mapView.eq_def]
  dsimp only
  rw [if_neg backslash_not_mem_ph, if_pos (show phKey = "_placeholder".toList from rfl),
    if_pos (show numKey = "num".toList from rfl)]
  cases readNum fin l with
  | none => rfl
  | some n => cases n <;> rfl

/-- `Arg::deserialize::<Cow<str>>`. -/
theorem deserialize_str {x : Ext} {a : Arg} {t : JTree} {bs : List Bytes} (ht : IsVal t a.arg)
    (hb : a.attachments.map OwnedSubslice.deref = bs.map some) :
    (∃ name, NameOf a.arg bs name ∧ a.deserialize x .str = .ok (.str name)) ∨
    ((∀ name, ¬ NameOf a.arg bs name) ∧ a.deserialize x .str = .err (.jsonDeError a.arg)) := by
  have hnil : a.attachments = [] ↔ bs = [] := by
    have := congrArg List.length hb
    simp at this
    rw [← List.length_eq_zero_iff, ← List.length_eq_zero_iff, this]
  unfold Arg.deserialize
  rw [allSome_deref hb]
  have hr : readPart .str t = t := by simp only [readPart]
  simp only [fromStrA, fromStr, parseTree_isVal ht, Option.bind_some, hr]
  have none_case : (∀ raw, t ≠ .str raw) → (∀ kts, t ≠ .obj kts) → ∀ name, ¬ NameOf a.arg bs name := by
    intro h1 h2 name hn
    cases hn with
    | string raw h _ => exact h1 raw (isVal_unique ht h)
    | attachment z i h _ _ => exact h2 _ (isVal_unique ht h)
  cases t with
  | null => right; exact ⟨none_case (by simp) (by simp), by split <;> simp [deA, de, Res.ofOption]⟩
  | bool b => right; exact ⟨none_case (by simp) (by simp), by split <;> simp [deA, de, Res.ofOption]⟩
  | num l => right; exact ⟨none_case (by simp) (by simp), by split <;> simp [deA, de, Res.ofOption]⟩
  | arr ts => right; exact ⟨none_case (by simp) (by simp), by split <;> simp [deA, de, Res.ofOption]⟩
  | str raw =>
    have he : (if a.attachments ≠ [] then deA x bs 128 .str (.str raw) else de x 128 .str (.str raw)) =
        (unescape raw).map .str := by split <;> simp [deA, de]
    rw [he]
    cases hu : unescape raw with
    | some s => left; exact ⟨s, .string raw ht ((unescape_iff raw s).1 hu), by simp [Res.ofOption]⟩
    | none =>
      right
      refine ⟨?_, by simp [Res.ofOption]⟩
      intro name hn
      cases hn with
      | string raw' h hd =>
        have := isVal_unique ht h
        simp at this
        subst this
        rw [(unescape_iff raw name).2 hd] at hu
        simp at hu
      | attachment z i h _ _ => have := isVal_unique ht h; simp at this
  | obj kts =>
    have hbs : a.attachments ≠ [] ↔ bs ≠ [] := not_congr hnil
    -- a name is possible only through an attachment
    have key : ∀ name, NameOf a.arg bs name ↔
        ∃ z i, kts = [(phKey, .bool z), (numKey, .num (decimal i))] ∧ i < 2 ^ 64 ∧ bs[i]? = some (utf8Bytes name) := by
      intro name
      constructor
      · intro hn
        cases hn with
        | string raw h _ => have := isVal_unique ht h; simp at this
        | attachment z i h hi hb =>
          have := isVal_unique ht h
          simp at this
          exact ⟨z, i, this, hi, hb⟩
      · rintro ⟨z, i, rfl, hi, hb⟩
        exact .attachment z i ht hi hb
    by_cases hbe : bs = []
    · right
      refine ⟨?_, ?_⟩
      · intro name hn
        obtain ⟨_, i, _, _, h⟩ := (key name).1 hn
        simp [hbe] at h
      · have : a.attachments = [] := hnil.2 hbe
        simp [this, de, Res.ofOption]
    · rw [if_pos (hbs.2 hbe)]
      have hview : ∀ b, mapView x.fin bs kts = .placeholder b ↔
          ∃ z i, kts = [(phKey, .bool z), (numKey, .num (decimal i))] ∧ i < 2 ^ 64 ∧ bs[i]? = some b := by
        intro b
        constructor
        · intro h
          unfold mapView at h
          split at h
          · simp at h
          · rename_i k t rest
            split at h
            · simp at h
            · split at h
              · rename_i hk
                split at h
                · rename_i z k' l
                  split at h
                  · rename_i hk'
                    split at h
                    · rename_i n hn
                      split at h
                      · rename_i b' hb'
                        simp only [MapView.placeholder.injEq] at h
                        subst h
                        have hl : IsNum l := by
                          obtain ⟨_, _, h⟩ := ht
                          exact isMembers_num h k' l (by simp)
                        have := (readNum_iff hl (.pos n)).1 hn
                        rcases this with ⟨m, rfl, hm, he⟩ | ⟨_, _, _, _, he⟩ | ⟨_, _, _, he⟩
                        · simp at he
                          subst he
                          exact ⟨z, n, by rw [hk, hk']; rfl, hm, hb'⟩
                        · simp at he
                        · simp at he
                      · simp at h
                    · simp at h
                  · simp at h
                · simp at h
              · simp at h
        · rintro ⟨z, i, rfl, hi, hb⟩
          rw [mapView_ph, readNum_decimal x.fin hi]
          simp [hb]
      simp only [deA, enter, if_neg (show ¬ (128 ≤ 1) by decide)]
      cases hv : mapView x.fin bs kts with
      | placeholder b =>
        obtain ⟨z, i, hk, hi, hb'⟩ := (hview b).1 hv
        cases hu : utf8OfBytes b with
        | some s =>
          left
          refine ⟨s, (key s).2 ⟨z, i, hk, hi, ?_⟩, by simp [hu, Res.ofOption]⟩
          rw [hb', (utf8OfBytes_iff b s).1 hu]
        | none =>
          right
          refine ⟨?_, by simp [hu, Res.ofOption]⟩
          intro name hn
          obtain ⟨z', i', hk', _, hb''⟩ := (key name).1 hn
          have : mapView x.fin bs kts = .placeholder (utf8Bytes name) := (hview _).2 ⟨z', i', hk', by assumption, hb''⟩
          rw [hv] at this
          simp at this
          subst this
          rw [(utf8OfBytes_iff _ name).2 rfl] at hu
          simp at hu
      | err =>
        right
        refine ⟨?_, by simp [Res.ofOption]⟩
        intro name hn
        have := (hview (utf8Bytes name)).2 ((key name).1 hn)
        rw [hv] at this; simp at this
      | plain =>
        right
        refine ⟨?_, by simp [Res.ofOption]⟩
        intro name hn
        have := (hview (utf8Bytes name)).2 ((key name).1 hn)
        rw [hv] at this; simp at this

theorem nameOf_unique {v : Str} {bs : List Bytes} {a b : Str} (ha : NameOf v bs a) (hb : NameOf v bs b) : a = b := by
  cases ha with
  | string raw h1 h2 =>
    cases hb with
    | string raw' g1 g2 =>
      have := isVal_unique h1 g1
      simp at this
      subst this
      exact SIO.StrDenotes.unique h2 g2
    | attachment z i g1 =>
      have := isVal_unique h1 g1
      simp at this
  | attachment z i h1 _ h2 =>
    cases hb with
    | string raw' g1 =>
      have := isVal_unique h1 g1
      simp at this
    | attachment z' i' g1 _ g2 =>
      have := isVal_unique h1 g1
      simp only [JTree.obj.injEq, List.cons.injEq, Prod.mk.injEq, JTree.bool.injEq, JTree.num.injEq, true_and, and_true] at this
      have hi := decimal_injective this.2
      subst hi
      rw [h2] at g2
      simp only [Option.some.injEq] at g2
      have e1 := (utf8OfBytes_iff _ a).2 rfl
      have e2 := (utf8OfBytes_iff _ b).2 rfl
      unfold utf8Bytes at e1 e2
      rw [g2, e2] at e1
      exact (Option.some.inj e1).symm

/-! ### One packet -/

/-- The packet would be formatted for the log, and that panics (C22). -/
def LogPanics (cfg : RCfg) (pk : Packet) : Prop := cfg.logInfo = true ∧ pk.display cfg.ext.fin = .panic

theorem processPacket_log {cfg : RCfg} {reg : Callbacks} {pk : Packet} (h : LogPanics cfg pk) :
    processPacket cfg reg pk = (reg, [], .panic) := by
  unfold LogPanics at h
  unfold processPacket
  rw [if_pos h]

theorem processPacket_dataless {cfg : RCfg} {reg : Callbacks} {pk : Packet} {ns : Str} (hl : ¬ LogPanics cfg pk)
    (hs : Shows pk ns .connect ∨ Shows pk ns .disconnect) : processPacket cfg reg pk = (reg, [], .ok ()) := by
  unfold LogPanics at hl
  unfold processPacket
  rw [if_neg hl]
  rcases hs with ⟨h1, h2⟩ | ⟨h1, h2⟩ <;> simp only at h2 <;> rw [h1, h2]

/-- What an event does. -/
theorem processPacket_event {cfg : RCfg} {reg : Callbacks} {pk : Packet} {ns v : Str} {id : Option Nat}
    {vs : List Str} {bs : List Bytes} {A : Args} {t : JTree} (hl : ¬ LogPanics cfg pk)
    (h1 : pk.namespace_ = .ok ns) (h2 : pk.data = .ok (.event id A)) (h3 : ArgsShow A (v :: vs) bs) (ht : IsVal t v) :
    (∃ name, NameOf v bs name ∧ processPacket cfg reg pk =
      match reg.getEvent ns name with
      | some cb => (reg, [.event ns name cb A (id.map fun i => ⟨ns, i⟩)], .ok ())
      | none => (reg, [], .ok ())) ∨
    ((∀ name, ¬ NameOf v bs name) ∧ processPacket cfg reg pk = (reg, [], .err (.args (.jsonDeError v)))) := by
  unfold LogPanics at hl
  unfold processPacket
  rw [if_neg hl, h1, h2]
  have hg := h3.get 0
  simp only [List.getElem?_cons_zero, Option.map_some] at hg
  simp only [hg]
  rcases deserialize_str (x := cfg.ext) (a := ⟨v, A.attachments⟩) ht h3.atts with ⟨name, hn, he⟩ | ⟨hn, he⟩
  · refine Or.inl ⟨name, hn, ?_⟩
    rw [he]
    rfl
  · refine Or.inr ⟨hn, ?_⟩
    rw [he]

/-- What an ack does. -/
theorem processPacket_ack {cfg : RCfg} {reg : Callbacks} {pk : Packet} {ns : Str} {id : Nat}
    {A : Args} (hl : ¬ LogPanics cfg pk)
    (h1 : pk.namespace_ = .ok ns) (h2 : pk.data = .ok (.ack id A)) :
    processPacket cfg reg pk =
      match (reg.getAndClearAck ns id).1 with
      | some cb => ((RegOp.takeAck ns id).run reg, [.ack ns id cb A], .ok ())
      | none => ((RegOp.takeAck ns id).run reg, [], .err (.unexpectedAck pk)) := by
  unfold LogPanics at hl
  unfold processPacket
  rw [if_neg hl, h1, h2]
  simp only [RegOp.run]
  cases h : reg.getAndClearAck ns id with
  | mk a b => cases a <;> rfl

/-- The possible effects of a packet, whatever it is. -/
inductive PkShape (reg : Callbacks) : Callbacks × List Eff × Res RErr Unit → Prop where
  | quiet (r : Res RErr Unit) : PkShape reg (reg, [], r)
  | noAck (ns : Str) (id : Nat) (pk : Packet) : reg.ak ns id = none →
      PkShape reg ((RegOp.takeAck ns id).run reg, [], .err (.unexpectedAck pk))
  | event (ns name : Str) (cb : Cb) (A : Args) (ack : Option AckHandle) : reg.getEvent ns name = some cb →
      (∀ h, ack = some h → h.ns = ns) → PkShape reg (reg, [.event ns name cb A ack], .ok ())
  | ack (ns : Str) (id : Nat) (cb : Cb) (A : Args) : reg.ak ns id = some cb →
      PkShape reg ((RegOp.takeAck ns id).run reg, [.ack ns id cb A], .ok ())

theorem processPacket_shape (cfg : RCfg) (reg : Callbacks) (pk : Packet) :
    PkShape reg (processPacket cfg reg pk) := by
  unfold processPacket
  split
  · exact .quiet _
  · split
    · exact .quiet _
    · rename_i ns _
      split
      · exact .quiet _
      · exact .quiet _
      · exact .quiet _
      · rename_i id args _
        split
        · exact .quiet _
        · exact .quiet _
        · split
          · exact .quiet _
          · exact .quiet _
          · split
            · rename_i cb hcb
              refine .event _ _ cb _ _ hcb ?_
              intro h hh
              simp only [Option.map_eq_some_iff] at hh
              obtain ⟨i, _, rfl⟩ := hh
              rfl
            · exact .quiet _
          · exact .quiet _
      · rename_i id args _
        have hak := Callbacks.getAck_eq reg ns id
        have hrun : (RegOp.takeAck ns id).run reg = (reg.getAndClearAck ns id).2 := rfl
        cases h : reg.getAndClearAck ns id with
        | mk a b =>
          rw [h] at hak hrun
          simp only at hak hrun
          cases a with
          | some cb => rw [← hrun]; exact .ack ns id cb args hak.symm
          | none => rw [← hrun]; exact .noAck ns id pk hak.symm

/-! ### One message -/

/-- What is known of a pending binary packet: it comes from a received header, and all
collected messages were received. -/
def RInv (st : RState) : Prop :=
  ∀ ip, st.inProgress = some ip →
    ∃ m s, Received m ∧ HasPayload m (.text s) ∧ deserialize m = .ok (.dataNeeded ip.part) ∧
      ∀ x ∈ ip.attachments, Received x

theorem rinv_new : RInv RState.new := by intro ip h; simp [RState.new] at h

/-- The state of the open channel: the sender is there exactly until the open packet. -/
def OInv (st : RState) : Prop := st.openTx = true ↔ st.decoder = .initial

theorem oinv_new : OInv RState.new := by simp [OInv, RState.new, EState.new]

/-- Only text headers are taken for partial packets. -/
theorem deserialize_needed {m : EMsg} {q : Parse} (h : deserialize m = .ok (.dataNeeded q)) (hr : Received m) :
    ∃ s, HasPayload m (.text s) := by
  obtain ⟨pl, hp⟩ := SIO.Received.payload hr
  cases pl with
  | text s => exact ⟨s, hp⟩
  | binary b => rw [deserialize_binary_eq hp] at h; simp at h

/-- An engine message: the pending packet grows, or a packet is processed, or it is an error. -/
theorem processEngineMessage_out {cfg : RCfg} {st : RState} {reg : Callbacks} {m : EMsg} (hi : RInv st)
    (hr : Received m) :
    RInv (processEngineMessage cfg st reg m).st ∧
    (processEngineMessage cfg st reg m).st.decoder = st.decoder ∧
    (processEngineMessage cfg st reg m).st.openTx = st.openTx ∧
    (((processEngineMessage cfg st reg m).reg = reg ∧ (processEngineMessage cfg st reg m).effs = []) ∨
      ∃ s ms pk, Decoded s ms pk ∧ (processEngineMessage cfg st reg m).st.inProgress = none ∧
        ((processEngineMessage cfg st reg m).reg, (processEngineMessage cfg st reg m).effs,
          (processEngineMessage cfg st reg m).res) = processPacket cfg reg pk) := by
  unfold processEngineMessage
  cases hp : st.inProgress with
  | some ip =>
    obtain ⟨m0, s, h1, h2, h3, h4⟩ := hi ip hp
    have hall : ∀ x ∈ ip.attachments ++ [m], Received x := by
      intro x hx
      rcases List.mem_append.1 hx with hx | hx
      · exact h4 x hx
      · simp at hx; subst hx; exact hr
    simp only
    cases partialAttachments ip.part with
    | panic => exact ⟨by intro _ h; simp at h, rfl, rfl, Or.inl ⟨rfl, rfl⟩⟩
    | err e => exact e.elim
    | ok n =>
      simp only
      split
      · cases hd : deserializePartial ip.part (ip.attachments ++ [m]) with
        | panic => exact ⟨by intro _ h; simp at h, rfl, rfl, Or.inl ⟨rfl, rfl⟩⟩
        | err e => exact ⟨by intro _ h; simp at h, rfl, rfl, Or.inl ⟨rfl, rfl⟩⟩
        | ok pk =>
          refine ⟨by intro _ h; simp at h, rfl, rfl, Or.inr ⟨s, _, pk, .withAttachments m0 ip.part h1 h2 h3 hall hd, ?_⟩⟩
          exact ⟨rfl, rfl⟩
      · refine ⟨?_, rfl, rfl, Or.inl ⟨rfl, rfl⟩⟩
        intro ip' h
        simp only [Option.some.injEq] at h
        subst h
        exact ⟨m0, s, h1, h2, h3, hall⟩
  | none =>
    simp only
    have hinv : RInv st := hi
    cases hd : deserialize m with
    | panic => exact ⟨hinv, rfl, rfl, Or.inl ⟨rfl, rfl⟩⟩
    | err e => exact ⟨hinv, rfl, rfl, Or.inl ⟨rfl, rfl⟩⟩
    | ok r =>
      cases r with
      | packet pk =>
        obtain ⟨pl, hpl⟩ := SIO.Received.payload hr
        cases pl with
        | binary b => rw [deserialize_binary_eq hpl] at hd; simp at hd
        | text s => exact ⟨hinv, rfl, rfl, Or.inr ⟨s, [], pk, .alone m hr hpl rfl hd, hp, rfl⟩⟩
      | dataNeeded q =>
        refine ⟨?_, rfl, rfl, Or.inl ⟨rfl, rfl⟩⟩
        intro ip' h
        simp only [Option.some.injEq] at h
        subst h
        obtain ⟨s, hs⟩ := deserialize_needed hd hr
        exact ⟨m, s, hr, hs, hd, by simp⟩

/-- Everything `process_websocket_packet` can do. -/
inductive WsOut (cfg : RCfg) (st : RState) (reg : Callbacks) (w : Ws) (o : ROut) : Prop where
  /-- control frames, pongs, engine close, engine errors -/
  | quiet : o.st.inProgress = st.inProgress → o.st.openTx = st.openTx → o.reg = reg → o.effs = [] →
      (o.st.decoder = st.decoder ∨ (st.decoder = .active ∧ o.st.decoder = .closed)) → WsOut cfg st reg w o
  | opened (x : Open) : st.decoder = .initial → o.st.inProgress = st.inProgress → o.reg = reg →
      (decode st.decoder w).2 = .ok (.opened x) →
      ((st.openTx = true ∧ o.effs = [.opened x]) ∨ (st.openTx = false ∧ o.effs = [.secondOpen x])) →
      o.st.openTx = false → o.st.decoder = .active → o.res = .ok () → WsOut cfg st reg w o
  | ping : IsPing w → o.st = st → o.reg = reg → o.effs = [.enqueue [.text ['3']]] → o.res = .ok () → WsOut cfg st reg w o
  /-- an engine message -/
  | message (m : EMsg) : decode st.decoder w = (st.decoder, .ok (.message m)) →
      o = processEngineMessage cfg st reg m → WsOut cfg st reg w o

theorem decode_ping {st : EState} {w : Ws} (h : (decode st w).2 = .ok .ping) : IsPing w ∧ (decode st w).1 = st := by
  unfold decode at h ⊢
  split at h
  · simp at h
  · rename_i hst
    rw [if_neg hst]
    cases w with
    | ping b => simp at h
    | pong b => simp at h
    | close => simp at h
    | binary b =>
      simp only [decodeBinary] at h
      split at h
      · simp at h
      · split at h
        · simp at h
        · split at h <;> simp at h
    | text t =>
      simp only [decodeText] at h ⊢
      cases t with
      | nil => simp at h
      | cons c r =>
        simp only at h ⊢
        split at h
        · split at h
          · simp at h
          · split at h <;> simp at h
        · split at h
          · split at h <;> simp at h
          · split at h
            · rename_i hc
              split at h
              · simp at h
              · rename_i h1 h2 hi
                subst hc
                exact ⟨⟨r, rfl⟩, by simp [hi]⟩
            · split at h
              · split at h <;> simp at h
              · split at h <;> simp at h

theorem decode_message_state {st : EState} {w : Ws} {m : EMsg} (h : (decode st w).2 = .ok (.message m)) :
    (decode st w).1 = st := by
  rcases decode_state st w with ⟨o, ho, _⟩ | ⟨h1, _⟩ | ⟨_, _, h1⟩
  · rw [ho] at h; simp at h
  · rw [h1] at h; simp at h
  · exact h1

theorem processMessage_out (cfg : RCfg) (st : RState) (reg : Callbacks) (w : Ws) :
    WsOut cfg st reg w (processMessage cfg st reg w) := by
  unfold processMessage
  have hs := decode_state st.decoder w
  have hp := @decode_ping st.decoder w
  have hm := @decode_message_state st.decoder w
  have hnp := decode_no_panic st.decoder w
  cases hd : decode st.decoder w with
  | mk d r =>
    rw [hd] at hs hp hm hnp
    simp only at hs hp hm hnp ⊢
    cases r with
    | panic => exact absurd rfl hnp
    | err e =>
      refine .quiet rfl rfl rfl rfl ?_
      rcases hs with ⟨o', ho, _⟩ | ⟨h, _⟩ | ⟨_, _, h⟩
      · simp at ho
      · simp at h
      · exact Or.inl h
    | ok p =>
      cases p with
      | opened o =>
        rcases hs with ⟨o', ho, h1, h2⟩ | ⟨h, _⟩ | ⟨h, _⟩
        · simp only
          cases ht : st.openTx with
          | true => exact .opened o h1 rfl rfl (by rw [hd]) (Or.inl ⟨ht, rfl⟩) rfl h2 rfl
          | false => exact .opened o h1 rfl rfl (by rw [hd]) (Or.inr ⟨ht, rfl⟩) rfl h2 rfl
        · simp at h
        · exact absurd rfl (h o)
      | close =>
        refine .quiet rfl rfl rfl rfl ?_
        rcases hs with ⟨o', ho, _⟩ | ⟨_, h1, h2⟩ | ⟨_, _, h⟩
        · simp at ho
        · exact Or.inr ⟨h1, h2⟩
        · exact Or.inl h
      | ping =>
        obtain ⟨h1, h2⟩ := hp rfl
        exact .ping h1 (by rw [h2]) rfl rfl rfl
      | pong =>
        refine .quiet rfl rfl rfl rfl ?_
        rcases hs with ⟨o', ho, _⟩ | ⟨h, _⟩ | ⟨_, _, h⟩
        · simp at ho
        · simp at h
        · exact Or.inl h
      | message m =>
        have h := hm rfl
        subst h
        exact .message m hd rfl

theorem processWs_out (cfg : RCfg) (st : RState) (reg : Callbacks) (w : Ws) :
    WsOut cfg st reg w (processWs cfg st reg w) := by
  cases w with
  | ping b => exact .quiet rfl rfl rfl rfl (Or.inl rfl)
  | pong b => exact .quiet rfl rfl rfl rfl (Or.inl rfl)
  | close => exact .quiet rfl rfl rfl rfl (Or.inl rfl)
  | text t => exact processMessage_out cfg st reg _
  | binary b => exact processMessage_out cfg st reg _

theorem rinv_step {cfg : RCfg} {st : RState} {reg : Callbacks} {w : Ws} (hi : RInv st) :
    RInv (processWs cfg st reg w).st := by
  have h := processWs_out cfg st reg w
  generalize processWs cfg st reg w = o at h ⊢
  cases h with
  | quiet h _ _ _ _ => intro ip hip; rw [h] at hip; exact hi ip hip
  | opened x _ h _ _ _ _ _ _ => intro ip hip; rw [h] at hip; exact hi ip hip
  | ping _ h _ _ _ => rw [h]; exact hi
  | message m hd h =>
    rw [h]
    exact (processEngineMessage_out hi ⟨_, _, _, hd⟩).1

theorem oinv_step {cfg : RCfg} {st : RState} {reg : Callbacks} {w : Ws} (hi : RInv st) (ho : OInv st) :
    OInv (processWs cfg st reg w).st := by
  have h := processWs_out cfg st reg w
  unfold OInv at ho ⊢
  generalize processWs cfg st reg w = o at h ⊢
  cases h with
  | quiet _ h _ _ hd =>
    rcases hd with hd | ⟨h1, h2⟩
    · rw [h, hd]; exact ho
    · rw [h, h2, ho, h1]; simp
  | opened x _ _ _ _ _ h1 h2 _ => rw [h1, h2]; simp
  | ping _ h _ _ _ => rw [h]; exact ho
  | message m hd h =>
    have := processEngineMessage_out (cfg := cfg) (reg := reg) hi ⟨_, _, _, hd⟩
    rw [h, this.2.1, this.2.2.1]
    exact ho

/-- The shape of the effects of a websocket message. -/
inductive WsShape (reg : Callbacks) (w : Ws) : Callbacks × List Eff × Res RErr Unit → Prop where
  | packet (x : Callbacks × List Eff × Res RErr Unit) : PkShape reg x → WsShape reg w x
  | opened (o : Open) : WsShape reg w (reg, [.opened o], .ok ())
  | secondOpen (o : Open) : WsShape reg w (reg, [.secondOpen o], .ok ())
  | ping : IsPing w → WsShape reg w (reg, [.enqueue [.text ['3']]], .ok ())

theorem processEngineMessage_shape (cfg : RCfg) (st : RState) (reg : Callbacks) (m : EMsg) :
    PkShape reg ((processEngineMessage cfg st reg m).reg, (processEngineMessage cfg st reg m).effs,
      (processEngineMessage cfg st reg m).res) := by
  unfold processEngineMessage
  split
  · split
    · exact .quiet _
    · simp only
      split
      · split
        · exact .quiet _
        · exact .quiet _
        · exact processPacket_shape _ _ _
      · exact .quiet _
  · split
    · exact .quiet _
    · exact .quiet _
    · exact processPacket_shape _ _ _
    · exact .quiet _

theorem processWs_shape (cfg : RCfg) (st : RState) (reg : Callbacks) (w : Ws) :
    WsShape reg w ((processWs cfg st reg w).reg, (processWs cfg st reg w).effs, (processWs cfg st reg w).res) := by
  have h := processWs_out cfg st reg w
  generalize processWs cfg st reg w = o at h ⊢
  cases h with
  | quiet _ _ h1 h2 _ => rw [h1, h2]; exact .packet _ (.quiet _)
  | opened x _ _ h1 _ h2 _ _ h3 =>
    rw [h1, h3]
    rcases h2 with ⟨_, h2⟩ | ⟨_, h2⟩ <;> rw [h2]
    · exact .opened x
    · exact .secondOpen x
  | ping hp _ h1 h2 h3 => rw [h1, h2, h3]; exact .ping hp
  | message m _ h => rw [h]; exact .packet _ (processEngineMessage_shape _ _ _ _)

/-! ### A pending binary packet -/

theorem processWs_payload (cfg : RCfg) (st : RState) (reg : Callbacks) {w : Ws} {pl : Payload}
    (h : payload? w = some pl) :
    (∃ m, HasPayload m pl ∧ Received m ∧ processWs cfg st reg w = processEngineMessage cfg st reg m) ∨
    (st.decoder ≠ .active ∧ ∃ e, processWs cfg st reg w = ⟨st, reg, [], .err (.engine e)⟩) := by
  unfold payload? at h
  obtain ⟨dec, ip, tx⟩ := st
  split at h
  · rename_i r
    simp at h
    subst h
    by_cases hc : dec = .closed
    · right
      refine ⟨by simp [hc], .messageAfterClose, ?_⟩
      simp [processWs, processMessage, decode, hc]
    · left
      refine ⟨_, show HasPayload (.text _) (.text r) from deref_text r, received_text r, ?_⟩
      simp [processWs, processMessage, decode, hc, decodeText]
  · rename_i r
    simp at h
    subst h
    by_cases hc : dec = .closed
    · right
      refine ⟨by simp [hc], .messageAfterClose, ?_⟩
      simp [processWs, processMessage, decode, hc]
    · by_cases hi : dec = .initial
      · right
        refine ⟨by simp [hi], .messageBeforeOpen, ?_⟩
        simp [processWs, processMessage, decode, hi, decodeBinary]
      · left
        refine ⟨_, show HasPayload (.binary _) (.binary r) from deref_binary r, received_binary r, ?_⟩
        simp [processWs, processMessage, decode, hc, decodeBinary, hi]
  · simp at h

theorem decode_message_payload {st st' : EState} {w : Ws} {m : EMsg}
    (h : decode st w = (st', .ok (.message m))) : ∃ pl, payload? w = some pl ∧ HasPayload m pl := by
  unfold decode at h
  split at h
  · simp at h
  · cases w with
    | ping b => simp at h
    | pong b => simp at h
    | close => simp at h
    | text t =>
      obtain ⟨r, rfl, _, rfl⟩ := decodeText_message h
      exact ⟨_, rfl, deref_text r⟩
    | binary b =>
      obtain ⟨r, rfl, _, _, rfl⟩ := decodeBinary_message h
      exact ⟨_, rfl, deref_binary r⟩

/-- Messages that are no engine messages leave a pending packet and the registry alone. -/
theorem processWs_other (cfg : RCfg) (st : RState) (reg : Callbacks) {w : Ws} (h : payload? w = none) :
    (processWs cfg st reg w).st.inProgress = st.inProgress ∧ (processWs cfg st reg w).reg = reg ∧
      ∀ e ∈ (processWs cfg st reg w).effs, ¬ RunsCallback e := by
  have ho := processWs_out cfg st reg w
  generalize processWs cfg st reg w = o at ho ⊢
  cases ho with
  | quiet h1 _ h2 h3 _ => exact ⟨h1, h2, by simp [h3]⟩
  | opened x _ h1 h2 _ h3 _ _ _ =>
    refine ⟨h1, h2, ?_⟩
    rcases h3 with ⟨_, h3⟩ | ⟨_, h3⟩ <;> simp [h3, RunsCallback]
  | ping _ h1 h2 h3 _ => exact ⟨by rw [h1], h2, by simp [h3, RunsCallback]⟩
  | message m hd _ =>
    obtain ⟨pl, hp, _⟩ := decode_message_payload hd
    rw [h] at hp
    simp at hp

/-- The receiver waits for attachments of `p`, having got `got` of `n`. -/
structure Pending (st : RState) (p : Pkt) (vs : List Str) (n : Nat) (got : List Payload) : Prop where
  ip : ∃ q ms, st.inProgress = some ⟨q, ms⟩ ∧ Parsed q p vs ∧ Payloads ms got
  kind : p.kind ∈ ['5', '6']
  att : p.att = some n
  lt : got.length < n

theorem payloads_snoc {ms : List EMsg} {pls : List Payload} (h : Payloads ms pls) {m : EMsg} {pl : Payload}
    (hp : HasPayload m pl) : Payloads (ms ++ [m]) (pls ++ [pl]) := by
  induction h with
  | nil => exact .cons hp .nil
  | cons h1 _ ih => exact .cons h1 ih

theorem pending_more {cfg : RCfg} {st : RState} {reg : Callbacks} {p : Pkt} {vs : List Str} {n : Nat}
    {got : List Payload} {m : EMsg} {pl : Payload} (h : Pending st p vs n got) (hp : HasPayload m pl)
    (hl : got.length + 1 < n) :
    Pending (processEngineMessage cfg st reg m).st p vs n (got ++ [pl]) ∧
    (processEngineMessage cfg st reg m).reg = reg ∧ (processEngineMessage cfg st reg m).effs = [] ∧
    (processEngineMessage cfg st reg m).res = .ok () := by
  obtain ⟨q, ms, h1, h2, h3⟩ := h.ip
  have hlen : ms.length = got.length := payloads_length h3
  have he : processEngineMessage cfg st reg m = ⟨{ st with inProgress := some ⟨q, ms ++ [m]⟩ }, reg, [], .ok ()⟩ := by
    unfold processEngineMessage
    rw [h1]
    simp only [partialAttachments, h2.att, h.att, Res.unwrap]
    rw [if_neg]
    simp
    omega
  rw [he]
  exact ⟨⟨⟨q, _, rfl, h2, payloads_snoc h3 hp⟩, h.kind, h.att, by simpa using hl⟩, rfl, rfl, rfl⟩

theorem pending_last {cfg : RCfg} {st : RState} {reg : Callbacks} {p : Pkt} {vs : List Str} {n : Nat}
    {got : List Payload} {m : EMsg} {pl : Payload} (h : Pending st p vs n got) (hp : HasPayload m pl)
    (hl : got.length + 1 = n) :
    (processEngineMessage cfg st reg m).st = { st with inProgress := none } ∧
    ((∃ (pre : List Bytes) (t : Str) (post : List Payload),
        got ++ [pl] = (pre.map Payload.binary) ++ Payload.text t :: post ∧
        (processEngineMessage cfg st reg m).reg = reg ∧ (processEngineMessage cfg st reg m).effs = [] ∧
        (processEngineMessage cfg st reg m).res = .err (.socket (.textAttachment t))) ∨
     (∃ bs : List Bytes, got ++ [pl] = bs.map Payload.binary ∧
      (((vs = [] ∨ (p.kind = '6' ∧ p.id = none)) ∧
        (processEngineMessage cfg st reg m).reg = reg ∧ (processEngineMessage cfg st reg m).effs = [] ∧
        (processEngineMessage cfg st reg m).res = .err (.socket (.missingData (typeName p.kind) p.text))) ∨
       (∃ body pk, p.Means vs bs body ∧ Shows pk (p.ns.getD ['/']) body ∧
         ((processEngineMessage cfg st reg m).reg, (processEngineMessage cfg st reg m).effs,
          (processEngineMessage cfg st reg m).res) = processPacket cfg reg pk)))) := by
  obtain ⟨q, ms, h1, h2, h3⟩ := h.ip
  have hlen : ms.length = got.length := payloads_length h3
  have he : processEngineMessage cfg st reg m =
      match deserializePartial q (ms ++ [m]) with
      | .panic => ⟨{ st with inProgress := none }, reg, [], .panic⟩
      | .err e => ⟨{ st with inProgress := none }, reg, [], .err (.socket e)⟩
      | .ok pk =>
        let (reg', effs, r) := processPacket cfg reg pk
        ⟨{ st with inProgress := none }, reg', effs, r⟩ := by
    unfold processEngineMessage
    rw [h1]
    simp only [partialAttachments, h2.att, h.att, Res.unwrap]
    rw [if_pos (by simp; omega)]
    cases deserializePartial q (ms ++ [m]) <;> rfl
  rw [he]
  have ho := deserializePartial_out h2 h.kind h.att (payloads_snoc h3 hp)
  rcases ho with ⟨pre, t, post, g1, g2⟩ | ⟨bs, g1, ⟨g2, g3⟩ | ⟨_, _, g2, _⟩ | ⟨body, pk, g2, g3, g4⟩⟩
  · rw [g2]
    exact ⟨rfl, Or.inl ⟨pre, t, post, g1, rfl, rfl, rfl⟩⟩
  · rw [g3]
    exact ⟨rfl, Or.inr ⟨bs, g1, Or.inl ⟨g2, rfl, rfl, rfl⟩⟩⟩
  · have := congrArg List.length g1
    simp at this
    omega
  · rw [g4]
    exact ⟨rfl, Or.inr ⟨bs, g1, Or.inr ⟨body, pk, g2, g3, rfl⟩⟩⟩

/-- A header that announces attachments. -/
theorem header_pending {cfg : RCfg} {st : RState} {reg : Callbacks} {p : Pkt} {vs : List Str} {n : Nat}
    (hw : p.Wf) (hl : p.Longest) (hf : p.Fits) (ha : p.ArgTexts vs) (hk : p.kind ∈ ['5', '6'])
    (hn : p.att = some n) (h0 : 0 < n) (hd : st.decoder ≠ .closed) (hi : st.inProgress = none) :
    Pending (processWs cfg st reg (textMessage p)).st p vs n [] ∧
    (processWs cfg st reg (textMessage p)).st.decoder = st.decoder ∧
    (processWs cfg st reg (textMessage p)).reg = reg ∧ (processWs cfg st reg (textMessage p)).effs = [] ∧
    (processWs cfg st reg (textMessage p)).res = .ok () := by
  have hpl : HasPayload (.text (OwnedSubslice.new ('4' :: p.text) 1 (blen ('4' :: p.text)))) (.text p.text) :=
    deref_text p.text
  have e : processWs cfg st reg (textMessage p) =
      processEngineMessage cfg st reg (.text (OwnedSubslice.new ('4' :: p.text) 1 (blen ('4' :: p.text)))) := by
    simp [textMessage, processWs, processMessage, decode, hd, decodeText]
  rw [e]
  generalize EMsg.text (OwnedSubslice.new ('4' :: p.text) 1 (blen ('4' :: p.text))) = m at hpl
  have ho := deserialize_text_eq hpl
  have uniq : ∀ p' : Pkt, p'.Wf → p'.text = p.text → p'.Longest → p' = p :=
    fun p' h1 h2 h3 => Pkt.longest_unique h1 hw h2 h3 hl
  have hq : ∃ q, deserialize m = .ok (.dataNeeded q) ∧ Parsed q p vs := by
    generalize deserialize m = r at ho
    cases ho with
    | bad h => exact absurd rfl (h p hw)
    | overflow p' h1 h2 h3 h4 => rw [uniq p' h1 h2 h3] at h4; exact absurd hf h4
    | json p' g h1 h2 h3 h4 h5 h6 =>
      rw [uniq p' h1 h2 h3] at h5
      unfold Pkt.ArgTexts at ha
      rw [h5] at ha
      exact absurd ⟨vs, ha⟩ h6
    | extra p' vs' h1 h2 h3 h4 h5 h6 => rw [uniq p' h1 h2 h3] at h6; simp at hk h6; rcases hk with hk | hk <;> simp [hk] at h6
    | missing p' vs' h1 h2 h3 h4 h5 h6 h7 h8 =>
      rw [uniq p' h1 h2 h3] at h8
      have := h8 hk
      rw [hn] at this
      simp at this
      omega
    | count p' vs' k h1 h2 h3 h4 h5 h6 => rw [uniq p' h1 h2 h3] at h6; simp at hk h6; rcases hk with hk | hk <;> simp [hk] at h6
    | packet p' vs' body pk h1 h2 h3 h4 h5 h6 =>
      rw [uniq p' h1 h2 h3] at h6
      cases h6 with
      | connect _ h => rw [hn] at h; simp at h
      | disconnect _ h => rw [hn] at h; simp at h
      | event _ _ h => rw [hn] at h; simp at h; omega
      | ack _ _ _ _ h => rw [hn] at h; simp at h; omega
    | needed p' vs' k q h1 h2 h3 h4 h5 =>
      obtain ⟨rfl, rfl⟩ := sent_is_read hw h5.wf h1 h5.longest ha h5.args
      exact ⟨q, rfl, h5⟩
  obtain ⟨q, hq, hpq⟩ := hq
  have e2 : processEngineMessage cfg st reg m = ⟨{ st with inProgress := some ⟨q, []⟩ }, reg, [], .ok ()⟩ := by
    unfold processEngineMessage
    rw [hi]
    simp only [hq]
  rw [e2]
  exact ⟨⟨⟨q, [], rfl, hpq, .nil⟩, hk, hn, h0⟩, rfl, rfl, rfl, rfl⟩

/-- The messages after the header, fewer engine messages than announced. -/
theorem pending_run {cfg : RCfg} {p : Pkt} {vs : List Str} {n : Nat} (l : List (Callbacks × Ws)) :
    ∀ {st : RState} {got : List Payload}, Pending st p vs n got → (∀ o ∈ outs cfg st l, o.res = .ok ()) →
      got.length + (payloads l).length < n →
      Pending (after cfg st l) p vs n (got ++ payloads l) ∧
      (∀ (i : Nat) (r : Callbacks × Ws) (o : ROut), l[i]? = some r → (outs cfg st l)[i]? = some o →
        o.reg = r.1 ∧ ∀ e ∈ o.effs, ¬ RunsCallback e) := by
  induction l with
  | nil => intro st got h _ _; simpa [after, payloads, outs] using h
  | cons x l ih =>
    intro st got h hok hl
    obtain ⟨reg, w⟩ := x
    simp only [outs, List.mem_cons, forall_eq_or_imp] at hok
    simp only [after, outs]
    cases hp : payload? w with
    | none =>
      obtain ⟨h1, h2, h3⟩ := processWs_other cfg st reg hp
      have hpay : payloads ((reg, w) :: l) = payloads l := by simp [payloads, hp]
      rw [hpay] at hl ⊢
      have hpend : Pending (processWs cfg st reg w).st p vs n got :=
        ⟨by obtain ⟨q, ms, g1, g2⟩ := h.ip; exact ⟨q, ms, by rw [h1, g1], g2⟩, h.kind, h.att, h.lt⟩
      obtain ⟨g1, g2⟩ := ih hpend hok.2 hl
      refine ⟨g1, ?_⟩
      intro i r o hi ho
      cases i with
      | zero => simp at hi ho; subst hi; subst ho; exact ⟨h2, h3⟩
      | succ i => exact g2 i r o (by simpa using hi) (by simpa using ho)
    | some pl =>
      have hpay : payloads ((reg, w) :: l) = pl :: payloads l := by simp [payloads, hp]
      rw [hpay] at hl ⊢
      rcases processWs_payload cfg st reg hp with ⟨m, h1, h2, h3⟩ | ⟨_, e, h3⟩
      · rw [h3]
        have hlen : got.length + 1 < n := by simp at hl; omega
        obtain ⟨g1, g2, g3, g4⟩ := pending_more (cfg := cfg) (reg := reg) h h1 hlen
        rw [h3] at hok
        obtain ⟨k1, k2⟩ := ih g1 hok.2 (by simp at hl ⊢; omega)
        refine ⟨by simpa using k1, ?_⟩
        intro i r o hi ho
        cases i with
        | zero => simp at hi ho; subst hi; subst ho; exact ⟨g2, by simp [g3]⟩
        | succ i => exact k2 i r o (by simpa using hi) (by simpa using ho)
      · have := hok.1
        rw [h3] at this
        simp at this

/-! ### Histories -/

theorem after_append (cfg : RCfg) (a b : List (Callbacks × Ws)) :
    ∀ st, after cfg st (a ++ b) = after cfg (after cfg st a) b := by
  induction a with
  | nil => intro st; rfl
  | cons x a ih => intro st; exact ih _

theorem payloads_append (a b : List (Callbacks × Ws)) : payloads (a ++ b) = payloads a ++ payloads b := by
  simp [payloads]

theorem outs_append (cfg : RCfg) (a b : List (Callbacks × Ws)) :
    ∀ st, outs cfg st (a ++ b) = outs cfg st a ++ outs cfg (after cfg st a) b := by
  induction a with
  | nil => intro st; rfl
  | cons x a ih => intro st; simp [outs, after, ih]

theorem payloads_unique {ms : List EMsg} {a b : List Payload} (ha : Payloads ms a) (hb : Payloads ms b) : a = b := by
  induction ha generalizing b with
  | nil => cases hb; rfl
  | cons h1 _ ih =>
    cases hb with
    | cons g1 g2 => rw [hasPayload_unique h1 g1, ih g2]

theorem inv_after (cfg : RCfg) (l : List (Callbacks × Ws)) :
    ∀ {st : RState}, RInv st → OInv st → RInv (after cfg st l) ∧ OInv (after cfg st l) := by
  induction l with
  | nil => intro st h1 h2; exact ⟨h1, h2⟩
  | cons x l ih => intro st h1 h2; exact ih (rinv_step h1) (oinv_step h1 h2)

/-- Which engine messages a pending packet consists of. -/
def HInv (hist : List Payload) (st : RState) : Prop :=
  ∀ ip, st.inProgress = some ip →
    ∃ (pre : List Payload) (s : Str) (m : EMsg) (got : List Payload), hist = pre ++ .text s :: got ∧
      Received m ∧ HasPayload m (.text s) ∧ deserialize m = .ok (.dataNeeded ip.part) ∧
      (∀ x ∈ ip.attachments, Received x) ∧ Payloads ip.attachments got

theorem hinv_message {cfg : RCfg} {st : RState} {reg : Callbacks} {m : EMsg} {pl : Payload} {hist : List Payload}
    (hi : HInv hist st) (hr : Received m) (hp : HasPayload m pl) :
    HInv (hist ++ [pl]) (processEngineMessage cfg st reg m).st ∧
    ((processEngineMessage cfg st reg m).effs = [] ∨
      ∃ pre s pls ms pk, hist ++ [pl] = pre ++ Payload.text s :: pls ∧ Payloads ms pls ∧ Decoded s ms pk ∧
        ((processEngineMessage cfg st reg m).reg, (processEngineMessage cfg st reg m).effs,
          (processEngineMessage cfg st reg m).res) = processPacket cfg reg pk) := by
  unfold processEngineMessage
  cases hip : st.inProgress with
  | some ip =>
    obtain ⟨pre, s, m0, got, h0, h1, h2, h3, h4, h5⟩ := hi ip hip
    have hall : ∀ x ∈ ip.attachments ++ [m], Received x := by
      intro x hx
      rcases List.mem_append.1 hx with hx | hx
      · exact h4 x hx
      · simp at hx; subst hx; exact hr
    simp only
    cases partialAttachments ip.part with
    | panic => exact ⟨by intro _ h; simp at h, Or.inl rfl⟩
    | err e => exact e.elim
    | ok n =>
      simp only
      split
      · cases hd : deserializePartial ip.part (ip.attachments ++ [m]) with
        | panic => exact ⟨by intro _ h; simp at h, Or.inl rfl⟩
        | err e => exact ⟨by intro _ h; simp at h, Or.inl rfl⟩
        | ok pk =>
          refine ⟨by intro _ h; simp at h, Or.inr ⟨pre, s, got ++ [pl], _, pk, by rw [h0]; simp,
            payloads_snoc h5 hp, .withAttachments m0 ip.part h1 h2 h3 hall hd, rfl⟩⟩
      · refine ⟨?_, Or.inl rfl⟩
        intro ip' h
        simp only [Option.some.injEq] at h
        subst h
        exact ⟨pre, s, m0, got ++ [pl], by rw [h0]; simp, h1, h2, h3, hall, payloads_snoc h5 hp⟩
  | none =>
    have hinv : HInv (hist ++ [pl]) st := by intro ip h; rw [hip] at h; simp at h
    simp only
    cases hd : deserialize m with
    | panic => exact ⟨hinv, Or.inl rfl⟩
    | err e => exact ⟨hinv, Or.inl rfl⟩
    | ok r =>
      cases pl with
      | binary b => rw [deserialize_binary_eq hp] at hd; simp at hd
      | text s =>
        cases r with
        | packet pk =>
          exact ⟨hinv, Or.inr ⟨hist, s, [], [], pk, rfl, .nil, .alone m hr hp rfl hd, rfl⟩⟩
        | dataNeeded q =>
          refine ⟨?_, Or.inl rfl⟩
          intro ip' h
          simp only [Option.some.injEq] at h
          subst h
          exact ⟨hist, s, m, [], rfl, hr, hp, hd, by simp, .nil⟩

theorem hinv_step {cfg : RCfg} {st : RState} {reg : Callbacks} {w : Ws} {hist : List Payload}
    (hi : HInv hist st) (hok : (processWs cfg st reg w).res = .ok ()) :
    HInv (hist ++ (payload? w).toList) (processWs cfg st reg w).st := by
  cases hp : payload? w with
  | none =>
    simp only [Option.toList_none, List.append_nil]
    intro ip h
    rw [(processWs_other cfg st reg hp).1] at h
    exact hi ip h
  | some pl =>
    rcases processWs_payload cfg st reg hp with ⟨m, h1, h2, h3⟩ | ⟨_, e, h3⟩
    · rw [h3]
      exact (hinv_message hi h2 h1).1
    · rw [h3] at hok
      simp at hok

theorem hinv_after (cfg : RCfg) (l : List (Callbacks × Ws)) :
    ∀ {st : RState} {hist : List Payload}, HInv hist st → (∀ o ∈ outs cfg st l, o.res = .ok ()) →
      HInv (hist ++ payloads l) (after cfg st l) := by
  induction l with
  | nil => intro st hist h _; simpa [payloads, after] using h
  | cons x l ih =>
    intro st hist h hok
    simp only [outs, List.mem_cons, forall_eq_or_imp] at hok
    have := ih (hinv_step h hok.1) hok.2
    have e : hist ++ (payload? x.2).toList ++ payloads l = hist ++ payloads (x :: l) := by
      unfold payloads
      cases hx : payload? x.2 <;> simp [hx]
    rw [e] at this
    exact this

theorem hinv_new : HInv [] RState.new := by intro ip h; simp [RState.new] at h

/-- A callback that runs gets a packet made of the last engine messages. -/
theorem callback_source {cfg : RCfg} {l : List (Callbacks × Ws)} {reg : Callbacks} {w : Ws} {e : Eff}
    (hok : ∀ o ∈ outs cfg RState.new l, o.res = .ok ())
    (he : e ∈ (processWs cfg (after cfg RState.new l) reg w).effs) (hc : RunsCallback e) :
    ∃ (pre : List Payload) (p : Pkt) (vs : List Str) (bs : List Bytes) (body : Body) (pk : Packet),
      payloads (l ++ [(reg, w)]) = pre ++ .text p.text :: bs.map .binary ∧
      p.Wf ∧ p.Longest ∧ p.Fits ∧ p.ArgTexts vs ∧ p.Means vs bs body ∧ Shows pk (p.ns.getD ['/']) body ∧
      e ∈ (processPacket cfg reg pk).2.1 := by
  have hi := hinv_after cfg l hinv_new hok
  rw [List.nil_append] at hi
  cases hp : payload? w with
  | none => exact absurd hc ((processWs_other cfg _ reg hp).2.2 e he)
  | some pl =>
    rcases processWs_payload cfg (after cfg RState.new l) reg hp with ⟨m, h1, h2, h3⟩ | ⟨_, x, h3⟩
    · rw [h3] at he
      rcases (hinv_message (cfg := cfg) (reg := reg) hi h2 h1).2 with h4 | ⟨pre, s, pls, ms, pk, h4, h5, h6, h7⟩
      · rw [h4] at he; simp at he
      · obtain ⟨p, vs, bs, body, g1, g2, g3, g4, g5, g6, g7, g8⟩ := decoded_means h6
        refine ⟨pre, p, vs, bs, body, pk, ?_, g1, g3, g4, g5, g7, g8, ?_⟩
        · rw [g2, ← payloads_unique h5 g6, payloads_append, ← h4]
          simp [payloads, hp]
        · rw [← h7]
          exact he
    · rw [h3] at he
      simp at he

end SIO
