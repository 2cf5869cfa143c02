import Verif.Lemmas.Receiver
/-
C18, C31, C40, C42, C43: the receiver.
-/
namespace SIO
open Spec

/-! ### C18 -/

/-- C18, the header: a binary header that announces `n > 0` attachments is accepted, nothing is
delivered. -/
theorem C18_header (cfg : RCfg) (st : RState) (reg : Callbacks) (p : Pkt) (vs : List Str) (n : Nat)
    (hw : p.Wf) (hl : p.Longest) (hf : p.Fits) (ha : p.ArgTexts vs) (hk : p.kind ∈ ['5', '6'])
    (hn : p.att = some n) (h0 : 0 < n) (hd : st.decoder ≠ .closed) (hi : st.inProgress = none) :
    (processWs cfg st reg (textMessage p)).res = .ok () ∧ (processWs cfg st reg (textMessage p)).reg = reg ∧
    (processWs cfg st reg (textMessage p)).effs = [] :=
  have h := header_pending (cfg := cfg) (reg := reg) hw hl hf ha hk hn h0 hd hi
  ⟨h.2.2.2.2, h.2.2.1, h.2.2.2.1⟩

/-- C18, before the n-th engine message: whatever is received meanwhile (and is no error), no
callback runs and no callback is added or removed by the receiver. -/
theorem C18_wait (cfg : RCfg) (st : RState) (reg : Callbacks) (p : Pkt) (vs : List Str) (n : Nat)
    (hw : p.Wf) (hl : p.Longest) (hf : p.Fits) (ha : p.ArgTexts vs) (hk : p.kind ∈ ['5', '6'])
    (hn : p.att = some n) (hd : st.decoder ≠ .closed) (hi : st.inProgress = none)
    (l : List (Callbacks × Ws)) (hlen : (payloads l).length < n)
    (hok : ∀ o ∈ outs cfg (processWs cfg st reg (textMessage p)).st l, o.res = .ok ()) :
    ∀ (i : Nat) (r : Callbacks × Ws) (o : ROut), l[i]? = some r →
      (outs cfg (processWs cfg st reg (textMessage p)).st l)[i]? = some o →
      o.reg = r.1 ∧ ∀ e ∈ o.effs, ¬ RunsCallback e :=
  have h := header_pending (cfg := cfg) (reg := reg) hw hl hf ha hk hn (by omega) hd hi
  (pending_run l h.1 hok (by simpa using hlen)).2

/-- C18, the n-th engine message: if one of the `n` messages is a text the packet is rejected;
otherwise they are its attachments, in order of arrival, and the packet with these attachments is
processed (or rejected for missing arguments or a missing ack id). -/
theorem C18_complete (cfg : RCfg) (st : RState) (reg : Callbacks) (p : Pkt) (vs : List Str) (n : Nat)
    (hw : p.Wf) (hl : p.Longest) (hf : p.Fits) (ha : p.ArgTexts vs) (hk : p.kind ∈ ['5', '6'])
    (hn : p.att = some n) (hd : st.decoder ≠ .closed) (hi : st.inProgress = none)
    (l : List (Callbacks × Ws)) (hlen : (payloads l).length + 1 = n)
    (hok : ∀ o ∈ outs cfg (processWs cfg st reg (textMessage p)).st l, o.res = .ok ())
    (reg' : Callbacks) (w : Ws) (pl : Payload) (hpl : payload? w = some pl)
    (hact : (after cfg (processWs cfg st reg (textMessage p)).st l).decoder = .active)
    (o : ROut) (ho : o = processWs cfg (after cfg (processWs cfg st reg (textMessage p)).st l) reg' w) :
    o.st.inProgress = none ∧
    ((∃ (pre : List Bytes) (t : Str) (post : List Payload),
        payloads l ++ [pl] = (pre.map Payload.binary) ++ Payload.text t :: post ∧
        o.reg = reg' ∧ o.effs = [] ∧ o.res = .err (.socket (.textAttachment t))) ∨
     (∃ bs : List Bytes, payloads l ++ [pl] = bs.map Payload.binary ∧
      (((vs = [] ∨ (p.kind = '6' ∧ p.id = none)) ∧
        o.reg = reg' ∧ o.effs = [] ∧ o.res = .err (.socket (.missingData (typeName p.kind) p.text))) ∨
       (∃ body pk, p.Means vs bs body ∧ Shows pk (p.ns.getD ['/']) body ∧
         (o.reg, o.effs, o.res) = processPacket cfg reg' pk)))) := by
  have h := header_pending (cfg := cfg) (reg := reg) hw hl hf ha hk hn (by omega) hd hi
  have h2 := (pending_run l h.1 hok (by simp; omega)).1
  rw [List.nil_append] at h2
  rcases processWs_payload cfg (after cfg (processWs cfg st reg (textMessage p)).st l) reg' hpl with
    ⟨m, h3, _, h4⟩ | ⟨h3, _⟩
  · rw [ho, h4]
    have h5 := pending_last (cfg := cfg) (reg := reg') h2 h3 hlen
    exact ⟨by rw [h5.1], h5.2⟩
  · exact absurd hact h3

/-- C18, in between: pings, pongs and websocket control frames are accepted on an open connection
and leave the receiver (in particular a pending packet) and the registry as they are. -/
theorem C18_quiet (cfg : RCfg) (st : RState) (reg : Callbacks) (w : Ws) (hq : Quiet w) (hd : st.decoder = .active) :
    (processWs cfg st reg w).res = .ok () ∧ (processWs cfg st reg w).st = st ∧
    (processWs cfg st reg w).reg = reg ∧ ∀ e ∈ (processWs cfg st reg w).effs, ¬ RunsCallback e := by
  obtain ⟨dec, ip, tx⟩ := st
  simp only at hd
  subst hd
  unfold Quiet at hq
  split at hq
  · simp [processWs]
  · simp [processWs]
  · simp [processWs]
  · simp [processWs, processMessage, decode, decodeText, RunsCallback]
  · simp [processWs, processMessage, decode, decodeText]
  · exact hq.elim

/-- The receiver after an open packet. -/
def openState : RState := ⟨.active, none, false⟩

/-- A configuration for examples. -/
def exCfg : RCfg := ⟨⟨fun _ => true, fun s => s.map fun _ => 120⟩, false⟩

/-- What is visible of an effect in the examples below. -/
inductive Brief where
  | event (ns name : Str) (cb : Cb) (len : Nat) (ack : Option AckHandle)
  | ack (ns : Str) (id : Nat) (cb : Cb) (len : Nat)
  | other
deriving DecidableEq

def brief : Eff → Brief
  | .event ns name cb args h => .event ns name cb args.len h
  | .ack ns id cb args => .ack ns id cb args.len
  | _ => .other

/-- A registry with an event callback. -/
def exReg : Callbacks := registry [.setEvent ['/'] ['a'] 1, .setAck ['/'] 7 2]

-- non-vacuity: two attachments, a ping and a control frame in between; the packet is delivered
-- with the second attachment
example : (outs exCfg openState [(exReg, .text "452-[\"a\",{\"_placeholder\":true,\"num\":0}]".toList),
      (exReg, .text ['2']), (exReg, .binary [4, 7]), (exReg, .ping [1]), (exReg, .binary [4, 9])]).map
        (fun o => (o.effs.map brief, o.st.inProgress.isSome)) =
    [([], true), ([.other], true), ([], true), ([], true), ([.event ['/'] ['a'] 1 2 none], false)] := by
  decide +kernel

-- non-vacuity: a text among the attachments
example : ((outs exCfg openState [(exReg, .text "452-[\"a\"]".toList),
      (exReg, .text ['4', 'x']), (exReg, .binary [4, 9])]).map
        fun o => match o.res with | .err (.socket (.textAttachment t)) => some t | _ => none) =
    [none, none, some ['x']] := by
  decide +kernel

/-! ### C31 -/

/-- C31: in the active state a ping enqueues exactly one pong and changes nothing: neither the
registry nor the receiver with its pending packet. -/
theorem C31_ping (cfg : RCfg) (st : RState) (reg : Callbacks) (r : Str) (hd : st.decoder = .active) :
    processWs cfg st reg (.text ('2' :: r)) = ⟨st, reg, [.enqueue [.text ['3']]], .ok ()⟩ := by
  obtain ⟨dec, ip, tx⟩ := st
  simp only at hd
  subst hd
  simp [processWs, processMessage, decode, decodeText, encodePong]

/-- C31: whatever the receiver enqueues is one pong for a ping received in the active state. -/
theorem C31_only (cfg : RCfg) (st : RState) (reg : Callbacks) (w : Ws) :
    enqueued (processWs cfg st reg w).effs = [] ∨
    (IsPing w ∧ st.decoder = .active ∧ enqueued (processWs cfg st reg w).effs = [[.text ['3']]]) := by
  by_cases hp : IsPing w
  · obtain ⟨r, rfl⟩ := hp
    cases hd : st.decoder with
    | active => right; exact ⟨⟨r, rfl⟩, rfl, by rw [C31_ping cfg st reg r hd]; rfl⟩
    | initial => left; simp [processWs, processMessage, decode, decodeText, hd, enqueued]
    | closed => left; simp [processWs, processMessage, decode, hd, enqueued]
  · left
    have h := processWs_shape cfg st reg w
    generalize hx : ((processWs cfg st reg w).reg, (processWs cfg st reg w).effs, (processWs cfg st reg w).res) = x at h
    have he : (processWs cfg st reg w).effs = x.2.1 := by rw [← hx]
    rw [he]
    cases h with
    | packet x hx => cases hx <;> rfl
    | opened => rfl
    | secondOpen => rfl
    | ping h => exact absurd h hp

-- non-vacuity: a ping while an attachment is missing
example : let st : RState := (processWs exCfg openState exReg (.text "451-[\"a\"]".toList)).st
    st.inProgress ≠ none ∧ st.decoder = .active ∧
      enqueued (processWs exCfg st exReg (.text ['2'])).effs = [[.text ['3']]] := by
  decide +kernel

/-! ### C40 -/

/-- C40, invalid events: an event whose first argument is no name runs no callback, changes
nothing and is an error.  Missing for the full claim: with info logging on the receiver panics
instead if the packet cannot be formatted (`C40_counterexample`). -/
theorem C40_invalid_partial (cfg : RCfg) (reg : Callbacks) (s : Str) (ms : List EMsg) (pk : Packet)
    (h : Decoded s ms pk) (ns v : Str) (vs : List Str) (bs : List Bytes) (id : Option Nat)
    (hs : Shows pk ns (.event id (v :: vs) bs)) (hn : ∀ name, ¬ NameOf v bs name) :
    (cfg.logInfo = true ∧ pk.display cfg.ext.fin = .panic ∧ processPacket cfg reg pk = (reg, [], .panic)) ∨
    processPacket cfg reg pk = (reg, [], .err (.args (.jsonDeError v))) := by
  obtain ⟨h1, A, h2, h3⟩ := hs
  obtain ⟨vs', bs', hv, hs', _⟩ := decoded_args h (Or.inl ⟨id, h2⟩)
  have hvs : v ∈ vs' := by
    have e1 := h3.get 0
    rw [hs'.get 0] at e1
    cases vs' with
    | nil => simp at e1
    | cons a b => simp at e1; simp [e1]
  obtain ⟨t, ht⟩ := hv v hvs
  by_cases hl : LogPanics cfg pk
  · exact Or.inl ⟨hl.1, hl.2, processPacket_log hl⟩
  · rcases processPacket_event (reg := reg) hl h1 h2 h3 ht with ⟨name, g, _⟩ | ⟨_, g⟩
    · exact absurd g (hn name)
    · exact Or.inr g

/-- C40, unhandled events: a named event for which no callback is in charge is ignored: nothing
is enqueued, no callback runs, the registry is as before, the connection goes on.  (With info
logging on, provided that the packet can be formatted.) -/
theorem C40_unhandled_partial (cfg : RCfg) (reg : Callbacks) (s : Str) (ms : List EMsg) (pk : Packet)
    (h : Decoded s ms pk) (ns v name : Str) (vs : List Str) (bs : List Bytes) (id : Option Nat)
    (hs : Shows pk ns (.event id (v :: vs) bs)) (hn : NameOf v bs name) (hr : reg.getEvent ns name = none)
    (hl : cfg.logInfo = true → pk.display cfg.ext.fin ≠ .panic) :
    processPacket cfg reg pk = (reg, [], .ok ()) := by
  obtain ⟨h1, A, h2, h3⟩ := hs
  obtain ⟨vs', bs', hv, hs', _⟩ := decoded_args h (Or.inl ⟨id, h2⟩)
  have hvs : v ∈ vs' := by
    have e1 := h3.get 0
    rw [hs'.get 0] at e1
    cases vs' with
    | nil => simp at e1
    | cons a b => simp at e1; simp [e1]
  obtain ⟨t, ht⟩ := hv v hvs
  have hl' : ¬ LogPanics cfg pk := fun hx => hl hx.1 hx.2
  rcases processPacket_event (reg := reg) hl' h1 h2 h3 ht with ⟨name', g, g'⟩ | ⟨g, _⟩
  · rw [nameOf_unique g hn, hr] at g'
    exact g'
  · exact absurd hn (g name)

/-- The packet is an event with one argument that is no string, and cannot be formatted. -/
def namelessPanics (pk : Packet) : Bool :=
  match pk.namespace_, pk.data with
  | .ok _, .ok (.event none A) =>
    decide (pk.display exCfg.ext.fin = .panic) && decide (A.len = 1) &&
    match A.get 0 with
    | .ok (some a) =>
      match a.deserialize exCfg.ext .str with
      | .err _ => true
      | _ => false
    | _ => false
  | _, _ => false

/-- C40 is false if info logging is on: an event without a name whose placeholder designates no
attachment makes the receiver panic instead of ending with an error. -/
theorem C40_counterexample : ∃ (cfg : RCfg) (s : Str) (ms : List EMsg) (pk : Packet) (ns v : Str) (bs : List Bytes),
    Decoded s ms pk ∧ Shows pk ns (.event none [v] bs) ∧ (∀ name, ¬ NameOf v bs name) ∧
    ∀ reg, processPacket cfg reg pk = (reg, [], .panic) := by
  obtain ⟨pk, hd, hf⟩ := Res.okWith_spec (r := decodeAll "51-[{\"_placeholder\":true,\"num\":5}]".toList [[7, 9]])
    (f := namelessPanics) (by decide +kernel)
  have hdec := decodeAll_decoded hd
  unfold namelessPanics at hf
  split at hf
  · rename_i ns A h1 h2
    simp only [Bool.and_eq_true, decide_eq_true_eq] at hf
    obtain ⟨⟨hp, hlen⟩, hf⟩ := hf
    obtain ⟨vs, bs, hv, hs, _⟩ := decoded_args hdec (Or.inl ⟨none, h2⟩)
    rw [hs.len] at hlen
    obtain ⟨v, rfl⟩ := List.length_eq_one_iff.1 hlen
    rw [hs.get 0] at hf
    simp only [List.getElem?_cons_zero, Option.map_some] at hf
    obtain ⟨t, ht⟩ := hv v (by simp)
    refine ⟨⟨exCfg.ext, true⟩, _, _, pk, ns, v, bs, hdec, ⟨h1, A, h2, hs⟩, ?_, fun reg => processPacket_log ⟨rfl, hp⟩⟩
    rcases deserialize_str (x := exCfg.ext) (a := ⟨v, A.attachments⟩) ht hs.atts with ⟨name, hn, he⟩ | ⟨hn, he⟩
    · rw [he] at hf; simp at hf
    · exact hn
  · simp at hf

-- non-vacuity of the two partial theorems: an event without a name, and one without a callback
example : ((outs exCfg openState [(exReg, .text "42[1]".toList)]).map fun o => (o.effs, match o.res with
      | .err (.args (.jsonDeError v)) => some v | _ => none)) = [([], some ['1'])] := by
  decide +kernel
example : ((outs exCfg openState [(exReg, .text "42[\"b\"]".toList)]).map fun o => (o.effs, o.st, match o.res with
      | .ok () => true | _ => false)) = [([], openState, true)] := by
  decide +kernel

/-! ### C42 -/

theorem decode_open_iff (st : EState) (w : Ws) (x : Open) :
    (decode st w).2 = .ok (.opened x) ↔ st = .initial ∧ ∃ t, w = .text ('0' :: t) ∧ parseOpen t = .ok x := by
  constructor
  · intro h
    have hst : st = .initial := by
      rcases decode_state st w with ⟨_, _, h1, _⟩ | ⟨h1, _⟩ | ⟨h1, _⟩
      · exact h1
      · rw [h1] at h; simp at h
      · exact absurd h (h1 x)
    refine ⟨hst, ?_⟩
    subst hst
    unfold decode at h
    rw [if_neg (by simp)] at h
    cases w with
    | ping b => simp at h
    | pong b => simp at h
    | close => simp at h
    | binary b => simp [decodeBinary] at h
    | text t =>
      simp only [decodeText] at h
      cases t with
      | nil => simp at h
      | cons c r =>
        simp only at h
        split at h
        · rename_i hc
          subst hc
          cases hp : parseOpen r with
          | ok o => rw [hp] at h; simp at h; subst h; exact ⟨r, rfl, hp⟩
          | err e => rw [hp] at h; simp at h
          | panic => rw [hp] at h; simp at h
        · split at h
          · simp at h
          · split at h
            · simp at h
            · split at h
              · simp at h
              · split at h <;> simp at h
  · rintro ⟨rfl, t, rfl, hp⟩
    simp [decode, decodeText, hp]

theorem decoder_initial (cfg : RCfg) {st : RState} (reg : Callbacks) (w : Ws) (hi : RInv st) :
    (processWs cfg st reg w).st.decoder = .initial ↔ st.decoder = .initial ∧ ¬ IsOpen w := by
  have h := processWs_out cfg st reg w
  constructor
  · intro hd
    have hst : st.decoder = .initial := by
      generalize processWs cfg st reg w = o at h hd
      cases h with
      | quiet _ _ _ _ h1 =>
        rcases h1 with h1 | ⟨_, h1⟩
        · rw [← h1, hd]
        · rw [h1] at hd; simp at hd
      | opened x _ _ _ _ _ _ h1 _ => rw [h1] at hd; simp at hd
      | ping _ h1 _ _ _ => rw [← h1, hd]
      | message m h1 h2 =>
        rw [← (processEngineMessage_out (cfg := cfg) (reg := reg) hi ⟨_, _, _, h1⟩).2.1, ← h2, hd]
    refine ⟨hst, ?_⟩
    rintro ⟨t, x, rfl, hp⟩
    have h1 := (decode_open_iff st.decoder (.text ('0' :: t)) x).2 ⟨hst, t, rfl, hp⟩
    have h2 : (decode st.decoder (.text ('0' :: t))).1 = .active := by
      rw [hst]; simp [decode, decodeText, hp]
    simp only [processWs, processMessage, h1, h2] at hd
    split at hd <;> simp at hd
  · rintro ⟨h1, h2⟩
    generalize processWs cfg st reg w = o at h ⊢
    cases h with
    | quiet _ _ _ _ h3 =>
      rcases h3 with h3 | ⟨h3, _⟩
      · rw [h3, h1]
      · rw [h1] at h3; simp at h3
    | opened x _ _ _ h3 _ _ _ _ =>
      obtain ⟨_, t, h4, h5⟩ := (decode_open_iff _ _ _).1 h3
      exact absurd ⟨t, x, h4, h5⟩ h2
    | ping _ h3 _ _ _ => rw [h3, h1]
    | message m h3 h4 => rw [h4, (processEngineMessage_out (cfg := cfg) (reg := reg) hi ⟨_, _, _, h3⟩).2.1, h1]

theorem after_initial (cfg : RCfg) (l : List (Callbacks × Ws)) :
    ∀ {st : RState}, RInv st →
      ((after cfg st l).decoder = .initial ↔ st.decoder = .initial ∧ ∀ r ∈ l, ¬ IsOpen r.2) := by
  induction l with
  | nil => intro st _; simp [after]
  | cons x l ih =>
    intro st hi
    rw [after, ih (rinv_step hi), decoder_initial cfg x.1 x.2 hi]
    simp [and_assoc]

/-- C42: the open information is signalled for the first readable open packet of a connection
and for no other message, and it is that of this packet. -/
theorem C42_open (cfg : RCfg) (l : List (Callbacks × Ws)) (reg : Callbacks) (w : Ws) (x : Open) :
    .opened x ∈ (processWs cfg (after cfg RState.new l) reg w).effs ↔
      (∃ t, w = .text ('0' :: t) ∧ parseOpen t = .ok x) ∧ ∀ r ∈ l, ¬ IsOpen r.2 := by
  obtain ⟨h1, h2⟩ := inv_after cfg l rinv_new oinv_new
  have hini := after_initial cfg l rinv_new
  have h := processWs_out cfg (after cfg RState.new l) reg w
  have hnew : RState.new.decoder = .initial := rfl
  rw [hnew] at hini
  simp only [true_and] at hini
  rw [← hini]
  generalize hst : after cfg RState.new l = st at *
  constructor
  · intro he
    generalize processWs cfg st reg w = o at h he
    cases h with
    | quiet _ _ _ h3 _ => rw [h3] at he; simp at he
    | opened y h3 _ _ h4 h5 _ _ _ =>
      rcases h5 with ⟨_, h5⟩ | ⟨_, h5⟩
      · rw [h5] at he
        simp at he
        subst he
        exact ⟨((decode_open_iff _ _ _).1 h4).2, h3⟩
      · rw [h5] at he; simp at he
    | ping _ _ _ h3 _ => rw [h3] at he; simp at he
    | message m _ h4 =>
      have h5 := processEngineMessage_shape cfg st reg m
      rw [h4] at he
      generalize hx : ((processEngineMessage cfg st reg m).reg, (processEngineMessage cfg st reg m).effs,
        (processEngineMessage cfg st reg m).res) = z at h5
      have h6 : (processEngineMessage cfg st reg m).effs = z.2.1 := by rw [← hx]
      rw [h6] at he
      cases h5 <;> simp at he
  · rintro ⟨⟨t, rfl, hp⟩, hd⟩
    have h3 := (decode_open_iff st.decoder (.text ('0' :: t)) x).2 ⟨hd, t, rfl, hp⟩
    have h4 : st.openTx = true := h2.2 hd
    simp [processWs, processMessage, h3, h4]

/-- C42: the second-open branch of the receiver is not reached, and a message signals at most one
open. -/
theorem C42_second (cfg : RCfg) (l : List (Callbacks × Ws)) (reg : Callbacks) (w : Ws) :
    (∀ x, .secondOpen x ∉ (processWs cfg (after cfg RState.new l) reg w).effs) ∧
    ∀ x, .opened x ∈ (processWs cfg (after cfg RState.new l) reg w).effs →
      (processWs cfg (after cfg RState.new l) reg w).effs = [.opened x] := by
  obtain ⟨h1, h2⟩ := inv_after cfg l rinv_new oinv_new
  generalize after cfg RState.new l = st at *
  have h := processWs_out cfg st reg w
  generalize processWs cfg st reg w = o at h
  cases h with
  | quiet _ _ _ h3 _ => rw [h3]; simp
  | opened y h3 _ _ h4 h5 _ _ _ =>
    rcases h5 with ⟨_, h5⟩ | ⟨h5, _⟩
    · rw [h5]
      simp
    · rw [h2.2 h3] at h5; simp at h5
  | ping _ _ _ h3 _ => rw [h3]; simp
  | message m _ h4 =>
    have h5 := processEngineMessage_shape cfg st reg m
    rw [h4]
    generalize hx : ((processEngineMessage cfg st reg m).reg, (processEngineMessage cfg st reg m).effs,
      (processEngineMessage cfg st reg m).res) = z at h5
    have h6 : (processEngineMessage cfg st reg m).effs = z.2.1 := by rw [← hx]
    rw [h6]
    cases h5 <;> simp

-- non-vacuity: the first open packet is signalled, the second is an error
example : (outs exCfg RState.new [(exReg, .text "0{\"sid\":\"s\",\"pingInterval\":1,\"pingTimeout\":2}".toList),
      (exReg, .text "0{\"sid\":\"t\",\"pingInterval\":1,\"pingTimeout\":2}".toList)]).map (·.effs) =
    [[.opened ⟨['s'], 2, 1⟩], []] := by
  decide +kernel

/-! ### C43 -/

/-- C43, events: the arguments and attachments given to a callback are those of the packet made of
the last engine messages, the event name is given by argument 0, and a reply handle is passed iff
the packet has an id.  (All earlier messages were processed without error, as otherwise the
connection has ended.) -/
theorem C43_event (cfg : RCfg) (l : List (Callbacks × Ws)) (hok : ∀ o ∈ outs cfg RState.new l, o.res = .ok ())
    (reg : Callbacks) (w : Ws) (ns name : Str) (cb : Cb) (A : Args) (ack : Option AckHandle)
    (he : .event ns name cb A ack ∈ (processWs cfg (after cfg RState.new l) reg w).effs) :
    ∃ (pre : List Payload) (p : Pkt) (v : Str) (vs : List Str) (bs : List Bytes),
      payloads (l ++ [(reg, w)]) = pre ++ .text p.text :: bs.map .binary ∧
      p.Wf ∧ p.Longest ∧ p.Fits ∧ p.ArgTexts (v :: vs) ∧ p.Means (v :: vs) bs (.event p.id (v :: vs) bs) ∧
      ns = p.ns.getD ['/'] ∧ ArgsShow A (v :: vs) bs ∧ NameOf v bs name ∧
      ack = p.id.map (fun i => ⟨ns, i⟩) ∧ reg.getEvent ns name = some cb := by
  obtain ⟨pre, p, vs, bs, body, pk, h1, h2, h3, h4, h5, h6, h7, h8⟩ := callback_source hok he trivial
  have hl : ¬ LogPanics cfg pk := by
    intro hl
    rw [processPacket_log hl] at h8
    simp at h8
  cases h6 with
  | connect => rw [processPacket_dataless hl (Or.inl h7)] at h8; simp at h8
  | disconnect => rw [processPacket_dataless hl (Or.inr h7)] at h8; simp at h8
  | ack i =>
    obtain ⟨g1, A', g2, g3⟩ := h7
    rw [processPacket_ack hl g1 g2] at h8
    split at h8 <;> simp at h8
  | event k1 k2 k3 =>
    obtain ⟨g1, A', g2, g3⟩ := h7
    cases vs with
    | nil => exact absurd rfl k2
    | cons v vs =>
      obtain ⟨t, ht⟩ := argTexts_isVal h5 v (by simp)
      rcases processPacket_event (reg := reg) hl g1 g2 g3 ht with ⟨name', j1, j2⟩ | ⟨_, j2⟩
      · rw [j2] at h8
        cases hg : reg.getEvent (p.ns.getD ['/']) name' with
        | none => rw [hg] at h8; simp at h8
        | some cb' =>
          rw [hg] at h8
          simp at h8
          obtain ⟨rfl, rfl, rfl, rfl, rfl⟩ := h8
          exact ⟨pre, p, v, vs, bs, h1, h2, h3, h4, h5, .event k1 k2 k3, rfl, g3, j1, rfl, hg⟩
      · rw [j2] at h8; simp at h8

/-- C43, acks: the arguments and attachments given to an ack callback are those of the ack packet
made of the last engine messages, and the callback is the one registered for its namespace and id. -/
theorem C43_ack (cfg : RCfg) (l : List (Callbacks × Ws)) (hok : ∀ o ∈ outs cfg RState.new l, o.res = .ok ())
    (reg : Callbacks) (w : Ws) (ns : Str) (id : Nat) (cb : Cb) (A : Args)
    (he : .ack ns id cb A ∈ (processWs cfg (after cfg RState.new l) reg w).effs) :
    ∃ (pre : List Payload) (p : Pkt) (vs : List Str) (bs : List Bytes),
      payloads (l ++ [(reg, w)]) = pre ++ .text p.text :: bs.map .binary ∧
      p.Wf ∧ p.Longest ∧ p.Fits ∧ p.ArgTexts vs ∧ p.Means vs bs (.ack id vs bs) ∧ ns = p.ns.getD ['/'] ∧
      ArgsShow A vs bs ∧ (reg.getAndClearAck ns id).1 = some cb := by
  obtain ⟨pre, p, vs, bs, body, pk, h1, h2, h3, h4, h5, h6, h7, h8⟩ := callback_source hok he trivial
  have hl : ¬ LogPanics cfg pk := by
    intro hl
    rw [processPacket_log hl] at h8
    simp at h8
  cases h6 with
  | connect => rw [processPacket_dataless hl (Or.inl h7)] at h8; simp at h8
  | disconnect => rw [processPacket_dataless hl (Or.inr h7)] at h8; simp at h8
  | ack i k1 k2 k3 k4 =>
    obtain ⟨g1, A', g2, g3⟩ := h7
    rw [processPacket_ack hl g1 g2] at h8
    cases hg : (reg.getAndClearAck (p.ns.getD ['/']) i).1 with
    | none => rw [hg] at h8; simp at h8
    | some cb' =>
      rw [hg] at h8
      simp at h8
      obtain ⟨rfl, rfl, rfl, rfl⟩ := h8
      exact ⟨pre, p, vs, bs, h1, h2, h3, h4, h5, .ack _ k1 k2 k3 k4, rfl, g3, hg⟩
  | event k1 k2 k3 =>
    obtain ⟨g1, A', g2, g3⟩ := h7
    cases vs with
    | nil => exact absurd rfl k2
    | cons v vs =>
      obtain ⟨t, ht⟩ := argTexts_isVal h5 v (by simp)
      rcases processPacket_event (reg := reg) hl g1 g2 g3 ht with ⟨name', j1, j2⟩ | ⟨_, j2⟩
      · rw [j2] at h8
        cases hg : reg.getEvent (p.ns.getD ['/']) name' with
        | none => rw [hg] at h8; simp at h8
        | some cb' => rw [hg] at h8; simp at h8
      · rw [j2] at h8; simp at h8

-- non-vacuity: an event with an id and an attachment, then an ack
example : (outs exCfg RState.new [(exReg, .text "0{\"sid\":\"s\",\"pingInterval\":1,\"pingTimeout\":2}".toList),
      (exReg, .text "451-3[\"a\",{\"_placeholder\":true,\"num\":0}]".toList), (exReg, .binary [4, 9]),
      (exReg, .text "437[true]".toList)]).map (fun o => o.effs.map brief) =
    [[.other], [], [.event ['/'] ['a'] 1 2 (some ⟨['/'], 3⟩)], [.ack ['/'] 7 2 1]] := by
  decide +kernel

end SIO
