import Verif.Props.Args
import Verif.Props.Receiver
/-
C45: from the builder of one client to the callback of another one.
-/
namespace SIO
open Spec

theorem decode_message {w : Ws} {m : EMsg} (h : (decode .active w).2 = .ok (.message m)) :
    decode .active w = (.active, .ok (.message m)) := by
  have : (decode .active w).1 = .active := by
    cases w with
    | text t =>
      cases t with
      | nil => simp [decode, decodeText] at h
      | cons c t =>
        simp only [decode, decodeText, reduceCtorEq, if_false] at h ⊢
        split at h
        · simp at h
        · split at h
          · simp at h
          · rename_i h1 h2
            simp only [h1, h2, if_false]
            split
            · rfl
            · split
              · rfl
              · split <;> rfl
    | binary b =>
      simp only [decode, decodeBinary, reduceCtorEq, if_false]
      split
      · rfl
      · split <;> rfl
    | ping _ => simp [decode] at h
    | pong _ => simp [decode] at h
    | close => simp [decode] at h
  rw [← h, ← this]
  cases h' : decode .active w with
  | mk a b => rw [h'] at this; simp only at this; subst this; rw [h']

theorem processWs_message {cfg : RCfg} {st : RState} {reg : Callbacks} {w : Ws} {m : EMsg} (hd : st.decoder = .active)
    (h : decode .active w = (.active, .ok (.message m))) :
    processWs cfg st reg w = processEngineMessage cfg st reg m := by
  obtain ⟨dec, ip, tx⟩ := st
  simp only at hd
  subst hd
  have key : processMessage cfg ⟨.active, ip, tx⟩ reg w = processEngineMessage cfg ⟨.active, ip, tx⟩ reg m := by
    unfold processMessage
    simp only [h]
  cases w with
  | text t => exact key
  | binary b => exact key
  | ping _ => simp [decode] at h
  | pong _ => simp [decode] at h
  | close => simp [decode] at h

/-- Only the last of the messages has effects, and these are those of the packet. -/
structure LastActs (cfg : RCfg) (st : RState) (pk : Packet) (l : List (Callbacks × Ws)) (st' : RState) : Prop where
  last : ∃ l' reg w os o, l = l' ++ [(reg, w)] ∧ outs cfg st l = os ++ [o] ∧
    os.map (fun o => (o.reg, o.effs)) = l'.map (fun x => (x.1, [])) ∧ (∀ o ∈ os, o.res = .ok ()) ∧
    (o.reg, o.effs, o.res) = processPacket cfg reg pk
  after : after cfg st l = st'

theorem LastActs.cons {cfg : RCfg} {st st1 st' : RState} {pk : Packet} {l : List (Callbacks × Ws)} {reg : Callbacks}
    {w : Ws} (h0 : processWs cfg st reg w = ⟨st1, reg, [], .ok ()⟩) (h : LastActs cfg st1 pk l st') :
    LastActs cfg st pk ((reg, w) :: l) st' := by
  obtain ⟨⟨l', reg', w', os, o, h1, h2, h3, h4, h5⟩, h6⟩ := h
  refine ⟨⟨(reg, w) :: l', reg', w', ⟨st1, reg, [], .ok ()⟩ :: os, o, by simp [h1], ?_, ?_, ?_, h5⟩, ?_⟩
  · simp [outs, h0, h2]
  · simp [h3]
  · intro x hx
    rcases List.mem_cons.1 hx with rfl | hx
    · rfl
    · exact h4 x hx
  · simp [SIO.Spec.after, h0, h6]

theorem attachments_run {cfg : RCfg} {q : Parse} {pk : Packet} :
    ∀ (l : List (Callbacks × Ws)) (st : RState) (done ms : List EMsg), st.decoder = .active →
      st.inProgress = some ⟨q, done⟩ → results .active (l.map Prod.snd) = ms.map (fun m => .ok (.message m)) → ms ≠ [] →
      partialAttachments q = .ok (done.length + ms.length) → deserializePartial q (done ++ ms) = .ok pk →
      LastActs cfg st pk l { st with inProgress := none } := by
  intro l
  induction l with
  | nil =>
    intro st done ms _ _ hr hne
    cases ms with
    | nil => exact (hne rfl).elim
    | cons m ms => simp [results] at hr
  | cons x l ih =>
    intro st done ms hd hi hr hne hn hp
    obtain ⟨reg, w⟩ := x
    cases ms with
    | nil => exact (hne rfl).elim
    | cons m ms =>
      simp only [List.map_cons, results, List.cons.injEq] at hr
      obtain ⟨hr1, hr2⟩ := hr
      have hdec := decode_message hr1
      rw [hdec] at hr2
      have hm := processWs_message (cfg := cfg) (reg := reg) hd hdec
      cases ms with
      | nil =>
        have hl : l = [] := by
          cases l with
          | nil => rfl
          | cons x l => simp [results] at hr2
        subst hl
        have : processEngineMessage cfg st reg m =
            ⟨{ st with inProgress := none }, (processPacket cfg reg pk).1, (processPacket cfg reg pk).2.1,
              (processPacket cfg reg pk).2.2⟩ := by
          unfold processEngineMessage
          simp only [hi, hn, List.length_append, List.length_cons, List.length_nil, if_true, hp]
        refine ⟨⟨[], reg, w, [], _, rfl, by simp [outs, hm, this]; rfl, rfl, by simp, rfl⟩, by simp [SIO.Spec.after, hm, this]⟩
      | cons m' ms =>
        have : processEngineMessage cfg st reg m = ⟨{ st with inProgress := some ⟨q, done ++ [m]⟩ }, reg, [], .ok ()⟩ := by
          unfold processEngineMessage
          simp only [hi, hn, List.length_append, List.length_cons, List.length_nil]
          rw [if_neg (by omega)]
        have h := ih { st with inProgress := some ⟨q, done ++ [m]⟩ } (done ++ [m]) (m' :: ms) hd rfl hr2 (by simp)
          (by rw [hn]; simp; omega) (by simpa using hp)
        exact LastActs.cons (hm.trans this) h

/-- The receiver handles messages that decode to a packet. -/
theorem peer_run {cfg : RCfg} {st : RState} {pk : Packet} {ws : List Ws} (h : PeerReads .active ws pk)
    (hd : st.decoder = .active) (hi : st.inProgress = none) (l : List (Callbacks × Ws)) (hl : l.map Prod.snd = ws) :
    LastActs cfg st pk l st := by
  obtain ⟨m, ms, hr, h⟩ := h
  subst hl
  cases l with
  | nil => simp [results] at hr
  | cons x l =>
    obtain ⟨reg, w⟩ := x
    simp only [List.map_cons, results, List.cons.injEq] at hr
    obtain ⟨hr1, hr2⟩ := hr
    have hdec := decode_message hr1
    rw [hdec] at hr2
    have hm := processWs_message (cfg := cfg) (reg := reg) hd hdec
    rcases h with ⟨rfl, h⟩ | ⟨hne, q, h, hn, hp⟩
    · have hl : l = [] := by
        cases l with
        | nil => rfl
        | cons x l => simp [results] at hr2
      subst hl
      have : processEngineMessage cfg st reg m =
          ⟨st, (processPacket cfg reg pk).1, (processPacket cfg reg pk).2.1, (processPacket cfg reg pk).2.2⟩ := by
        unfold processEngineMessage
        simp only [hi, h]
      refine ⟨⟨[], reg, w, [], _, rfl, by simp [outs, hm, this]; rfl, rfl, by simp, rfl⟩, by simp [SIO.Spec.after, hm, this]⟩
    · have : processEngineMessage cfg st reg m = ⟨{ st with inProgress := some ⟨q, []⟩ }, reg, [], .ok ()⟩ := by
        unfold processEngineMessage
        simp only [hi, h]
      have h := attachments_run (cfg := cfg) (q := q) (pk := pk) l { st with inProgress := some ⟨q, []⟩ } [] ms hd rfl hr2 hne
        (by simpa using hn) (by simpa using hp)
      have e : { ({ st with inProgress := some ⟨q, []⟩ } : RState) with inProgress := none } = st := by
        cases st; simp only at hi; subst hi; rfl
      rw [e] at h
      exact LastActs.cons (hm.trans this) h

/-- A packet whose arguments can be read can be displayed. -/
theorem readable_logs {cfg : RCfg} {s : Str} {ms : List EMsg} {pk : Packet} (h : Decoded s ms pk) {A : Args} {ds : List Doc}
    (hA : (∃ id, pk.data = .ok (.event id A)) ∨ ∃ n, pk.data = .ok (.ack n A)) (hv : ShowsValues cfg.ext.fin A ds) :
    ¬ LogPanics cfg pk := by
  rintro ⟨_, hp⟩
  obtain ⟨A', i, a, hA', hg, hn⟩ := (C22_partial cfg.ext.fin s ms pk h).1 hp
  have : A' = A := by
    rcases hA with ⟨id, hA⟩ | ⟨n, hA⟩ <;> rcases hA' with ⟨id', hA'⟩ | ⟨n', hA'⟩ <;>
      · rw [hA] at hA'
        simp at hA'
        try exact hA'.2.symm
  subst this
  obtain ⟨vs, bs, _, hs, _⟩ := decoded_args h hA
  have hi : i < ds.length := by
    rw [← hv.1, hs.len]
    rw [hs.get i] at hg
    cases hx : vs[i]? with
    | none => rw [hx] at hg; simp at hg
    | some t => exact (List.getElem?_eq_some_iff.1 hx).1
  obtain ⟨a', v, h1, h2, _⟩ := hv.2 i ds[i] (List.getElem?_eq_getElem hi)
  rw [hg] at h1
  simp at h1
  exact hn v (h1 ▸ h2)

/-- The documents as they are sent. -/
theorem wire_values {fin : Str → Bool} {binary : Bool} {A : Args} {vs : List Str} {ds : List Doc}
    (hs : ArgsShow A vs (ackBlobs binary ds)) (ht : TextsDenote vs (ackWire binary ds))
    (hc : (ackBlobs binary ds).length < 2 ^ 64) (hk : binary = true → ∀ d ∈ ds, phKey ∉ d.keys)
    (hr : ∀ d ∈ ds, DocReadable fin d) : ShowsValues fin A ds := by
  cases binary with
  | false =>
    simp only [ackBlobs, ackWire, Bool.false_eq_true, if_false] at hs ht
    exact ⟨by rw [hs.len]; exact textsDenote_plains_length ht, fun i d hi =>
      args_values_plain fin hs ht hi (hr d (List.mem_of_getElem? hi))⟩
  | true =>
    simp only [ackBlobs, ackWire, if_true] at hs ht hc
    exact ⟨by rw [hs.len, textsDenote_length ht, numberedL_length], fun i d hi =>
      args_values fin hs ht hc hi (Or.inl (hk rfl d (List.mem_of_getElem? hi))) (hr d (List.mem_of_getElem? hi))⟩

/-- The messages of an event, in either mode. -/
theorem event_sent (binary : Bool) (event ns : Str) (id : Option Nat) (hn : NsOk ns) (hid : ∀ i, id = some i → i < 2 ^ 64)
    (args : List SVal) (hf : ∀ v ∈ args, v.FloatsOk) (hm : binary = true → ∀ v ∈ args, v.NoMixed)
    (hc : (ackBlobs binary (.str event :: args.filterMap docOf)).length < 2 ^ 64) :
    ∃ b ws, Builder.newEvent event ns id binary = .ok b ∧ (adds b args).finish = .ok ws ∧
      (Unambiguous ns ws → ∃ pk vs, PeerReads .active ws pk ∧
        Shows pk ns (.event id vs (ackBlobs binary (.str event :: args.filterMap docOf))) ∧
        TextsDenote vs (ackWire binary (.str event :: args.filterMap docOf))) := by
  cases binary with
  | false =>
    obtain ⟨b, w, h1, h2, h3⟩ := C01_event_text event ns id hn hid args hf
    exact ⟨b, [w], h1, h2, h3⟩
  | true => exact C02_event_binary event ns id hn hid args hf (hm rfl) hc

theorem nameOf_str {v : Str} {bs : List Bytes} {name : Str} (h : TextDenotes v (.str name)) : NameOf v bs name := by
  obtain ⟨t, ht, hd⟩ := h
  cases t with
  | str raw =>
    simp only [Denotes] at hd
    obtain ⟨s, h1, h2⟩ := hd
    cases h1
    exact .string raw ht h2
  | _ => simp [Denotes] at hd

theorem results_received {ws : List Ws} {ms : List EMsg} (h : results .active ws = ms.map (fun m => .ok (.message m))) :
    ∀ m ∈ ms, Received m := by
  induction ws generalizing ms with
  | nil =>
    cases ms with
    | nil => simp
    | cons m ms => simp [results] at h
  | cons w ws ih =>
    cases ms with
    | nil => simp
    | cons m ms =>
      simp only [List.map_cons, results, List.cons.injEq] at h
      have hd := decode_message h.1
      rw [hd] at h
      intro x hx
      rcases List.mem_cons.1 hx with rfl | hx
      · exact ⟨_, _, _, hd⟩
      · exact ih h.2 x hx

theorem peerReads_decoded {ws : List Ws} {pk : Packet} (h : PeerReads .active ws pk) : ∃ s ms, Decoded s ms pk := by
  obtain ⟨m, ms, hr, h⟩ := h
  have hrec := results_received hr
  have hm := hrec m (by simp)
  obtain ⟨pls, hpl⟩ := received_payloads (ms := [m]) (by simpa using hm)
  cases hpl with
  | @cons _ pl _ _ hp _ =>
    cases pl with
    | binary b =>
      cases m with
      | text t => simp [HasPayload] at hp
      | binary x =>
        simp only [HasPayload] at hp
        rcases h with ⟨_, h⟩ | ⟨_, q, h, _⟩ <;> simp [deserialize, hp, Res.unwrap, bind, Res.bind] at h
    | text s =>
      rcases h with ⟨rfl, h⟩ | ⟨_, q, h, _, h'⟩
      · exact ⟨s, [], .alone m hm hp rfl h⟩
      · exact ⟨s, ms, .withAttachments m q hm hp h (fun x hx => hrec x (by simp [hx])) h'⟩

/-- What the receiver does with messages of which only the last one acts. -/
theorem LastActs.flat {cfg : RCfg} {st st' : RState} {pk : Packet} {l : List (Callbacks × Ws)}
    (h : LastActs cfg st pk l st') {reg reg' : Callbacks} {w : Ws} (hw : l.getLast? = some (reg, w)) {effs : List Eff}
    (hp : processPacket cfg reg pk = (reg', effs, .ok ())) :
    (outs cfg st l).flatMap (·.effs) = effs ∧ (∀ o ∈ outs cfg st l, o.res = .ok ()) ∧
    (outs cfg st l).map (·.reg) = (l.dropLast.map Prod.fst) ++ [reg'] := by
  obtain ⟨⟨l', reg0, w0, os, o, h1, h2, h3, h4, h5⟩, _⟩ := h
  subst h1
  simp only [List.getLast?_append, List.getLast?_singleton, Option.some_or, Option.some.injEq, Prod.mk.injEq] at hw
  obtain ⟨rfl, rfl⟩ := hw
  rw [hp] at h5
  simp only [Prod.mk.injEq] at h5
  obtain ⟨h5, h6, h7⟩ := h5
  have e1 : os.flatMap (·.effs) = [] := by
    have : ∀ (a b : List (Callbacks × List Eff)), a = b → a.flatMap Prod.snd = b.flatMap Prod.snd := fun a b h => by rw [h]
    have := this _ _ h3
    rw [List.flatMap_map, List.flatMap_map] at this
    rw [this]
    simp
  have e2 : os.map (·.reg) = l'.map Prod.fst := by
    have := congrArg (List.map Prod.fst) h3
    simpa [List.map_map, Function.comp_def] using this
  refine ⟨by rw [h2]; simp [e1, h6], ?_, by rw [h2]; simp [e2, h5]⟩
  intro x hx
  rw [h2] at hx
  rcases List.mem_append.1 hx with hx | hx
  · exact h4 x hx
  · simp at hx
    rw [hx]
    exact h7

/-- C45: an event sent by one client, in text or binary mode, reaches the callback in charge of
it at a client that receives the messages: the callback runs once, after the last message, with
the namespace, the name, a reply handle iff the event has an id, and arguments whose values are
those of the documents sent; if no callback is in charge nothing happens.  No message is an
error, no registration changes and the receiver is idle afterwards. -/
theorem C45_event (cfg : RCfg) (binary : Bool) (event ns : Str) (id : Option Nat) (hn : NsOk ns)
    (hid : ∀ i, id = some i → i < 2 ^ 64) (args : List SVal) (hf : ∀ v ∈ args, v.FloatsOk)
    (hm : binary = true → ∀ v ∈ args, v.NoMixed)
    (hc : (ackBlobs binary (.str event :: args.filterMap docOf)).length < 2 ^ 64)
    (hk : binary = true → ∀ d ∈ args.filterMap docOf, phKey ∉ d.keys)
    (hr : ∀ d ∈ args.filterMap docOf, DocReadable cfg.ext.fin d) :
    ∃ b ws, Builder.newEvent event ns id binary = .ok b ∧ (adds b args).finish = .ok ws ∧
      (Unambiguous ns ws → ∀ (st : RState), st.decoder = .active → st.inProgress = none →
        ∀ (l : List (Callbacks × Ws)), l.map Prod.snd = ws → ∀ (reg : Callbacks) (w : Ws), l.getLast? = some (reg, w) →
        (∀ o ∈ outs cfg st l, o.res = .ok ()) ∧ (outs cfg st l).map (·.reg) = l.map Prod.fst ∧ after cfg st l = st ∧
        (reg.getEvent ns event = none → (outs cfg st l).flatMap (·.effs) = []) ∧
        ∀ cb, reg.getEvent ns event = some cb →
          ∃ A, (outs cfg st l).flatMap (·.effs) = [.event ns event cb A (id.map fun i => ⟨ns, i⟩)] ∧
            ShowsValues cfg.ext.fin A (.str event :: args.filterMap docOf)) := by
  obtain ⟨b, ws, h1, h2, h3⟩ := event_sent binary event ns id hn hid args hf hm hc
  refine ⟨b, ws, h1, h2, fun hu st hd hi l hl reg w hw => ?_⟩
  obtain ⟨pk, vs, h4, ⟨h5, A, h6, h7⟩, h8⟩ := h3 hu
  have hrun := peer_run (cfg := cfg) h4 hd hi l hl
  obtain ⟨s, ms, hdec⟩ := peerReads_decoded h4
  have hv : ShowsValues cfg.ext.fin A (.str event :: args.filterMap docOf) := by
    refine wire_values h7 h8 hc (fun hb d hd => ?_) fun d hd => ?_
    · rcases List.mem_cons.1 hd with rfl | hd
      · simp [Doc.keys]
      · exact hk hb d hd
    · rcases List.mem_cons.1 hd with rfl | hd
      · simp [DocReadable, docDepth, docNums, NoRaw]
      · exact hr d hd
  have hlog := readable_logs hdec (Or.inl ⟨id, h6⟩) hv
  have hname : ∃ v vs', vs = v :: vs' ∧ TextDenotes v (.str event) := by
    have : ∃ ds, ackWire binary (.str event :: args.filterMap docOf) = .str event :: ds := by
      cases binary
      · exact ⟨_, rfl⟩
      · exact ⟨_, rfl⟩
    obtain ⟨ds, e⟩ := this
    rw [e] at h8
    cases h8 with
    | cons hv _ => exact ⟨_, _, rfl, hv⟩
  obtain ⟨v, vs', rfl, hname⟩ := hname
  have ⟨t, ht, _⟩ := hname
  have hno := nameOf_str (bs := ackBlobs binary (.str event :: args.filterMap docOf)) hname
  have hlast : l.dropLast.map Prod.fst ++ [reg] = l.map Prod.fst := by
    obtain ⟨l', rfl⟩ : ∃ l', l = l' ++ [(reg, w)] := by
      rw [List.getLast?_eq_some_iff] at hw
      exact hw
    simp
  have hproc : processPacket cfg reg pk =
      match reg.getEvent ns event with
      | some cb => (reg, [.event ns event cb A (id.map fun i => ⟨ns, i⟩)], .ok ())
      | none => (reg, [], .ok ()) := by
    rcases processPacket_event (reg := reg) hlog h5 h6 h7 ht with ⟨name, hx, e⟩ | ⟨hx, _⟩
    · rw [nameOf_unique hno hx]
      exact e
    · exact (hx event hno).elim
  cases hg : reg.getEvent ns event with
  | none =>
    rw [hg] at hproc
    obtain ⟨k1, k2, k3⟩ := hrun.flat hw hproc
    exact ⟨k2, by rw [k3, hlast], hrun.after, fun _ => k1, by simp⟩
  | some cb =>
    rw [hg] at hproc
    obtain ⟨k1, k2, k3⟩ := hrun.flat hw hproc
    refine ⟨k2, by rw [k3, hlast], hrun.after, by simp, ?_⟩
    intro cb' hcb
    cases hcb
    exact ⟨A, k1, hv⟩

/-- C45, replies: a reply with at least one argument, of which the first can be serialized,
reaches the ack callback waiting for it at a client that receives the messages: the callback
runs once, after the last message, with arguments whose values are those of the documents sent,
and is used up. -/
theorem C45_reply (cfg : RCfg) (binary : Bool) (ns : Str) (id : Nat) (hn : NsOk ns) (hid : id < 2 ^ 64)
    (arg : SVal) (args : List SVal) (hf : ∀ v ∈ arg :: args, v.FloatsOk)
    (hm : binary = true → ∀ v ∈ arg :: args, v.NoMixed) (h1 : (docOf arg).isSome)
    (hc : (ackBlobs binary ((arg :: args).filterMap docOf)).length < 2 ^ 64)
    (hk : binary = true → ∀ d ∈ (arg :: args).filterMap docOf, phKey ∉ d.keys)
    (hr : ∀ d ∈ (arg :: args).filterMap docOf, DocReadable cfg.ext.fin d) :
    ∃ ws, (adds (Builder.newAck ns id binary) (arg :: args)).finish = .ok ws ∧
      (Unambiguous ns ws → ∀ (st : RState), st.decoder = .active → st.inProgress = none →
        ∀ (l : List (Callbacks × Ws)), l.map Prod.snd = ws → ∀ (reg : Callbacks) (w : Ws), l.getLast? = some (reg, w) →
        ∀ cb, (reg.getAndClearAck ns id).1 = some cb →
        (∀ o ∈ outs cfg st l, o.res = .ok ()) ∧ after cfg st l = st ∧
        (∃ reg', (outs cfg st l).map (·.reg) = l.dropLast.map Prod.fst ++ [reg'] ∧
          (∀ ns' id', (reg'.getAndClearAck ns' id').1 = if ns' = ns ∧ id' = id then none else (reg.getAndClearAck ns' id').1) ∧
          ∀ ns' name, reg'.getEvent ns' name = reg.getEvent ns' name) ∧
        ∃ A, (outs cfg st l).flatMap (·.effs) = [.ack ns id cb A] ∧
          ShowsValues cfg.ext.fin A ((arg :: args).filterMap docOf)) := by
  obtain ⟨ws, h2, h3⟩ := C03_partial binary ns id hn hid arg args hf hm h1 hc
  refine ⟨ws, h2, fun hu st hd hi l hl reg w hw cb hcb => ?_⟩
  obtain ⟨pk, vs, h4, ⟨h5, A, h6, h7⟩, h8⟩ := h3 hu
  have hrun := peer_run (cfg := cfg) h4 hd hi l hl
  obtain ⟨s, ms, hdec⟩ := peerReads_decoded h4
  have hv := wire_values h7 h8 hc hk hr
  have hlog := readable_logs hdec (Or.inr ⟨id, h6⟩) hv
  have hproc := processPacket_ack (reg := reg) hlog h5 h6
  rw [hcb] at hproc
  obtain ⟨k1, k2, k3⟩ := hrun.flat hw hproc
  refine ⟨k2, hrun.after, ⟨_, k3, ?_, ?_⟩, A, k1, hv⟩
  · intro ns' id'
    rw [Callbacks.getAck_eq, Callbacks.getAck_eq, Callbacks.ak_run]
  · intro ns' name
    rw [Callbacks.getEvent_eq, Callbacks.getEvent_eq, Callbacks.ev_run, Callbacks.fb_run]

/-- Namespace, name or id, callback, arguments and reply handle of an effect, as text. -/
def effText : Eff → Str
  | .event ns name cb A ack =>
    ns ++ ' ' :: (name ++ ' ' :: (natDec cb ++ ' ' :: (argTexts A ++
      match ack with
      | some h => ' ' :: (h.ns ++ ' ' :: natDec h.id)
      | none => [])))
  | .ack ns id cb A => ns ++ ' ' :: (natDec id ++ ' ' :: (natDec cb ++ ' ' :: argTexts A))
  | _ => []
where
  argTexts (A : Args) : Str :=
    match A.display (fun _ => true) with
    | .ok s => s
    | _ => []

/-- What a receiver with an open connection does with the messages, logging everything. -/
def loop (reg : Callbacks) : Res Empty (List Ws) → List Str
  | .ok ws => ((outs { exCfg with logInfo := true } openState (ws.map fun w => (reg, w))).flatMap (·.effs)).map effText
  | _ => []

-- non-vacuity: an event with an id and byte strings, sent in binary mode, and the reply to it
example : loop (registry [.setEvent ['/'] ['e'] 5]) (do
      let b ← Builder.newEvent ['e'] ['/'] (some 3) true
      (adds b [.bytes [8, 9], .seq [.str ['x'], .bytes [1]]]).finish) =
    ["/ e 5 [\"e\", [8,9], [\"x\",[1]]] / 3".toList] := by decide +kernel
example : loop (registry [.setAck ['/', 'n'] 3 6, .setAck ['/', 'n'] 4 7])
      ((adds (Builder.newAck ['/', 'n'] 3 true) [.bytes [8, 9]]).finish) = ["/n 3 6 [[8,9]]".toList] := by decide +kernel
-- the condition on ambiguous argument texts matters (see C15): this event is not delivered
example : loop (registry [.setEvent ['/', 'n'] ['e'] 5]) (do
      let b ← Builder.newEvent ['e'] ['/', 'n'] none false
      (adds b [.seq []]).finish) = [] := by decide +kernel

end SIO
