import Verif.Props.Log
import Verif.Props.Display
import Verif.Lemmas.Frame
import Verif.Lemmas.Stream
/-
C70, C71: what the log tells of packets.
-/
namespace SIO
open SIO.Spec

theorem messageEffs_completes (cfg : RCfg) (st : RState) (reg : Callbacks) (m : EMsg) :
    (processEngineMessage cfg st reg m).effs =
      match completes st m with
      | some pk => (processPacket cfg reg pk).2.1
      | none => [] := by
  unfold processEngineMessage completes
  cases st.inProgress with
  | some ip =>
    simp only
    cases partialAttachments ip.part with
    | panic => rfl
    | err e => exact e.elim
    | ok n =>
      simp only
      split
      · cases deserializePartial ip.part (ip.attachments ++ [m]) <;> rfl
      · rfl
  | none =>
    simp only
    cases deserialize m with
    | panic => rfl
    | err e => rfl
    | ok r => cases r <;> rfl

theorem completes_source {st : RState} {m : EMsg} {pl : Payload} {hist : List Payload} {pk : Packet} (hi : HInv hist st) (hr : Received m)
    (hp : HasPayload m pl) (h : completes st m = some pk) :
    ∃ pre s pls ms, hist ++ [pl] = pre ++ Payload.text s :: pls ∧ Payloads ms pls ∧ Decoded s ms pk := by
  unfold completes at h
  cases hip : st.inProgress with
  | some ip =>
    obtain ⟨pre, s, m0, got, h0, h1, h2, h3, h4, h5⟩ := hi ip hip
    have hall : ∀ x ∈ ip.attachments ++ [m], Received x := by
      intro x hx
      rcases List.mem_append.1 hx with hx | hx
      · exact h4 x hx
      · simp at hx; subst hx; exact hr
    rw [hip] at h
    simp only at h
    cases hn : partialAttachments ip.part with
    | panic => rw [hn] at h; simp at h
    | err e => exact e.elim
    | ok n =>
      rw [hn] at h
      simp only at h
      split at h
      · cases hd : deserializePartial ip.part (ip.attachments ++ [m]) with
        | panic => rw [hd] at h; simp at h
        | err e => rw [hd] at h; simp at h
        | ok pk' =>
          rw [hd] at h
          simp only [Option.some.injEq] at h
          subst h
          exact ⟨pre, s, got ++ [pl], _, by rw [h0]; simp, payloads_snoc h5 hp, .withAttachments m0 ip.part h1 h2 h3 hall hd⟩
      · simp at h
  | none =>
    rw [hip] at h
    simp only at h
    cases hd : deserialize m with
    | panic => rw [hd] at h; simp at h
    | err e => rw [hd] at h; simp at h
    | ok r =>
      cases pl with
      | binary b => rw [deserialize_binary_eq hp] at hd; simp at hd
      | text s =>
        cases r with
        | dataNeeded q => rw [hd] at h; simp at h
        | packet pk' =>
          rw [hd] at h
          simp only [Option.some.injEq] at h
          subst h
          exact ⟨hist, s, [], [], rfl, .nil, .alone m hr hp rfl hd⟩

/-- While the task runs, its receiver has collected what arrived. -/
theorem hinv_runs {cfg : RCfg} {acts : List Act} {s : Sys} {tr : List Ev} (h : Runs cfg acts s tr) (hl : s.task.reads) :
    HInv (arrived tr) s.rx := by
  have hx : PInv s ∧ XInv cfg tr s := exec_induct (P := fun tr s => PInv s ∧ XInv cfg tr s) ⟨pinv_init, xinv_init cfg⟩
    (fun _ _ _ _ hi ht => ⟨pinv_trans hi.1 ht, xinv_trans hi.1 hi.2 ht⟩) acts s tr h
  obtain ⟨l, k1, k2, k3⟩ := hx.2 (.inl hl.live)
  have := hinv_after cfg l hinv_new k3
  rw [k1, ← payloads_inbox k2]
  simpa using this

/-- The packet a websocket message completes. -/
def finishes (st : RState) (w : Ws) : Option Packet :=
  match (decode st.decoder w).2 with
  | .ok (.message m) => completes st m
  | _ => none

theorem finishes_message {st : RState} {w : Ws} {m : EMsg} (h : (decode st.decoder w).2 = .ok (.message m)) : finishes st w = completes st m := by
  simp only [finishes, h]

theorem finishes_source {st : RState} {w : Ws} {hist : List Payload} {pk : Packet} (hi : HInv hist st) (h : finishes st w = some pk) :
    ∃ pl pre s pls ms, payload? w = some pl ∧ hist ++ [pl] = pre ++ Payload.text s :: pls ∧ Payloads ms pls ∧ Decoded s ms pk := by
  unfold finishes at h
  split at h
  · rename_i m hd
    have hd' : decode st.decoder w = ((decode st.decoder w).1, .ok (.message m)) := Prod.ext rfl hd
    obtain ⟨pl, h1, h2⟩ := decode_message_payload hd'
    obtain ⟨pre, s, pls, ms, h3, h4, h5⟩ := completes_source hi ⟨_, _, _, hd'⟩ h2 h
    exact ⟨pl, pre, s, pls, ms, h1, h3, h4, h5⟩
  · simp at h

theorem emsg_text (p : Prints) {st : EState} {w : Ws} {m : EMsg} (h : (decode st w).2 = .ok (.message m)) : ∃ t, dbgEMsg p m = some t := by
  have hd' : decode st w = ((decode st w).1, .ok (.message m)) := Prod.ext rfl h
  obtain ⟨pl, h1, h2⟩ := decode_message_payload hd'
  cases m with
  | text t =>
    cases pl with
    | text s => have h2 : t.deref = some s := h2; exact ⟨_, by simp only [dbgEMsg, h2, Option.map_some]; rfl⟩
    | binary b => exact h2.elim
  | binary t =>
    cases pl with
    | binary s => have h2 : t.deref = some s := h2; exact ⟨_, by simp only [dbgEMsg, h2, Option.map_some]; rfl⟩
    | text b => exact h2.elim

/-- What is logged of packets. -/
theorem engineLines_packet (p : Prints) (cfg : RCfg) (st : RState) (w : Ws) :
    ∃ a, (∀ l ∈ a, l.level ≠ .info ∧ Begins ["Received open engine packet: ".toList, "Received second open engine packet: ".toList,
        "Received close engine packet".toList, "Received engine ping packet".toList, "Received message engine packet: ".toList] l) ∧
      engineLines p cfg st w = a ++ match finishes st w with
        | some pk => packetLines cfg pk
        | none => [] := by
  unfold engineLines finishes
  cases h : (decode st.decoder w).2 with
  | err e => exact ⟨[], by simp, rfl⟩
  | panic => exact ⟨[], by simp, rfl⟩
  | ok ep =>
    cases ep with
    | opened o =>
      simp only [List.append_nil]
      refine ⟨_, ?_, rfl⟩
      intro l hl
      rcases List.mem_cons.1 hl with rfl | hl
      · exact ⟨by simp, begins_app (by simp)⟩
      · split at hl
        · simp at hl
        · rw [List.mem_singleton] at hl; subst hl; exact ⟨by simp, begins_app (by simp)⟩
    | message m =>
      simp only [messageLines]
      obtain ⟨t, ht⟩ := emsg_text p h
      rw [ht]
      refine ⟨[⟨.trace, "Received message engine packet: ".toList ++ t⟩], ?_, ?_⟩
      · intro l hl; rw [List.mem_singleton] at hl; subst hl; exact ⟨by simp, begins_app (by simp)⟩
      · cases completes st m <;> rfl
    | _ =>
      simp only [List.append_nil]
      refine ⟨_, ?_, rfl⟩
      intro l hl; rw [List.mem_singleton] at hl; subst hl; exact ⟨by simp, begins_lit (by simp)⟩

/-- The lines of packets. -/
def packetPart (cfg : RCfg) (st : RState) (w : Ws) : List Line :=
  match finishes st w with
  | some pk => packetLines cfg pk
  | none => []

def headsBefore : List Str :=
  ["received message: ".toList, "Received WebSocket packet: ".toList, "Closed with close frame ".toList, "Received open engine packet: ".toList,
    "Received second open engine packet: ".toList, "Received close engine packet".toList, "Received engine ping packet".toList,
    "Received message engine packet: ".toList]

theorem wsLines_packet (p : Prints) (cfg : RCfg) (st : RState) (w : Ws) :
    ∃ a, (∀ l ∈ a, l.level ≠ .info ∧ Begins headsBefore l) ∧ wsLines p cfg st w = a ++ packetPart cfg st w := by
  have data : ∀ w', ∃ a, (∀ l ∈ a, l.level ≠ .info ∧ Begins headsBefore l) ∧ ∀ l, (l.level ≠ .info ∧ Begins headsBefore l) →
      l :: engineLines p cfg st w' = (l :: a) ++ packetPart cfg st w' := by
    intro w'
    obtain ⟨a, h1, h2⟩ := engineLines_packet p cfg st w'
    refine ⟨a, fun l hl => ⟨(h1 l hl).1, begins_mono (h1 l hl).2 ?_⟩, ?_⟩
    · simp [headsBefore]
    · intro l _
      rw [h2]
      rfl
  have ctl : ∀ w', (∀ m, (decode st.decoder w').2 ≠ .ok (.message m)) → packetPart cfg st w' = [] := by
    intro w' h
    unfold packetPart finishes
    split
    · rename_i pk hp
      split at hp
      · rename_i m hm; exact absurd hm (h m)
      · simp at hp
    · rfl
  have hb : ∀ x, (⟨.trace, "Received WebSocket packet: ".toList ++ x⟩ : Line).level ≠ .info ∧
      Begins headsBefore ⟨.trace, "Received WebSocket packet: ".toList ++ x⟩ := fun x => ⟨by simp, begins_app (by simp [headsBefore])⟩
  cases w with
  | text t =>
    obtain ⟨a, h1, h2⟩ := data (.text t)
    exact ⟨_ :: a, fun l hl => (List.mem_cons.1 hl).elim (fun h => h ▸ hb _) (h1 l), h2 _ (hb _)⟩
  | binary t =>
    obtain ⟨a, h1, h2⟩ := data (.binary t)
    exact ⟨_ :: a, fun l hl => (List.mem_cons.1 hl).elim (fun h => h ▸ hb _) (h1 l), h2 _ (hb _)⟩
  | ping b =>
    rw [ctl _ fun m h => control_decode (Or.inl ⟨b, rfl⟩) _ h]
    simp only [List.append_nil]
    exact ⟨_, fun l hl => by rw [wsLines, List.mem_singleton] at hl; exact hl ▸ hb _, rfl⟩
  | pong b =>
    rw [ctl _ fun m h => control_decode (Or.inr (Or.inl ⟨b, rfl⟩)) _ h]
    simp only [List.append_nil]
    exact ⟨_, fun l hl => by rw [wsLines, List.mem_singleton] at hl; exact hl ▸ hb _, rfl⟩
  | close =>
    rw [ctl _ fun m h => control_decode (Or.inr (Or.inr rfl)) _ h]
    simp only [List.append_nil]
    refine ⟨_, fun l hl => ?_, rfl⟩
    rw [wsLines] at hl
    rcases List.mem_cons.1 hl with rfl | hl
    · exact hb _
    · rw [List.mem_singleton] at hl; subst hl; exact ⟨by simp, begins_app (by simp [headsBefore])⟩

theorem recvLines_packet (p : LogPrints) (cfg : RCfg) (s : Sys) (w : Ws) (c : Bool) :
    ∃ a, (∀ l ∈ a, l.level ≠ .info ∧ Begins headsBefore l) ∧ actLines p cfg s (.recv w c) = a ++ packetPart cfg s.rx w := by
  obtain ⟨a, h1, h2⟩ := wsLines_packet p.toPrints cfg s.rx w
  simp only [actLines]
  split
  · rw [h2]
    refine ⟨_ :: a, fun l hl => ?_, rfl⟩
    rcases List.mem_cons.1 hl with rfl | hl
    · exact ⟨by simp, begins_app (by simp [headsBefore])⟩
    · exact h1 l hl
  · exact ⟨a, h1, h2⟩

theorem effects_eff {effs : List Eff} {s : Sys} {e : Eff} (h : .eff e ∈ (s.effects effs).2) : e ∈ effs := by
  induction effs generalizing s with
  | nil => simp [Sys.effects] at h
  | cons x effs ih =>
    simp only [Sys.effects, List.mem_append] at h
    rcases h with h | h
    · have : e = x := by
        cases x with
        | enqueue g =>
          simp only [Sys.effect, List.mem_cons] at h
          rcases h with h | h
          · exact Ev.eff.inj h
          · rcases enqueue_events s .pong g with h' | h' <;> rw [h'] at h <;> simp at h
        | event ns name cb A ack => cases ack <;> simp [Sys.effect] at h <;> exact h
        | _ => simp [Sys.effect] at h; exact h
      simp [this]
    · exact List.mem_cons_of_mem _ (ih h)

theorem recv_eff {cfg : RCfg} {s : Sys} {w : Ws} {c : Bool} {e : Eff} (h : .eff e ∈ (s.recv cfg w c).2) :
    e ∈ (processWs cfg s.rx s.reg w).effs := by
  unfold Sys.recv at h
  simp only at h
  have key : ∀ evs, (∀ e, .eff e ∉ evs) → .eff e ∈ .received w ::
      (({ s with rx := (processWs cfg s.rx s.reg w).st, reg := (processWs cfg s.rx s.reg w).reg } : Sys).effects
        (processWs cfg s.rx s.reg w).effs).2 ++ evs → e ∈ (processWs cfg s.rx s.reg w).effs := by
    intro evs hn hm
    simp only [List.cons_append, List.mem_cons, reduceCtorEq, List.mem_append, false_or] at hm
    exact hm.elim effects_eff fun h => absurd h (hn e)
  split at h
  · exact key [.taskEnd .panic] (by simp) h
  · split at h
    · exact key [] (by simp) (by rw [List.append_nil]; exact h)
    · exact key [.taskEnd _] (by simp) h
    · exact key [.taskEnd .panic] (by simp) h

/-- A callback is called for the packet completed by the message. -/
theorem call_finishes {cfg : RCfg} {st : RState} {reg : Callbacks} {w : Ws} {e : Eff} (h : e ∈ (processWs cfg st reg w).effs)
    (hc : e.isCall = true) : ∃ pk, finishes st w = some pk ∧ e ∈ (processPacket cfg reg pk).2.1 := by
  have key : ∀ w', e ∈ (processMessage cfg st reg w').effs → ∃ pk, finishes st w' = some pk ∧ e ∈ (processPacket cfg reg pk).2.1 := by
    intro w' h
    unfold processMessage at h
    unfold finishes
    generalize decode st.decoder w' = d at h
    obtain ⟨dec, r⟩ := d
    cases r with
    | panic => simp at h
    | err e => simp at h
    | ok ep =>
      cases ep with
      | opened o =>
        simp only at h
        split at h <;> simp only [List.mem_singleton] at h <;> subst h <;> simp [Eff.isCall] at hc
      | close => simp at h
      | pong => simp at h
      | ping => simp only [List.mem_singleton] at h; subst h; simp [Eff.isCall] at hc
      | message m =>
        simp only at h
        rw [messageEffs_completes] at h
        have : completes { st with decoder := dec } m = completes st m := rfl
        rw [this] at h
        simp only
        cases hm : completes st m with
        | none => rw [hm] at h; simp at h
        | some pk => rw [hm] at h; exact ⟨pk, rfl, h⟩
  cases w with
  | text t => exact key _ h
  | binary t => exact key _ h
  | _ => simp [processWs] at h

/-- What a callback gets is in the packet. -/
theorem call_packet {cfg : RCfg} {reg : Callbacks} {pk : Packet} {e : Eff} (h : e ∈ (processPacket cfg reg pk).2.1) :
    ¬ (cfg.logInfo ∧ pk.display cfg.ext.fin = .panic) ∧
    ((∃ ns name cb A ack, e = .event ns name cb A ack ∧ pk.namespace_ = .ok ns ∧ pk.data = .ok (.event (ack.map (·.id)) A)) ∨
      ∃ ns id cb A, e = .ack ns id cb A ∧ pk.namespace_ = .ok ns ∧ pk.data = .ok (.ack id A)) := by
  unfold processPacket at h
  split at h
  · simp at h
  · rename_i hn
    refine ⟨hn, ?_⟩
    cases hns : pk.namespace_ with
    | panic => rw [hns] at h; simp at h
    | err e => exact e.elim
    | ok ns =>
      rw [hns] at h
      simp only at h
      cases hd : pk.data with
      | panic => rw [hd] at h; simp at h
      | err e => exact e.elim
      | ok d =>
        rw [hd] at h
        cases d with
        | connect => simp at h
        | disconnect => simp at h
        | event id A =>
          left
          simp only at h
          repeat' split at h
          all_goals first
            | (simp at h; done)
            | (simp only [List.mem_singleton] at h
               subst h
               exact ⟨_, _, _, _, _, rfl, rfl, by rw [Option.map_map]; cases id <;> rfl⟩)
        | ack id A =>
          right
          simp only at h
          split at h
          · simp only [List.mem_singleton] at h
            subst h
            exact ⟨_, _, _, _, rfl, rfl, rfl⟩
          · simp at h

/-- C70: whenever a callback is called, the packet it is called for was logged just before, as the last line, and the line shows the kind
and id of the packet and the arguments the callback gets. -/
theorem C70_callback (p : LogPrints) (cfg : RCfg) (hl : cfg.logInfo = true) (acts : List Act) (s s' : Sys) (tr evs : List Ev)
    (h : Runs cfg acts s tr) (w : Ws) (c : Bool) (hs : step cfg s (.recv w c) = some (s', evs)) (e : Eff) (he : .eff e ∈ evs)
    (hc : e.isCall = true) :
    ∃ pre x, logOf p cfg (acts ++ [.recv w c]) = pre ++ [⟨.info, "Received socket packet: ".toList ++ x⟩] ∧ CallShown cfg.ext.fin e x := by
  have hr := (step_shows hs).1
  have hrecv : s.recv cfg w c = (s', evs) := by
    simp only [step] at hs
    split at hs
    · simpa using hs
    · simpa using hs
    · simp at hs
  have he' := recv_eff (cfg := cfg) (s := s) (w := w) (c := c) (by rw [hrecv]; exact he)
  obtain ⟨pk, h1, h2⟩ := call_finishes he' hc
  obtain ⟨h3, h4⟩ := call_packet h2
  obtain ⟨pl, pre, t, pls, ms, -, -, -, h5⟩ := finishes_source (hinv_runs h hr) h1
  obtain ⟨q, vs, bs, body, -, -, -, -, h6, -, h7, h8⟩ := decoded_means h5
  have hd : ∃ x, pk.display cfg.ext.fin = .ok x := by
    cases hd : pk.display cfg.ext.fin with
    | ok x => exact ⟨x, rfl⟩
    | err e => exact e.elim
    | panic => exact absurd ⟨hl, hd⟩ h3
  obtain ⟨x, hd⟩ := hd
  have h9 := means_displays (argTexts_isVal h6) h7 h8 hd
  obtain ⟨a, -, ha⟩ := recvLines_packet p cfg s w c
  have hp : packetPart cfg s.rx w = [⟨.info, "Received socket packet: ".toList ++ x⟩] := by
    simp only [packetPart, h1, packetLines, hd]
    rcases h4 with ⟨ns, name, cb, A, ack, -, h10, h11⟩ | ⟨ns, id, cb, A, -, h10, h11⟩ <;> rw [h10, h11]
  refine ⟨logOf p cfg acts ++ a, x, ?_, ?_⟩
  · rw [logOf_snoc p h hs, ha, hp, List.append_assoc]
  · obtain ⟨-, h8⟩ := h8
    rcases h4 with ⟨ns, name, cb, A, ack, rfl, -, h11⟩ | ⟨ns, id, cb, A, rfl, -, h11⟩
    · cases body with
      | event id ws cs =>
        obtain ⟨A', h12, h13⟩ := h8
        rw [h11] at h12
        simp only [Res.ok.injEq, Data.event.injEq] at h12
        obtain ⟨rfl, rfl⟩ := h12
        exact .event h13 h9
      | ack id ws cs => obtain ⟨A', h12, _⟩ := h8; rw [h11] at h12; simp at h12
      | connect => simp only at h8; rw [h11] at h8; simp at h8
      | disconnect => simp only at h8; rw [h11] at h8; simp at h8
    · cases body with
      | ack id ws cs =>
        obtain ⟨A', h12, h13⟩ := h8
        rw [h11] at h12
        simp only [Res.ok.injEq, Data.ack.injEq] at h12
        obtain ⟨rfl, rfl⟩ := h12
        exact .ack h13 h9
      | event id ws cs => obtain ⟨A', h12, _⟩ := h8; rw [h11] at h12; simp at h12
      | connect => simp only at h8; rw [h11] at h8; simp at h8
      | disconnect => simp only at h8; rw [h11] at h8; simp at h8

/-! ### All packets -/

/-- The receiver waits for the rest of the packet begun with `r`. -/
def Waits (r : List Payload) (st : RState) : Prop :=
  (st.inProgress = none ∧ r = []) ∨ ∃ p vs n got, Pending st p vs n got ∧ r = .text p.text :: got

theorem Waits.unfinished {r : List Payload} {st : RState} (h : Waits r st) : Unfinished r := by
  rcases h with ⟨-, rfl⟩ | ⟨p, vs, n, got, h, rfl⟩
  · exact .inl rfl
  · obtain ⟨q, ms, -, hq, -⟩ := h.ip
    exact .inr ⟨p, n, got, hq.wf, hq.longest, h.att, h.lt, rfl⟩

theorem Waits.congr {r : List Payload} {st st' : RState} (h : Waits r st) (he : st'.inProgress = st.inProgress) : Waits r st' := by
  rcases h with ⟨h, rfl⟩ | ⟨p, vs, n, got, h, rfl⟩
  · exact .inl ⟨by rw [he, h], rfl⟩
  · obtain ⟨q, ms, h1, h2⟩ := h.ip
    exact .inr ⟨p, vs, n, got, ⟨⟨q, ms, by rw [he, h1], h2⟩, h.kind, h.att, h.lt⟩, rfl⟩

/-- One message: it completes a packet, or it is waited for more, or it is an error. -/
theorem waits_message {cfg : RCfg} {st : RState} {reg : Callbacks} {m : EMsg} {pl : Payload} {r : List Payload} (hw : Waits r st)
    (hp : HasPayload m pl) :
    (∃ (pk : Packet) (p : Pkt) (vs : List Str) (bs : List Bytes) (body : Body), completes st m = some pk ∧ (processEngineMessage cfg st reg m).st.inProgress = none ∧
      (processEngineMessage cfg st reg m).res = (processPacket cfg reg pk).2.2 ∧
      p.Wf ∧ p.Longest ∧ p.Fits ∧ p.ArgTexts vs ∧ p.Means vs bs body ∧ Shows pk (p.ns.getD ['/']) body ∧
      r ++ [pl] = .text p.text :: bs.map .binary) ∨
    (completes st m = none ∧ ((processEngineMessage cfg st reg m).res = .ok () →
      Waits (r ++ [pl]) (processEngineMessage cfg st reg m).st)) := by
  rcases hw with ⟨hn, rfl⟩ | ⟨p, vs, n, got, h, rfl⟩
  · unfold processEngineMessage completes
    rw [hn]
    simp only
    cases pl with
    | binary b => rw [deserialize_binary_eq hp]; exact .inr ⟨rfl, by simp⟩
    | text s =>
      have ho := deserialize_text_eq hp
      generalize deserialize m = d at ho
      cases ho with
      | packet p vs body pk h1 h2 h3 h4 h5 h6 h7 =>
        exact .inl ⟨pk, p, vs, [], body, rfl, hn, rfl, h1, h3, h4, h5, h6, h7, by rw [h2]; rfl⟩
      | needed p vs n q h1 h2 h3 h4 h5 =>
        refine .inr ⟨rfl, fun _ => .inr ⟨p, vs, n, [], ⟨⟨q, [], rfl, h5, .nil⟩, h2, h3, h4⟩, by rw [h1]; rfl⟩⟩
      | _ => exact .inr ⟨rfl, by simp⟩
  · by_cases hl : got.length + 1 < n
    · obtain ⟨h1, -⟩ := pending_more (cfg := cfg) (reg := reg) h hp hl
      refine .inr ⟨?_, fun _ => .inr ⟨p, vs, n, _, h1, rfl⟩⟩
      obtain ⟨q, ms, h2, h3, h4⟩ := h.ip
      have hlen : ms.length = got.length := payloads_length h4
      unfold completes
      rw [h2]
      simp only [partialAttachments, h3.att, h.att, Res.unwrap]
      rw [if_neg (by simp; omega)]
    · have hl : got.length + 1 = n := by have := h.lt; omega
      obtain ⟨q, ms, h2, h3, h4⟩ := h.ip
      have hlen : ms.length = got.length := payloads_length h4
      unfold processEngineMessage completes
      rw [h2]
      simp only [partialAttachments, h3.att, h.att, Res.unwrap]
      rw [if_pos (by simp; omega), if_pos (by simp; omega)]
      rcases deserializePartial_out h3 h.kind h.att (payloads_snoc h4 hp) with ⟨pre, t, post, g1, g2⟩ |
        ⟨bs, g1, ⟨g2, g3⟩ | ⟨_, _, _, g3⟩ | ⟨body, pk, g2, g3, g4⟩⟩
      · rw [g2]; exact .inr ⟨rfl, by simp⟩
      · rw [g3]; exact .inr ⟨rfl, by simp⟩
      · rw [g3]; exact .inr ⟨rfl, by simp⟩
      · rw [g4]
        exact .inl ⟨pk, p, vs, bs, body, rfl, rfl, rfl, h3.wf, h3.longest, h3.fits, h3.args, g2, g3, by rw [← g1]; rfl⟩

/-- A websocket message is an engine message, or it has none, or it is an error. -/
theorem ws_cases (cfg : RCfg) (st : RState) (reg : Callbacks) (w : Ws) :
    (∃ m pl dec, payload? w = some pl ∧ HasPayload m pl ∧ finishes st w = completes st m ∧
      processWs cfg st reg w = processEngineMessage cfg { st with decoder := dec } reg m) ∨
    (finishes st w = none ∧ ((payload? w = none ∧ (processWs cfg st reg w).st.inProgress = st.inProgress) ∨
      (processWs cfg st reg w).res ≠ .ok ())) := by
  by_cases hm : ∃ m, (decode st.decoder w).2 = .ok (.message m)
  · obtain ⟨m, hm⟩ := hm
    left
    have hd : decode st.decoder w = ((decode st.decoder w).1, .ok (.message m)) := Prod.ext rfl hm
    obtain ⟨pl, h1, h2⟩ := decode_message_payload hd
    refine ⟨m, pl, (decode st.decoder w).1, h1, h2, finishes_message hm, ?_⟩
    cases w with
    | text t => simp only [processWs, processMessage]; rw [hd]
    | binary t => simp only [processWs, processMessage]; rw [hd]
    | _ => simp [payload?] at h1
  · right
    have hf : finishes st w = none := by
      unfold finishes
      split
      · rename_i m h; exact absurd ⟨m, h⟩ hm
      · rfl
    refine ⟨hf, ?_⟩
    cases hp : payload? w with
    | none => exact .inl ⟨rfl, (processWs_other cfg st reg hp).1⟩
    | some pl =>
      right
      unfold payload? at hp
      split at hp
      · by_cases hc : st.decoder = .closed
        · simp [processWs, processMessage, decode, hc]
        · exact absurd ⟨_, by simp only [decode, hc, if_false, decodeText]; rfl⟩ hm
      · by_cases hc : st.decoder = .closed
        · simp [processWs, processMessage, decode, hc]
        · by_cases hi : st.decoder = .initial
          · simp [processWs, processMessage, decode, hi, decodeBinary]
          · exact absurd ⟨_, by simp [decode, hc, hi, decodeBinary]; rfl⟩ hm
      · simp at hp

/-- The lines of a packet. -/
theorem packetLines_info {cfg : RCfg} {pk : Packet} {p : Pkt} {vs : List Str} {bs : List Bytes} {body : Body} {x : Str} (h1 : p.Wf)
    (h2 : p.Longest) (h3 : p.Fits) (h4 : p.ArgTexts vs) (h5 : p.Means vs bs body) (h6 : Shows pk (p.ns.getD ['/']) body)
    (hx : pk.display cfg.ext.fin = .ok x) : InfoLines cfg.ext.fin (.text p.text :: bs.map .binary) (packetLines cfg pk) := by
  have hd := means_displays (argTexts_isVal h4) h5 h6 hx
  obtain ⟨h7, h8⟩ := h6
  unfold packetLines
  rw [hx]
  simp only
  cases body with
  | connect =>
    simp only at h8
    rw [h7, h8]
    cases hd
    have : bs = [] := by cases h5; assumption
    subst this
    exact .connect p vs h1 h2 h3 h4 h5
  | disconnect =>
    simp only at h8
    rw [h7, h8]
    cases hd
    have : bs = [] := by cases h5; assumption
    subst this
    exact .disconnect p vs h1 h2 h3 h4 h5
  | event id ws cs =>
    obtain ⟨A, h8, -⟩ := h8
    rw [h8]
    have := InfoLines.data p vs bs _ x h1 h2 h3 h4 h5 (by simp) (by simp) hd
    split <;> first | exact this | simp_all
  | ack id ws cs =>
    obtain ⟨A, h8, -⟩ := h8
    rw [h8]
    have := InfoLines.data p vs bs _ x h1 h2 h3 h4 h5 (by simp) (by simp) hd
    split <;> first | exact this | simp_all

/-- The lines of level `info`. -/
def infos (log : List Line) : List Line := log.filter (·.level = .info)

theorem infos_append (a b : List Line) : infos (a ++ b) = infos a ++ infos b := List.filter_append ..

theorem infos_none {a : List Line} (h : ∀ l ∈ a, l.level ≠ .info) : infos a = [] := by
  unfold infos
  rw [List.filter_eq_nil_iff]
  intro l hl
  simpa using h l hl

theorem packetLines_all (cfg : RCfg) (pk : Packet) : infos (packetLines cfg pk) = packetLines cfg pk := by
  unfold infos
  rw [List.filter_eq_self]
  intro l hl
  unfold packetLines at hl
  split at hl
  · rcases List.mem_cons.1 hl with rfl | hl
    · rfl
    · split at hl
      · rw [List.mem_singleton] at hl; subst hl; rfl
      · rw [List.mem_singleton] at hl; subst hl; rfl
      · simp at hl
  · simp at hl

theorem infos_recv (p : LogPrints) (cfg : RCfg) (s : Sys) (w : Ws) (c : Bool) :
    infos (actLines p cfg s (.recv w c)) = packetPart cfg s.rx w := by
  obtain ⟨a, h1, h2⟩ := recvLines_packet p cfg s w c
  rw [h2, infos_append, infos_none fun l hl => (h1 l hl).1]
  unfold packetPart
  split
  · exact packetLines_all cfg _
  · rfl

theorem infos_other (p : LogPrints) (cfg : RCfg) (s : Sys) (a : Act) (ha : ∀ w c, a ≠ .recv w c) : infos (actLines p cfg s a) = [] := by
  have send : ∀ g, infos (sendLines p.toPrints g) = [] := by intro g; cases g <;> rfl
  cases a with
  | recv w c => exact absurd rfl (ha w c)
  | openReady => simp only [actLines]; split <;> rfl
  | streamErr e => simp only [actLines]; split <;> rfl
  | streamEnd => simp only [actLines]; split <;> rfl
  | dequeue => simp only [actLines]; split; exact send _; rfl
  | write => simp only [actLines]; split; exact send _; rfl
  | _ => rfl

theorem step_inbox {cfg : RCfg} {s s' : Sys} {a : Act} {evs : List Ev} (h : step cfg s a = some (s', evs))
    (ha : ∀ w c, a ≠ .recv w c) : inbox evs = [] := by
  have hs := step_shows h
  cases a with
  | recv w c => exact absurd rfl (ha w c)
  | dequeue =>
    rcases hs.2 with ⟨g, q, _, rfl, _⟩ | ⟨_, h, _⟩
    · rfl
    · exact h.1
  | write => obtain ⟨w, rest, _, rfl, _⟩ := hs; rfl
  | seeClose => obtain ⟨_, rfl, _⟩ := hs; rfl
  | _ => exact hs.1.1

theorem recv_rx (cfg : RCfg) (s : Sys) (w : Ws) (c : Bool) : (s.recv cfg w c).1.rx = (processWs cfg s.rx s.reg w).st ∧
    ((s.recv cfg w c).1.task.over = false → (processWs cfg s.rx s.reg w).res = .ok ()) := by
  have h : ∀ effs (s : Sys), (s.effects effs).1.rx = s.rx := by
    intro effs
    induction effs with
    | nil => intro s; rfl
    | cons e effs ih =>
      intro s
      simp only [Sys.effects]
      rw [ih]
      cases e with
      | event ns name cb A ack => cases ack <;> rfl
      | enqueue g => simp only [Sys.effect, Sys.enqueue]; split <;> rfl
      | _ => rfl
  unfold Sys.recv
  simp only
  split
  · exact ⟨h _ _, by simp [Sys.finishTask, Sys.endTask, Task.over]⟩
  · split
    · exact ⟨h _ _, fun _ => by assumption⟩
    · exact ⟨h _ _, by simp [Sys.finishTask, Sys.endTask, Task.over]⟩
    · exact ⟨h _ _, by simp [Sys.finishTask, Sys.endTask, Task.over]⟩

/-- Other actions leave the receiver alone, and do not revive the task. -/
theorem step_rx {cfg : RCfg} {s s' : Sys} {a : Act} {evs : List Ev} (hp : PInv s) (h : step cfg s a = some (s', evs))
    (ha : ∀ w c, a ≠ .recv w c) : s'.rx = s.rx ∧ (s'.task.over = false → s.task.over = false) := by
  constructor
  · cases a with
    | recv w c => exact absurd rfl (ha w c)
    | _ =>
      simp only [step, Sys.enqueue, Sys.finishTask, Sys.endTask, Sys.failConnect, Sys.closeOver] at h
      repeat' split at h
      all_goals first
        | (simp at h; done)
        | (simp only [Option.some.injEq, Prod.mk.injEq] at h; obtain ⟨rfl, -⟩ := h; rfl)
        | skip
  · intro ho
    have hs := step_shows h
    cases a with
    | recv w c => exact absurd rfl (ha w c)
    | handshakeOk => rw [(hp.start hs.2.1).1]; rfl
    | dequeue => rw [hs.1]; rfl
    | write => obtain ⟨w, rest, h, _⟩ := hs; rw [h]; rfl
    | seeClose => rw [hs.1]; rfl
    | endGroup => rw [hs.2.1]; rfl
    | streamErr e => rcases hs.2.1 with h | h <;> rw [h] <;> rfl
    | streamEnd => rcases hs.2.1 with h | h <;> rw [h] <;> rfl
    | writeFail e => obtain ⟨w, rest, h⟩ := hs.2.1; rw [h]; rfl
    | dropTask => rw [hs.2.2] at ho; simp at ho
    | _ => rw [← hs.2]; exact ho

structure InfoInv (cfg : RCfg) (log : List Line) (tr : List Ev) (s : Sys) : Prop where
  ex : ∃ got r last, arrived tr = got ++ (r ++ last) ∧ InfoLog cfg.ext.fin got (infos log) ∧ Unfinished r ∧ last.length ≤ 1 ∧
    (s.task.over = false → last = [] ∧ Waits r s.rx)

theorem infoInv_recv (p : LogPrints) {cfg : RCfg} (hl : cfg.logInfo = true) {log : List Line} {s s' : Sys} {w : Ws} {c : Bool}
    {evs tr : List Ev} (hi : InfoInv cfg log tr s) (hs : step cfg s (.recv w c) = some (s', evs)) :
    InfoInv cfg (log ++ actLines p cfg s (.recv w c)) (tr ++ evs) s' := by
  obtain ⟨hr, ⟨rest, hevs, hst⟩, -⟩ := step_shows hs
  have hrecv : s.recv cfg w c = (s', evs) := by
    simp only [step] at hs
    split at hs
    · simpa using hs
    · simpa using hs
    · simp at hs
  obtain ⟨hrx, hok⟩ := recv_rx cfg s w c
  rw [hrecv] at hrx hok
  have hov : s.task.over = false := by rcases hr with h | h <;> rw [h] <;> rfl
  obtain ⟨got, r, last, h1, h2, h3, -, h5⟩ := hi.ex
  obtain ⟨rfl, hw⟩ := h5 hov
  rw [List.append_nil] at h1
  have harr : arrived evs = (payload? w).toList := by
    have : inbox evs = [w] := by rw [hevs]; have := hst.1; simpa [inbox] using this
    simp only [arrived, this, List.filterMap_cons, List.filterMap_nil]
    cases payload? w <;> rfl
  refine ⟨?_⟩
  rw [infos_append, infos_recv, arrived_append, harr, h1]
  rcases ws_cases cfg s.rx s.reg w with ⟨m, pl, dec, g1, g2, g3, g4⟩ | ⟨g1, g2⟩
  · rw [g1]
    have hw' : Waits r { s.rx with decoder := dec } := hw.congr rfl
    rcases waits_message (cfg := cfg) (reg := s.reg) hw' g2 with
      ⟨pk, q, vs, bs, body, k1, k2, k3, k4, k5, k6, k7, k8, k9, k10⟩ | ⟨k1, k2⟩
    · have k1 : completes s.rx m = some pk := k1
      have hpp : packetPart cfg s.rx w = packetLines cfg pk := by simp only [packetPart, g3, k1]
      rw [hpp]
      cases hx : pk.display cfg.ext.fin with
      | ok x =>
        have := packetLines_info k4 k5 k6 k7 k8 k9 hx
        refine ⟨got ++ (r ++ [pl]), [], [], by simp, ?_, .inl rfl, by simp, fun _ => ⟨rfl, .inl ⟨by rw [hrx, g4, k2], rfl⟩⟩⟩
        rw [k10]
        exact .snoc h2 this
      | err e => exact e.elim
      | panic =>
        refine ⟨got, r, [pl], by simp, ?_, h3, by simp, fun ho => ?_⟩
        · simp only [packetLines, hx, List.append_nil]; exact h2
        · exfalso
          have := hok ho
          rw [g4, k3] at this
          simp [processPacket, hl, hx] at this
    · have k1 : completes s.rx m = none := k1
      have hpp : packetPart cfg s.rx w = [] := by simp only [packetPart, g3, k1]
      rw [hpp, List.append_nil]
      by_cases ho : s'.task.over = false
      · have := k2 (by rw [← g4]; exact hok ho)
        exact ⟨got, r ++ [pl], [], by simp, h2, this.unfinished, by simp, fun _ => ⟨rfl, by rw [hrx, g4]; exact this⟩⟩
      · exact ⟨got, r, [pl], by simp, h2, h3, by simp, fun h => absurd h ho⟩
  · have hpp : packetPart cfg s.rx w = [] := by simp only [packetPart, g1]
    rw [hpp, List.append_nil]
    rcases g2 with ⟨g2, g3⟩ | g2
    · rw [g2]
      exact ⟨got, r, [], by simp, h2, h3, by simp, fun _ => ⟨rfl, by rw [hrx]; exact hw.congr g3⟩⟩
    · refine ⟨got, r, (payload? w).toList, by simp, h2, h3, ?_, fun ho => absurd (hok ho) g2⟩
      cases payload? w <;> simp

theorem infoInv {p : LogPrints} {cfg : RCfg} (hl : cfg.logInfo = true) {acts : List Act} {s : Sys} {tr : List Ev} (h : Runs cfg acts s tr) :
    InfoInv cfg (logOf p cfg acts) tr s := by
  refine sched_induct (P := fun acts tr s => InfoInv cfg (logOf p cfg acts) tr s)
    ⟨[], [], [], rfl, .nil, .inl rfl, by simp, fun _ => ⟨rfl, .inl ⟨rfl, rfl⟩⟩⟩ ?_ h
  intro acts tr s s' evs a hr hi hs
  rw [logOf_snoc p hr hs]
  by_cases ha : ∃ w c, a = .recv w c
  · obtain ⟨w, c, rfl⟩ := ha
    exact infoInv_recv p hl hi hs
  · have ha' : ∀ w c, a ≠ .recv w c := fun w c h => ha ⟨w, c, h⟩
    obtain ⟨h1, h2⟩ := step_rx (pinv hr) hs ha'
    obtain ⟨got, r, last, g1, g2, g3, g4, g5⟩ := hi.ex
    refine ⟨got, r, last, ?_, ?_, g3, g4, fun ho => ?_⟩
    · rw [arrived_append, g1]
      simp [arrived, step_inbox hs ha']
    · rw [infos_append, infos_other p cfg s a ha', List.append_nil]
      exact g2
    · rw [h1]
      exact g5 (h2 ho)

/-- C70: the log of level `info` tells of all packets, in the order of their arrival: one line for each, which shows it, and for connect
and disconnect packets a second one with the namespace.  The messages that arrived are those of the logged packets, followed by those of
a packet that is not yet complete, and by at most one more, at which the task ended. -/
theorem C70_info (p : LogPrints) (cfg : RCfg) (hl : cfg.logInfo = true) (acts : List Act) (s : Sys) (tr : List Ev) (h : Runs cfg acts s tr) :
    ∃ got r last, arrived tr = got ++ (r ++ last) ∧
      InfoLog cfg.ext.fin got ((logOf p cfg acts).filter (·.level = .info)) ∧ Unfinished r ∧ last.length ≤ 1 ∧
      (s.task.live = true → last = []) := by
  obtain ⟨got, r, last, h1, h2, h3, h4, h5⟩ := (infoInv (p := p) hl h).ex
  refine ⟨got, r, last, h1, h2, h3, h4, fun ho => (h5 ?_).1⟩
  cases ht : s.task <;> rw [ht] at ho <;> first | rfl | simp [Task.live] at ho

/-! ### One line for each record -/

mutual
theorem noNl_value {fin : Str → Bool} : ∀ v : Value, WfValue fin v → NoNl (render (ofValue v))
  | .null, _ => noNl_of_all (by decide)
  | .bool true, _ => noNl_of_all (by decide)
  | .bool false, _ => noNl_of_all (by decide)
  | .num (.pos n), _ => noNl_natDec n
  | .num (.neg n), _ => NoNl.cons (by decide) (noNl_natDec n)
  | .num (.float l), h => noNl_isNum h.1
  | .str s, _ => noNl_jsonStr s
  | .arr xs, h => NoNl.cons (by decide) (NoNl.append (noNl_values xs h) (noNl_of_all (by decide)))
  | .obj kvs, h => NoNl.cons (by decide) (NoNl.append (noNl_members kvs h.2) (noNl_of_all (by decide)))
theorem noNl_values {fin : Str → Bool} : ∀ xs : List Value, WfValueL fin xs → NoNl (renderElems (ofValues xs))
  | [], _ => noNl_nil
  | [x], h => noNl_value x h.1
  | x :: y :: xs, h => NoNl.append (noNl_value x h.1) (NoNl.cons (by decide) (noNl_values (y :: xs) h.2))
theorem noNl_members {fin : Str → Bool} : ∀ kvs : List (Str × Value), WfValueM fin kvs → NoNl (renderMembers (ofMembers kvs))
  | [], _ => noNl_nil
  | [(k, x)], h =>
    NoNl.cons (by decide) (NoNl.append (noNl_escape k) (NoNl.cons (by decide) (NoNl.cons (by decide) (noNl_value x h.1))))
  | (k, x) :: (k', y) :: kvs, h =>
    NoNl.cons (by decide) (NoNl.append (noNl_escape k) (NoNl.cons (by decide) (NoNl.cons (by decide)
      (NoNl.append (noNl_value x h.1) (NoNl.cons (by decide) (noNl_members ((k', y) :: kvs) h.2))))))
end

theorem noNl_displayArgs {fin : Str → Bool} {att : List (OwnedSubslice Bytes)} {bs : List Bytes}
    (hb : att.map OwnedSubslice.deref = bs.map some) (vs : List Str) :
    ∀ (first : Bool) (x : Str), displayArgs fin first (vs.map fun t => ⟨t, att⟩) = .ok x → NoNl x := by
  induction vs with
  | nil => intro first x h; simp [displayArgs] at h; rw [h]; exact noNl_nil
  | cons w vs ih =>
    intro first x h
    simp only [List.map_cons, displayArgs, bind, Res.bind] at h
    cases ha : Arg.display fin ⟨w, att⟩ with
    | err e => exact e.elim
    | panic => rw [ha] at h; simp at h
    | ok y =>
      rw [ha] at h
      simp only at h
      cases hd : displayArgs fin false (vs.map fun t => (⟨t, att⟩ : Arg)) with
      | err e => exact e.elim
      | panic => rw [hd] at h; simp at h
      | ok z =>
        rw [hd] at h
        simp only [pure, Res.ok.injEq] at h
        rw [← h]
        refine NoNl.append ?_ (NoNl.append ?_ (ih false z hd))
        · split <;> exact noNl_of_all (by decide)
        · unfold Arg.display at ha
          split at ha
          · rename_i v hv
            simp only [Res.ok.injEq] at ha
            rw [← ha]
            exact noNl_value v (toJsonValue_wf (a := ⟨w, att⟩) hb hv)
          · simp at ha

theorem noNl_argsDisplay {fin : Str → Bool} {A : Args} {vs : List Str} {bs : List Bytes} (hs : ArgsShow A vs bs) {x : Str}
    (h : A.display fin = .ok x) : NoNl x := by
  unfold Args.display at h
  rw [hs.iter] at h
  simp only [bind, Res.bind] at h
  split at h
  · rename_i y hy
    simp only [pure, Res.ok.injEq] at h
    rw [← h]
    exact NoNl.cons (by decide) (NoNl.append (noNl_displayArgs hs.atts vs true y hy) (noNl_of_all (by decide)))
  · rename_i e _; exact e.elim
  · simp at h

theorem noNl_line {t : Str} (h : ∀ c ∈ t, ¬ Control c) : NoNl t := by
  intro c hc he
  subst he
  exact h _ hc (Or.inl (by decide))

theorem noNl_packet {cfg : RCfg} {t : Str} {ms : List EMsg} {pk : Packet} (h : Decoded t ms pk) :
    ∀ l ∈ packetLines cfg pk, NoNl l.text := by
  obtain ⟨q, vs, bs, body, hwf, -, -, -, h6, -, h7, h8, h9⟩ := decoded_means h
  have hns : NoNl (q.ns.getD ['/']) := by
    cases hn : q.ns with
    | none => exact noNl_of_all (by decide)
    | some ns =>
      obtain ⟨c, cs, rfl, h1, h2⟩ := hwf.ns ns hn
      exact NoNl.cons (by decide) (NoNl.cons h1 h2)
  have hd : ∀ x, pk.display cfg.ext.fin = .ok x → NoNl x := by
    intro x hx
    cases h7 with
    | connect =>
      simp only at h9
      simp [Packet.display, h9, bind, Res.bind, Data.display] at hx
      subst hx
      exact noNl_of_all (by decide)
    | disconnect =>
      simp only at h9
      simp [Packet.display, h9, bind, Res.bind, Data.display] at hx
      subst hx
      exact noNl_of_all (by decide)
    | event =>
      obtain ⟨A, h, hs⟩ := h9
      simp only [Packet.display, h, bind, Res.bind, Data.display] at hx
      split at hx
      · rename_i y hy
        simp only [pure, Res.ok.injEq] at hx
        rw [← hx]
        refine NoNl.append (NoNl.append (NoNl.append (NoNl.append (noNl_of_all (by decide)) ?_) (noNl_of_all (by decide)))
          (noNl_argsDisplay hs hy)) (noNl_of_all (by decide))
        cases q.id with
        | none => exact noNl_of_all (by decide)
        | some i => exact NoNl.append (NoNl.append (noNl_of_all (by decide)) (noNl_natDec i)) (noNl_of_all (by decide))
      · rename_i e _; exact e.elim
      · simp at hx
    | ack i =>
      obtain ⟨A, h, hs⟩ := h9
      simp only [Packet.display, h, bind, Res.bind, Data.display] at hx
      split at hx
      · rename_i y hy
        simp only [pure, Res.ok.injEq] at hx
        rw [← hx]
        exact NoNl.append (NoNl.append (NoNl.append (NoNl.append (noNl_of_all (by decide)) (noNl_natDec i)) (noNl_of_all (by decide)))
          (noNl_argsDisplay hs hy)) (noNl_of_all (by decide))
      · rename_i e _; exact e.elim
      · simp at hx
  intro l hl
  unfold packetLines at hl
  split at hl
  · rename_i x hx
    rcases List.mem_cons.1 hl with rfl | hl
    · exact NoNl.append (noNl_of_all (by decide +kernel)) (hd x hx)
    · rw [h8] at hl
      split at hl
      · rename_i ns h _
        simp only [Res.ok.injEq] at h
        rw [List.mem_singleton] at hl
        subst hl
        exact NoNl.append (noNl_of_all (by decide +kernel)) (h ▸ hns)
      · rename_i ns h _
        simp only [Res.ok.injEq] at h
        rw [List.mem_singleton] at hl
        subst hl
        exact NoNl.append (noNl_of_all (by decide +kernel)) (h ▸ hns)
      · simp at hl
  · simp at hl

end SIO
