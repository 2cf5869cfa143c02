import Verif.Props.LogLine
/-
C70: what the log tells of engine.io packets.
-/
namespace SIO
open SIO.Spec

def wEng : Str := "Received message engine packet: ".toList
def wEngOpen : Str := "Received open engine packet: ".toList
def wFrame : Str := "Closed with close frame ".toList

/-- What an action logs of engine.io messages, open packets and close frames. -/
def engineSays (p : SIO.Prints) (st : RState) (w : Ws) : List Str × List Str × List Str :=
  match w with
  | .close => ([], [], [p.close])
  | _ =>
    match (decode st.decoder w).2 with
    | .ok (.opened o) => ([], [dbgOpen p o], [])
    | .ok (.message m) => ((dbgEMsg p m).toList, [], [])
    | _ => ([], [], [])

theorem packetLines_says (cfg : RCfg) (pk : Packet) : says wEng (packetLines cfg pk) = [] ∧ says wEngOpen (packetLines cfg pk) = [] ∧
    says wFrame (packetLines cfg pk) = [] :=
  ⟨says_nil (packetLines_heads cfg pk) (by decide +kernel), says_nil (packetLines_heads cfg pk) (by decide +kernel),
    says_nil (packetLines_heads cfg pk) (by decide +kernel)⟩

theorem fixed_says (t : Str) (h1 : says wEng [⟨.trace, t⟩] = []) (h2 : says wEngOpen [⟨.trace, t⟩] = []) (h3 : says wFrame [⟨.trace, t⟩] = []) :
    says wEng [⟨.trace, t⟩] = [] ∧ says wEngOpen [⟨.trace, t⟩] = [] ∧ says wFrame [⟨.trace, t⟩] = [] := ⟨h1, h2, h3⟩

theorem engineLines_says (p : SIO.Prints) (cfg : RCfg) (st : RState) (w : Ws) (ho : OInv st) (hc : ¬ IsControl w) :
    says wEng (engineLines p cfg st w) = (engineSays p st w).1 ∧ says wEngOpen (engineLines p cfg st w) = (engineSays p st w).2.1 ∧
    says wFrame (engineLines p cfg st w) = (engineSays p st w).2.2 := by
  have hes : engineSays p st w = match (decode st.decoder w).2 with
    | .ok (.opened o) => ([], [dbgOpen p o], [])
    | .ok (.message m) => ((dbgEMsg p m).toList, [], [])
    | _ => ([], [], []) := by
    cases w with
    | close => exact absurd (Or.inr (Or.inr rfl)) hc
    | _ => rfl
  rw [hes]
  unfold engineLines
  cases h : (decode st.decoder w).2 with
  | err e => exact ⟨rfl, rfl, rfl⟩
  | panic => exact ⟨rfl, rfl, rfl⟩
  | ok ep =>
    cases ep with
    | opened o =>
      simp only
      rw [if_pos (ho.2 (decode_opened h))]
      refine ⟨?_, ?_, ?_⟩
      · rw [says_cons, saidAfter_other (by decide +kernel)]; rfl
      · rw [says_cons]
        show (saidAfter wEngOpen ⟨.trace, wEngOpen ++ dbgOpen p o⟩).toList ++ _ = _
        rw [saidAfter_self]; rfl
      · rw [says_cons, saidAfter_other (by decide +kernel)]; rfl
    | message m =>
      simp only
      obtain ⟨t, ht⟩ := emsg_text p h
      unfold messageLines
      rw [ht]
      have hself : saidAfter wEng ⟨.trace, "Received message engine packet: ".toList ++ t⟩ = some t := saidAfter_self ..
      have ho : saidAfter wEngOpen ⟨.trace, "Received message engine packet: ".toList ++ t⟩ = none := saidAfter_other (by decide +kernel)
      have hf : saidAfter wFrame ⟨.trace, "Received message engine packet: ".toList ++ t⟩ = none := saidAfter_other (by decide +kernel)
      cases completes st m with
      | none => simp only [says_cons, hself, ho, hf]; exact ⟨rfl, rfl, rfl⟩
      | some pk =>
        obtain ⟨h1, h2, h3⟩ := packetLines_says cfg pk
        simp only [says_cons, hself, ho, hf, h1, h2, h3]
        exact ⟨rfl, rfl, rfl⟩
    | close => exact fixed_says "Received close engine packet".toList (by decide +kernel) (by decide +kernel) (by decide +kernel)
    | ping => exact fixed_says "Received engine ping packet".toList (by decide +kernel) (by decide +kernel) (by decide +kernel)
    | pong => exact fixed_says "Received engine ping packet".toList (by decide +kernel) (by decide +kernel) (by decide +kernel)

theorem wsLines_says (p : SIO.Prints) (cfg : RCfg) (st : RState) (w : Ws) (ho : OInv st) :
    says wEng (wsLines p cfg st w) = (engineSays p st w).1 ∧ says wEngOpen (wsLines p cfg st w) = (engineSays p st w).2.1 ∧
    says wFrame (wsLines p cfg st w) = (engineSays p st w).2.2 := by
  have n1 : ∀ x, saidAfter wEng ⟨.trace, "Received WebSocket packet: ".toList ++ x⟩ = none := fun x => saidAfter_other (by decide +kernel)
  have n2 : ∀ x, saidAfter wEngOpen ⟨.trace, "Received WebSocket packet: ".toList ++ x⟩ = none := fun x => saidAfter_other (by decide +kernel)
  have n3 : ∀ x, saidAfter wFrame ⟨.trace, "Received WebSocket packet: ".toList ++ x⟩ = none := fun x => saidAfter_other (by decide +kernel)
  have ctl : ∀ w', IsControl w' → w' ≠ .close → engineSays p st w' = ([], [], []) := by
    intro w' h hn
    unfold engineSays
    split
    · exact absurd rfl hn
    · split
      · rename_i h'; exact absurd h' (control_decode h _)
      · rename_i h'; exact absurd h' (control_decode h _)
      · rfl
  unfold wsLines
  rw [says_cons, says_cons, says_cons, n1, n2, n3]
  cases w with
  | text t => exact engineLines_says p cfg st (.text t) ho (by simp [IsControl])
  | binary t => exact engineLines_says p cfg st (.binary t) ho (by simp [IsControl])
  | ping b => rw [ctl _ (Or.inl ⟨b, rfl⟩) (by simp)]; exact ⟨rfl, rfl, rfl⟩
  | pong b => rw [ctl _ (Or.inr (Or.inl ⟨b, rfl⟩)) (by simp)]; exact ⟨rfl, rfl, rfl⟩
  | close =>
    refine ⟨?_, ?_, ?_⟩
    · simp only [says_cons]; rw [saidAfter_other (by decide +kernel)]; rfl
    · simp only [says_cons]; rw [saidAfter_other (by decide +kernel)]; rfl
    · simp only [says_cons]
      show _ ++ ((saidAfter wFrame ⟨.debug, wFrame ++ p.close⟩).toList ++ _) = _
      rw [saidAfter_self]; rfl

theorem recv_says (p : LogPrints) (cfg : RCfg) (s : Sys) (w : Ws) (c : Bool) (ho : OInv s.rx) :
    says wEng (actLines p cfg s (.recv w c)) = (engineSays p.toPrints s.rx w).1 ∧
    says wEngOpen (actLines p cfg s (.recv w c)) = (engineSays p.toPrints s.rx w).2.1 ∧
    says wFrame (actLines p cfg s (.recv w c)) = (engineSays p.toPrints s.rx w).2.2 := by
  obtain ⟨h1, h2, h3⟩ := wsLines_says p.toPrints cfg s.rx w ho
  simp only [actLines]
  split
  · refine ⟨?_, ?_, ?_⟩
    · rw [says_cons, h1, saidAfter_other (by decide +kernel)]; rfl
    · rw [says_cons, h2, saidAfter_other (by decide +kernel)]; rfl
    · rw [says_cons, h3, saidAfter_other (by decide +kernel)]; rfl
  · exact ⟨h1, h2, h3⟩

theorem other_says (p : LogPrints) (cfg : RCfg) (s : Sys) (a : Act) (ha : ∀ w c, a ≠ .recv w c) :
    says wEng (actLines p cfg s a) = [] ∧ says wEngOpen (actLines p cfg s a) = [] ∧ says wFrame (actLines p cfg s a) = [] :=
  ⟨says_nil (actLines_heads p cfg s a ha) (by decide +kernel), says_nil (actLines_heads p cfg s a ha) (by decide +kernel),
    says_nil (actLines_heads p cfg s a ha) (by decide +kernel)⟩

theorem openings_append (a b : List Ev) : openings (a ++ b) = openings a ++ openings b := List.filterMap_append ..

/-- The open packet of a message. -/
theorem effects_openings (effs : List Eff) : ∀ s : Sys, openings (s.effects effs).2 = effs.filterMap fun
    | .opened o => some o
    | _ => none := by
  induction effs with
  | nil => intro s; rfl
  | cons e effs ih =>
    intro s
    simp only [Sys.effects, openings_append, ih]
    cases e with
    | event ns name cb A ack => cases ack <;> rfl
    | enqueue g =>
      simp only [Sys.effect, List.filterMap_cons]
      rcases enqueue_events s .pong g with h | h <;> simp [h, openings]
    | _ => rfl

theorem recv_openings (cfg : RCfg) (s : Sys) (w : Ws) (c : Bool) : openings (s.recv cfg w c).2 =
    (processWs cfg s.rx s.reg w).effs.filterMap fun
      | .opened o => some o
      | _ => none := by
  rw [← effects_openings _ { s with rx := (processWs cfg s.rx s.reg w).st, reg := (processWs cfg s.rx s.reg w).reg }]
  have key : ∀ evs r, openings (.received w :: (evs ++ [.taskEnd r])) = openings evs := by
    intro evs r
    simp [openings]
  unfold Sys.recv
  simp only
  split
  · exact key _ _
  · split
    · rfl
    · exact key _ _
    · exact key _ _

theorem processPacket_openings (cfg : RCfg) (reg : Callbacks) (pk : Packet) : ∀ o, .opened o ∉ (processPacket cfg reg pk).2.1 := by
  intro o h
  obtain ⟨-, ⟨_, _, _, _, _, h, -⟩ | ⟨_, _, _, _, h, -⟩⟩ := call_packet h <;> simp at h

theorem ws_openings (p : SIO.Prints) (cfg : RCfg) (st : RState) (reg : Callbacks) (w : Ws) (ho : OInv st) :
    ((processWs cfg st reg w).effs.filterMap fun
      | .opened o => some o
      | _ => none).map (dbgOpen p) = (engineSays p st w).2.1 := by
  by_cases hc : IsControl w
  · have hp : (processWs cfg st reg w).effs = [] := by
      rw [control_ws hc]
    rw [hp]
    unfold engineSays
    split
    · rfl
    · split
      · rename_i h'; exact absurd h' (control_decode hc _)
      · rename_i h'; exact absurd h' (control_decode hc _)
      · rfl
  · have hes : engineSays p st w = match (decode st.decoder w).2 with
      | .ok (.opened o) => ([], [dbgOpen p o], [])
      | .ok (.message m) => ((dbgEMsg p m).toList, [], [])
      | _ => ([], [], []) := by
      cases w with
      | close => exact absurd (Or.inr (Or.inr rfl)) hc
      | _ => rfl
    rw [hes, data_ws hc]
    have hd := fun o => decode_opened (st := st.decoder) (w := w) (o := o)
    unfold processMessage
    generalize decode st.decoder w = d at hd ⊢
    obtain ⟨dec, r⟩ := d
    cases r with
    | err e => rfl
    | panic => rfl
    | ok ep =>
      cases ep with
      | opened o =>
        simp only
        rw [if_pos (ho.2 (hd _ rfl))]
        rfl
      | message m =>
        simp only
        rw [messageEffs_completes]
        cases completes { st with decoder := dec } m with
        | none => rfl
        | some pk =>
          simp only
          have : (processPacket cfg reg pk).2.1.filterMap (fun
              | .opened o => some o
              | _ => none) = ([] : List Open) := by
            rw [List.filterMap_eq_nil_iff]
            intro e he
            cases e with
            | opened o => exact absurd he (processPacket_openings cfg reg pk o)
            | _ => rfl
          rw [this]
          rfl
      | _ => rfl

theorem step_openings {cfg : RCfg} {s s' : Sys} {a : Act} {evs : List Ev} (h : step cfg s a = some (s', evs))
    (ha : ∀ w c, a ≠ .recv w c) : openings evs = [] := by
  cases a with
  | recv w c => exact absurd rfl (ha w c)
  | _ =>
    simp only [step, Sys.enqueue, Sys.finishTask, Sys.endTask, Sys.failConnect, Sys.closeOver] at h
    repeat' split at h
    all_goals first
      | (simp at h; done)
      | (simp only [Option.some.injEq, Prod.mk.injEq] at h; obtain ⟨-, rfl⟩ := h; rfl)

theorem step_recv {cfg : RCfg} {s s' : Sys} {w : Ws} {c : Bool} {evs : List Ev} (hs : step cfg s (.recv w c) = some (s', evs)) :
    s.recv cfg w c = (s', evs) := by
  simp only [step] at hs
  split at hs
  · simpa using hs
  · simpa using hs
  · simp at hs

/-- C70: the lines with `Received open engine packet: ` show the open packets handed to `connect`. -/
theorem C70_opened (p : LogPrints) (cfg : RCfg) (acts : List Act) (s : Sys) (tr : List Ev) (h : Runs cfg acts s tr) :
    says "Received open engine packet: ".toList (logOf p cfg acts) = (openings tr).map (openShown p.toPrints) := by
  rw [← funext (dbgOpen_text p.toPrints)]
  refine sched_induct (P := fun acts tr _ => says wEngOpen (logOf p cfg acts) = (openings tr).map (dbgOpen p.toPrints)) rfl ?_ h
  intro acts tr s s' evs a hr hi hs
  rw [logOf_snoc p hr hs, says_append, hi, openings_append, List.map_append]
  congr 1
  by_cases ha : ∃ w c, a = .recv w c
  · obtain ⟨w, c, rfl⟩ := ha
    have ho := oinv_runs hr (step_shows hs).1
    have : evs = (s.recv cfg w c).2 := by rw [step_recv hs]
    rw [(recv_says p cfg s w c ho).2.1, this, recv_openings, ws_openings p.toPrints cfg s.rx s.reg w ho]
  · have ha' : ∀ w c, a ≠ .recv w c := fun w c h => ha ⟨w, c, h⟩
    rw [(other_says p cfg s a ha').2.1, step_openings hs ha']
    rfl

/-- C70: a line `Closed with close frame ` for every close message received. -/
theorem C70_frame (p : LogPrints) (cfg : RCfg) (acts : List Act) (s : Sys) (tr : List Ev) (h : Runs cfg acts s tr) :
    says "Closed with close frame ".toList (logOf p cfg acts) = ((inbox tr).filter (· = .close)).map fun _ => p.close := by
  refine sched_induct (P := fun acts tr _ => says wFrame (logOf p cfg acts) = ((inbox tr).filter (· = .close)).map fun _ => p.close) rfl ?_ h
  intro acts tr s s' evs a hr hi hs
  rw [logOf_snoc p hr hs, says_append, hi, inbox_append, List.filter_append, List.map_append]
  congr 1
  by_cases ha : ∃ w c, a = .recv w c
  · obtain ⟨w, c, rfl⟩ := ha
    obtain ⟨hrd, ⟨rest, rfl, hst⟩, -⟩ := step_shows hs
    have hin : inbox (.received w :: rest) = [w] := by have := hst.1; simpa [inbox] using this
    rw [(recv_says p cfg s w c (oinv_runs hr hrd)).2.2, hin]
    unfold engineSays
    cases w with
    | close => rfl
    | _ =>
      simp only
      split <;> rfl
  · have ha' : ∀ w c, a ≠ .recv w c := fun w c h => ha ⟨w, c, h⟩
    rw [(other_says p cfg s a ha').2.2, step_inbox hs ha']
    rfl

theorem emsg_payload (p : SIO.Prints) {m : EMsg} {pl : Payload} (h : HasPayload m pl) : dbgEMsg p m = some (payloadText p pl) := by
  cases m with
  | text t =>
    cases pl with
    | text s =>
      have h : t.deref = some s := h
      show t.deref.map _ = _
      rw [h]
      rfl
    | binary b => exact h.elim
  | binary t =>
    cases pl with
    | binary s =>
      have h : t.deref = some s := h
      show t.deref.map _ = _
      rw [h]
      rfl
    | text b => exact h.elim

theorem payload_kind {w : Ws} {pl : Payload} (h : payload? w = some pl) : kindOf w = some "message".toList := by
  unfold payload? at h
  split at h
  · rfl
  · rfl
  · simp at h

theorem kindWord_message {ep : EPacket} (h : kindWord ep = "message".toList) : ∃ m, ep = .message m := by
  cases ep with
  | message m => exact ⟨m, rfl⟩
  | opened o => exact absurd (show "open".toList = "message".toList from h) (by decide +kernel)
  | close => exact absurd h (by decide +kernel)
  | ping => exact absurd h (by decide +kernel)
  | pong => exact absurd h (by decide +kernel)

/-- A websocket message with an engine.io message is refused, or the decoder hands out the message. -/
theorem payload_decode {st : EState} {w : Ws} {pl : Payload} (h : payload? w = some pl) :
    (∃ m, (decode st w).2 = .ok (.message m)) ∨ ∀ ep, (decode st w).2 ≠ .ok ep := by
  by_cases he : ∃ ep, (decode st w).2 = .ok ep
  · obtain ⟨ep, he⟩ := he
    have := decode_kind he
    rw [payload_kind h] at this
    obtain ⟨m, rfl⟩ := kindWord_message (Option.some.inj this).symm
    exact .inl ⟨m, he⟩
  · exact .inr fun ep h => he ⟨ep, h⟩

theorem refused_ws {cfg : RCfg} {st : RState} {reg : Callbacks} {w : Ws} (hc : ¬ IsControl w)
    (h : ∀ ep, (decode st.decoder w).2 ≠ .ok ep) : (processWs cfg st reg w).res ≠ .ok () := by
  rw [data_ws hc]
  unfold processMessage
  generalize decode st.decoder w = d at h ⊢
  obtain ⟨dec, r⟩ := d
  cases r with
  | err e => simp
  | panic => simp
  | ok ep => exact absurd rfl (h ep)

/-- What is logged of the engine.io message of a websocket message. -/
theorem message_says (p : SIO.Prints) (cfg : RCfg) (st : RState) (reg : Callbacks) (w : Ws) :
    (engineSays p st w).1 = (payload? w).toList.map (payloadText p) ∨
    ((engineSays p st w).1 = [] ∧ (processWs cfg st reg w).res ≠ .ok ()) := by
  cases hp : payload? w with
  | none =>
    left
    unfold engineSays
    split
    · rfl
    · split
      · rfl
      · rename_i m hm
        obtain ⟨pl, h1, -⟩ := decode_message_payload (show decode st.decoder w = ((decode st.decoder w).1, .ok (.message m)) from Prod.ext rfl hm)
        rw [hp] at h1
        simp at h1
      · rfl
  | some pl =>
    have hc : w ≠ .close := by rintro rfl; simp [payload?] at hp
    by_cases hm : ∃ m, (decode st.decoder w).2 = .ok (.message m)
    · left
      obtain ⟨m, hm⟩ := hm
      obtain ⟨pl', h1, h2⟩ := decode_message_payload (show decode st.decoder w = ((decode st.decoder w).1, .ok (.message m)) from Prod.ext rfl hm)
      rw [hp] at h1
      simp only [Option.some.injEq] at h1
      subst h1
      unfold engineSays
      split
      · exact absurd rfl hc
      · rw [hm]
        simp only [emsg_payload p h2]
        rfl
    · right
      have hr : ∀ ep, (decode st.decoder w).2 ≠ .ok ep := (payload_decode hp).resolve_left hm
      refine ⟨?_, refused_ws (by rintro (⟨b, rfl⟩ | ⟨b, rfl⟩ | rfl) <;> simp [payload?] at hp) hr⟩
      unfold engineSays
      split
      · exact absurd rfl hc
      · split
        · rename_i h; exact absurd h (hr _)
        · rename_i h; exact absurd h (hr _)
        · rfl

/-- C70: the lines with `Received message engine packet: ` show the engine.io messages that arrived, in order; missing can only be the last,
if it is the one at which the task ended. -/
theorem C70_message (p : LogPrints) (cfg : RCfg) (acts : List Act) (s : Sys) (tr : List Ev) (h : Runs cfg acts s tr) :
    ∃ got last, arrived tr = got ++ last ∧ says "Received message engine packet: ".toList (logOf p cfg acts) = got.map (payloadText p.toPrints) ∧
      last.length ≤ 1 ∧ (s.task.live = true → last = []) := by
  have key : ∃ got last, arrived tr = got ++ last ∧ says wEng (logOf p cfg acts) = got.map (payloadText p.toPrints) ∧
      last.length ≤ 1 ∧ (s.task.over = false → last = []) := by
    refine sched_induct (P := fun acts tr s => ∃ got last, arrived tr = got ++ last ∧
      says wEng (logOf p cfg acts) = got.map (payloadText p.toPrints) ∧ last.length ≤ 1 ∧ (s.task.over = false → last = []))
      ⟨[], [], rfl, rfl, by simp, fun _ => rfl⟩ ?_ h
    intro acts tr s s' evs a hr hi hs
    obtain ⟨got, last, h1, h2, h3, h4⟩ := hi
    rw [logOf_snoc p hr hs, says_append, h2, arrived_append, h1]
    by_cases ha : ∃ w c, a = .recv w c
    · obtain ⟨w, c, rfl⟩ := ha
      obtain ⟨hrd, ⟨rest, hevs, hst⟩, -⟩ := step_shows hs
      have hin : arrived evs = (payload? w).toList := by
        have : inbox evs = [w] := by rw [hevs]; have := hst.1; simpa [inbox] using this
        simp only [arrived, this, List.filterMap_cons, List.filterMap_nil]
        cases payload? w <;> rfl
      have hov : s.task.over = false := by rcases hrd with h | h <;> rw [h] <;> rfl
      rw [h4 hov, List.append_nil, (recv_says p cfg s w c (oinv_runs hr hrd)).1, hin]
      rcases message_says p.toPrints cfg s.rx s.reg w with hm | ⟨hm, hn⟩
      · rw [hm]
        exact ⟨got ++ (payload? w).toList, [], by simp, by simp, by simp, fun _ => rfl⟩
      · rw [hm]
        refine ⟨got, (payload? w).toList, by simp, by simp, by cases payload? w <;> simp, fun ho => absurd ?_ hn⟩
        have := (recv_rx cfg s w c).2
        rw [step_recv hs] at this
        exact this ho
    · have ha' : ∀ w c, a ≠ .recv w c := fun w c h => ha ⟨w, c, h⟩
      rw [(other_says p cfg s a ha').1]
      have hin : arrived evs = [] := by simp [arrived, step_inbox hs ha']
      rw [hin]
      exact ⟨got, last, by simp, by simp, h3, fun ho => h4 ((step_rx (pinv hr) hs ha').2 ho)⟩
  obtain ⟨got, last, h1, h2, h3, h4⟩ := key
  refine ⟨got, last, h1, h2, h3, fun ho => h4 ?_⟩
  cases ht : s.task <;> rw [ht] at ho <;> first | rfl | simp [Task.live] at ho

-- non-vacuity of `C70_opened`, `C70_frame` and `C70_message`
example : says "Received open engine packet: ".toList (logOf logPrints logCfg logActs) =
    ["Open { sid: \"x\", ping_timeout: 5, ping_interval: 6 }".toList] := by decide +kernel
example : says "Closed with close frame ".toList (logOf logPrints logCfg logActs) = ["None".toList] := by decide +kernel
example : says "Received message engine packet: ".toList (logOf logPrints logCfg logActs) =
    ["Text(\"0/a\\r,\")".toList, "Text(\"2[\\\"hi\\\",1]\")".toList, "Text(\"51-[\\\"b\\\",{\\\"_placeholder\\\":true,\\\"num\\\":0}]\")".toList,
     "Binary([9])".toList, "Text(\"51-[\\\"c\\\"]\")".toList] := by decide +kernel

end SIO
