import Verif.Props.LogEngine
/-
C70: the order of the lines, their levels, and the errors of the websocket.
-/
namespace SIO
open SIO.Spec

/-! ### The error that ended the task -/

theorem recv_noWs (cfg : RCfg) (s : Sys) (w : Ws) (p : Bool) (e : Nat) : .taskEnd (.err (.websocket e)) ∉ (s.recv cfg w p).2 := by
  have h := fun r => effects_noEnd (processWs cfg s.rx s.reg w).effs
    { s with rx := (processWs cfg s.rx s.reg w).st, reg := (processWs cfg s.rx s.reg w).reg } r
  unfold Sys.recv
  simp only
  split
  · simp [h, Sys.finishTask]
  · split <;> simp [h, Sys.finishTask]

theorem step_endWs {cfg : RCfg} {s s' : Sys} {a : Act} {evs : List Ev} {e : Nat} (h : step cfg s a = some (s', evs))
    (he : .taskEnd (.err (.websocket e)) ∈ evs) : a = .streamErr e ∨ (∃ w, .writeFailed w ∈ evs) := by
  cases a with
  | recv w p =>
    exfalso
    simp only [step] at h
    split at h
    · simp only [Option.some.injEq] at h; exact recv_noWs cfg s w p e (by rw [h]; exact he)
    · simp only [Option.some.injEq] at h; exact recv_noWs cfg s w p e (by rw [h]; exact he)
    · simp at h
  | rawSend g => simp only [step, Sys.enqueue] at h; grind
  | emitEnqueue => simp only [step, Sys.enqueue] at h; grind
  | reply x b args => simp only [step, Sys.enqueue] at h; grind
  | streamErr e' =>
    left
    simp only [step, Sys.finishTask] at h
    grind
  | writeFail e' =>
    right
    simp only [step, Sys.finishTask] at h
    split at h
    · simp only [Option.some.injEq, Prod.mk.injEq] at h
      rw [← h.2]
      exact ⟨_, List.mem_cons_self ..⟩
    · simp at h
  | _ =>
    exfalso
    simp only [step, Sys.finishTask, Sys.endTask, Sys.failConnect, Sys.closeOver] at h
    grind

/-- C70: a websocket error that ended the task is logged, once, unless the task had seen the request to close or the error came from a write. -/
theorem C70_failed (p : LogPrints) (cfg : RCfg) (acts : List Act) (s : Sys) (tr : List Ev) (h : Runs cfg acts s tr) (e : Nat)
    (he : .taskEnd (.err (.websocket e)) ∈ tr) (hc : .closeSeen ∉ tr) (hw : ∀ w, .writeFailed w ∉ tr) :
    says "received message: Err(".toList (logOf p cfg acts) = [p.websocketDebug e ++ ")".toList] := by
  have key : .taskEnd (.err (.websocket e)) ∈ tr → .closeSeen ∈ tr ∨ (∃ w, .writeFailed w ∈ tr) ∨
      says wErr (logOf p cfg acts) = [p.websocketDebug e ++ ")".toList] := by
    refine sched_induct (P := fun acts tr _ => .taskEnd (.err (.websocket e)) ∈ tr → .closeSeen ∈ tr ∨ (∃ w, .writeFailed w ∈ tr) ∨
      says wErr (logOf p cfg acts) = [p.websocketDebug e ++ ")".toList]) (by simp) ?_ h
    intro acts tr s s' evs a hr hi hs hm
    obtain ⟨-, c2, -⟩ := connSays p cfg s a
    rw [logOf_snoc p hr hs, says_append, c2]
    have hri := readInv p hr
    rcases List.mem_append.1 hm with hm | hm
    · rcases hi hm with h1 | ⟨w, h1⟩ | h1
      · exact .inl (List.mem_append_left _ h1)
      · exact .inr (.inl ⟨w, List.mem_append_left _ h1⟩)
      · have hd : s.task = .done (.err (.websocket e)) := by
          obtain ⟨x, y, hxy⟩ := mem_split hm
          exact ((einv hr).after _ _ _ hxy (Or.inl ⟨_, rfl⟩)).1
        right; right
        rw [h1]
        have : errOf p s a = [] := by
          unfold errOf
          split
          · rw [hd]; rfl
          · rfl
        rw [this]
        rfl
    · rcases step_endWs hs hm with rfl | ⟨w, h1⟩
      · obtain ⟨hst, ht, ho⟩ := step_shows hs
        rcases ht with ht | ht
        · right; right
          have herr : says wErr (logOf p cfg acts) = [] := by
            rcases hri.err with h1 | ⟨h1, -⟩
            · exact h1
            · rw [ht] at h1; simp [Task.over] at h1
          rw [herr, errOf, ht]
          rfl
        · exact .inl (List.mem_append_left _ (hri.closing ht))
      · exact .inr (.inl ⟨w, List.mem_append_right _ h1⟩)
  rcases key he with h1 | ⟨w, h1⟩ | h1
  · exact absurd h1 hc
  · exact absurd h1 (hw w)
  · exact h1

/-! ### The order -/

theorem packetLines_level (cfg : RCfg) (pk : Packet) : ∀ l ∈ packetLines cfg pk, l.level = .info := by
  intro l hl
  unfold packetLines at hl
  split at hl
  · rcases List.mem_cons.1 hl with rfl | hl
    · rfl
    · split at hl
      · rw [List.mem_singleton.1 hl]
      · rw [List.mem_singleton.1 hl]
      · simp at hl
  · simp at hl

/-- Nothing, or one line about the engine.io packet or the close frame, and after it the lines about a socket.io packet. -/
def Layered (ls : List Line) : Prop := ls = [] ∨ ∃ l packet, ls = l :: packet ∧ l.level ≠ .info ∧ ∀ x ∈ packet, x.level = .info

theorem engineLines_layered (p : SIO.Prints) (cfg : RCfg) (st : RState) (w : Ws) (ho : OInv st) : Layered (engineLines p cfg st w) := by
  unfold engineLines
  split
  · rename_i o h
    rw [if_pos (ho.2 (decode_opened h))]
    exact .inr ⟨_, _, rfl, by simp, by simp⟩
  · exact .inr ⟨_, _, rfl, by simp, by simp⟩
  · exact .inr ⟨_, _, rfl, by simp, by simp⟩
  · exact .inr ⟨_, _, rfl, by simp, by simp⟩
  · unfold messageLines
    split
    · split
      · exact .inr ⟨_, _, rfl, by simp, packetLines_level cfg _⟩
      · exact .inr ⟨_, _, rfl, by simp, by simp⟩
    · exact .inl rfl
  · exact .inl rfl

/-- C70: what a received message adds to the log: the line of the loop, unless the task is closing, the line with the websocket message,
a line about what is in it, and the lines about the packet that is complete with it, in this order. -/
theorem C70_order (p : LogPrints) (cfg : RCfg) (acts : List Act) (s s' : Sys) (tr evs : List Ev) (h : Runs cfg acts s tr) (w : Ws) (c : Bool)
    (hs : step cfg s (.recv w c) = some (s', evs)) : ∃ loop rest,
      logOf p cfg (acts ++ [.recv w c]) = logOf p cfg acts ++ loop ++ ⟨.trace, "Received WebSocket packet: ".toList ++ dbgWs p.toPrints w⟩ :: rest ∧
      (.closeSeen ∈ tr → loop = []) ∧
      (.closeSeen ∉ tr → loop = [⟨.trace, "received message: Ok(".toList ++ dbgWs p.toPrints w ++ ")".toList⟩]) ∧
      (rest = [] ∨ ∃ l packet, rest = l :: packet ∧ l.level ≠ .info ∧ ∀ x ∈ packet, x.level = .info) := by
  have ht := (step_shows hs).1
  have ho := oinv_runs h ht
  have hri := readInv p h
  have hrest : ∃ rest, wsLines p.toPrints cfg s.rx w = ⟨.trace, "Received WebSocket packet: ".toList ++ dbgWs p.toPrints w⟩ :: rest ∧ Layered rest := by
    unfold wsLines
    refine ⟨_, rfl, ?_⟩
    split
    · exact .inr ⟨_, _, rfl, by simp, by simp⟩
    · exact .inl rfl
    · exact .inl rfl
    · exact engineLines_layered p.toPrints cfg s.rx _ ho
    · exact engineLines_layered p.toPrints cfg s.rx _ ho
  obtain ⟨rest, h1, h2⟩ := hrest
  rw [logOf_snoc p h hs]
  rcases ht with ht | ht
  · have hc := hri.before (by rw [ht]; rfl) (by rw [ht]; simp)
    refine ⟨[⟨.trace, "received message: Ok(".toList ++ dbgWs p.toPrints w ++ ")".toList⟩], rest, ?_, fun h => absurd h hc, fun _ => rfl, h2⟩
    simp only [actLines, ht, h1, List.append_assoc]
    rfl
  · have hc := hri.closing ht
    refine ⟨[], rest, ?_, fun _ => rfl, fun h => absurd hc h, h2⟩
    simp only [actLines, ht, h1, List.append_nil]

/-! ### The levels -/

/-- The words and a beginning of a line agree in nothing, or are both there. -/
def Settled (a : Str) : Prop :=
  ∀ w ∈ infoWords ++ debugWords, w.isPrefixOf a = true ∨ a.take w.length ≠ w.take a.length

instance (a : Str) : Decidable (Settled a) := inferInstanceAs (Decidable (∀ w ∈ infoWords ++ debugWords, _))

theorem levelOf_append {a : Str} (x : Str) (h : Settled a) : levelOf (a ++ x) = levelOf a := by
  have hp : ∀ w ∈ infoWords ++ debugWords, w.isPrefixOf (a ++ x) = w.isPrefixOf a := by
    intro w hw
    rcases h w hw with h1 | h1
    · rw [h1]
      rw [List.isPrefixOf_iff_prefix] at h1 ⊢
      exact h1.trans (List.prefix_append _ _)
    · have key : ∀ y, w.isPrefixOf (a ++ y) = false := by
        intro y
        rw [Bool.eq_false_iff]
        intro hp
        rw [List.isPrefixOf_iff_prefix] at hp
        obtain ⟨z, hz⟩ := hp
        exact h1 (heads hz.symm)
      have := key []
      rw [List.append_nil] at this
      rw [key x, this]
  unfold levelOf
  have h1 : infoWords.any (·.isPrefixOf (a ++ x)) = infoWords.any (·.isPrefixOf a) := by
    rw [Bool.eq_iff_iff]
    simp only [List.any_eq_true]
    exact ⟨fun ⟨w, hw, h⟩ => ⟨w, hw, (hp w (List.mem_append_left _ hw)) ▸ h⟩, fun ⟨w, hw, h⟩ => ⟨w, hw, (hp w (List.mem_append_left _ hw)).symm ▸ h⟩⟩
  have h2 : debugWords.any (·.isPrefixOf (a ++ x)) = debugWords.any (·.isPrefixOf a) := by
    rw [Bool.eq_iff_iff]
    simp only [List.any_eq_true]
    exact ⟨fun ⟨w, hw, h⟩ => ⟨w, hw, (hp w (List.mem_append_right _ hw)) ▸ h⟩, fun ⟨w, hw, h⟩ => ⟨w, hw, (hp w (List.mem_append_right _ hw)).symm ▸ h⟩⟩
  rw [h1, h2]

def Leveled (l : Line) : Prop := l.level = levelOf l.text

theorem leveled {a : Str} {lv : Level} (x : Str) (h : Settled a ∧ levelOf a = lv) : Leveled ⟨lv, a ++ x⟩ := by
  show lv = levelOf (a ++ x)
  rw [levelOf_append x h.1, h.2]

def AllLeveled (ls : List Line) : Prop := ∀ l ∈ ls, Leveled l

theorem leveled_nil : AllLeveled [] := by simp [AllLeveled]

theorem leveled_cons {l : Line} {ls : List Line} (h : Leveled l) (hs : AllLeveled ls) : AllLeveled (l :: ls) :=
  fun x hx => (List.mem_cons.1 hx).elim (fun h' => h'.symm ▸ h) (hs x)

theorem packetLines_leveled (cfg : RCfg) (pk : Packet) : AllLeveled (packetLines cfg pk) := by
  unfold packetLines
  split
  · refine leveled_cons (leveled _ (by decide +kernel)) ?_
    split
    · exact leveled_cons (leveled _ (by decide +kernel)) leveled_nil
    · exact leveled_cons (leveled _ (by decide +kernel)) leveled_nil
    · exact leveled_nil
  · exact leveled_nil

theorem engineLines_leveled (p : SIO.Prints) (cfg : RCfg) (st : RState) (w : Ws) (ho : OInv st) : AllLeveled (engineLines p cfg st w) := by
  unfold engineLines
  split
  · rename_i o h
    rw [if_pos (ho.2 (decode_opened h))]
    exact leveled_cons (leveled _ (by decide +kernel)) leveled_nil
  · exact leveled_cons (by show Level.trace = levelOf "Received close engine packet".toList; decide +kernel) leveled_nil
  · exact leveled_cons (by show Level.trace = levelOf "Received engine ping packet".toList; decide +kernel) leveled_nil
  · exact leveled_cons (by show Level.trace = levelOf "Received engine ping packet".toList; decide +kernel) leveled_nil
  · unfold messageLines
    split
    · refine leveled_cons (leveled _ (by decide +kernel)) ?_
      split
      · exact packetLines_leveled cfg _
      · exact leveled_nil
    · exact leveled_nil
  · exact leveled_nil

theorem wsLines_leveled (p : SIO.Prints) (cfg : RCfg) (st : RState) (w : Ws) (ho : OInv st) : AllLeveled (wsLines p cfg st w) := by
  unfold wsLines
  refine leveled_cons (leveled _ (by decide +kernel)) ?_
  split
  · exact leveled_cons (leveled _ (by decide +kernel)) leveled_nil
  · exact leveled_nil
  · exact leveled_nil
  · exact engineLines_leveled p cfg st _ ho
  · exact engineLines_leveled p cfg st _ ho

theorem sendLines_leveled (p : SIO.Prints) (g : List Ws) : AllLeveled (sendLines p g) := by
  unfold sendLines
  split
  · exact leveled_nil
  · exact leveled_cons (leveled _ (by decide +kernel)) leveled_nil

/-- C70: the lines about socket.io packets are at level info, those about the close of the websocket at level debug, all others at level trace. -/
theorem C70_level (p : LogPrints) (cfg : RCfg) (acts : List Act) (s : Sys) (tr : List Ev) (h : Runs cfg acts s tr) :
    ∀ l ∈ logOf p cfg acts, l.level = levelOf l.text := by
  refine sched_induct (P := fun acts _ _ => ∀ l ∈ logOf p cfg acts, Leveled l) (by simp [logOf, execLines]) ?_ h
  intro acts tr s s' evs a hr hi hs l hl
  rw [logOf_snoc p hr hs] at hl
  refine (List.mem_append.1 hl).elim (hi l) fun hl => ?_
  revert l
  suffices AllLeveled (actLines p cfg s a) from fun l _ hl => this l hl
  clear hi
  cases a with
  | recv w c =>
    have ho := oinv_runs hr (step_shows hs).1
    simp only [actLines]
    split
    · exact leveled_cons (leveled _ (by decide +kernel)) (wsLines_leveled _ cfg _ w ho)
    · exact wsLines_leveled _ cfg _ w ho
  | openReady =>
    simp only [actLines]
    split
    · exact leveled_cons (leveled _ (by decide +kernel)) leveled_nil
    · exact leveled_nil
  | streamErr e =>
    simp only [actLines]
    split
    · exact leveled_cons (leveled _ (by decide +kernel)) leveled_nil
    · exact leveled_nil
  | streamEnd =>
    simp only [actLines]
    split
    · exact leveled_cons (by show Level.trace = levelOf "got None, stream ended".toList; decide +kernel) leveled_nil
    · exact leveled_nil
  | dequeue =>
    simp only [actLines]
    split
    · exact sendLines_leveled _ _
    · exact leveled_nil
  | write =>
    simp only [actLines]
    split
    · exact sendLines_leveled _ _
    · exact leveled_nil
  | seeClose =>
    exact leveled_cons (by show Level.debug = levelOf "Sending close message".toList; decide +kernel) leveled_nil
  | _ => exact leveled_nil

-- non-vacuity of `C70_level`, `C70_order` and `C70_failed`
example : (logOf logPrints logCfg logActs).map (fun l => levelOf l.text) = (logOf logPrints logCfg logActs).map (·.level) ∧
    .info ∈ (logOf logPrints logCfg logActs).map (·.level) ∧ .debug ∈ (logOf logPrints logCfg logActs).map (·.level) := by decide +kernel
example : logOf logPrints logCfg [.handshakeOk, .recv (.text "40/a,".toList) false] =
    [⟨.trace, "received message: Ok(Text(\"40/a,\"))".toList⟩, ⟨.trace, "Received WebSocket packet: Text(\"40/a,\")".toList⟩,
     ⟨.trace, "Received message engine packet: Text(\"0/a,\")".toList⟩, ⟨.info, "Received socket packet: Connect".toList⟩,
     ⟨.info, "Received connect for /a".toList⟩] := by decide +kernel
example : says "received message: Err(".toList (logOf logPrints logCfg [.handshakeOk, .streamErr 3]) = [logPrints.websocketDebug 3 ++ ")".toList] := by
  decide +kernel

end SIO
