import Verif.Props.LogPacket
/-
C70, C71: lines, warnings, and what logging changes.
-/
namespace SIO
open SIO.Spec

theorem noNl_ws (p : Prints) (hc : NoNl p.close) (w : Ws) : NoNl (dbgWs p w) := by
  have h1 : ∀ s, NoNl (dbgStr p s) := fun s => noNl_line (dbgStr_line p s)
  have h2 : ∀ s, NoNl (dbgBytes s) := fun s => noNl_line (dbgBytes_line s)
  have h3 : NoNl p.close := hc
  cases w <;> exact NoNl.append (NoNl.append (noNl_of_all (by decide +kernel)) (by first | exact h1 _ | exact h2 _ | exact h3))
    (noNl_of_all (by decide +kernel))

theorem noNl_open (p : Prints) (o : Open) : NoNl (dbgOpen p o) :=
  NoNl.append (NoNl.append (NoNl.append (NoNl.append (NoNl.append (NoNl.append (noNl_of_all (by decide +kernel)) (noNl_line (dbgStr_line p _)))
    (noNl_of_all (by decide +kernel))) (noNl_natDec _)) (noNl_of_all (by decide +kernel))) (noNl_natDec _)) (noNl_of_all (by decide +kernel))

theorem noNl_emsg (p : Prints) (m : EMsg) (t : Str) (h : dbgEMsg p m = some t) : NoNl t := by
  cases m with
  | text x =>
    obtain ⟨s, -, rfl⟩ := Option.map_eq_some_iff.1 h
    exact NoNl.append (NoNl.append (noNl_of_all (by decide +kernel)) (noNl_line (dbgStr_line p _))) (noNl_of_all (by decide +kernel))
  | binary x =>
    obtain ⟨s, -, rfl⟩ := Option.map_eq_some_iff.1 h
    exact NoNl.append (NoNl.append (noNl_of_all (by decide +kernel)) (noNl_line (dbgBytes_line _))) (noNl_of_all (by decide +kernel))

theorem noNl_engine {p : Prints} {cfg : RCfg} {st : RState} {hist : List Payload} (hi : HInv hist st) (w : Ws) :
    ∀ l ∈ engineLines p cfg st w, NoNl l.text := by
  intro l hl
  unfold engineLines at hl
  split at hl
  · rcases List.mem_cons.1 hl with rfl | hl
    · exact NoNl.append (noNl_of_all (by decide +kernel)) (noNl_open p _)
    · split at hl
      · simp at hl
      · rw [List.mem_singleton] at hl; subst hl; exact NoNl.append (noNl_of_all (by decide +kernel)) (noNl_open p _)
  · rw [List.mem_singleton] at hl; subst hl; exact noNl_of_all (by decide +kernel)
  · rw [List.mem_singleton] at hl; subst hl; exact noNl_of_all (by decide +kernel)
  · rw [List.mem_singleton] at hl; subst hl; exact noNl_of_all (by decide +kernel)
  · rename_i m hm
    unfold messageLines at hl
    split at hl
    · rename_i t ht
      rcases List.mem_cons.1 hl with rfl | hl
      · exact NoNl.append (noNl_of_all (by decide +kernel)) (noNl_emsg p m t ht)
      · split at hl
        · rename_i pk hpk
          rw [← finishes_message hm] at hpk
          obtain ⟨pl, pre, s, pls, ms, -, -, -, hd⟩ := finishes_source hi hpk
          exact noNl_packet hd l hl
        · simp at hl
    · simp at hl
  · simp at hl

theorem noNl_wsLines {p : Prints} (hc : NoNl p.close) {cfg : RCfg} {st : RState} {hist : List Payload} (hi : HInv hist st) (w : Ws) :
    ∀ l ∈ wsLines p cfg st w, NoNl l.text := by
  intro l hl
  unfold wsLines at hl
  rcases List.mem_cons.1 hl with rfl | hl
  · exact NoNl.append (noNl_of_all (by decide +kernel)) (noNl_ws p hc w)
  · cases w with
    | text t => exact noNl_engine hi _ l hl
    | binary t => exact noNl_engine hi _ l hl
    | close => rw [List.mem_singleton] at hl; subst hl; exact NoNl.append (noNl_of_all (by decide +kernel)) hc
    | ping b => simp at hl
    | pong b => simp at hl

theorem noNl_act {p : LogPrints} (hc : NoNl p.close) (he : ∀ e, NoNl (p.websocketDebug e)) {cfg : RCfg} {acts : List Act} {s s' : Sys}
    {tr evs : List Ev} {a : Act} (h : Runs cfg acts s tr) (hs : step cfg s a = some (s', evs)) : ∀ l ∈ actLines p cfg s a, NoNl l.text := by
  have send : ∀ g, ∀ l ∈ sendLines p.toPrints g, NoNl l.text := by
    intro g l hl
    cases g with
    | nil => simp [sendLines] at hl
    | cons w g =>
      simp only [sendLines, List.mem_singleton] at hl
      subst hl
      exact NoNl.append (noNl_of_all (by decide +kernel)) (noNl_ws _ hc w)
  intro l hl
  cases a with
  | recv w c =>
    have hi := hinv_runs h (step_shows hs).1
    simp only [actLines] at hl
    split at hl
    · rcases List.mem_cons.1 hl with rfl | hl
      · exact NoNl.append (noNl_of_all (by decide +kernel))
          (NoNl.append (NoNl.append (noNl_of_all (by decide +kernel)) (noNl_ws _ hc w)) (noNl_of_all (by decide +kernel)))
      · exact noNl_wsLines hc hi w l hl
    · exact noNl_wsLines hc hi w l hl
  | openReady =>
    simp only [actLines] at hl
    split at hl
    · rw [List.mem_singleton] at hl; subst hl; exact NoNl.append (noNl_of_all (by decide +kernel)) (noNl_open _ _)
    · simp at hl
  | streamErr e =>
    simp only [actLines] at hl
    split at hl
    · rw [List.mem_singleton] at hl
      subst hl
      exact NoNl.append (noNl_of_all (by decide +kernel))
        (NoNl.append (NoNl.append (noNl_of_all (by decide +kernel)) (he e)) (noNl_of_all (by decide +kernel)))
    · simp at hl
  | streamEnd =>
    simp only [actLines] at hl
    split at hl
    · rw [List.mem_singleton] at hl; subst hl; exact noNl_of_all (by decide +kernel)
    · simp at hl
  | dequeue =>
    simp only [actLines] at hl
    split at hl
    · exact send _ l hl
    · simp at hl
  | write =>
    simp only [actLines] at hl
    split at hl
    · exact send _ l hl
    · simp at hl
  | seeClose => simp only [actLines, List.mem_singleton] at hl; subst hl; exact noNl_of_all (by decide +kernel)
  | _ => simp [actLines] at hl

/-- C70: every record is one line, whatever the server or the application sends, if the texts other crates print are one line. -/
theorem C70_line (p : LogPrints) (hc : '\n' ∉ p.close) (he : ∀ e, '\n' ∉ p.websocketDebug e) (cfg : RCfg) (acts : List Act) (s : Sys)
    (tr : List Ev) (h : Runs cfg acts s tr) : ∀ l ∈ logOf p cfg acts, '\n' ∉ l.text := by
  have hc' : NoNl p.close := fun c h hn => hc (hn ▸ h)
  have he' : ∀ e, NoNl (p.websocketDebug e) := fun e c h hn => he e (hn ▸ h)
  have key : ∀ l ∈ logOf p cfg acts, NoNl l.text := by
    refine sched_induct (P := fun acts _ _ => ∀ l ∈ logOf p cfg acts, NoNl l.text) (by simp [logOf, execLines]) ?_ h
    intro acts tr s s' evs a hr hi hs l hl
    rw [logOf_snoc p hr hs] at hl
    exact (List.mem_append.1 hl).elim (hi l) (noNl_act hc' he' hr hs l)
  exact fun l hl hn => key l hl _ hn rfl

/-! ### Warnings -/

theorem oinv_runs {cfg : RCfg} {acts : List Act} {s : Sys} {tr : List Ev} (h : Runs cfg acts s tr) (hl : s.task.reads) : OInv s.rx := by
  have hx : PInv s ∧ XInv cfg tr s := exec_induct (P := fun tr s => PInv s ∧ XInv cfg tr s) ⟨pinv_init, xinv_init cfg⟩
    (fun _ _ _ _ hi ht => ⟨pinv_trans hi.1 ht, xinv_trans hi.1 hi.2 ht⟩) acts s tr h
  obtain ⟨l, k1, -, -⟩ := hx.2 (.inl hl.live)
  rw [k1]
  exact (inv_after cfg l rinv_new oinv_new).2

theorem decode_opened {st : EState} {w : Ws} {o : Open} (h : (decode st w).2 = .ok (.opened o)) : st = .initial := by
  unfold decode at h
  split at h
  · simp at h
  · cases w with
    | text t =>
      simp only [decodeText] at h
      split at h
      · simp at h
      · repeat' split at h
        all_goals first
          | (simp at h; done)
          | (rename_i h' _ _ _; exact Classical.byContradiction h')
          | skip
    | binary b =>
      simp only [decodeBinary] at h
      repeat' split at h
      all_goals simp at h
    | _ => simp at h

/-- C70: the log has no warnings: the one warning of the library is about a second open packet, which is an error before that. -/
theorem C70_warn (p : LogPrints) (cfg : RCfg) (acts : List Act) (s : Sys) (tr : List Ev) (h : Runs cfg acts s tr) :
    ∀ l ∈ logOf p cfg acts, l.level ≠ .warn := by
  refine sched_induct (P := fun acts _ _ => ∀ l ∈ logOf p cfg acts, l.level ≠ .warn) (by simp [logOf, execLines]) ?_ h
  intro acts tr s s' evs a hr hi hs l hl
  rw [logOf_snoc p hr hs] at hl
  refine (List.mem_append.1 hl).elim (hi l) fun hl => ?_
  clear hi
  have send : ∀ g, ∀ l ∈ sendLines p.toPrints g, l.level ≠ .warn := by
    intro g l hl
    cases g with
    | nil => simp [sendLines] at hl
    | cons w g => simp only [sendLines, List.mem_singleton] at hl; subst hl; simp
  cases a with
  | recv w c =>
    have ho := oinv_runs hr (step_shows hs).1
    have hpk : ∀ pk, ∀ l ∈ packetLines cfg pk, l.level ≠ .warn := by
      intro pk l hl
      rw [← packetLines_all] at hl
      have := (List.mem_filter.1 hl).2
      simp only [decide_eq_true_eq] at this
      rw [this]
      simp
    have heng : ∀ w, ∀ l ∈ engineLines p.toPrints cfg s.rx w, l.level ≠ .warn := by
      intro w l hl
      unfold engineLines at hl
      split at hl
      · rename_i o h
        rw [if_pos (ho.2 (decode_opened h)), List.mem_singleton] at hl
        subst hl; simp
      · rw [List.mem_singleton] at hl; subst hl; simp
      · rw [List.mem_singleton] at hl; subst hl; simp
      · rw [List.mem_singleton] at hl; subst hl; simp
      · unfold messageLines at hl
        split at hl
        · rcases List.mem_cons.1 hl with rfl | hl
          · simp
          · split at hl
            · exact hpk _ l hl
            · simp at hl
        · simp at hl
      · simp at hl
    have hws : ∀ l ∈ wsLines p.toPrints cfg s.rx w, l.level ≠ .warn := by
      intro l hl
      unfold wsLines at hl
      rcases List.mem_cons.1 hl with rfl | hl
      · simp
      · cases w with
        | text t => exact heng _ l hl
        | binary t => exact heng _ l hl
        | close => rw [List.mem_singleton] at hl; subst hl; simp
        | ping b => simp at hl
        | pong b => simp at hl
    simp only [actLines] at hl
    split at hl
    · rcases List.mem_cons.1 hl with rfl | hl
      · simp
      · exact hws l hl
    · exact hws l hl
  | openReady =>
    simp only [actLines] at hl
    split at hl
    · rw [List.mem_singleton] at hl; subst hl; simp
    · simp at hl
  | streamErr e =>
    simp only [actLines] at hl
    split at hl
    · rw [List.mem_singleton] at hl; subst hl; simp
    · simp at hl
  | streamEnd =>
    simp only [actLines] at hl
    split at hl
    · rw [List.mem_singleton] at hl; subst hl; simp
    · simp at hl
  | dequeue =>
    simp only [actLines] at hl
    split at hl
    · exact send _ l hl
    · simp at hl
  | write =>
    simp only [actLines] at hl
    split at hl
    · exact send _ l hl
    · simp at hl
  | seeClose => simp only [actLines, List.mem_singleton] at hl; subst hl; simp
  | _ => simp [actLines] at hl

/-! ### What logging changes -/

theorem processPacket_quiet (cfg : RCfg) (reg : Callbacks) (pk : Packet) :
    processPacket { cfg with logInfo := false } reg pk = processPacket cfg reg pk ∨ (processPacket cfg reg pk).2.2 = .panic := by
  by_cases h : cfg.logInfo = true ∧ pk.display cfg.ext.fin = .panic
  · right
    simp only [processPacket]
    rw [if_pos h]
  · left
    simp only [processPacket]
    rw [if_neg h, if_neg (by simp)]

theorem processEngineMessage_quiet (cfg : RCfg) (st : RState) (reg : Callbacks) (m : EMsg) :
    processEngineMessage { cfg with logInfo := false } st reg m = processEngineMessage cfg st reg m ∨
    (processEngineMessage cfg st reg m).res = .panic := by
  unfold processEngineMessage
  cases st.inProgress with
  | some ip =>
    simp only
    cases partialAttachments ip.part with
    | panic => exact .inl rfl
    | err e => exact e.elim
    | ok n =>
      simp only
      split
      · cases deserializePartial ip.part (ip.attachments ++ [m]) with
        | panic => exact .inl rfl
        | err e => exact .inl rfl
        | ok pk =>
          rcases processPacket_quiet cfg reg pk with h | h
          · left; simp only [h]
          · right; exact h
      · exact .inl rfl
  | none =>
    simp only
    cases deserialize m with
    | panic => exact .inl rfl
    | err e => exact .inl rfl
    | ok r =>
      cases r with
      | dataNeeded q => exact .inl rfl
      | packet pk =>
        rcases processPacket_quiet cfg reg pk with h | h
        · left; simp only [h]
        · right; exact h

theorem processWs_quiet (cfg : RCfg) (st : RState) (reg : Callbacks) (w : Ws) :
    processWs { cfg with logInfo := false } st reg w = processWs cfg st reg w ∨ (processWs cfg st reg w).res = .panic := by
  have key : ∀ w, processMessage { cfg with logInfo := false } st reg w = processMessage cfg st reg w ∨
      (processMessage cfg st reg w).res = .panic := by
    intro w
    unfold processMessage
    generalize decode st.decoder w = d
    obtain ⟨dec, r⟩ := d
    cases r with
    | panic => exact .inl rfl
    | err e => exact .inl rfl
    | ok ep =>
      cases ep with
      | message m => exact processEngineMessage_quiet cfg _ reg m
      | _ => exact .inl rfl
  cases w with
  | text t => exact key (.text t)
  | binary t => exact key (.binary t)
  | _ => exact .inl rfl

theorem step_quiet {cfg : RCfg} {s s' : Sys} {a : Act} {evs : List Ev} (h : step cfg s a = some (s', evs)) (hn : .taskEnd .panic ∉ evs) :
    step { cfg with logInfo := false } s a = some (s', evs) := by
  cases a with
  | recv w c =>
    have hrecv : s.recv cfg w c = (s', evs) := by
      simp only [step] at h
      split at h
      · simpa using h
      · simpa using h
      · simp at h
    have : s.recv { cfg with logInfo := false } w c = s.recv cfg w c := by
      rcases processWs_quiet cfg s.rx s.reg w with hq | hq
      · simp only [Sys.recv, hq]
      · exfalso
        apply hn
        have : evs = (s.recv cfg w c).2 := by rw [hrecv]
        rw [this]
        unfold Sys.recv
        simp only [hq]
        split <;> simp [Sys.finishTask]
    rw [← h]
    simp only [step, this]
  | _ => exact h

/-- C70: logging changes nothing but that a packet which cannot be displayed ends the task with a panic: an execution without panics is one
with logging off. -/
theorem C70_neutral (cfg : RCfg) (acts : List Act) (s : Sys) (tr : List Ev) (h : Runs cfg acts s tr) (hn : .taskEnd .panic ∉ tr) :
    Runs { cfg with logInfo := false } acts s tr := by
  have key : ∀ (acts : List Act) (s0 s : Sys) (tr : List Ev), exec cfg s0 acts = some (s, tr) → .taskEnd .panic ∉ tr →
      exec { cfg with logInfo := false } s0 acts = some (s, tr) := by
    intro acts
    induction acts with
    | nil => intro s0 s tr h _; exact h
    | cons a as ih =>
      intro s0 s tr h hn
      obtain ⟨s1, evs, tr', h1, h2, rfl⟩ := exec_cons h
      have h3 := step_quiet h1 fun hm => hn (List.mem_append.2 (.inl hm))
      have h4 := ih s1 s tr' h2 fun hm => hn (List.mem_append.2 (.inr hm))
      simp only [exec, h3, h4]
  exact key acts _ _ _ h hn

/-! ### The kinds of engine.io packets -/

def kindWord : EPacket → Str
  | .opened _ => "open".toList
  | .close => "close".toList
  | .ping => "ping".toList
  | .pong => "pong".toList
  | .message _ => "message".toList

theorem decode_kind {st : EState} {w : Ws} {ep : EPacket} (h : (decode st w).2 = .ok ep) :
    kindOf w = some (kindWord ep) := by
  unfold decode at h
  split at h
  · simp at h
  · cases w with
    | text t =>
      simp only [decodeText] at h
      split at h
      · simp at h
      · repeat' split at h
        all_goals first
          | (simp at h; done)
          | (simp only [Res.ok.injEq] at h; subst h; subst_vars; rfl)
    | binary b =>
      simp only [decodeBinary] at h
      split at h
      · simp at h
      · split at h
        · simp at h
        · split at h
          · simp at h
          · rename_i b' _ hb
            have hb : b' = 4 := by simpa using hb
            subst hb
            simp only [Res.ok.injEq] at h
            subst h
            rfl
    | _ => simp at h

theorem names_not {hs : List Str} {l : Line} {k : Str} (h : Begins hs l)
    (h1 : ∀ h ∈ hs, h.take ("Received ".toList ++ k ++ " engine packet".toList).length ≠
      ("Received ".toList ++ k ++ " engine packet".toList).take h.length)
    (h2 : ∀ h ∈ hs, h.take ("Received engine ".toList ++ k ++ " packet".toList).length ≠
      ("Received engine ".toList ++ k ++ " packet".toList).take h.length) : ¬ NamesKind k l := by
  rintro (hn | hn)
  · exact hn (h.silent h1)
  · exact hn (h.silent h2)

/-- The kind the log gives. -/
def loggedKind (k : Str) : Str := if k = "pong".toList then "ping".toList else k

def headsRest : List Str := "received message: ".toList :: "Received WebSocket packet: ".toList :: headsPacket

theorem rest_names {l : Line} {k : Str} (hk : k ∈ kinds) (h : Begins headsRest l) : ¬ NamesKind k l := by
  have hk' : kinds.all (fun k => decide (∀ h ∈ headsRest, h.take ("Received ".toList ++ k ++ " engine packet".toList).length ≠
      ("Received ".toList ++ k ++ " engine packet".toList).take h.length) && decide (∀ h ∈ headsRest,
      h.take ("Received engine ".toList ++ k ++ " packet".toList).length ≠
      ("Received engine ".toList ++ k ++ " packet".toList).take h.length)) = true := by decide +kernel
  have := List.all_eq_true.1 hk' k hk
  simp only [Bool.and_eq_true] at this
  exact names_not h (of_decide_eq_true this.1) (of_decide_eq_true this.2)

def firstHeads : List (Str × Str) :=
  [("Received open engine packet: ".toList, "open".toList), ("Received close engine packet".toList, "close".toList),
    ("Received engine ping packet".toList, "ping".toList), ("Received message engine packet: ".toList, "message".toList)]

/-- The first line names no other kind. -/
theorem first_other {l : Line} {hd k k' x : Str} (hm : (hd, k) ∈ firstHeads) (hk' : k' ∈ kinds) (hl : l.text = hd ++ x)
    (hn : NamesKind k' l) : k' = k := by
  have tab : firstHeads.all (fun hk => kinds.all fun k' => decide (k' = hk.2) ||
      (decide (hk.1.take ("Received ".toList ++ k' ++ " engine packet".toList).length ≠
        ("Received ".toList ++ k' ++ " engine packet".toList).take hk.1.length) &&
       decide (hk.1.take ("Received engine ".toList ++ k' ++ " packet".toList).length ≠
        ("Received engine ".toList ++ k' ++ " packet".toList).take hk.1.length))) = true := by decide +kernel
  have := List.all_eq_true.1 (List.all_eq_true.1 tab _ hm) k' hk'
  simp only [Bool.or_eq_true, Bool.and_eq_true, decide_eq_true_eq] at this
  rcases this with h | ⟨h1, h2⟩
  · exact h
  · exact absurd hn (names_not (hs := [hd]) ⟨hd, by simp, x, hl⟩ (by simpa using h1) (by simpa using h2))

theorem first_names (v : Level) (x : Str) :
    NamesKind "open".toList ⟨v, "Received open engine packet: ".toList ++ x⟩ ∧ NamesKind "close".toList ⟨v, "Received close engine packet".toList⟩ ∧
    NamesKind "ping".toList ⟨v, "Received engine ping packet".toList⟩ ∧
    NamesKind "message".toList ⟨v, "Received message engine packet: ".toList ++ x⟩ := by
  refine ⟨.inl ?_, .inl ?_, .inr ?_, .inl ?_⟩
  · have : "Received open engine packet: ".toList ++ x = ("Received ".toList ++ "open".toList ++ " engine packet".toList) ++ (": ".toList ++ x) := by
      rw [← List.append_assoc]; congr 1
    rw [this, saidAfter_self]; simp
  · cases v <;> decide +kernel
  · cases v <;> decide +kernel
  · have : "Received message engine packet: ".toList ++ x =
        ("Received ".toList ++ "message".toList ++ " engine packet".toList) ++ (": ".toList ++ x) := by
      rw [← List.append_assoc]; congr 1
    rw [this, saidAfter_self]; simp

/-- The kinds named in the log of an engine.io packet. -/
theorem engine_names {p : Prints} {cfg : RCfg} {st : RState} {w : Ws} {ep : EPacket} {k : Str} (ho : OInv st)
    (h : (decode st.decoder w).2 = .ok ep) (hk : k ∈ kinds) :
    (∃ l ∈ engineLines p cfg st w, NamesKind k l) ↔ some k = (kindOf w).map loggedKind := by
  rw [decode_kind h]
  unfold engineLines
  rw [h]
  cases ep with
  | opened o =>
    simp only [Option.map_some, kindWord]
    rw [if_pos (ho.2 (decode_opened h))]
    constructor
    · rintro ⟨l, hl, hn⟩
      rw [List.mem_singleton] at hl
      subst hl
      rw [first_other (hd := "Received open engine packet: ".toList) (k := "open".toList) (by decide +kernel) hk rfl hn]
      decide +kernel
    · intro he
      have : k = "open".toList := by rw [Option.some.inj he]; decide +kernel
      subst this
      exact ⟨_, List.mem_singleton.2 rfl, (first_names .trace _).1⟩
  | close =>
    simp only [Option.map_some, kindWord]
    constructor
    · rintro ⟨l, hl, hn⟩
      rw [List.mem_singleton] at hl
      subst hl
      rw [first_other (hd := "Received close engine packet".toList) (k := "close".toList) (x := []) (by decide +kernel) hk (by simp) hn]
      decide +kernel
    · intro he
      have : k = "close".toList := by rw [Option.some.inj he]; decide +kernel
      subst this
      exact ⟨_, List.mem_singleton.2 rfl, (first_names .trace []).2.1⟩
  | ping =>
    simp only [Option.map_some, kindWord]
    constructor
    · rintro ⟨l, hl, hn⟩
      rw [List.mem_singleton] at hl
      subst hl
      rw [first_other (hd := "Received engine ping packet".toList) (k := "ping".toList) (x := []) (by decide +kernel) hk (by simp) hn]
      decide +kernel
    · intro he
      have : k = "ping".toList := by rw [Option.some.inj he]; decide +kernel
      subst this
      exact ⟨_, List.mem_singleton.2 rfl, (first_names .trace []).2.2.1⟩
  | pong =>
    simp only [Option.map_some, kindWord]
    constructor
    · rintro ⟨l, hl, hn⟩
      rw [List.mem_singleton] at hl
      subst hl
      rw [first_other (hd := "Received engine ping packet".toList) (k := "ping".toList) (x := []) (by decide +kernel) hk (by simp) hn]
      decide +kernel
    · intro he
      have : k = "ping".toList := by rw [Option.some.inj he]; decide +kernel
      subst this
      exact ⟨_, List.mem_singleton.2 rfl, (first_names .trace []).2.2.1⟩
  | message m =>
    simp only [Option.map_some, kindWord]
    obtain ⟨t, ht⟩ := emsg_text p h
    unfold messageLines
    rw [ht]
    constructor
    · rintro ⟨l, hl, hn⟩
      rcases List.mem_cons.1 hl with rfl | hl
      · rw [first_other (hd := "Received message engine packet: ".toList) (k := "message".toList) (by decide +kernel) hk rfl hn]
        decide +kernel
      · exfalso
        split at hl
        · exact rest_names hk (begins_mono (packetLines_heads cfg _ l hl) (by intro x hx; simp only [headsRest, List.mem_cons]; exact .inr (.inr hx))) hn
        · simp at hl
    · intro he
      have : k = "message".toList := by rw [Option.some.inj he]; decide +kernel
      subst this
      exact ⟨_, List.mem_cons_self, (first_names .trace _).2.2.2⟩

theorem accepted_decode {cfg : RCfg} {st : RState} {reg : Callbacks} {w : Ws} (hk : kindOf w ≠ none)
    (h : (processWs cfg st reg w).res = .ok ()) : ∃ ep, (decode st.decoder w).2 = .ok ep := by
  have hc : ¬ IsControl w := by
    rintro (⟨b, rfl⟩ | ⟨b, rfl⟩ | rfl) <;> exact hk rfl
  rw [data_ws hc] at h
  unfold processMessage at h
  generalize decode st.decoder w = d at h ⊢
  obtain ⟨dec, r⟩ := d
  cases r with
  | ok ep => exact ⟨ep, rfl⟩
  | err e => simp at h
  | panic => simp at h

/-- What the log names for an accepted message. -/
theorem log_names (p : LogPrints) (cfg : RCfg) (acts : List Act) (s s' : Sys) (tr evs : List Ev) (h : Runs cfg acts s tr) (w : Ws) (c : Bool)
    (hs : step cfg s (.recv w c) = some (s', evs)) (hl : s'.task.live = true) (kind : Str) (hk : kindOf w = some kind) :
    ∀ k ∈ kinds, (∃ l ∈ actLines p cfg s (.recv w c), NamesKind k l) ↔ k = loggedKind kind := by
  intro k hkk
  have hrecv : s.recv cfg w c = (s', evs) := by
    simp only [step] at hs
    split at hs
    · simpa using hs
    · simpa using hs
    · simp at hs
  have hok := (recv_rx cfg s w c).2
  rw [hrecv] at hok
  have hov : s'.task.over = false := by cases ht : s'.task <;> rw [ht] at hl <;> first | rfl | simp [Task.live] at hl
  obtain ⟨ep, hep⟩ := accepted_decode (by rw [hk]; simp) (hok hov)
  have key := engine_names (p := p.toPrints) (cfg := cfg) (oinv_runs h (step_shows hs).1) hep hkk
  rw [hk, Option.map_some, Option.some.injEq] at key
  rw [← key]
  have hws : wsLines p.toPrints cfg s.rx w =
      ⟨.trace, "Received WebSocket packet: ".toList ++ dbgWs p.toPrints w⟩ :: engineLines p.toPrints cfg s.rx w := by
    cases w with
    | text t => rfl
    | binary t => rfl
    | _ => simp [kindOf] at hk
  have h1 : ∀ x, ¬ NamesKind k ⟨.trace, "Received WebSocket packet: ".toList ++ x⟩ := fun x =>
    rest_names hkk (begins_app (by simp [headsRest]))
  have h2 : ∀ x, ¬ NamesKind k ⟨.trace, "received message: ".toList ++ x⟩ := fun x => rest_names hkk (begins_app (by simp [headsRest]))
  simp only [actLines, hws]
  constructor
  · rintro ⟨l, hl, hn⟩
    split at hl
    · rcases List.mem_cons.1 hl with rfl | hl
      · exact absurd hn (h2 _)
      · rcases List.mem_cons.1 hl with rfl | hl
        · exact absurd hn (h1 _)
        · exact ⟨l, hl, hn⟩
    · rcases List.mem_cons.1 hl with rfl | hl
      · exact absurd hn (h1 _)
      · exact ⟨l, hl, hn⟩
  · rintro ⟨l, hl, hn⟩
    refine ⟨l, ?_, hn⟩
    split
    · exact List.mem_cons_of_mem _ (List.mem_cons_of_mem _ hl)
    · exact List.mem_cons_of_mem _ hl

/-- C71: when an engine.io packet has been processed, the log names its kind and no other, unless it is a pong. -/
theorem C71_partial (p : LogPrints) (cfg : RCfg) (acts : List Act) (s s' : Sys) (tr evs : List Ev) (h : Runs cfg acts s tr) (w : Ws) (c : Bool)
    (hs : step cfg s (.recv w c) = some (s', evs)) (hl : s'.task.live = true) (kind : Str) (hk : kindOf w = some kind)
    (hp : kind ≠ "pong".toList) : ∀ k ∈ kinds, (∃ l ∈ actLines p cfg s (.recv w c), NamesKind k l) ↔ k = kind := by
  have := log_names p cfg acts s s' tr evs h w c hs hl kind hk
  rwa [loggedKind, if_neg hp] at this

/-- A log with all levels. -/
def logCfg : RCfg := ⟨⟨fun _ => true, fun s => s.map fun _ => 120⟩, true⟩
/-- Other crates print something. -/
def logPrints : LogPrints :=
  ⟨⟨fun _ => true, "J".toList, "j".toList, fun _ => [], fun _ => [], fun _ => [], "S".toList, "None".toList⟩, fun _ => "Io".toList⟩
/-- A connection with packets of all kinds. -/
def logActs : List Act :=
  [.handshakeOk, .recv (.text "0{\"sid\":\"x\",\"pingTimeout\":5,\"pingInterval\":6}".toList) false, .openReady, .reg (.setEvent "/".toList "hi".toList 7),
   .recv (.text "40/a\r,".toList) false, .recv (.text "42[\"hi\",1]".toList) false, .recv (.text "451-[\"b\",{\"_placeholder\":true,\"num\":0}]".toList) false,
   .recv (.binary [4, 9]) false, .recv (.text "2".toList) false, .recv (.text "3".toList) false, .dequeue, .write, .endGroup, .recv (.text "451-[\"c\"]".toList) false,
   .closeStart, .seeClose, .recv .close false, .streamEnd]

/-- C71: a pong is logged as a ping, and by no line as a pong. -/
theorem C71_counterexample : ∃ (cfg : RCfg) (acts : List Act) (s s' : Sys) (tr evs : List Ev) (w : Ws), Runs cfg acts s tr ∧
    step cfg s (.recv w false) = some (s', evs) ∧ s'.task.live = true ∧ kindOf w = some "pong".toList ∧
    ∀ p, (∃ l ∈ actLines p cfg s (.recv w false), NamesKind "ping".toList l) ∧ ¬ ∃ l ∈ actLines p cfg s (.recv w false), NamesKind "pong".toList l := by
  have h : (exec logCfg Sys.init (logActs.take 3)).any (fun x => (step logCfg x.1 (.recv (.text "3".toList) false)).any
      fun y => y.1.task.live) = true := by decide +kernel
  obtain ⟨⟨s, tr⟩, h1, h⟩ := (Option.any_eq_true _ _).1 h
  obtain ⟨⟨s', evs⟩, h2, h3⟩ := (Option.any_eq_true _ _).1 h
  refine ⟨logCfg, _, s, s', tr, evs, _, h1, h2, h3, rfl, fun p => ?_⟩
  have := log_names p logCfg _ s s' tr evs h1 (.text "3".toList) false h2 h3 "pong".toList rfl
  refine ⟨(this _ (by decide +kernel)).2 (by decide +kernel), fun hn => ?_⟩
  exact absurd ((this _ (by decide +kernel)).1 hn) (by decide +kernel)

/-- C71, how far it fails: every pong that is processed is logged as a ping and as nothing else. -/
theorem C71_extent (p : LogPrints) (cfg : RCfg) (acts : List Act) (s s' : Sys) (tr evs : List Ev) (h : Runs cfg acts s tr) (w : Ws) (c : Bool)
    (hs : step cfg s (.recv w c) = some (s', evs)) (hl : s'.task.live = true) (hk : kindOf w = some "pong".toList) :
    ∀ k ∈ kinds, (∃ l ∈ actLines p cfg s (.recv w c), NamesKind k l) ↔ k = "ping".toList := by
  have := log_names p cfg acts s s' tr evs h w c hs hl _ hk
  rwa [loggedKind, if_pos rfl] at this

-- non-vacuity of `C70_*` and `C71_partial`: an execution with its log
example : (exec logCfg Sys.init logActs).isSome = true := by decide +kernel
example : (logOf logPrints logCfg (logActs.take 5)).map (·.text) =
    ["received message: Ok(Text(\"0{\\\"sid\\\":\\\"x\\\",\\\"pingTimeout\\\":5,\\\"pingInterval\\\":6}\"))".toList,
     "Received WebSocket packet: Text(\"0{\\\"sid\\\":\\\"x\\\",\\\"pingTimeout\\\":5,\\\"pingInterval\\\":6}\")".toList,
     "Received open engine packet: Open { sid: \"x\", ping_timeout: 5, ping_interval: 6 }".toList,
     "Received open: Open { sid: \"x\", ping_timeout: 5, ping_interval: 6 }".toList,
     "received message: Ok(Text(\"40/a\\r,\"))".toList, "Received WebSocket packet: Text(\"40/a\\r,\")".toList,
     "Received message engine packet: Text(\"0/a\\r,\")".toList, "Received socket packet: Connect".toList,
     "Received connect for /a\r".toList] := by decide +kernel
example : ((logOf logPrints logCfg logActs).filter (·.level = .info)).map (·.text) =
    ["Received socket packet: Connect".toList, "Received connect for /a\r".toList,
     "Received socket packet: Event { id: None, args: [\"hi\", 1] }".toList,
     "Received socket packet: Event { id: None, args: [\"b\", [9]] }".toList] := by decide +kernel
example : ((logOf logPrints logCfg logActs).filter (·.level = .debug)).map (·.text) =
    ["Sending close message".toList, "Closed with close frame None".toList] := by decide +kernel
example : says "Sending websocket packet: ".toList (logOf logPrints logCfg logActs) = ["Text(\"3\")".toList] := by decide +kernel
example : says "received message: Ok(".toList (logOf logPrints logCfg logActs) =
    ["Text(\"0{\\\"sid\\\":\\\"x\\\",\\\"pingTimeout\\\":5,\\\"pingInterval\\\":6}\"))".toList, "Text(\"40/a\\r,\"))".toList,
     "Text(\"42[\\\"hi\\\",1]\"))".toList, "Text(\"451-[\\\"b\\\",{\\\"_placeholder\\\":true,\\\"num\\\":0}]\"))".toList,
     "Binary([4, 9]))".toList, "Text(\"2\"))".toList, "Text(\"3\"))".toList, "Text(\"451-[\\\"c\\\"]\"))".toList] := by decide +kernel
example : says "received message: Err(".toList (logOf logPrints logCfg [.handshakeOk, .streamErr 5]) = ["Io)".toList] := by decide +kernel
example : says "got None, stream ended".toList (logOf logPrints logCfg [.handshakeOk, .streamEnd]) = [[]] := by decide +kernel
-- a callback is called for the event, and the packet is the last line
example : ((exec logCfg Sys.init (logActs.take 6)).map fun x => x.2.any fun
    | .eff (.event _ name cb _ _) => decide (name = "hi".toList ∧ cb = 7)
    | _ => false) = some true := by decide +kernel
example : (logOf logPrints logCfg (logActs.take 6)).getLast? =
    some ⟨.info, "Received socket packet: Event { id: None, args: [\"hi\", 1] }".toList⟩ := by decide +kernel
-- a carriage return in the name of a namespace comes into the log as it is
example : '\r' ∈ ((logOf logPrints logCfg logActs).flatMap (·.text)) := by decide +kernel
-- a packet that cannot be displayed ends the task only if packets are logged
def badActs : List Act := [.handshakeOk, .recv (.text "451-[{\"_placeholder\":true,\"num\":5}]".toList) false, .recv (.binary [4]) false]
example : ((exec logCfg Sys.init (logActs.take 3 ++ badActs.drop 1)).map fun x => x.2.any fun
    | .taskEnd .panic => true
    | _ => false) = some true := by decide +kernel
example : ((exec { logCfg with logInfo := false } Sys.init (logActs.take 3 ++ badActs.drop 1)).map fun x => x.2.any fun
    | .taskEnd .panic => true
    | _ => false) = some false := by decide +kernel

end SIO
