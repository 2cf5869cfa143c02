import Verif.Lemmas.Log
/-
C70, C71: what the log tells.
-/
namespace SIO
open SIO.Spec

/-- Not the head of any line but one. -/
def wRecv : Str := "Received WebSocket packet: ".toList
def wMsg : Str := "received message: ".toList
def wSend : Str := "Sending websocket packet: ".toList

theorem exec_cons {cfg : RCfg} {s s' : Sys} {a : Act} {as : List Act} {tr : List Ev} (h : exec cfg s (a :: as) = some (s', tr)) :
    ∃ s1 evs tr', step cfg s a = some (s1, evs) ∧ exec cfg s1 as = some (s', tr') ∧ tr = evs ++ tr' := by
  simp only [exec] at h
  split at h
  · simp at h
  · rename_i s1 evs h1
    split at h
    · simp at h
    · rename_i s2 tr' h2
      simp only [Option.some.injEq, Prod.mk.injEq] at h
      obtain ⟨rfl, rfl⟩ := h
      exact ⟨s1, evs, tr', h1, h2, rfl⟩

theorem execLines_cons {p : LogPrints} {cfg : RCfg} {s s1 : Sys} {a : Act} {as : List Act} {evs : List Ev}
    (h : step cfg s a = some (s1, evs)) : execLines p cfg s (a :: as) = actLines p cfg s a ++ execLines p cfg s1 as := by
  simp only [execLines, h]

def headsConn : List Str := ["Received open: ".toList, "received message: ".toList, "got None, stream ended".toList,
  "Sending websocket packet: ".toList, "Sending close message".toList]

theorem sendLines_heads (p : Prints) (g : List Ws) : ∀ l ∈ sendLines p g, Begins headsConn l := by
  intro l hl
  cases g with
  | nil => simp [sendLines] at hl
  | cons w g => simp only [sendLines, List.mem_singleton] at hl; subst hl; exact begins_app (by simp [headsConn])

/-- Only receiving logs something of the receiver. -/
theorem actLines_heads (p : LogPrints) (cfg : RCfg) (s : Sys) (a : Act) (ha : ∀ w c, a ≠ .recv w c) :
    ∀ l ∈ actLines p cfg s a, Begins headsConn l := by
  intro l hl
  cases a with
  | recv w c => exact absurd rfl (ha w c)
  | openReady =>
    simp only [actLines] at hl
    split at hl
    · rw [List.mem_singleton] at hl; subst hl; exact begins_app (by simp [headsConn])
    · simp at hl
  | streamErr e =>
    simp only [actLines] at hl
    split at hl
    · rw [List.mem_singleton] at hl; subst hl; exact begins_app (by simp [headsConn])
    · simp at hl
  | streamEnd =>
    simp only [actLines] at hl
    split at hl
    · rw [List.mem_singleton] at hl; subst hl; exact begins_lit (by simp [headsConn])
    · simp at hl
  | dequeue =>
    simp only [actLines] at hl
    split at hl
    · exact sendLines_heads _ _ l hl
    · simp at hl
  | write =>
    simp only [actLines] at hl
    split at hl
    · exact sendLines_heads _ _ l hl
    · simp at hl
  | seeClose => simp only [actLines, List.mem_singleton] at hl; subst hl; exact begins_lit (by simp [headsConn])
  | _ => simp [actLines] at hl

theorem inbox_still {evs : List Ev} (h : Still evs) : inbox evs = [] := h.1

theorem says_wsLines (p : Prints) (cfg : RCfg) (st : RState) (w : Ws) : says wRecv (wsLines p cfg st w) = [dbgWs p w] := by
  rw [wsLines_eq, says_cons]
  show (saidAfter wRecv ⟨.trace, wRecv ++ dbgWs p w⟩).toList ++ _ = _
  rw [saidAfter_self, says_nil (wsMore_heads p cfg st w) (by decide +kernel)]
  rfl

theorem step_received (p : LogPrints) {cfg : RCfg} {s s1 : Sys} {a : Act} {evs : List Ev} (h : step cfg s a = some (s1, evs)) :
    says wRecv (actLines p cfg s a) = (inbox evs).map (dbgWs p.toPrints) := by
  have hs := step_shows h
  by_cases ha : ∃ w c, a = .recv w c
  · obtain ⟨w, c, rfl⟩ := ha
    obtain ⟨hr, ⟨rest, rfl, hst⟩, -⟩ := hs
    have hi : inbox (.received w :: rest) = [w] := by
      have := hst.1
      simpa [inbox] using this
    rw [hi]
    simp only [actLines]
    split
    · rw [says_cons, says_wsLines, saidAfter_other (by decide +kernel)]; rfl
    · exact says_wsLines _ _ _ _
  · have hn : inbox evs = [] := by
      cases a with
      | recv w c => exact absurd ⟨w, c, rfl⟩ ha
      | dequeue => rcases hs.2 with ⟨g, q, _, rfl, _⟩ | ⟨_, h, _⟩
                   · rfl
                   · exact h.1
      | write => obtain ⟨w, rest, _, rfl, _⟩ := hs; rfl
      | seeClose => obtain ⟨_, rfl, _⟩ := hs; rfl
      | _ => exact hs.1.1
    rw [hn, says_nil (actLines_heads p cfg s a (fun w c h => ha ⟨w, c, h⟩)) (by decide +kernel)]
    rfl

/-- C70: the lines with `Received WebSocket packet: ` show the received messages, one line for each, in the order of arrival. -/
theorem C70_received (p : LogPrints) (cfg : RCfg) (acts : List Act) (s : Sys) (tr : List Ev) (h : Runs cfg acts s tr) :
    says "Received WebSocket packet: ".toList (logOf p cfg acts) = (inbox tr).map (dbgWs p.toPrints) := by
  have key : ∀ (acts : List Act) (s0 s : Sys) (tr : List Ev), exec cfg s0 acts = some (s, tr) →
      says wRecv (execLines p cfg s0 acts) = (inbox tr).map (dbgWs p.toPrints) := by
    intro acts
    induction acts with
    | nil => intro s0 s tr h; simp only [exec, Option.some.injEq, Prod.mk.injEq] at h; rw [← h.2]; rfl
    | cons a as ih =>
      intro s0 s tr h
      obtain ⟨s1, evs, tr', h1, h2, rfl⟩ := exec_cons h
      rw [execLines_cons h1, says_append, step_received p h1, ih _ _ _ h2, inbox_append, List.map_append]
  exact key acts _ _ _ h

/-! ### Along a schedule -/

theorem logOf_snoc (p : LogPrints) {cfg : RCfg} {acts : List Act} {s s' : Sys} {tr evs : List Ev} {a : Act} (h : Runs cfg acts s tr)
    (hs : step cfg s a = some (s', evs)) : logOf p cfg (acts ++ [a]) = logOf p cfg acts ++ actLines p cfg s a := by
  have key : ∀ (acts : List Act) (s0 : Sys) (tr : List Ev), exec cfg s0 acts = some (s, tr) →
      execLines p cfg s0 (acts ++ [a]) = execLines p cfg s0 acts ++ actLines p cfg s a := by
    intro acts
    induction acts with
    | nil =>
      intro s0 tr h
      simp only [exec, Option.some.injEq, Prod.mk.injEq] at h
      obtain ⟨rfl, -⟩ := h
      simp only [List.nil_append, execLines, hs, List.append_nil]
    | cons b as ih =>
      intro s0 tr h
      obtain ⟨s1, evs', tr', h1, h2, rfl⟩ := exec_cons h
      rw [List.cons_append, execLines_cons h1, execLines_cons h1, ih _ _ h2, List.append_assoc]
  exact key acts _ _ h

/-! ### Sent messages -/

theorem says_send (p : Prints) (g : List Ws) : says wSend (sendLines p g) = (g.take 1).map (dbgWs p) := by
  cases g with
  | nil => rfl
  | cons w g =>
    show says wSend [⟨.trace, wSend ++ dbgWs p w⟩] = _
    rw [says_cons, saidAfter_self]
    rfl

theorem recv_silent (p : LogPrints) (cfg : RCfg) (s : Sys) (w : Ws) (c : Bool) : says wSend (actLines p cfg s (.recv w c)) = [] := by
  have hw : says wSend (wsLines p.toPrints cfg s.rx w) = [] := by
    rw [wsLines_eq, says_cons, saidAfter_other (by decide +kernel), says_nil (wsMore_heads _ _ _ _) (by decide +kernel)]
    rfl
  simp only [actLines]
  split
  · rw [says_cons, saidAfter_other (by decide +kernel), hw]; rfl
  · exact hw

/-- Lines of actions that neither take a group nor write. -/
theorem other_silent (p : LogPrints) (cfg : RCfg) (s : Sys) (a : Act) (h1 : a ≠ .dequeue) (h2 : a ≠ .write) :
    says wSend (actLines p cfg s a) = [] := by
  cases a with
  | recv w c => exact recv_silent p cfg s w c
  | dequeue => exact absurd rfl h1
  | write => exact absurd rfl h2
  | openReady =>
    simp only [actLines]
    split
    · rw [says_cons, saidAfter_other (by decide +kernel)]; rfl
    · rfl
  | streamErr e =>
    simp only [actLines]
    split
    · rw [says_cons, saidAfter_other (by decide +kernel)]; rfl
    · rfl
  | streamEnd =>
    simp only [actLines]
    split
    · decide +kernel
    · rfl
  | seeClose =>
    show says wSend [⟨.debug, "Sending close message".toList⟩] = []
    decide +kernel
  | _ => rfl

/-- The messages whose sending is logged: those written and at most one more. -/
structure SendInv (p : LogPrints) (log : List Line) (tr : List Ev) (s : Sys) : Prop where
  ex : ∃ x y, says wSend log = (written tr ++ x).map (dbgWs p.toPrints) ∧ (taken tr).flatten = written tr ++ (x ++ y) ∧
    x.length ≤ 1 ∧ (s.task.over = false → x = (pend s.task).take 1 ∧ y = (pend s.task).drop 1)

theorem sendInv_still {p : LogPrints} {log : List Line} {tr evs : List Ev} {s s' : Sys} {ls : List Line} (h : SendInv p log tr s)
    (hs : Still evs) (hl : says wSend ls = []) (ht : s'.task.over = true ∨ s.task.over = false ∧ pend s'.task = pend s.task ∨ s'.task = s.task) :
    SendInv p (log ++ ls) (tr ++ evs) s' := by
  obtain ⟨x, y, h1, h2, h3, h4⟩ := h.ex
  obtain ⟨-, k2, k3, -⟩ := hs
  refine ⟨x, y, ?_, ?_, h3, ?_⟩
  · rw [says_append, hl, List.append_nil, written_append, k2, List.append_nil]; exact h1
  · rw [taken_append, k3, List.append_nil, written_append, k2, List.append_nil]; exact h2
  · intro ho
    rcases ht with ht | ⟨ht, hp⟩ | ht
    · rw [ht] at ho; simp at ho
    · rw [hp]; exact h4 ht
    · rw [ht] at ho ⊢; exact h4 ho

theorem sendInv_step (p : LogPrints) {cfg : RCfg} {log : List Line} {s s' : Sys} {tr evs : List Ev} {a : Act} (hp : PInv s)
    (h : SendInv p log tr s) (hs : step cfg s a = some (s', evs)) : SendInv p (log ++ actLines p cfg s a) (tr ++ evs) s' := by
  have hsh := step_shows hs
  have hq : a ≠ .dequeue → a ≠ .write → says wSend (actLines p cfg s a) = [] := other_silent p cfg s a
  cases a with
  | recv w c =>
    obtain ⟨hr, ⟨rest, rfl, hst⟩, ht⟩ := hsh
    have h' : SendInv p (log ++ actLines p cfg s (.recv w c)) (tr ++ rest) s' :=
      sendInv_still h hst (hq (by simp) (by simp)) (ht.elim (fun h => .inr (.inr h)) .inl)
    obtain ⟨x, y, h1, h2, h3, h4⟩ := h'.ex
    refine ⟨x, y, ?_, ?_, h3, h4⟩
    · rw [h1]; simp [written]
    · simpa [written, taken] using h2
  | dequeue =>
    obtain ⟨ht, ⟨g, q, hg, rfl, ht'⟩ | ⟨hg, hst, ho⟩⟩ := hsh
    · obtain ⟨x, y, h1, h2, h3, h4⟩ := h.ex
      have h4 := h4 (by rw [ht]; rfl)
      rw [ht] at h4
      simp only [pend, List.take_nil, List.drop_nil] at h4
      obtain ⟨rfl, rfl⟩ := h4
      have hw : written [.dequeued g] = [] := rfl
      refine ⟨g.take 1, g.drop 1, ?_, ?_, by simp; omega, ?_⟩
      · have : says wSend (actLines p cfg s .dequeue) = (g.take 1).map (dbgWs p.toPrints) := by
          simp only [actLines, hg]; exact says_send _ _
        rw [says_append, h1, this, written_append, hw]; simp
      · rw [taken_append, written_append, hw, List.flatten_append, h2]; simp [taken]; cases g <;> rfl
      · intro _; rw [ht']; exact ⟨rfl, rfl⟩
    · refine sendInv_still h hst ?_ (.inl ho)
      simp only [actLines, hg]; rfl
  | write =>
    obtain ⟨w, rest, ht, rfl, ht'⟩ := hsh
    obtain ⟨x, y, h1, h2, h3, h4⟩ := h.ex
    have h4 := h4 (by rw [ht]; rfl)
    rw [ht] at h4
    simp only [pend, List.take_succ_cons, List.take_zero, List.drop_succ_cons, List.drop_zero] at h4
    obtain ⟨rfl, rfl⟩ := h4
    have hw : written [.wrote w] = [w] := rfl
    have hk : taken [.wrote w] = [] := rfl
    refine ⟨y.take 1, y.drop 1, ?_, ?_, by simp; omega, ?_⟩
    · have : says wSend (actLines p cfg s .write) = (y.take 1).map (dbgWs p.toPrints) := by
        simp only [actLines, ht]; exact says_send _ _
      rw [says_append, h1, this, written_append, hw]; simp
    · rw [taken_append, written_append, hw, hk, List.append_nil, h2]; simp; cases y <;> rfl
    · intro _; rw [ht']; exact ⟨rfl, rfl⟩
  | seeClose =>
    obtain ⟨ht, rfl, ht'⟩ := hsh
    obtain ⟨x, y, h1, h2, h3, h4⟩ := h.ex
    refine ⟨x, y, ?_, ?_, h3, ?_⟩
    · rw [says_append, hq (by simp) (by simp), written_append]; simpa [written] using h1
    · simpa [written, taken] using h2
    · intro _
      have := h4 (by rw [ht]; rfl)
      rw [ht] at this; rw [ht']; exact this
  | handshakeOk =>
    obtain ⟨hst, hph, ht'⟩ := hsh
    have := (hp.start hph).1
    exact sendInv_still h hst (hq (by simp) (by simp)) (.inr (.inl (by rw [this, ht']; exact ⟨rfl, rfl⟩)))
  | endGroup => exact sendInv_still h hsh.1 (hq (by simp) (by simp)) (.inr (.inl (by rw [hsh.2.1, hsh.2.2]; exact ⟨rfl, rfl⟩)))
  | streamErr e => exact sendInv_still h hsh.1 (hq (by simp) (by simp)) (.inl hsh.2.2)
  | streamEnd => exact sendInv_still h hsh.1 (hq (by simp) (by simp)) (.inl hsh.2.2)
  | writeFail e => exact sendInv_still h hsh.1 (hq (by simp) (by simp)) (.inl hsh.2.2)
  | dropTask => exact sendInv_still h hsh.1 (hq (by simp) (by simp)) (.inl hsh.2.2)
  | _ => exact sendInv_still h hsh.1 (hq (by simp) (by simp)) (.inr (.inr hsh.2))

/-- C70: the lines with `Sending websocket packet: ` show the messages of the groups taken from the queue, in their order, one line for
each message written and at most one more, for the message being written. -/
theorem C70_sent (p : LogPrints) (cfg : RCfg) (acts : List Act) (s : Sys) (tr : List Ev) (h : Runs cfg acts s tr) :
    ∃ x y, says "Sending websocket packet: ".toList (logOf p cfg acts) = (written tr ++ x).map (dbgWs p.toPrints) ∧
      (taken tr).flatten = written tr ++ (x ++ y) ∧ x.length ≤ 1 ∧
      (∀ w rest, s.task = .writing (w :: rest) → x = [w]) ∧ (∀ t, s.task = t → t = .running ∨ t = .closing ∨ t = .writing [] → x = []) := by
  have hi : SendInv p (logOf p cfg acts) tr s :=
    sched_induct (P := fun acts tr s => SendInv p (logOf p cfg acts) tr s)
      ⟨[], [], rfl, rfl, by simp, fun _ => ⟨rfl, rfl⟩⟩
      (fun acts tr s s' evs a hr hi hs => by
        show SendInv p (logOf p cfg (acts ++ [a])) (tr ++ evs) s'
        rw [logOf_snoc p hr hs]; exact sendInv_step p (pinv hr) hi hs) h
  obtain ⟨x, y, h1, h2, h3, h4⟩ := hi.ex
  refine ⟨x, y, h1, h2, h3, ?_, ?_⟩
  · intro w rest ht
    rw [ht] at h4
    exact (h4 rfl).1
  · rintro t ht (rfl | rfl | rfl) <;> rw [ht] at h4 <;> exact (h4 rfl).1

/-! ### Equal logs -/

theorem dbgWs_inj' {p : Prints} {m n : Ws} (h : dbgWs p m = dbgWs p n) : m = n := by
  have hc : ∀ m : Ws, m ≠ .close → dbgWs p m ≠ dbgWs p .close := by
    intro m hm h
    cases m with
    | close => exact hm rfl
    | text s =>
      have h' : "Text(".toList ++ (dbgStr p s ++ ")".toList) = "Close(".toList ++ (p.close ++ ")".toList) := by rw [← app3, ← app3]; exact h
      exact absurd (heads h') (by decide +kernel)
    | binary s =>
      have h' : "Binary(".toList ++ (dbgBytes s ++ ")".toList) = "Close(".toList ++ (p.close ++ ")".toList) := by rw [← app3, ← app3]; exact h
      exact absurd (heads h') (by decide +kernel)
    | ping s =>
      have h' : "Ping(".toList ++ (dbgBytes s ++ ")".toList) = "Close(".toList ++ (p.close ++ ")".toList) := by rw [← app3, ← app3]; exact h
      exact absurd (heads h') (by decide +kernel)
    | pong s =>
      have h' : "Pong(".toList ++ (dbgBytes s ++ ")".toList) = "Close(".toList ++ (p.close ++ ")".toList) := by rw [← app3, ← app3]; exact h
      exact absurd (heads h') (by decide +kernel)
  by_cases hm : m = .close
  · by_cases hn : n = .close
    · rw [hm, hn]
    · rw [hm] at h; exact absurd h.symm (hc n hn)
  · by_cases hn : n = .close
    · rw [hn] at h; exact absurd h (hc m hm)
    · exact dbgWs_inj hm hn h

theorem map_dbgWs_inj {p : Prints} {a b : List Ws} (h : a.map (dbgWs p) = b.map (dbgWs p)) : a = b := by
  induction a generalizing b with
  | nil => cases b with
    | nil => rfl
    | cons y b => simp at h
  | cons x a ih => cases b with
    | nil => simp at h
    | cons y b =>
      simp only [List.map_cons, List.cons.injEq] at h
      rw [dbgWs_inj' h.1, ih h.2]

/-- C70: two executions with the same log received the same messages in the same order (up to the frames of close messages). -/
theorem C70_same (p : LogPrints) (cfg cfg' : RCfg) (acts acts' : List Act) (s s' : Sys) (tr tr' : List Ev) (h : Runs cfg acts s tr)
    (h' : Runs cfg' acts' s' tr') (he : logOf p cfg acts = logOf p cfg' acts') : inbox tr = inbox tr' := by
  apply map_dbgWs_inj (p := p.toPrints)
  rw [← C70_received p cfg acts s tr h, ← C70_received p cfg' acts' s' tr' h', he]

/-! ### Before and at the close -/

theorem beforeClose_later {tr : List Ev} (h : .closeSeen ∈ tr) (evs : List Ev) : beforeClose (tr ++ evs) = beforeClose tr := by
  induction tr with
  | nil => simp at h
  | cons e tr ih =>
    by_cases he : e = .closeSeen
    · subst he; rfl
    · have h' : .closeSeen ∈ tr := by
        rcases List.mem_cons.1 h with h | h
        · exact absurd h.symm he
        · exact h
      have := ih h'
      unfold beforeClose at this ⊢
      rw [List.cons_append, List.takeWhile_cons, List.takeWhile_cons, this]

theorem beforeClose_none {tr : List Ev} (h : .closeSeen ∉ tr) : beforeClose tr = tr := by
  induction tr with
  | nil => rfl
  | cons e tr ih =>
    have := ih (fun hm => h (List.mem_cons_of_mem _ hm))
    unfold beforeClose at this ⊢
    rw [List.takeWhile_cons, this]
    split
    · exact absurd (List.mem_cons_self ..) h
    · rfl

def wOk : Str := "received message: Ok(".toList
def wErr : Str := "received message: Err(".toList
def wNone : Str := "got None, stream ended".toList
def wClose : Str := "Sending close message".toList
def wOpen : Str := "Received open: ".toList

theorem okLine (p : Prints) (w : Ws) : (⟨.trace, "received message: ".toList ++ ("Ok(".toList ++ dbgWs p w ++ ")".toList)⟩ : Line) =
    ⟨.trace, wOk ++ (dbgWs p w ++ ")".toList)⟩ := by
  have : wOk = "received message: ".toList ++ "Ok(".toList := by decide +kernel
  rw [this]
  simp only [List.append_assoc]

theorem errLine (x : Str) : (⟨.trace, "received message: ".toList ++ ("Err(".toList ++ x ++ ")".toList)⟩ : Line) =
    ⟨.trace, wErr ++ (x ++ ")".toList)⟩ := by
  have : wErr = "received message: ".toList ++ "Err(".toList := by decide +kernel
  rw [this]
  simp only [List.append_assoc]

theorem wsLines_silent (p : Prints) (cfg : RCfg) (st : RState) (w : Ws) {W : Str}
    (h1 : "Received WebSocket packet: ".toList.take W.length ≠ W.take "Received WebSocket packet: ".toList.length)
    (h2 : ∀ h ∈ headsEngine, h.take W.length ≠ W.take h.length) : says W (wsLines p cfg st w) = [] := by
  rw [wsLines_eq, says_cons, saidAfter_other h1, says_nil (wsMore_heads _ _ _ _) h2]
  rfl

def Task.isRunning : Task → Bool
  | .running => true
  | _ => false

def okOf (p : LogPrints) (s : Sys) : Act → List Str
  | .recv w _ => if s.task.isRunning then [dbgWs p.toPrints w ++ ")".toList] else []
  | _ => []
def errOf (p : LogPrints) (s : Sys) : Act → List Str
  | .streamErr e => if s.task.isRunning then [p.websocketDebug e ++ ")".toList] else []
  | _ => []
def noneOf (s : Sys) : Act → List Str
  | .streamEnd => if s.task.isRunning then [[]] else []
  | _ => []
def closeOf : Act → List Str
  | .seeClose => [[]]
  | _ => []
def openOf (p : LogPrints) (s : Sys) : Act → List Str
  | .openReady => (s.openSlot.map (dbgOpen p.toPrints)).toList
  | _ => []

/-- What a step logs of the connection, apart from what is sent. -/
structure ConnSays (p : LogPrints) (cfg : RCfg) (s : Sys) (a : Act) : Prop where
  ok : says wOk (actLines p cfg s a) = okOf p s a
  err : says wErr (actLines p cfg s a) = errOf p s a
  none : says wNone (actLines p cfg s a) = noneOf s a
  close : says wClose (actLines p cfg s a) = closeOf a
  opened : says wOpen (actLines p cfg s a) = openOf p s a

theorem sendLines_silent (p : Prints) (g : List Ws) {W : Str}
    (h : "Sending websocket packet: ".toList.take W.length ≠ W.take "Sending websocket packet: ".toList.length) :
    says W (sendLines p g) = [] := by
  cases g with
  | nil => rfl
  | cons w g => simp only [sendLines, says_cons, saidAfter_other h]; rfl

theorem connSays (p : LogPrints) (cfg : RCfg) (s : Sys) (a : Act) : ConnSays p cfg s a := by
  cases a with
  | recv w c =>
    have e1 : says wOk (wsLines p.toPrints cfg s.rx w) = [] := wsLines_silent _ _ _ _ (by decide +kernel) (by decide +kernel)
    have e2 : says wErr (wsLines p.toPrints cfg s.rx w) = [] := wsLines_silent _ _ _ _ (by decide +kernel) (by decide +kernel)
    have e3 : says wNone (wsLines p.toPrints cfg s.rx w) = [] := wsLines_silent _ _ _ _ (by decide +kernel) (by decide +kernel)
    have e4 : says wClose (wsLines p.toPrints cfg s.rx w) = [] := wsLines_silent _ _ _ _ (by decide +kernel) (by decide +kernel)
    have e5 : says wOpen (wsLines p.toPrints cfg s.rx w) = [] := wsLines_silent _ _ _ _ (by decide +kernel) (by decide +kernel)
    have hl : actLines p cfg s (.recv w c) =
        (if s.task.isRunning then [⟨.trace, wOk ++ (dbgWs p.toPrints w ++ ")".toList)⟩] else []) ++ wsLines p.toPrints cfg s.rx w := by
      simp only [actLines, okLine]
      cases s.task <;> rfl
    have k2 : ∀ x, saidAfter wErr ⟨.trace, wOk ++ x⟩ = none := fun x => saidAfter_other (by decide +kernel)
    have k3 : ∀ x, saidAfter wNone ⟨.trace, wOk ++ x⟩ = none := fun x => saidAfter_other (by decide +kernel)
    have k4 : ∀ x, saidAfter wClose ⟨.trace, wOk ++ x⟩ = none := fun x => saidAfter_other (by decide +kernel)
    have k5 : ∀ x, saidAfter wOpen ⟨.trace, wOk ++ x⟩ = none := fun x => saidAfter_other (by decide +kernel)
    rcases Bool.eq_false_or_eq_true s.task.isRunning with hr | hr
    · rw [hr, if_pos rfl, List.singleton_append] at hl
      refine ⟨?_, ?_, ?_, ?_, ?_⟩ <;> rw [hl, says_cons]
      · rw [e1, saidAfter_self, okOf, hr]; rfl
      · rw [e2, k2]; rfl
      · rw [e3, k3]; rfl
      · rw [e4, k4]; rfl
      · rw [e5, k5]; rfl
    · rw [hr, if_neg (by simp), List.nil_append] at hl
      refine ⟨?_, ?_, ?_, ?_, ?_⟩ <;> rw [hl]
      · rw [e1, okOf, hr]; rfl
      · rw [e2]; rfl
      · rw [e3]; rfl
      · rw [e4]; rfl
      · rw [e5]; rfl
  | openReady =>
    have hl : actLines p cfg s .openReady = (s.openSlot.map fun o => (⟨.trace, wOpen ++ dbgOpen p.toPrints o⟩ : Line)).toList := by
      simp only [actLines]
      cases s.openSlot <;> rfl
    have k1 : ∀ x, saidAfter wOk ⟨.trace, wOpen ++ x⟩ = none := fun x => saidAfter_other (by decide +kernel)
    have k2 : ∀ x, saidAfter wErr ⟨.trace, wOpen ++ x⟩ = none := fun x => saidAfter_other (by decide +kernel)
    have k3 : ∀ x, saidAfter wNone ⟨.trace, wOpen ++ x⟩ = none := fun x => saidAfter_other (by decide +kernel)
    have k4 : ∀ x, saidAfter wClose ⟨.trace, wOpen ++ x⟩ = none := fun x => saidAfter_other (by decide +kernel)
    cases ho : s.openSlot with
    | none =>
      rw [ho] at hl
      refine ⟨?_, ?_, ?_, ?_, ?_⟩ <;> rw [hl]
      · rfl
      · rfl
      · rfl
      · rfl
      · rw [openOf, ho]; rfl
    | some o =>
      rw [ho] at hl
      replace hl : actLines p cfg s .openReady = [⟨.trace, wOpen ++ dbgOpen p.toPrints o⟩] := hl
      refine ⟨?_, ?_, ?_, ?_, ?_⟩ <;> rw [hl, says_cons]
      · rw [k1]; rfl
      · rw [k2]; rfl
      · rw [k3]; rfl
      · rw [k4]; rfl
      · rw [saidAfter_self, openOf, ho]; rfl
  | streamErr e =>
    have hl : actLines p cfg s (.streamErr e) =
        (if s.task.isRunning then [⟨.trace, wErr ++ (p.websocketDebug e ++ ")".toList)⟩] else []) := by
      simp only [actLines, errLine]
      cases s.task <;> rfl
    have k1 : ∀ x, saidAfter wOk ⟨.trace, wErr ++ x⟩ = none := fun x => saidAfter_other (by decide +kernel)
    have k3 : ∀ x, saidAfter wNone ⟨.trace, wErr ++ x⟩ = none := fun x => saidAfter_other (by decide +kernel)
    have k4 : ∀ x, saidAfter wClose ⟨.trace, wErr ++ x⟩ = none := fun x => saidAfter_other (by decide +kernel)
    have k5 : ∀ x, saidAfter wOpen ⟨.trace, wErr ++ x⟩ = none := fun x => saidAfter_other (by decide +kernel)
    rcases Bool.eq_false_or_eq_true s.task.isRunning with hr | hr
    · rw [hr, if_pos rfl] at hl
      refine ⟨?_, ?_, ?_, ?_, ?_⟩ <;> rw [hl, says_cons]
      · rw [k1]; rfl
      · rw [saidAfter_self, errOf, hr]; rfl
      · rw [k3]; rfl
      · rw [k4]; rfl
      · rw [k5]; rfl
    · rw [hr, if_neg (by simp)] at hl
      refine ⟨?_, ?_, ?_, ?_, ?_⟩ <;> rw [hl]
      · rfl
      · rw [errOf, hr]; rfl
      · rfl
      · rfl
      · rfl
  | streamEnd =>
    cases ht : s.task <;> refine ⟨?_, ?_, ?_, ?_, ?_⟩ <;> simp only [actLines, ht, okOf, errOf, noneOf, closeOf, openOf, Task.isRunning, if_true, Bool.false_eq_true, if_false]
    all_goals first
      | rfl
      | decide +kernel
  | seeClose =>
    refine ⟨?_, ?_, ?_, ?_, ?_⟩
    · show says wOk [⟨.debug, "Sending close message".toList⟩] = []; decide +kernel
    · show says wErr [⟨.debug, "Sending close message".toList⟩] = []; decide +kernel
    · show says wNone [⟨.debug, "Sending close message".toList⟩] = []; decide +kernel
    · show says wClose [⟨.debug, "Sending close message".toList⟩] = [[]]; decide +kernel
    · show says wOpen [⟨.debug, "Sending close message".toList⟩] = []; decide +kernel
  | dequeue =>
    cases hq : s.queue <;> refine ⟨?_, ?_, ?_, ?_, ?_⟩ <;> simp only [actLines, hq, okOf, errOf, noneOf, closeOf, openOf]
    all_goals first
      | rfl
      | exact sendLines_silent _ _ (by decide +kernel)
  | write =>
    refine ⟨?_, ?_, ?_, ?_, ?_⟩ <;> simp only [actLines, okOf, errOf, noneOf, closeOf, openOf] <;> split
    all_goals first
      | rfl
      | exact sendLines_silent _ _ (by decide +kernel)
  | _ => exact ⟨rfl, rfl, rfl, rfl, rfl⟩

/-- What the connection has logged so far. -/
structure ReadInv (p : LogPrints) (log : List Line) (tr : List Ev) (s : Sys) : Prop where
  ok : says wOk log = (inbox (beforeClose tr)).map fun w => dbgWs p.toPrints w ++ ")".toList
  before : s.task.over = false → s.task ≠ .closing → .closeSeen ∉ tr
  closing : s.task = .closing → .closeSeen ∈ tr
  close : says wClose log = [[]] ∧ .closeSeen ∈ tr ∨ says wClose log = [] ∧ .closeSeen ∉ tr
  err : says wErr log = [] ∨ s.task.over = true ∧ ∃ e, says wErr log = [p.websocketDebug e ++ ")".toList] ∧
    .taskEnd (.err (.websocket e)) ∈ tr ∧ .closeSeen ∉ tr
  none : says wNone log = [] ∧ .taskEnd (.ok ()) ∉ beforeClose tr ∨
    s.task.over = true ∧ says wNone log = [[]] ∧ .taskEnd (.ok ()) ∈ tr ∧ .closeSeen ∉ tr

/-- Nothing of this happens. -/
theorem readInv_still {p : LogPrints} {log ls : List Line} {tr evs : List Ev} {s s' : Sys} (h : ReadInv p log tr s) (hs : inbox evs = [] ∧ .closeSeen ∉ evs)
    (hn : .taskEnd (.ok ()) ∉ evs) (l1 : says wOk ls = []) (l2 : says wErr ls = []) (l3 : says wNone ls = []) (l4 : says wClose ls = [])
    (ht : s'.task.over = true ∨ s.task.over = false ∧ s'.task ≠ .closing ∧ s.task ≠ .closing ∨ s'.task = s.task) :
    ReadInv p (log ++ ls) (tr ++ evs) s' := by
  obtain ⟨k1, k4⟩ := hs
  have hb : inbox (beforeClose (tr ++ evs)) = inbox (beforeClose tr) := by
    by_cases hc : .closeSeen ∈ tr
    · rw [beforeClose_later hc]
    · rw [beforeClose_none (by simp [hc, k4]), beforeClose_none hc, inbox_append, k1, List.append_nil]
  have hm : .closeSeen ∈ tr ++ evs ↔ .closeSeen ∈ tr := by simp [k4]
  have ho : s.task.over = true → s'.task.over = true := by
    intro h1
    rcases ht with ht | ⟨ht, -, -⟩ | ht
    · exact ht
    · rw [h1] at ht; simp at ht
    · rw [ht]; exact h1
  refine ⟨?_, ?_, ?_, ?_, ?_, ?_⟩
  · rw [says_append, l1, List.append_nil, hb]; exact h.ok
  · intro h1 h2
    rw [hm]
    rcases ht with ht | ⟨ht, _, h3⟩ | ht
    · rw [ht] at h1; simp at h1
    · exact h.before ht h3
    · rw [ht] at h1 h2; exact h.before h1 h2
  · intro h1
    rw [hm]
    rcases ht with ht | ⟨ht, h3, _⟩ | ht
    · rw [h1] at ht; simp [Task.over] at ht
    · exact absurd h1 h3
    · rw [ht] at h1; exact h.closing h1
  · rw [says_append, l4, List.append_nil, hm]; exact h.close
  · rw [says_append, l2, List.append_nil, hm]
    rcases h.err with h1 | ⟨h1, e, h2, h3, h4⟩
    · exact .inl h1
    · exact .inr ⟨ho h1, e, h2, List.mem_append_left _ h3, h4⟩
  · rw [says_append, l3, List.append_nil, hm]
    rcases h.none with ⟨h1, h2⟩ | ⟨h1, h2, h3, h4⟩
    · refine .inl ⟨h1, ?_⟩
      by_cases hc : .closeSeen ∈ tr
      · rw [beforeClose_later hc]; exact h2
      · rw [beforeClose_none (by simp [hc, k4])]
        rw [beforeClose_none hc] at h2
        simp [h2, hn]
    · exact .inr ⟨ho h1, h2, List.mem_append_left _ h3, h4⟩

theorem readInv_step (p : LogPrints) {cfg : RCfg} {log : List Line} {s s' : Sys} {tr evs : List Ev} {a : Act} (hp : PInv s)
    (h : ReadInv p log tr s) (hs : step cfg s a = some (s', evs)) : ReadInv p (log ++ actLines p cfg s a) (tr ++ evs) s' := by
  have hsh := step_shows hs
  have hend : a ≠ .streamEnd → .taskEnd (.ok ()) ∉ evs := fun hne hm => hne (step_endOk hs hm)
  obtain ⟨c1, c2, c3, c4, -⟩ := connSays p cfg s a
  cases a with
  | recv w c =>
    obtain ⟨hr, ⟨rest, rfl, hst⟩, ht⟩ := hsh
    have hend := hend (by simp)
    have ht' : s'.task.over = true ∨ s'.task = s.task := ht.symm
    have hno : s.task.over = false := by rcases hr with h | h <;> rw [h] <;> rfl
    have hin : inbox (.received w :: rest) = [w] := by have := hst.1; simpa [inbox] using this
    have hcl : .closeSeen ∉ (.received w :: rest) := by simp [hst.2.2.2]
    have hm : .closeSeen ∈ tr ++ (.received w :: rest) ↔ .closeSeen ∈ tr := by simp [hst.2.2.2]
    have herr : says wErr log = [] := by
      rcases h.err with h1 | ⟨h1, -⟩
      · exact h1
      · rw [hno] at h1; simp at h1
    have hnone : says wNone log = [] ∧ .taskEnd (.ok ()) ∉ beforeClose tr := by
      rcases h.none with h1 | ⟨h1, -⟩
      · exact h1
      · rw [hno] at h1; simp at h1
    refine ⟨?_, ?_, ?_, ?_, ?_, ?_⟩
    · rw [says_append, c1, h.ok]
      rcases hr with hr | hr
      · have hc := h.before (by rw [hr]; rfl) (by rw [hr]; simp)
        rw [beforeClose_none (fun hx => hc (hm.1 hx)), beforeClose_none hc, inbox_append, hin, List.map_append]
        simp only [okOf, hr]
        rfl
      · rw [beforeClose_later (h.closing hr)]
        simp only [okOf, hr, Task.isRunning]
        simp
    · intro h1 h2
      rw [hm]
      rcases ht' with ht | ht
      · rw [ht] at h1; simp at h1
      · rw [ht] at h1 h2; exact h.before h1 h2
    · intro h1
      rw [hm]
      rcases ht' with ht | ht
      · rw [h1] at ht; simp [Task.over] at ht
      · rw [ht] at h1; exact h.closing h1
    · rw [says_append, c4, hm]; simpa [closeOf] using h.close
    · left; rw [says_append, c2, herr]; rfl
    · left
      rw [says_append, c3, hnone.1]
      refine ⟨rfl, ?_⟩
      by_cases hc : .closeSeen ∈ tr
      · rw [beforeClose_later hc]; exact hnone.2
      · have := hnone.2
        rw [beforeClose_none hc] at this
        rw [beforeClose_none (fun hx => hc (hm.1 hx))]
        intro hx
        rcases List.mem_append.1 hx with hx | hx
        · exact this hx
        · exact hend hx
  | seeClose =>
    obtain ⟨ht, rfl, ht'⟩ := hsh
    have hno : s.task.over = false := by rw [ht]; rfl
    have hc := h.before hno (by rw [ht]; simp)
    have herr : says wErr log = [] := by
      rcases h.err with h1 | ⟨h1, -⟩
      · exact h1
      · rw [hno] at h1; simp at h1
    have hnone : says wNone log = [] ∧ .taskEnd (.ok ()) ∉ beforeClose tr := by
      rcases h.none with h1 | ⟨h1, -⟩
      · exact h1
      · rw [hno] at h1; simp at h1
    have hb : beforeClose (tr ++ [.closeSeen]) = tr := by
      clear c1 c2 c3 c4 hend hs h herr hnone
      induction tr with
      | nil => rfl
      | cons e tr ih =>
        have := ih (fun hm => hc (List.mem_cons_of_mem _ hm))
        unfold beforeClose at this ⊢
        rw [List.cons_append, List.takeWhile_cons, this]
        split
        · exact absurd (List.mem_cons_self ..) hc
        · rfl
    have hbt := beforeClose_none hc
    refine ⟨?_, ?_, ?_, ?_, ?_, ?_⟩
    · rw [says_append, c1, h.ok, hb, hbt]; simp [okOf]
    · intro _ h2; exact absurd ht' h2
    · intro _; simp
    · left
      rcases h.close with ⟨_, h2⟩ | ⟨h1, -⟩
      · exact absurd h2 hc
      · rw [says_append, c4, h1]; exact ⟨rfl, by simp⟩
    · left; rw [says_append, c2, herr]; rfl
    · left; rw [says_append, c3, hnone.1, hb]; rw [hbt] at hnone; exact ⟨rfl, hnone.2⟩
  | streamErr e =>
    obtain ⟨hst, hr, ho⟩ := hsh
    rcases hr with hr | hr
    · have hc := h.before (by rw [hr]; rfl) (by rw [hr]; simp)
      have h' : ReadInv p (log ++ []) (tr ++ evs) s' :=
        readInv_still h ⟨hst.1, hst.2.2.2⟩ (hend (by simp)) rfl rfl rfl rfl (.inl ho)
      rw [List.append_nil] at h'
      refine ⟨?_, h'.before, h'.closing, ?_, ?_, ?_⟩
      · rw [says_append, c1, okOf, List.append_nil]; exact h'.ok; simp
      · rw [says_append, c4, closeOf, List.append_nil]; exact h'.close; simp
      · right
        refine ⟨ho, e, ?_, ?_, ?_⟩
        · have herr : says wErr log = [] := by
            rcases h.err with h1 | ⟨h1, -⟩
            · exact h1
            · rw [hr] at h1; simp [Task.over] at h1
          rw [says_append, c2, herr, errOf, hr]; rfl
        · simp only [step, hr, Sys.finishTask, Option.some.injEq, Prod.mk.injEq] at hs
          rw [← hs.2]; simp
        · simp [hc, hst.2.2.2]
      · rw [says_append, c3, noneOf, List.append_nil]; exact h'.none; simp
    · refine readInv_still h ⟨hst.1, hst.2.2.2⟩ (hend (by simp)) ?_ ?_ ?_ ?_ (.inl ho)
      · rw [c1]; rfl
      · rw [c2, errOf, hr]; rfl
      · rw [c3]; rfl
      · rw [c4]; rfl
  | streamEnd =>
    obtain ⟨hst, hr, ho⟩ := hsh
    have hev : evs = [.taskEnd (.ok ())] := by
      rcases hr with hr | hr <;>
      · simp only [step, hr, Sys.finishTask, Option.some.injEq, Prod.mk.injEq] at hs
        exact hs.2.symm
    subst hev
    have hno : s.task.over = false := by rcases hr with h | h <;> rw [h] <;> rfl
    have herr : says wErr log = [] := by
      rcases h.err with h1 | ⟨h1, -⟩
      · exact h1
      · rw [hno] at h1; simp at h1
    have hnone : says wNone log = [] ∧ .taskEnd (.ok ()) ∉ beforeClose tr := by
      rcases h.none with h1 | ⟨h1, -⟩
      · exact h1
      · rw [hno] at h1; simp at h1
    have hm : .closeSeen ∈ tr ++ [.taskEnd (.ok ())] ↔ .closeSeen ∈ tr := by simp
    refine ⟨?_, ?_, ?_, ?_, ?_, ?_⟩
    · rw [says_append, c1, h.ok]
      by_cases hc : .closeSeen ∈ tr
      · rw [beforeClose_later hc]; simp [okOf]
      · rw [beforeClose_none (fun hx => hc (hm.1 hx)), beforeClose_none hc, inbox_append]; simp [okOf, inbox]
    · intro h1; rw [ho] at h1; simp at h1
    · intro h1; rw [h1] at ho; simp [Task.over] at ho
    · rw [says_append, c4, hm]; simpa [closeOf] using h.close
    · left; rw [says_append, c2, herr]; rfl
    · rcases hr with hr | hr
      · have hc := h.before hno (by rw [hr]; simp)
        right
        refine ⟨ho, ?_, by simp, fun hx => hc (hm.1 hx)⟩
        rw [says_append, c3, hnone.1, noneOf, hr]; rfl
      · left
        have hc := h.closing hr
        rw [says_append, c3, hnone.1, noneOf, hr, beforeClose_later hc]
        exact ⟨rfl, hnone.2⟩
  | dequeue =>
    obtain ⟨ht, ⟨g, q, hg, rfl, ht'⟩ | ⟨hg, hst, ho⟩⟩ := hsh
    · exact readInv_still h ⟨rfl, by simp⟩ (hend (by simp)) c1 c2 c3 c4
        (.inr (.inl ⟨by rw [ht]; rfl, by rw [ht']; simp, by rw [ht]; simp⟩))
    · exact readInv_still h ⟨hst.1, hst.2.2.2⟩ (hend (by simp)) c1 c2 c3 c4 (.inl ho)
  | write =>
    obtain ⟨w, rest, ht, rfl, ht'⟩ := hsh
    exact readInv_still h ⟨rfl, by simp⟩ (hend (by simp)) c1 c2 c3 c4
      (.inr (.inl ⟨by rw [ht]; rfl, by rw [ht']; simp, by rw [ht]; simp⟩))
  | handshakeOk =>
    obtain ⟨hst, hph, ht'⟩ := hsh
    have := (hp.start hph).1
    exact readInv_still h ⟨hst.1, hst.2.2.2⟩ (hend (by simp)) c1 c2 c3 c4
      (.inr (.inl ⟨by rw [this]; rfl, by rw [ht']; simp, by rw [this]; simp⟩))
  | endGroup =>
    exact readInv_still h ⟨hsh.1.1, hsh.1.2.2.2⟩ (hend (by simp)) c1 c2 c3 c4
      (.inr (.inl ⟨by rw [hsh.2.1]; rfl, by rw [hsh.2.2]; simp, by rw [hsh.2.1]; simp⟩))
  | writeFail e => exact readInv_still h ⟨hsh.1.1, hsh.1.2.2.2⟩ (hend (by simp)) c1 c2 c3 c4 (.inl hsh.2.2)
  | dropTask => exact readInv_still h ⟨hsh.1.1, hsh.1.2.2.2⟩ (hend (by simp)) c1 c2 c3 c4 (.inl hsh.2.2)
  | _ => exact readInv_still h ⟨hsh.1.1, hsh.1.2.2.2⟩ (hend (by simp)) c1 c2 c3 c4 (.inr (.inr hsh.2))

theorem readInv (p : LogPrints) {cfg : RCfg} {acts : List Act} {s : Sys} {tr : List Ev} (h : Runs cfg acts s tr) :
    ReadInv p (logOf p cfg acts) tr s :=
  sched_induct (P := fun acts tr s => ReadInv p (logOf p cfg acts) tr s)
    ⟨rfl, by simp, by intro h; simp [Sys.init] at h, .inr ⟨rfl, by simp⟩, .inl rfl, .inl ⟨rfl, by simp [beforeClose]⟩⟩
    (fun acts tr s s' evs a hr hi hs => by
      show ReadInv p (logOf p cfg (acts ++ [a])) (tr ++ evs) s'
      rw [logOf_snoc p hr hs]; exact readInv_step p (pinv hr) hi hs) h

/-- C70: the lines with `received message: Ok(` show the messages received before the task saw the request to close, in order; there is
a line `received message: Err(` only if the task ended with this error before it saw the request. -/
theorem C70_read (p : LogPrints) (cfg : RCfg) (acts : List Act) (s : Sys) (tr : List Ev) (h : Runs cfg acts s tr) :
    says "received message: Ok(".toList (logOf p cfg acts) = (inbox (beforeClose tr)).map (fun w => dbgWs p.toPrints w ++ ")".toList) ∧
    (says "received message: Err(".toList (logOf p cfg acts) = [] ∨
      ∃ e, says "received message: Err(".toList (logOf p cfg acts) = [p.websocketDebug e ++ ")".toList] ∧
        .taskEnd (.err (.websocket e)) ∈ tr ∧ .closeSeen ∉ tr) := by
  obtain ⟨h1, -, -, -, h5, -⟩ := readInv p h
  exact ⟨h1, h5.imp id And.right⟩

/-- C70: `got None, stream ended` is logged, once, exactly if the task ended well without having seen a request to close;
`Sending close message` is logged, once, exactly if it has seen one. -/
theorem C70_end (p : LogPrints) (cfg : RCfg) (acts : List Act) (s : Sys) (tr : List Ev) (h : Runs cfg acts s tr) :
    (says "got None, stream ended".toList (logOf p cfg acts) = [[]] ∧ .taskEnd (.ok ()) ∈ tr ∧ .closeSeen ∉ tr ∨
      says "got None, stream ended".toList (logOf p cfg acts) = [] ∧ (.taskEnd (.ok ()) ∈ tr → .closeSeen ∈ tr)) ∧
    (says "Sending close message".toList (logOf p cfg acts) = [[]] ∧ .closeSeen ∈ tr ∨
      says "Sending close message".toList (logOf p cfg acts) = [] ∧ .closeSeen ∉ tr) := by
  obtain ⟨-, -, -, h4, -, h6⟩ := readInv p h
  refine ⟨?_, h4⟩
  rcases h6 with ⟨h1, h2⟩ | ⟨-, h1, h2, h3⟩
  · refine .inr ⟨h1, fun hm => Classical.byContradiction fun hc => ?_⟩
    rw [beforeClose_none hc] at h2
    exact h2 hm
  · exact .inl ⟨h1, h2, h3⟩

theorem step_connected {cfg : RCfg} {s s' : Sys} {a : Act} {evs : List Ev} (h : step cfg s a = some (s', evs)) (sid : Str)
    (he : .connectReturned (.ok sid) ∈ evs) : a = .openReady := by
  cases a with
  | openReady => rfl
  | recv w p => exact absurd he ((step_io_events h (.inl ⟨w, p, rfl⟩)).1 _)
  | rawSend g => exact absurd he ((step_io_events h (.inr (.inl ⟨g, rfl⟩))).1 _)
  | emitEnqueue => exact absurd he ((step_io_events h (.inr (.inr (.inl rfl)))).1 _)
  | reply x b args => exact absurd he ((step_io_events h (.inr (.inr (.inr ⟨x, b, args, rfl⟩)))).1 _)
  | _ =>
    exfalso
    simp only [step, Sys.finishTask, Sys.endTask, Sys.failConnect, Sys.closeOver] at h
    grind

theorem dbgOpen_text (p : SIO.Prints) (o : Open) : dbgOpen p o = openShown p o := by
  unfold dbgOpen openShown
  rw [natDec_decimal, natDec_decimal]

/-- C70: `Received open: ` is logged, once, exactly if `connect` succeeded, and shows the open packet that came, with the session id
`connect` took from it. -/
theorem C70_open (p : LogPrints) (cfg : RCfg) (acts : List Act) (s : Sys) (tr : List Ev) (h : Runs cfg acts s tr) :
    says "Received open: ".toList (logOf p cfg acts) = [] ∧ (∀ sid, .connectReturned (.ok sid) ∉ tr) ∨
    ∃ o, says "Received open: ".toList (logOf p cfg acts) = [openShown p.toPrints o] ∧ .connectReturned (.ok o.sid) ∈ tr ∧
      .eff (.opened o) ∈ tr := by
  simp only [← dbgOpen_text]
  refine sched_induct (P := fun acts tr _ => says wOpen (logOf p cfg acts) = [] ∧ (∀ sid, .connectReturned (.ok sid) ∉ tr) ∨
    ∃ o, says wOpen (logOf p cfg acts) = [dbgOpen p.toPrints o] ∧ .connectReturned (.ok o.sid) ∈ tr ∧
      .eff (.opened o) ∈ tr) (.inl ⟨rfl, by simp⟩) ?_ h
  intro acts tr s s' evs a hr hi hs
  have hl : says wOpen (logOf p cfg (acts ++ [a])) = says wOpen (logOf p cfg acts) ++ openOf p s a := by
    rw [logOf_snoc p hr hs, says_append, (connSays p cfg s a).opened]
  by_cases ha : a = .openReady
  · subst ha
    have hc := conninv hr
    simp only [step] at hs
    split at hs
    · rename_i hw
      have hno : ∀ r, .connectReturned r ∉ tr := by
        intro r hm
        have h0 := (hc.wait (.inr hw)).1
        have : r ∈ connectResults tr := List.mem_filterMap.2 ⟨_, hm, rfl⟩
        rw [h0] at this
        simp at this
      have hi' : says wOpen (logOf p cfg acts) = [] := by
        rcases hi with ⟨h1, _⟩ | ⟨o, _, h2, _⟩
        · exact h1
        · exact absurd h2 (hno _)
      split at hs
      · rename_i o ho
        simp only [Option.some.injEq, Prod.mk.injEq] at hs
        right
        refine ⟨o, ?_, ?_, List.mem_append_left _ (hc.slot o ho)⟩
        · rw [hl, hi', openOf, ho]; rfl
        · rw [← hs.2]; simp
      · rename_i ho
        split at hs
        · simp at hs
        · simp only [Option.some.injEq, Prod.mk.injEq] at hs
          left
          refine ⟨?_, ?_⟩
          · rw [hl, hi', openOf, ho]; rfl
          · intro sid; rw [← hs.2]; simp [hno]
    · simp at hs
  · have h0 : openOf p s a = [] := by cases a <;> first | rfl | exact absurd rfl ha
    rw [hl, h0, List.append_nil]
    rcases hi with ⟨h1, h2⟩ | ⟨o, h1, h2, h3⟩
    · refine .inl ⟨h1, fun sid hm => ?_⟩
      rcases List.mem_append.1 hm with hm | hm
      · exact h2 sid hm
      · exact ha (step_connected hs sid hm)
    · exact .inr ⟨o, h1, List.mem_append_left _ h2, List.mem_append_left _ h3⟩

end SIO
