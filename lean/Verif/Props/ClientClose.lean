import Verif.Lemmas.ClientConn
import Verif.Lemmas.ClientTag
/-
C34, C35, C37, C42 for the whole client: closing, errors and connecting.
-/
namespace SIO
open Spec

/-! ### C34 -/

/-- C34: the first call of `close` (while the client exists) takes the handle of the task and
requests the close. -/
theorem C34_first (cfg : RCfg) (acts : List Act) (s : Sys) (tr : List Ev) (h : Runs cfg acts s tr)
    (hn : .closeRequested ∉ tr) (s' : Sys) (evs : List Ev) (hs : step cfg s .closeStart = some (s', evs)) :
    evs = [.closeRequested] ∧ s'.closeCall = true := by
  have hc := cinv h
  have h0 : closeRequests tr = 0 := by
    exact Nat.eq_zero_of_not_pos fun h => hn ((closeRequests_pos tr).1 h)
  simp only [step] at hs
  split at hs
  · rename_i hcl
    split at hs
    · simp only [Option.some.injEq, Prod.mk.injEq] at hs
      obtain ⟨rfl, rfl⟩ := hs
      exact ⟨rfl, rfl⟩
    · have := hc.gone hcl.1 (by simpa using ‹¬ s.handleHere = true›)
      omega
  · simp at hs

/-- C34: every later call returns `AlreadyClosed` and has no other effect, also if the first one
was cancelled. -/
theorem C34_later (cfg : RCfg) (acts : List Act) (s : Sys) (tr : List Ev) (h : Runs cfg acts s tr)
    (hn : .closeRequested ∈ tr) (s' : Sys) (evs : List Ev) (hs : step cfg s .closeStart = some (s', evs)) :
    s' = s ∧ evs = [.closeReturned (.err .alreadyClosed)] := by
  have hc := cinv h
  have h0 := (closeRequests_pos tr).2 hn
  simp only [step] at hs
  split at hs
  · split at hs
    · have := hc.here ‹_›
      omega
    · simp only [Option.some.injEq, Prod.mk.injEq] at hs
      exact ⟨hs.1.symm, hs.2.symm⟩
  · simp at hs

/-- C34: at most one call takes the handle, and at most one reports something other than
`AlreadyClosed`. -/
theorem C34_once (cfg : RCfg) (acts : List Act) (s : Sys) (tr : List Ev) (h : Runs cfg acts s tr) :
    closeRequests tr ≤ 1 ∧ (closeReports tr).length ≤ closeRequests tr := by
  have hc := cinv h
  refine ⟨hc.le, ?_⟩
  have := hc.reports
  split at this <;> omega

/-- C34: what a call of `close` reports: `AlreadyClosed` after an earlier call, or a timeout, or
the outcome of the task. -/
theorem C34_result (cfg : RCfg) (acts : List Act) (s : Sys) (tr : List Ev) (h : Runs cfg acts s tr)
    (t1 t2 : List Ev) (r : Res CErr Unit) (he : tr = t1 ++ .closeReturned r :: t2) :
    .closeRequested ∈ t1 ∧ (r = .err .alreadyClosed ∨ r = .err (.timeout .close) ∨ .taskEnd r ∈ t1) := by
  obtain ⟨acts0, s0, tr0, a, s1, x, y, hr, hs, rfl⟩ := run_split h he
  have ht := step_trans hs
  have hc := cinv hr
  have hreq : s0.client = true → s0.handleHere = false → .closeRequested ∈ tr0 := by
    intro h1 h2
    have := hc.gone h1 h2
    exact (closeRequests_pos tr0).1 (by omega)
  have hcall : s0.closeCall = true → .closeRequested ∈ tr0 := by
    intro h1
    have h2 := hc.reports
    rw [h1] at h2
    simp only [if_true] at h2
    exact (closeRequests_pos tr0).1 (by omega)
  generalize hevs : x ++ Ev.closeReturned r :: y = evs at ht
  have hm : Ev.closeReturned r ∈ evs := by rw [← hevs]; simp
  clear hs
  cases ht with
  | sendOk src g s0 evs hs hl hc => cases hs <;> simp at hm
  | sendFail src g s0 evs hs hc => cases hs <;> simp at hm
  | closeAgain h1 h2 h3 =>
    simp at hm; subst hm
    exact ⟨List.mem_append_left _ (hreq h1 h3), Or.inl rfl⟩
  | closeReady r' h1 h2 =>
    simp at hm; subst hm
    exact ⟨List.mem_append_left _ (hcall h1), Or.inr (Or.inr (List.mem_append_left _ ((einv hr).done r h2)))⟩
  | closeTimeout h1 =>
    simp at hm; subst hm
    exact ⟨List.mem_append_left _ (hcall h1), Or.inr (Or.inl rfl)⟩
  | _ => simp at hm

-- non-vacuity: a cancelled call, and a later one
example : seen exCfg (exConnect ++ [.closeStart, .closeCancel, .closeStart]) =
    some [.received exOpen, .opened ['s'], .connectReturned .ok, .closeRequested, .closeReturned .alreadyClosed] := by
  decide +kernel
-- a timeout, and a later call
example : seen exCfg (exConnect ++ [.closeStart, .seeClose, .closeTimeout, .dropTask, .closeStart]) =
    some [.received exOpen, .opened ['s'], .connectReturned .ok, .closeRequested, .closeSeen,
      .closeReturned (.timeout .close), .taskDropped, .closeReturned .alreadyClosed] := by
  decide +kernel

/-! ### C35 -/

/-- C35: after the task has ended nothing is received, dispatched, queued or sent, and there is no
other end. -/
theorem C35_final (cfg : RCfg) (acts : List Act) (s : Sys) (tr : List Ev) (h : Runs cfg acts s tr)
    (t1 t2 : List Ev) (r : Res CErr Unit) (he : tr = t1 ++ .taskEnd r :: t2) : ∀ e ∈ t2, ¬ TaskActs e :=
  ((einv h).after t1 (.taskEnd r) t2 he (Or.inl ⟨r, rfl⟩)).2

/-- C35: a processing error ends the task in the same action, with that error. -/
theorem C35_processing (cfg : RCfg) (s s' : Sys) (w : Ws) (p : Bool) (evs : List Ev) (e : RErr)
    (hs : step cfg s (.recv w p) = some (s', evs)) (he : (processWs cfg s.rx s.reg w).res = .err e) :
    evs = [.received w, .taskEnd (.err (.processing e))] := by
  have heff : (processWs cfg s.rx s.reg w).effs = [] := by
    have hsh := processWs_shape cfg s.rx s.reg w
    generalize hx : ((processWs cfg s.rx s.reg w).reg, (processWs cfg s.rx s.reg w).effs, (processWs cfg s.rx s.reg w).res) = x at hsh
    have h1 : (processWs cfg s.rx s.reg w).effs = x.2.1 := by rw [← hx]
    have h2 : (processWs cfg s.rx s.reg w).res = x.2.2 := by rw [← hx]
    rw [h1]
    rw [h2] at he
    cases hsh with
    | packet x hx =>
      cases hx with
      | quiet => rfl
      | noAck => rfl
      | event => simp at he
      | ack => simp at he
    | _ => simp at he
  have key : some (s.recv cfg w p) = some (s', evs) → evs = [.received w, .taskEnd (.err (.processing e))] := by
    intro hx
    simp only [Option.some.injEq] at hx
    have : (s.recv cfg w p).2 = evs := by rw [hx]
    rw [← this]
    simp only [Sys.recv, heff, he, Sys.effects, List.any_nil]
    simp [Sys.finishTask]
  simp only [step] at hs
  split at hs
  · exact key hs
  · exact key hs
  · simp at hs

/-- C35: a stream error ends the task with that error, and so does a sink error. -/
theorem C35_transport (cfg : RCfg) (s s' : Sys) (e : Nat) (evs : List Ev) :
    (step cfg s (.streamErr e) = some (s', evs) → evs = [.taskEnd (.err (.websocket e))]) ∧
    (step cfg s (.writeFail e) = some (s', evs) → ∃ w, evs = [.writeFailed w, .taskEnd (.err (.websocket e))]) := by
  constructor
  · intro hs
    simp only [step, Sys.finishTask] at hs
    split at hs
    · simp only [Option.some.injEq, Prod.mk.injEq] at hs; exact hs.2.symm
    · simp only [Option.some.injEq, Prod.mk.injEq] at hs; exact hs.2.symm
    · simp at hs
  · intro hs
    simp only [step, Sys.finishTask] at hs
    split at hs
    · simp only [Option.some.injEq, Prod.mk.injEq] at hs; exact ⟨_, hs.2.symm⟩
    · simp at hs

/-- C35: the other way round, the task ends only for an error, an end of the stream, or a panic,
and every error it ends with is one of processing, stream or sink. -/
theorem C35_causes (cfg : RCfg) (acts : List Act) (s : Sys) (tr : List Ev) (h : Runs cfg acts s tr) (e : CErr)
    (he : .taskEnd (.err e) ∈ tr) : (∃ n, e = .websocket n) ∨ ∃ x, e = .processing x :=
  end_results h _ he e rfl

/-- C35: when the task has ended, a waiting call of `close` can return, with the result of the
task; it returns nothing else but a timeout. -/
theorem C35_reported (cfg : RCfg) (acts : List Act) (s : Sys) (tr : List Ev) (h : Runs cfg acts s tr)
    (r : Res CErr Unit) (he : .taskEnd r ∈ tr) :
    (s.closeCall = true → step cfg s .closeReady = some (s.closeOver, [.closeReturned r])) ∧
    ∀ r', .closeReturned r' ∈ tr → r' = r ∨ r' = .err (.timeout .close) ∨ r' = .err .alreadyClosed := by
  obtain ⟨a, b, hab⟩ := mem_split he
  have h1 := ((einv h).after a (.taskEnd r) b hab (Or.inl ⟨r, rfl⟩)).1
  constructor
  · intro hc
    simp [step, hc, h1, endOf]
  · intro r' hr'
    obtain ⟨a', b', hab'⟩ := mem_split hr'
    obtain ⟨_, h2 | h2 | h2⟩ := C34_result cfg acts s tr h a' b' r' hab'
    · exact Or.inr (Or.inr h2)
    · exact Or.inr (Or.inl h2)
    · exact Or.inl (end_unique h (by rw [hab']; exact List.mem_append_left _ h2) he)

-- non-vacuity: an unexpected ack ends the connection, close reports the error
example : seen exCfg (exConnect ++ [.rawSend [.text ['x']], .recv (.text "437[]".toList) false, .rawSend [.text ['y']],
      .closeStart, .closeReady]) =
    some [.received exOpen, .opened ['s'], .connectReturned .ok, .enqueued .raw [.text ['x']],
      .received (.text "437[]".toList), .taskEnd .processing, .sendFailed .raw [.text ['y']], .closeRequested,
      .closeReturned .processing] := by
  decide +kernel

/-! ### C42 -/

/-- C42, in the running client: the open information is signalled at most once, for the first
readable open packet; the "second open" branch is never taken. -/
theorem C42_system (cfg : RCfg) (acts : List Act) (s : Sys) (tr : List Ev) (h : Runs cfg acts s tr) :
    (∀ o, .eff (.secondOpen o) ∉ tr) ∧
    ∀ t1 t2 o, tr = t1 ++ .eff (.opened o) :: t2 → (∀ o', .eff (.opened o') ∉ t1) ∧
      ∃ pre t, inbox t1 = pre ++ [.text ('0' :: t)] ∧ parseOpen t = .ok o ∧ ∀ w ∈ pre, ¬ IsOpen w := by
  constructor
  · intro o ho
    obtain ⟨a, b, hab⟩ := mem_split ho
    obtain ⟨t0, w, l, reg, h1, h2, h3, h4, h5⟩ := eff_source h _ _ _ hab _ rfl
    exact (C42_second cfg l reg w).1 o h5
  · intro t1 t2 o he
    obtain ⟨t0, w, l, reg, h1, h2, h3, h4, h5⟩ := eff_source h _ _ _ he _ rfl
    obtain ⟨⟨t, hw, hp⟩, hno⟩ := (C42_open cfg l reg w o).1 h5
    have hno' : ∀ w ∈ inbox t0, ¬ IsOpen w := by
      intro x hx
      rw [← h2] at hx
      obtain ⟨r, hr, rfl⟩ := List.mem_map.1 hx
      exact hno r hr
    constructor
    · intro o' ho'
      rw [h1] at ho'
      have ho0 : .eff (.opened o') ∈ t0 := by simpa using ho'
      obtain ⟨a, b, hab⟩ := mem_split ho0
      obtain ⟨t0', w', l', reg', k1, k2, k3, k4, k5⟩ := eff_source (t1 := a) (t2 := b ++ [.received w] ++ .eff (.opened o) :: t2)
        h (e := .eff (.opened o')) (by rw [he, h1, hab]; simp) (.opened o') rfl
      obtain ⟨⟨t', hw', hp'⟩, _⟩ := (C42_open cfg l' reg' w' o').1 k5
      refine hno' w' ?_ ⟨t', o', hw', hp'⟩
      rw [hab, k1]
      simp [inbox]
    · refine ⟨inbox t0, t, ?_, hp, hno'⟩
      rw [h1, inbox_append, hw]
      rfl

/-! ### C37 -/

/-- What may have happened before `connect` returns a client, an error, or panics. -/
def ConnectAfter (tr : List Ev) : Res CErr Str → Prop
  | .ok sid => ∃ pre t post o, inbox tr = pre ++ .text ('0' :: t) :: post ∧ (∀ w ∈ pre, ¬ IsOpen w) ∧
      parseOpen t = .ok o ∧ o.sid = sid
  | .err e => (∃ n, e = .websocket n) ∨ e = .spawn ∨ e = .timeout .handshake ∨ e = .timeout .openPacket
  | .panic => (∃ r, .taskEnd r ∈ tr) ∧ ∀ w ∈ inbox tr, ¬ IsOpen w

/-- C37, what holds: `connect` returns at most once.  It returns a client only after an open
packet was received, with the session id of the first one; the errors it returns are those of the
handshake, of spawning and of the two timeouts; and it panics only if the task has ended without
an open packet.  Missing for the full claim: that last case should be an error, see
`C37_counterexample`. -/
theorem C37_partial (cfg : RCfg) (acts : List Act) (s : Sys) (tr : List Ev) (h : Runs cfg acts s tr)
    (t1 t2 : List Ev) (r : Res CErr Str) (he : tr = t1 ++ .connectReturned r :: t2) :
    connectResults t1 = [] ∧ connectResults t2 = [] ∧ ConnectAfter t1 r := by
  have hlen : (connectResults tr).length ≤ 1 := by
    have hi := conninv h
    cases hp : s.phase with
    | handshake => rw [(hi.wait (Or.inl hp)).1]; simp
    | waitOpen => rw [(hi.wait (Or.inr hp)).1]; simp
    | connected sid => rw [hi.conn sid hp]; simp
    | failed e => rw [hi.fail e hp]; simp
    | panicked => rw [hi.panicked hp]; simp
    | cancelled => rw [hi.cancelled hp]; simp
  have hsplit : connectResults tr = connectResults t1 ++ r :: connectResults t2 := by
    rw [he, connectResults_append]; rfl
  rw [hsplit] at hlen
  simp only [List.length_append, List.length_cons] at hlen
  refine ⟨List.eq_nil_of_length_eq_zero (by omega), List.eq_nil_of_length_eq_zero (by omega), ?_⟩
  obtain ⟨acts0, s0, tr0, a, s1, x, y, hr, hs, rfl⟩ := run_split h he
  have hi := conninv hr
  have ht := step_trans hs
  clear hs
  have hx1 : ∀ z : Ev, x ++ .connectReturned r :: y = [z] → x = [] ∧ Ev.connectReturned r = z := by
    intro z hz
    cases x with
    | nil => simp at hz; exact ⟨rfl, hz.1⟩
    | cons u x => simp at hz
  generalize hevs : x ++ Ev.connectReturned r :: y = evs at ht
  have hm : Ev.connectReturned r ∈ evs := by rw [← hevs]; simp
  cases ht with
  | sendOk src g s0 evs hs hl hc => cases hs <;> simp at hm
  | sendFail src g s0 evs hs hc => cases hs <;> simp at hm
  | connectFail e h1 h2 =>
    simp at hm
    subst hm
    rcases h2 with h2 | h2 | h2
    · exact Or.inl h2
    · exact Or.inr (Or.inl h2)
    · exact Or.inr (Or.inr (Or.inl h2))
  | openTimeout h1 =>
    simp at hm
    subst hm
    exact Or.inr (Or.inr (Or.inr rfl))
  | openOk o h1 h2 =>
    obtain ⟨rfl, g2⟩ := hx1 _ hevs
    simp only [Ev.connectReturned.injEq] at g2
    subst g2
    rw [List.append_nil]
    obtain ⟨a', b', hab⟩ := mem_split (hi.slot o h2)
    obtain ⟨_, pre, t, k1, k2, k3⟩ := (C42_system cfg acts0 s0 tr0 hr).2 a' b' o hab
    refine ⟨pre, t, inbox b', o, ?_, k3, k2, rfl⟩
    rw [hab, inbox_append, k1]
    simp [inbox]
  | openPanic h1 h2 h3 =>
    obtain ⟨rfl, g2⟩ := hx1 _ hevs
    simp only [Ev.connectReturned.injEq] at g2
    subst g2
    rw [List.append_nil]
    have hw := hi.wait (Or.inr h1)
    have hdone : ∃ r, s0.task = .done r := by
      cases ht : s0.task with
      | unborn => exact absurd h1 ((pinv hr).unborn ht).2.2
      | running => rw [ht] at h3; simp [Task.live] at h3
      | writing l => rw [ht] at h3; simp [Task.live] at h3
      | closing => rw [ht] at h3; simp [Task.live] at h3
      | done r => exact ⟨r, rfl⟩
      | dropped => have := hi.dropped ht; rw [hw.2.1] at this; simp at this
    obtain ⟨r, hd⟩ := hdone
    exact ⟨⟨r, (einv hr).done r hd⟩, fun w hw ho => openinv hr ⟨w, hw, ho⟩ h2⟩
  | _ => simp at hm

/-- C37: the application has a client only if `connect` returned it. -/
theorem C37_client (cfg : RCfg) (acts : List Act) (s : Sys) (tr : List Ev) (h : Runs cfg acts s tr)
    (hc : s.client = true) : ∃ sid, connectResults tr = [.ok sid] := by
  obtain ⟨sid, hp⟩ := (pinv h).client hc
  exact ⟨sid, (conninv h).conn sid hp⟩

/-- C37, counterexample: the stream ends before an open packet; `connect` panics. -/
theorem C37_counterexample (cfg : RCfg) :
    ∃ s tr, Runs cfg [.handshakeOk, .streamEnd, .openReady] s tr ∧ .connectReturned .panic ∈ tr :=
  ⟨_, _, rfl, by simp⟩

-- non-vacuity: the client has the session id of the first open packet
example : seen exCfg [.handshakeOk, .recv (.text ['4', '0']) false, .recv exOpen false, .recv exOpen false, .openReady] =
    some [.received (.text ['4', '0']), .received exOpen, .opened ['s'], .received exOpen, .taskEnd .processing,
      .connectReturned .ok] := by
  decide +kernel


end SIO
