import Verif.Timed
import Verif.Lemmas.ClientSched
import Verif.Lemmas.ClientInv
/-
The machine with a clock: its schedules are schedules of the machine, and which actions return from `connect` and `close`.
-/
namespace SIO
open Spec

/-- Observations of the task and of senders. -/
def Ev.ofTask : Ev → Bool
  | .received _ => true
  | .eff _ => true
  | .enqueued .. => true
  | .sendFailed .. => true
  | .taskEnd _ => true
  | _ => false

theorem enqueue_ofTask (s : Sys) (src : Src) (g : List Ws) : ∀ e ∈ (s.enqueue src g).2, e.ofTask = true := by
  unfold Sys.enqueue
  split <;> simp [Ev.ofTask]

theorem effect_ofTask (s : Sys) (e : Eff) : ∀ x ∈ (s.effect e).2, x.ofTask = true := by
  cases e with
  | enqueue g =>
    have := enqueue_ofTask s .pong g
    simp only [Sys.effect, List.mem_cons, forall_eq_or_imp]
    exact ⟨rfl, this⟩
  | _ => simp [Sys.effect, Ev.ofTask]

theorem effects_ofTask (es : List Eff) : ∀ (s : Sys), ∀ x ∈ (s.effects es).2, x.ofTask = true := by
  induction es with
  | nil => simp [Sys.effects]
  | cons e es ih =>
    intro s x hx
    simp only [Sys.effects, List.mem_append] at hx
    rcases hx with hx | hx
    · exact effect_ofTask s e x hx
    · exact ih _ x hx

theorem recv_ofTask (cfg : RCfg) (s : Sys) (w : Ws) (p : Bool) : ∀ x ∈ (s.recv cfg w p).2, x.ofTask = true := by
  intro x hx
  unfold Sys.recv at hx
  simp only [Sys.finishTask] at hx
  split at hx
  · simp only [List.mem_cons, List.mem_append, List.not_mem_nil, or_false] at hx
    rcases hx with rfl | hx | rfl
    · rfl
    · exact effects_ofTask _ _ x hx
    · rfl
  · split at hx
    all_goals simp only [List.mem_cons, List.mem_append, List.not_mem_nil, or_false] at hx
    · rcases hx with rfl | hx
      · rfl
      · exact effects_ofTask _ _ x hx
    all_goals
      rcases hx with rfl | hx | rfl
      · rfl
      · exact effects_ofTask _ _ x hx
      · rfl

/-- Returns of `connect` and `close`, and the begin of `close`. -/
def Ev.ofCall : Ev → Bool
  | .connectReturned _ => true
  | .closeReturned _ => true
  | .closeRequested => true
  | _ => false

theorem not_ofCall {e : Ev} (h : e.ofTask = true) : e.ofCall = false := by
  cases e <;> simp_all [Ev.ofTask, Ev.ofCall]

/-- Other actions neither return from `connect` or `close` nor begin a `close`. -/
theorem other_ofCall {cfg : RCfg} {s s' : Sys} {a : Act} {evs : List Ev} (h : step cfg s a = some (s', evs))
    (ha : a.inPoll = false) : ∀ e ∈ evs, e.ofCall = false := by
  intro e he
  cases a with
  | recv w p =>
    simp only [step] at h
    split at h <;> simp at h
    all_goals
      exact not_ofCall (recv_ofTask cfg s w p e (by rw [h]; exact he))
  | rawSend g =>
    simp only [step] at h
    split at h <;> simp at h
    exact not_ofCall (enqueue_ofTask _ _ _ e (by rw [h]; exact he))
  | emitEnqueue =>
    simp only [step] at h
    split at h
    · split at h <;> simp at h
      · exact not_ofCall (enqueue_ofTask _ _ _ e (by rw [h]; exact he))
      · rw [← h.2] at he; simp at he; rw [he]; rfl
    · simp at h
  | reply hd b args =>
    simp only [step] at h
    split at h
    · split at h <;> simp at h
      · rw [← h.2] at he; simp at he; rw [he]; rfl
      · exact not_ofCall (enqueue_ofTask _ _ _ e (by rw [h]; exact he))
    · simp at h
  | _ =>
    simp only [Act.inPoll, Bool.true_eq_false] at ha
    try simp only [step, Sys.finishTask] at h
    try (repeat' split at h)
    all_goals
      first
        | (simp at h; done)
        | (simp at h; obtain ⟨rfl, rfl⟩ := h; simp at he; first | done | (rw [he]; rfl) | (rcases he with rfl | rfl <;> rfl))

/-- What a `select!` does. -/
theorem select_cases {α : Type} (a b : Option α) (o : Bool) :
    (select a b o = none ∧ a = none ∧ b = none) ∨ (∃ x, select a b o = some x ∧ a = some x) ∨
      (∃ x, select a b o = some x ∧ b = some x) := by
  cases a with
  | none => cases b with
    | none => exact Or.inl ⟨rfl, rfl, rfl⟩
    | some y => exact Or.inr (Or.inr ⟨y, rfl, rfl⟩)
  | some x => cases b with
    | none => exact Or.inr (Or.inl ⟨x, rfl, rfl⟩)
    | some y => cases o with
      | false => exact Or.inr (Or.inl ⟨x, rfl, rfl⟩)
      | true => exact Or.inr (Or.inr ⟨y, rfl, rfl⟩)

/-- The second `select!` of `Connection::new`. -/
theorem pollOpen_cases (cfg : RCfg) (s : Sys) (timer o : Bool) :
    (pollOpen cfg s timer o = (s, []) ∧ step cfg s .openReady = none ∧ (timer = true → step cfg s .openTimeout = none)) ∨
      step cfg s .openReady = some (pollOpen cfg s timer o) ∨
      (timer = true ∧ step cfg s .openTimeout = some (pollOpen cfg s timer o)) := by
  unfold pollOpen
  rcases select_cases (step cfg s .openReady) (if timer then step cfg s .openTimeout else none) o with
    ⟨h1, h2, h3⟩ | ⟨x, h1, h2⟩ | ⟨x, h1, h2⟩
  · rw [h1]
    exact Or.inl ⟨rfl, h2, fun ht => by simpa [ht] using h3⟩
  · rw [h1, h2]; exact Or.inr (Or.inl rfl)
  · rw [h1]
    cases timer with
    | false => simp at h2
    | true => exact Or.inr (Or.inr ⟨rfl, by simpa using h2⟩)

theorem pollClose_cases (cfg : RCfg) (s : Sys) (timer o : Bool) :
    (pollClose cfg s timer o = (s, []) ∧ step cfg s .closeReady = none ∧ (timer = true → step cfg s .closeTimeout = none)) ∨
      step cfg s .closeReady = some (pollClose cfg s timer o) ∨
      (timer = true ∧ step cfg s .closeTimeout = some (pollClose cfg s timer o)) := by
  unfold pollClose
  rcases select_cases (step cfg s .closeReady) (if timer then step cfg s .closeTimeout else none) o with
    ⟨h1, h2, h3⟩ | ⟨x, h1, h2⟩ | ⟨x, h1, h2⟩
  · rw [h1]
    exact Or.inl ⟨rfl, h2, fun ht => by simpa [ht] using h3⟩
  · rw [h1, h2]; exact Or.inr (Or.inl rfl)
  · rw [h1]
    cases timer with
    | false => simp at h2
    | true => exact Or.inr (Or.inr ⟨rfl, by simpa using h2⟩)

/-- A poll of `Connection::new`. -/
theorem pollConnect_cases (cfg : RCfg) (s : Sys) (timer : Bool) (hs : Option Handshake) (o o' : Bool)
    (hw : s.phase.waiting = true) :
    (s.phase = .handshake ∧ pollConnect cfg s timer hs o o' = (s, []) ∧ hs = none ∧ timer = false) ∨
    (s.phase = .handshake ∧ timer = true ∧ step cfg s .handshakeTimeout = some (pollConnect cfg s timer hs o o')) ∨
    (∃ e, s.phase = .handshake ∧ hs = some (.fail e) ∧
      step cfg s (.handshakeFail e) = some (pollConnect cfg s timer hs o o')) ∨
    (s.phase = .handshake ∧ hs = some .spawnFail ∧ step cfg s .spawnFail = some (pollConnect cfg s timer hs o o')) ∨
    (∃ s1, s.phase = .handshake ∧ hs = some .ok ∧ step cfg s .handshakeOk = some (s1, []) ∧ s1.phase = .waitOpen ∧
      pollConnect cfg s timer hs o o' = pollOpen cfg s1 timer o') ∨
    (s.phase = .waitOpen ∧ pollConnect cfg s timer hs o o' = pollOpen cfg s timer o') := by
  unfold pollConnect
  cases hp : s.phase with
  | handshake =>
    simp only [step, hp]
    cases hs with
    | none => cases timer <;> simp [select]
    | some r =>
      cases r with
      | ok => cases timer <;> cases o <;> simp [select, Handshake.act]
      | fail e => cases timer <;> cases o <;> simp [select, Handshake.act]
      | spawnFail => cases timer <;> cases o <;> simp [select, Handshake.act]
  | waitOpen => simp
  | connected sid => rw [hp] at hw; cases hw
  | failed e => rw [hp] at hw; cases hw
  | panicked => rw [hp] at hw; cases hw
  | cancelled => rw [hp] at hw; cases hw

/-- The second `select!`, in detail. -/
theorem pollOpen_spec (cfg : RCfg) (s : Sys) (timer o : Bool) (hp : s.phase = .waitOpen) :
    (∀ e ∈ (pollOpen cfg s timer o).2, ∃ r, e = .connectReturned r ∧ ∀ w, r = .err (.timeout w) → timer = true) ∧
    (pollOpen cfg s timer o).1.closeCall = s.closeCall ∧
    ((pollOpen cfg s timer o = (s, []) ∧ timer = false ∧ s.openSlot = none ∧ s.task.live = true) ∨
      ((pollOpen cfg s timer o).1.phase.waiting = false ∧ (∃ r, .connectReturned r ∈ (pollOpen cfg s timer o).2) ∧
        ¬ (timer = false ∧ s.openSlot = none ∧ s.task.live = true))) := by
  rcases pollOpen_cases cfg s timer o with ⟨h1, h2, h3⟩ | h1 | ⟨h1, h2⟩
  · rw [h1]
    have ht : timer = false := by
      cases timer with
      | false => rfl
      | true => simp [step, hp] at h3
    simp only [step, hp] at h2
    split at h2
    · simp at h2
    · rename_i ho
      split at h2
      · rename_i hl
        exact ⟨by simp, rfl, Or.inl ⟨rfl, ht, ho, hl⟩⟩
      · simp at h2
  · simp only [step, hp] at h1
    split at h1
    · rename_i x ho
      simp only [Option.some.injEq] at h1
      rw [← h1]
      exact ⟨by simp, rfl, Or.inr ⟨rfl, by simp, by simp [ho]⟩⟩
    · split at h1
      · simp at h1
      · rename_i hl
        simp only [Option.some.injEq] at h1
        rw [← h1]
        exact ⟨by simp, rfl, Or.inr ⟨rfl, by simp, by simp [hl]⟩⟩
  · simp only [step, hp, Sys.failConnect, Option.some.injEq] at h2
    rw [← h2]
    exact ⟨by simp [h1], rfl, Or.inr ⟨rfl, by simp, by simp [h1]⟩⟩

/-- A poll of `Connection::new`, in detail. -/
theorem pollConnect_spec (cfg : RCfg) (s : Sys) (timer : Bool) (hs : Option Handshake) (o o' : Bool)
    (hw : s.phase.waiting = true) :
    (∀ e ∈ (pollConnect cfg s timer hs o o').2, ∃ r, e = .connectReturned r ∧
      ∀ w, r = .err (.timeout w) → timer = true) ∧
    (pollConnect cfg s timer hs o o').1.closeCall = s.closeCall ∧
    (((pollConnect cfg s timer hs o o').2 = [] ∧ timer = false ∧
        ((s.phase = .handshake ∧ hs = none ∧ (pollConnect cfg s timer hs o o').1 = s) ∨
          (s.phase = .handshake ∧ hs = some .ok ∧ s.openSlot = none ∧ (pollConnect cfg s timer hs o o').1.phase = .waitOpen) ∨
          (s.phase = .waitOpen ∧ s.openSlot = none ∧ s.task.live = true ∧ (pollConnect cfg s timer hs o o').1 = s))) ∨
      ((pollConnect cfg s timer hs o o').1.phase.waiting = false ∧
        (∃ r, .connectReturned r ∈ (pollConnect cfg s timer hs o o').2) ∧
        ¬ (timer = false ∧ ((s.phase = .handshake ∧ hs = none) ∨ (s.phase = .handshake ∧ hs = some .ok ∧ s.openSlot = none) ∨
          (s.phase = .waitOpen ∧ s.openSlot = none ∧ s.task.live = true))))) := by
  rcases pollConnect_cases cfg s timer hs o o' hw with ⟨h1, h2, h3, h4⟩ | ⟨h1, h2, h3⟩ | ⟨e, h1, h2, h3⟩ | ⟨h1, h2, h3⟩ |
    ⟨s1, h1, h2, h3, h4, h5⟩ | ⟨h1, h2⟩
  · rw [h2]
    exact ⟨by simp, rfl, Or.inl ⟨rfl, h4, Or.inl ⟨h1, h3, rfl⟩⟩⟩
  · simp only [step, h1, Option.some.injEq] at h3
    rw [← h3]
    exact ⟨by simp [h2], rfl, Or.inr ⟨rfl, by simp, by simp [h2]⟩⟩
  · simp only [step, h1, Option.some.injEq] at h3
    rw [← h3]
    exact ⟨by simp, rfl, Or.inr ⟨rfl, by simp, by simp [h1, h2]⟩⟩
  · simp only [step, h1, Option.some.injEq] at h3
    rw [← h3]
    exact ⟨by simp, rfl, Or.inr ⟨rfl, by simp, by simp [h1, h2]⟩⟩
  · have hs1 : s1.openSlot = s.openSlot ∧ s1.task.live = true ∧ s1.closeCall = s.closeCall := by
      simp only [step, h1, Option.some.injEq, Prod.mk.injEq] at h3
      rw [← h3.1]
      exact ⟨rfl, rfl, rfl⟩
    rw [h5]
    obtain ⟨g1, g2, g3⟩ := pollOpen_spec cfg s1 timer o' h4
    refine ⟨g1, by rw [g2, hs1.2.2], ?_⟩
    rcases g3 with ⟨k1, k2, k3, k4⟩ | ⟨k1, k2, k3⟩
    · rw [k1]
      exact Or.inl ⟨rfl, k2, Or.inr (Or.inl ⟨h1, h2, by rw [← hs1.1, k3], h4⟩)⟩
    · refine Or.inr ⟨k1, k2, ?_⟩
      rintro ⟨m1, m2 | m2 | m2⟩
      · rw [h2] at m2; simp at m2
      · exact k3 ⟨m1, by rw [hs1.1, m2.2.2], hs1.2.1⟩
      · rw [h1] at m2; simp at m2
  · rw [h2]
    obtain ⟨g1, g2, g3⟩ := pollOpen_spec cfg s timer o' h1
    refine ⟨g1, g2, ?_⟩
    rcases g3 with ⟨k1, k2, k3, k4⟩ | ⟨k1, k2, k3⟩
    · rw [k1]
      exact Or.inl ⟨rfl, k2, Or.inr (Or.inr ⟨h1, k3, k4, rfl⟩)⟩
    · refine Or.inr ⟨k1, k2, ?_⟩
      rintro ⟨m1, m2 | m2 | m2⟩
      · rw [h1] at m2; simp at m2
      · rw [h1] at m2; simp at m2
      · exact k3 ⟨m1, m2.2⟩

theorem pollOpen_once (cfg : RCfg) (s : Sys) (timer o : Bool) :
    (pollOpen cfg s timer o).2 = [] ∨ ∃ r, (pollOpen cfg s timer o).2 = [.connectReturned r] := by
  rcases pollOpen_cases cfg s timer o with ⟨h1, _, _⟩ | h1 | ⟨_, h1⟩
  · rw [h1]; exact Or.inl rfl
  · simp only [step] at h1
    repeat' split at h1
    all_goals simp at h1
    all_goals (rw [← h1]; exact Or.inr ⟨_, rfl⟩)
  · simp only [step, Sys.failConnect] at h1
    repeat' split at h1
    all_goals simp at h1
    all_goals (rw [← h1]; exact Or.inr ⟨_, rfl⟩)

/-- A poll of `Connection::new` returns at most once. -/
theorem pollConnect_once {cfg : RCfg} {s : Sys} {timer : Bool} {hs : Option Handshake} {o o' : Bool}
    (hw : s.phase.waiting = true) (h : ∃ r, .connectReturned r ∈ (pollConnect cfg s timer hs o o').2) :
    ∃ r, (pollConnect cfg s timer hs o o').2 = [.connectReturned r] := by
  have hx : (pollConnect cfg s timer hs o o').2 = [] ∨ ∃ r, (pollConnect cfg s timer hs o o').2 = [.connectReturned r] := by
    rcases pollConnect_cases cfg s timer hs o o' hw with ⟨h1, h2, h3, h4⟩ | ⟨h1, h2, h3⟩ | ⟨e, h1, h2, h3⟩ | ⟨h1, h2, h3⟩ |
      ⟨s1, h1, h2, h3, h4, h5⟩ | ⟨h1, h2⟩
    · rw [h2]; exact Or.inl rfl
    · simp only [step, h1, Option.some.injEq] at h3
      rw [← h3]; exact Or.inr ⟨_, rfl⟩
    · simp only [step, h1, Option.some.injEq] at h3
      rw [← h3]; exact Or.inr ⟨_, rfl⟩
    · simp only [step, h1, Option.some.injEq] at h3
      rw [← h3]; exact Or.inr ⟨_, rfl⟩
    · rw [h5]; exact pollOpen_once cfg s1 timer o'
    · rw [h2]; exact pollOpen_once cfg s timer o'
  rcases hx with hx | hx
  · obtain ⟨r, hr⟩ := h
    rw [hx] at hr; simp at hr
  · exact hx

/-- The `select!` of `close`, in detail. -/
theorem pollClose_spec (cfg : RCfg) (s : Sys) (timer o : Bool) (hc : s.closeCall = true) :
    (pollClose cfg s timer o = (s, []) ∧ timer = false ∧ ∀ r, s.task ≠ .done r) ∨
    (∃ r, pollClose cfg s timer o = (s.closeOver, [.closeReturned r]) ∧
      (s.task = .done r ∨ (r = .err (.timeout .close) ∧ timer = true))) := by
  rcases pollClose_cases cfg s timer o with ⟨h1, h2, h3⟩ | h1 | ⟨h1, h2⟩
  · refine Or.inl ⟨h1, ?_, ?_⟩
    · cases timer with
      | false => rfl
      | true => simp [step, hc] at h3
    · intro r hr
      simp [step, hc, hr] at h2
  · simp only [step, hc, if_true] at h1
    split at h1
    · rename_i r hr
      simp only [Option.some.injEq] at h1
      exact Or.inr ⟨r, h1.symm, Or.inl hr⟩
    · simp at h1
  · simp only [step, hc, if_true, Option.some.injEq] at h2
    exact Or.inr ⟨_, h2.symm, Or.inr ⟨rfl, h1⟩⟩

/-- Schedules of the machine behind an action with time. -/
theorem tstep_exec {cfg : RCfg} {t t' : TSys} {a : TAct} {evs : List Ev} (h : tstep cfg t a = some (t', evs)) :
    ∃ acts, exec cfg t.sys acts = some (t'.sys, evs) := by
  have hopen : ∀ s timer o, ∃ acts, exec cfg s acts = some (pollOpen cfg s timer o) := by
    intro s timer o
    rcases pollOpen_cases cfg s timer o with ⟨h1, _, _⟩ | h1 | ⟨_, h1⟩
    · exact ⟨[], by rw [h1]; rfl⟩
    · exact ⟨[.openReady], exec_one.2 h1⟩
    · exact ⟨[.openTimeout], exec_one.2 h1⟩
  have hclose : ∀ s timer o, ∃ acts, exec cfg s acts = some (pollClose cfg s timer o) := by
    intro s timer o
    rcases pollClose_cases cfg s timer o with ⟨h1, _, _⟩ | h1 | ⟨_, h1⟩
    · exact ⟨[], by rw [h1]; rfl⟩
    · exact ⟨[.closeReady], exec_one.2 h1⟩
    · exact ⟨[.closeTimeout], exec_one.2 h1⟩
  cases a with
  | wait n =>
    simp only [tstep, Option.some.injEq, Prod.mk.injEq] at h
    obtain ⟨rfl, rfl⟩ := h
    exact ⟨[], rfl⟩
  | dialed =>
    simp only [tstep] at h
    split at h <;> simp at h
    obtain ⟨rfl, rfl⟩ := h
    exact ⟨[], rfl⟩
  | pollConnect hs o o' =>
    simp only [tstep] at h
    split at h
    · simp at h
    · split at h
      · rename_i t0 _ hw
        simp only [Option.some.injEq, Prod.mk.injEq] at h
        obtain ⟨rfl, rfl⟩ := h
        rcases pollConnect_cases cfg t.sys (decide (t0 + timeLimit ≤ t.now)) hs o o' hw with ⟨h1, h2, h3, h4⟩ | ⟨h1, h2, h3⟩ |
          ⟨e, h1, h2, h3⟩ | ⟨h1, h2, h3⟩ | ⟨s1, h1, h2, h3, h4, h5⟩ | ⟨h1, h2⟩
        · exact ⟨[], by rw [h2]; rfl⟩
        · exact ⟨[_], exec_one.2 h3⟩
        · exact ⟨[_], exec_one.2 h3⟩
        · exact ⟨[_], exec_one.2 h3⟩
        · obtain ⟨acts, ha⟩ := hopen s1 (decide (t0 + timeLimit ≤ t.now)) o'
          have := exec_append (exec_one.2 h3) ha
          rw [h5]
          exact ⟨_, this⟩
        · obtain ⟨acts, ha⟩ := hopen t.sys (decide (t0 + timeLimit ≤ t.now)) o'
          rw [h2]
          exact ⟨acts, ha⟩
      · simp at h
  | close o =>
    simp only [tstep] at h
    split at h
    · simp at h
    · rename_i s e1 h1
      split at h
      · simp only [Option.some.injEq, Prod.mk.injEq] at h
        obtain ⟨rfl, rfl⟩ := h
        obtain ⟨acts, ha⟩ := hclose s (decide (t.now + timeLimit ≤ t.now)) o
        exact ⟨_, exec_append (exec_one.2 h1) ha⟩
      · simp only [Option.some.injEq, Prod.mk.injEq] at h
        obtain ⟨rfl, rfl⟩ := h
        exact ⟨_, exec_one.2 h1⟩
  | pollClose o =>
    simp only [tstep] at h
    split at h
    · simp only [Option.some.injEq, Prod.mk.injEq] at h
      obtain ⟨rfl, rfl⟩ := h
      exact hclose _ _ _
    · simp at h
  | other a =>
    simp only [tstep] at h
    split at h
    · simp at h
    · split at h
      · simp at h
      · rename_i s e1 h1
        simp only [Option.some.injEq, Prod.mk.injEq] at h
        obtain ⟨rfl, rfl⟩ := h
        exact ⟨_, exec_one.2 h1⟩

/-- Induction along an execution with time. -/
theorem texec_induct {cfg : RCfg} {P : List (Nat × Ev) → TSys → Prop} (h0 : P [] TSys.init)
    (hs : ∀ tr t t' evs a, P tr t → tstep cfg t a = some (t', evs) → P (tr ++ evs.map fun e => (t.now, e)) t') :
    ∀ (acts : List TAct) (t : TSys) (tr : List (Nat × Ev)), texec cfg TSys.init acts = some (t, tr) → P tr t := by
  have key : ∀ (acts : List TAct) (t0 t : TSys) (tr0 tr : List (Nat × Ev)), P tr0 t0 →
      texec cfg t0 acts = some (t, tr) → P (tr0 ++ tr) t := by
    intro acts
    induction acts with
    | nil =>
      intro t0 t tr0 tr hp h
      simp only [texec, Option.some.injEq, Prod.mk.injEq] at h
      obtain ⟨rfl, rfl⟩ := h
      simpa using hp
    | cons a acts ih =>
      intro t0 t tr0 tr hp h
      simp only [texec] at h
      split at h
      · simp at h
      · rename_i t1 e1 h1
        split at h
        · simp at h
        · rename_i t2 tr2 h2
          simp only [Option.some.injEq, Prod.mk.injEq] at h
          obtain ⟨rfl, rfl⟩ := h
          have := ih _ _ _ _ (hs _ _ _ _ _ hp h1) h2
          rwa [List.append_assoc] at this
  intro acts t tr h
  simpa using key acts TSys.init t [] tr h0 h

end SIO
