import Verif.Spec.Timed
import Verif.Lemmas.Timed
import Verif.Lemmas.ClientTag
import Verif.Props.Receiver
/-
C66: the ten seconds.
-/
namespace SIO
open Spec

/-- Steps of the machine that are not part of a poll of `connect` or `close`. -/
theorem trans_still {cfg : RCfg} {s s' : Sys} {evs : List Ev} (ht : Trans cfg s s' evs) (hn : ∀ e ∈ evs, e.ofCall = false) :
    (s'.handleHere = true → s.handleHere = true) ∧ (s'.phase.waiting = true → s.phase.waiting = true) ∧
    (s'.closeCall = true → s.closeCall = true) := by
  cases ht with
  | sendOk src g s0 evs hs hl hc => cases hs <;> exact ⟨id, id, id⟩
  | sendFail src g s0 evs hs hl => cases hs <;> exact ⟨id, id, id⟩
  | recvEvent w st ns name cb A ack _ _ _ => cases ack <;> exact ⟨id, id, id⟩
  | recvEventPanic w st ns name cb A ack _ _ _ => cases ack <;> exact ⟨id, id, id⟩
  | _ => simp_all [Ev.ofCall, Sys.endTask, Phase.waiting]

/-- The task does not end with a timeout. -/
theorem trans_noTimeout {cfg : RCfg} {s s' : Sys} {evs : List Ev} (ht : Trans cfg s s' evs)
    (hn : ∀ w, s.task ≠ .done (.err (.timeout w))) : ∀ w, s'.task ≠ .done (.err (.timeout w)) := by
  cases ht with
  | sendOk src g s0 evs hs hl hc => cases hs <;> exact hn
  | sendFail src g s0 evs hs hl => cases hs <;> exact hn
  | recvEvent w st ns name cb A ack _ _ _ => cases ack <;> exact hn
  | recvEventPanic w st ns name cb A ack _ _ _ => cases ack <;> simp [Sys.endTask]
  | _ => simp_all [Sys.endTask]

theorem exec_noTimeout {cfg : RCfg} {acts : List Act} {s : Sys} {tr : List Ev} (h : Runs cfg acts s tr) :
    ∀ w, s.task ≠ .done (.err (.timeout w)) :=
  exec_induct (P := fun _ s => ∀ w, s.task ≠ .done (.err (.timeout w))) (by simp [Sys.init])
    (fun _ _ _ _ hi ht => trans_noTimeout ht hi) acts s tr h

/-- C66: what happens in time happens in the machine without time. -/
theorem C66_untimed (cfg : RCfg) (acts : List TAct) (t : TSys) (tr : List (Nat × Ev)) (h : TRuns cfg acts t tr) :
    ∃ acts', Runs cfg acts' t.sys (tr.map Prod.snd) := by
  refine texec_induct (cfg := cfg) (P := fun tr t => ∃ acts', Runs cfg acts' t.sys (tr.map Prod.snd)) ⟨[], rfl⟩ ?_ acts t tr h
  rintro tr t t' evs a ⟨acts1, h1⟩ hs
  obtain ⟨acts2, h2⟩ := tstep_exec hs
  refine ⟨acts1 ++ acts2, ?_⟩
  have := exec_append h1 h2
  simpa [Runs, Function.comp_def] using this

/-- What is known after a schedule with time. -/
structure TInv (cfg : RCfg) (tr : List (Nat × Ev)) (t : TSys) : Prop where
  /-- the timer of `connect` -/
  conn : ∀ n w, (n, .connectReturned (.err (.timeout w))) ∈ tr → ∃ t0, t.started = some t0 ∧ t0 + timeLimit ≤ n
  /-- nothing is returned before the timer is started -/
  dial : t.started = none → ∀ n r, (n, .connectReturned r) ∉ tr
  /-- the timer of `close` -/
  close : ∀ n, (n, .closeReturned (.err (.timeout .close))) ∈ tr → ∃ m, (m, .closeRequested) ∈ tr ∧ m + timeLimit ≤ n
  call : t.sys.closeCall = true → (t.closeAt, .closeRequested) ∈ tr
  once : ∀ m, (m, .closeRequested) ∈ tr → m = t.closeAt ∧ t.sys.handleHere = false ∧ t.sys.phase.waiting = false
  past : ∀ n e, (n, e) ∈ tr → n ≤ t.now
  start : ∀ t0, t.started = some t0 → t0 ≤ t.now
  sys : ∃ acts', Runs cfg acts' t.sys (tr.map Prod.snd)

theorem tinv_init (cfg : RCfg) : TInv cfg [] TSys.init :=
  ⟨by simp, by simp, by simp, by simp [TSys.init, Sys.init], by simp, by simp, by simp [TSys.init], [], rfl⟩

theorem mem_at {n m : Nat} {e : Ev} {evs : List Ev} : (n, e) ∈ evs.map (fun e => (m, e)) ↔ n = m ∧ e ∈ evs := by
  simp only [List.mem_map, Prod.mk.injEq]
  constructor
  · rintro ⟨x, hx, rfl, rfl⟩; exact ⟨rfl, hx⟩
  · rintro ⟨rfl, h⟩; exact ⟨_, h, rfl, rfl⟩

theorem tinv_step {cfg : RCfg} {tr : List (Nat × Ev)} {t t' : TSys} {evs : List Ev} {a : TAct} (hi : TInv cfg tr t)
    (hs : tstep cfg t a = some (t', evs)) : TInv cfg (tr ++ evs.map fun e => (t.now, e)) t' := by
  have hsys : ∃ acts', Runs cfg acts' t'.sys ((tr ++ evs.map fun e => (t.now, e)).map Prod.snd) := by
    obtain ⟨acts1, h1⟩ := hi.sys
    obtain ⟨acts2, h2⟩ := tstep_exec hs
    have := exec_append h1 h2
    exact ⟨acts1 ++ acts2, by simpa [Runs, Function.comp_def] using this⟩
  cases a with
  | wait n =>
    simp only [tstep, Option.some.injEq, Prod.mk.injEq] at hs
    obtain ⟨rfl, rfl⟩ := hs
    simp only [List.map_nil, List.append_nil]
    exact ⟨hi.conn, hi.dial, hi.close, hi.call, hi.once, fun k e hk => Nat.le_trans (hi.past k e hk) (Nat.le_add_right _ _),
      fun t0 h0 => Nat.le_trans (hi.start t0 h0) (Nat.le_add_right _ _), hi.sys⟩
  | dialed =>
    simp only [tstep] at hs
    split at hs
    · rename_i hn
      simp only [Option.some.injEq, Prod.mk.injEq] at hs
      obtain ⟨rfl, rfl⟩ := hs
      simp only [List.map_nil, List.append_nil]
      exact ⟨fun n w hw => absurd hw (hi.dial hn n _), by simp, hi.close, hi.call, hi.once, hi.past,
        by simp, hi.sys⟩
    · simp at hs
  | pollConnect h o o' =>
    simp only [tstep] at hs
    split at hs
    · simp at hs
    · rename_i t0 ht0
      split at hs
      · rename_i hw
        simp only [Option.some.injEq, Prod.mk.injEq] at hs
        obtain ⟨rfl, rfl⟩ := hs
        obtain ⟨k1, k2, k3⟩ := pollConnect_spec cfg t.sys (decide (t0 + timeLimit ≤ t.now)) h o o' hw
        have hno : ∀ m, (m, Ev.closeRequested) ∉ tr := fun m hm => by
          have := (hi.once m hm).2.2; rw [hw] at this; simp at this
        have hnot : ∀ e, e ∈ (pollConnect cfg t.sys (decide (t0 + timeLimit ≤ t.now)) h o o').2 → ∃ r, e = .connectReturned r :=
          fun e he => let ⟨r, hr, _⟩ := k1 e he; ⟨r, hr⟩
        refine ⟨?_, ?_, ?_, ?_, ?_, ?_, hi.start, hsys⟩
        · intro n w hn
          rcases List.mem_append.1 hn with hn | hn
          · exact hi.conn n w hn
          · obtain ⟨rfl, hn'⟩ := mem_at.1 hn
            obtain ⟨r, hr, hr'⟩ := k1 _ hn'
            simp only [Ev.connectReturned.injEq] at hr
            exact ⟨t0, ht0, by simpa using hr' w hr.symm⟩
        · intro hn
          simp [ht0] at hn
        · intro n hn
          rcases List.mem_append.1 hn with hn | hn
          · obtain ⟨m, h1, h2⟩ := hi.close n hn
            exact absurd h1 (hno m)
          · obtain ⟨rfl, hn'⟩ := mem_at.1 hn
            obtain ⟨r, hr⟩ := hnot _ hn'
            simp at hr
        · intro hc
          simp only [k2] at hc
          exact absurd (hi.call hc) (hno _)
        · intro m hm
          rcases List.mem_append.1 hm with hm | hm
          · exact absurd hm (hno m)
          · obtain ⟨rfl, hn'⟩ := mem_at.1 hm
            obtain ⟨r, hr⟩ := hnot _ hn'
            simp at hr
        · intro n e hn
          rcases List.mem_append.1 hn with hn | hn
          · exact hi.past n e hn
          · exact Nat.le_of_eq (mem_at.1 hn).1
      · simp at hs
  | close o =>
    simp only [tstep] at hs
    split at hs
    · simp at hs
    · rename_i s e1 h1
      simp only [step] at h1
      split at h1
      · rename_i hcl
        split at h1
        · rename_i hh
          simp only [Option.some.injEq, Prod.mk.injEq] at h1
          obtain ⟨rfl, rfl⟩ := h1
          simp only [if_true, Option.some.injEq, Prod.mk.injEq] at hs
          obtain ⟨rfl, rfl⟩ := hs
          have hno : ∀ m, (m, Ev.closeRequested) ∉ tr := fun m hm => by
            have := (hi.once m hm).2.1; rw [hh] at this; simp at this
          obtain ⟨acts0, hr0⟩ := hi.sys
          have hp := pinv hr0
          have hph : t.sys.phase.waiting = false := by
            obtain ⟨sid, hsid⟩ := hp.client hcl.1
            rw [hsid]; rfl
          have hnt := exec_noTimeout hr0
          have hnow : decide (t.now + timeLimit ≤ t.now) = false := decide_eq_false (by simp only [timeLimit]; omega)
          rw [hnow] at hsys ⊢
          rcases pollClose_spec cfg { t.sys with handleHere := false, closeSig := true, closeCall := true } false o rfl with
            ⟨h2, _, _⟩ | ⟨r, h2, h3⟩
          · rw [h2] at hsys ⊢
            refine ⟨?_, ?_, ?_, ?_, ?_, ?_, hi.start, hsys⟩
            · intro n w hn
              exact hi.conn n w (by simpa using hn)
            · intro h0 n r hn
              exact hi.dial h0 n r (by simpa using hn)
            · intro n hn
              obtain ⟨m, hm, _⟩ := hi.close n (by simpa using hn)
              exact absurd hm (hno m)
            · intro _; simp
            · intro m hm
              have : m = t.now := by
                rcases List.mem_append.1 hm with hm | hm
                · exact absurd hm (hno m)
                · exact (mem_at.1 hm).1
              exact ⟨this, rfl, hph⟩
            · intro n e hn
              rcases List.mem_append.1 hn with hn | hn
              · exact hi.past n e hn
              · exact Nat.le_of_eq (mem_at.1 hn).1
          · rw [h2] at hsys ⊢
            have hr : r ≠ .err (.timeout .close) := by
              rintro rfl
              rcases h3 with h3 | h3
              · exact hnt _ h3
              · simp at h3
            refine ⟨?_, ?_, ?_, ?_, ?_, ?_, hi.start, hsys⟩
            · intro n w hn
              exact hi.conn n w (by simpa using hn)
            · intro h0 n r hn
              exact hi.dial h0 n r (by simpa using hn)
            · intro n hn
              obtain ⟨m, hm, _⟩ := hi.close n (by simpa [hr.symm] using hn)
              exact absurd hm (hno m)
            · intro _; simp
            · intro m hm
              have : m = t.now := by
                rcases List.mem_append.1 hm with hm | hm
                · exact absurd hm (hno m)
                · exact (mem_at.1 hm).1
              exact ⟨this, rfl, hph⟩
            · intro n e hn
              rcases List.mem_append.1 hn with hn | hn
              · exact hi.past n e hn
              · exact Nat.le_of_eq (mem_at.1 hn).1
        · rename_i hh
          simp only [Option.some.injEq, Prod.mk.injEq] at h1
          obtain ⟨rfl, rfl⟩ := h1
          have hcc : t.sys.closeCall = false := by simpa using hcl.2
          simp only [hcc, Bool.false_eq_true, if_false, Option.some.injEq, Prod.mk.injEq] at hs
          obtain ⟨rfl, rfl⟩ := hs
          refine ⟨fun n w hn => hi.conn n w (by simpa using hn), fun h0 n r hn => hi.dial h0 n r (by simpa using hn), ?_, ?_, ?_, ?_,
            hi.start, hsys⟩
          · intro n hn
            obtain ⟨m, hm, hle⟩ := hi.close n (by simpa using hn)
            exact ⟨m, List.mem_append_left _ hm, hle⟩
          · intro hc; rw [hcc] at hc; simp at hc
          · intro m hm
            exact hi.once m (by simpa using hm)
          · intro n e hn
            rcases List.mem_append.1 hn with hn | hn
            · exact hi.past n e hn
            · exact Nat.le_of_eq (mem_at.1 hn).1
      · simp at h1
  | pollClose o =>
    simp only [tstep] at hs
    split at hs
    · rename_i hc
      simp only [Option.some.injEq, Prod.mk.injEq] at hs
      obtain ⟨rfl, rfl⟩ := hs
      obtain ⟨acts0, hr0⟩ := hi.sys
      have hnt := exec_noTimeout hr0
      rcases pollClose_spec cfg t.sys (decide (t.closeAt + timeLimit ≤ t.now)) o hc with ⟨h2, _, _⟩ | ⟨r, h2, h3⟩
      · rw [h2] at hsys ⊢
        simp only [List.map_nil, List.append_nil]
        exact hi
      · rw [h2] at hsys ⊢
        refine ⟨fun n w hn => hi.conn n w (by simpa using hn), fun h0 n r hn => hi.dial h0 n r (by simpa using hn), ?_, ?_, ?_, ?_,
          hi.start, hsys⟩
        · intro n hn
          rcases List.mem_append.1 hn with hn | hn
          · obtain ⟨m, hm, hle⟩ := hi.close n hn
            exact ⟨m, List.mem_append_left _ hm, hle⟩
          · obtain ⟨rfl, hn'⟩ := mem_at.1 hn
            refine ⟨t.closeAt, List.mem_append_left _ (hi.call hc), ?_⟩
            simp only [List.mem_singleton, Ev.closeReturned.injEq] at hn'
            subst hn'
            rcases h3 with h3 | h3
            · exact absurd h3 (hnt _)
            · simpa using h3.2
        · intro hcc; simp [Sys.closeOver] at hcc
        · intro m hm
          exact hi.once m (by simpa using hm)
        · intro n e hn
          rcases List.mem_append.1 hn with hn | hn
          · exact hi.past n e hn
          · exact Nat.le_of_eq (mem_at.1 hn).1
    · simp at hs
  | other a =>
    simp only [tstep] at hs
    split at hs
    · simp at hs
    · rename_i hp
      split at hs
      · simp at hs
      · rename_i s e1 h1
        simp only [Option.some.injEq, Prod.mk.injEq] at hs
        obtain ⟨rfl, rfl⟩ := hs
        have hof : ∀ e ∈ e1, e.ofCall = false := other_ofCall h1 (by simpa using hp)
        obtain ⟨k1, k2, k3⟩ := trans_still (step_trans h1) hof
        have hold : ∀ n e, e.ofCall = true → (n, e) ∈ tr ++ e1.map (fun e => (t.now, e)) → (n, e) ∈ tr := by
          intro n e he hn
          rcases List.mem_append.1 hn with hn | hn
          · exact hn
          · have := hof e (mem_at.1 hn).2
            rw [he] at this; simp at this
        refine ⟨fun n w hn => hi.conn n w (hold n _ rfl hn), fun h0 n r hn => hi.dial h0 n r (hold n _ rfl hn), ?_, ?_, ?_, ?_,
          hi.start, hsys⟩
        · intro n hn
          obtain ⟨m, hm, hle⟩ := hi.close n (hold n _ rfl hn)
          exact ⟨m, List.mem_append_left _ hm, hle⟩
        · intro hc
          exact List.mem_append_left _ (hi.call (k3 hc))
        · intro m hm
          obtain ⟨g1, g2, g3⟩ := hi.once m (hold m _ rfl hm)
          refine ⟨g1, ?_, ?_⟩
          · cases hx : s.handleHere with
            | false => rfl
            | true => rw [k1 hx] at g2; simp at g2
          · cases hx : s.phase.waiting with
            | false => rfl
            | true => rw [k2 hx] at g3; simp at g3
        · intro n e hn
          rcases List.mem_append.1 hn with hn | hn
          · exact hi.past n e hn
          · exact Nat.le_of_eq (mem_at.1 hn).1

theorem tinv {cfg : RCfg} {acts : List TAct} {t : TSys} {tr : List (Nat × Ev)} (h : TRuns cfg acts t tr) : TInv cfg tr t :=
  texec_induct (P := fun tr t => TInv cfg tr t) (tinv_init cfg) (fun _ _ _ _ _ hi hs => tinv_step hi hs) acts t tr h

theorem texec_append {cfg : RCfg} (as : List TAct) : ∀ {bs : List TAct} {t u : TSys} {tr : List (Nat × Ev)},
    texec cfg t (as ++ bs) = some (u, tr) →
    ∃ v tr1 tr2, texec cfg t as = some (v, tr1) ∧ texec cfg v bs = some (u, tr2) ∧ tr = tr1 ++ tr2 := by
  induction as with
  | nil => intro bs t u tr h; exact ⟨t, [], tr, rfl, h, rfl⟩
  | cons a as ih =>
    intro bs t u tr h
    simp only [List.cons_append, texec] at h
    split at h
    · simp at h
    · rename_i t1 e1 h1
      split at h
      · simp at h
      · rename_i t2 tr2 h2
        simp only [Option.some.injEq, Prod.mk.injEq] at h
        obtain ⟨rfl, rfl⟩ := h
        obtain ⟨v, x, y, k1, k2, rfl⟩ := ih h2
        exact ⟨v, e1.map (fun e => (t.now, e)) ++ x, y, by simp [texec, h1, k1], k2, by simp⟩

theorem texec_one {cfg : RCfg} {t u : TSys} {a : TAct} {tr : List (Nat × Ev)} (h : texec cfg t [a] = some (u, tr)) :
    ∃ evs, tstep cfg t a = some (u, evs) ∧ tr = evs.map fun e => (t.now, e) := by
  simp only [texec] at h
  split at h
  · simp at h
  · rename_i t1 e1 h1
    simp only [List.append_nil, Option.some.injEq, Prod.mk.injEq] at h
    obtain ⟨rfl, rfl⟩ := h
    exact ⟨e1, h1, rfl⟩

/-- What an action does to the clock and to the start of the timer. -/
theorem tstep_clock {cfg : RCfg} {t t' : TSys} {a : TAct} {evs : List Ev} (h : tstep cfg t a = some (t', evs)) :
    t'.now = t.now + elapsed [a] ∧
    ((a = .dialed ∧ t.started = none ∧ t'.started = some t.now) ∨ (a ≠ .dialed ∧ t'.started = t.started)) := by
  cases a with
  | wait n =>
    simp only [tstep, Option.some.injEq, Prod.mk.injEq] at h
    obtain ⟨rfl, rfl⟩ := h
    simp [elapsed]
  | dialed =>
    simp only [tstep] at h
    split at h <;> simp at h
    obtain ⟨rfl, rfl⟩ := h
    rename_i hn
    simp [elapsed, hn]
  | pollConnect hs o o' =>
    simp only [tstep] at h
    repeat' split at h
    all_goals simp at h
    obtain ⟨rfl, rfl⟩ := h
    simp_all [elapsed]
  | close o =>
    simp only [tstep] at h
    repeat' split at h
    all_goals simp at h
    all_goals (obtain ⟨rfl, rfl⟩ := h; simp [elapsed])
  | pollClose o =>
    simp only [tstep] at h
    repeat' split at h
    all_goals simp at h
    all_goals (obtain ⟨rfl, rfl⟩ := h; simp [elapsed])
  | other a =>
    simp only [tstep] at h
    repeat' split at h
    all_goals simp at h
    all_goals (obtain ⟨rfl, rfl⟩ := h; simp [elapsed])

theorem elapsed_cons (a : TAct) (as : List TAct) : elapsed (a :: as) = elapsed [a] + elapsed as := by
  cases a <;> simp [elapsed]

theorem elapsed_append (as bs : List TAct) : elapsed (as ++ bs) = elapsed as + elapsed bs := by
  induction as with
  | nil => simp [elapsed]
  | cons a as ih => rw [List.cons_append, elapsed_cons, ih, elapsed_cons a as]; omega

theorem texec_clock {cfg : RCfg} (acts : List TAct) : ∀ {t u : TSys} {tr : List (Nat × Ev)},
    texec cfg t acts = some (u, tr) → u.now = t.now + elapsed acts ∧
    (∀ t0, t.started = some t0 → u.started = some t0) ∧
    (t.started = none → (u.started = none ∧ .dialed ∉ acts) ∨ ∃ a b, acts = a ++ .dialed :: b ∧ u.started = some (t.now + elapsed a)) := by
  induction acts with
  | nil =>
    intro t u tr h
    simp only [texec, Option.some.injEq, Prod.mk.injEq] at h
    obtain ⟨rfl, rfl⟩ := h
    simp [elapsed]
  | cons a acts ih =>
    intro t u tr h
    simp only [texec] at h
    split at h
    · simp at h
    · rename_i t1 e1 h1
      split at h
      · simp at h
      · rename_i t2 tr2 h2
        simp only [Option.some.injEq, Prod.mk.injEq] at h
        obtain ⟨rfl, rfl⟩ := h
        obtain ⟨k1, k2⟩ := tstep_clock h1
        obtain ⟨m1, m2, m3⟩ := ih h2
        refine ⟨by rw [m1, k1, elapsed_cons a acts]; omega, ?_, ?_⟩
        · intro t0 h0
          rcases k2 with ⟨_, h3, _⟩ | ⟨_, h3⟩
          · rw [h0] at h3; simp at h3
          · exact m2 t0 (by rw [h3, h0])
        · intro h0
          rcases k2 with ⟨h3, _, h4⟩ | ⟨h3, h4⟩
          · right
            exact ⟨[], acts, by rw [h3]; rfl, by rw [m2 _ h4]; rfl⟩
          · rcases m3 (by rw [h4, h0]) with ⟨h5, h6⟩ | ⟨x, y, h5, h6⟩
            · left
              refine ⟨h5, ?_⟩
              simp only [List.mem_cons, not_or]
              exact ⟨fun h => h3 h.symm, h6⟩
            · right
              refine ⟨a :: x, y, by rw [h5]; rfl, ?_⟩
              rw [h6, k1, elapsed_cons a x]
              congr 1
              omega

/-- The clock of the model is the time that has passed, its timer starts when the connection is there. -/
theorem truns_clock {cfg : RCfg} {acts : List TAct} {t : TSys} {tr : List (Nat × Ev)} (h : TRuns cfg acts t tr) :
    t.now = elapsed acts ∧ ∀ t0, DialedAt acts t0 ↔ t.started = some t0 := by
  obtain ⟨k1, _, k3⟩ := texec_clock acts h
  refine ⟨by simpa [TSys.init] using k1, ?_⟩
  intro t0
  constructor
  · rintro ⟨a, b, rfl, rfl⟩
    obtain ⟨v, tr1, tr2, h1, h2, _⟩ := texec_append a h
    obtain ⟨m1, _, _⟩ := texec_clock a h1
    simp only [texec] at h2
    split at h2
    · simp at h2
    · rename_i t1 e1 h3
      split at h2
      · simp at h2
      · rename_i t2 tr3 h4
        simp only [Option.some.injEq, Prod.mk.injEq] at h2
        obtain ⟨rfl, _⟩ := h2
        rcases (tstep_clock h3).2 with ⟨_, _, h5⟩ | ⟨h5, _⟩
        · rw [(texec_clock b h4).2.1 _ h5, m1]
          simp [TSys.init]
        · exact absurd rfl h5
  · intro h0
    rcases k3 rfl with ⟨h1, _⟩ | ⟨a, b, h1, h2⟩
    · rw [h0] at h1; simp at h1
    · refine ⟨a, b, h1, ?_⟩
      rw [h0] at h2
      simpa [TSys.init] using h2.symm

/-- C66: `connect` returns a timeout only ten seconds or more after the stream was there. -/
theorem C66_timeout (cfg : RCfg) (acts : List TAct) (t : TSys) (tr : List (Nat × Ev)) (h : TRuns cfg acts t tr) (n : Nat)
    (w : Waiting) (hn : (n, .connectReturned (.err (.timeout w))) ∈ tr) : ∃ t0, DialedAt acts t0 ∧ t0 + 10000 ≤ n := by
  obtain ⟨t0, h1, h2⟩ := (tinv h).conn n w hn
  exact ⟨t0, ((truns_clock h).2 t0).2 h1, h2⟩

/-- C66: a waiting `connect` can be polled at any time; it does not return exactly if the ten seconds are not over and
nothing has come. -/
theorem C66_pending (cfg : RCfg) (acts : List TAct) (t : TSys) (tr : List (Nat × Ev)) (h : TRuns cfg acts t tr) (t0 : Nat)
    (h0 : DialedAt acts t0) (hw : t.sys.phase = .handshake ∨ t.sys.phase = .waitOpen) (hs : Option Handshake) (o o' : Bool) :
    ∃ t' evs, tstep cfg t (.pollConnect hs o o') = some (t', evs) ∧
      ((elapsed acts < t0 + 10000 ∧ NothingReady t.sys hs ∧ evs = [] ∧ t'.now = t.now ∧
        (t.sys.phase = .handshake → hs = some .ok → t'.sys.phase = .waitOpen) ∧
        (t.sys.phase = .waitOpen ∨ hs = none → t' = t)) ∨
       (¬ (elapsed acts < t0 + 10000 ∧ NothingReady t.sys hs) ∧ ∃ r, evs = [.connectReturned r])) := by
  obtain ⟨c1, c2⟩ := truns_clock h
  have hst := (c2 t0).1 h0
  have hw' : t.sys.phase.waiting = true := by rcases hw with hw | hw <;> rw [hw] <;> rfl
  obtain ⟨acts0, hr0⟩ := (tinv h).sys
  have hslot := fun hp => ((pinv hr0).start hp).2.2.2
  obtain ⟨k1, k2, k3⟩ := pollConnect_spec cfg t.sys (decide (t0 + timeLimit ≤ t.now)) hs o o' hw'
  have hlim : ∀ b, decide (t0 + timeLimit ≤ t.now) = b → (b = false ↔ elapsed acts < t0 + 10000) := by
    rintro b rfl
    rw [c1]
    constructor
    · intro hb
      have := of_decide_eq_false hb
      simp only [timeLimit] at this
      omega
    · intro hb
      exact decide_eq_false (by simp only [timeLimit]; omega)
  refine ⟨_, _, by simp only [tstep, hst, hw', if_true]; rfl, ?_⟩
  rcases k3 with ⟨g1, g2, g3⟩ | ⟨g1, g2, g3⟩
  · left
    refine ⟨(hlim _ g2).1 rfl, ?_, g1, rfl, ?_, ?_⟩
    · rcases g3 with ⟨m1, m2, _⟩ | ⟨m1, m2, _⟩ | ⟨m1, m2, m3, _⟩
      · exact Or.inl ⟨m1, Or.inl m2⟩
      · exact Or.inl ⟨m1, Or.inr m2⟩
      · exact Or.inr ⟨m1, m2, m3⟩
    · intro hp hk
      rcases g3 with ⟨_, m1, _⟩ | ⟨_, _, _, m2⟩ | ⟨m1, _, _, _⟩
      · rw [hk] at m1; cases m1
      · exact m2
      · rw [hp] at m1; cases m1
    · intro hk
      have same : ∀ s', s' = t.sys → (⟨s', t.now, some t0, t.closeAt⟩ : TSys) = t := by rintro _ rfl; rw [← hst]
      rcases g3 with ⟨_, _, m2⟩ | ⟨m1, m3, _, _⟩ | ⟨_, _, _, m2⟩
      · exact same _ m2
      · rcases hk with hk | hk
        · rw [m1] at hk; cases hk
        · rw [m3] at hk; cases hk
      · exact same _ m2
  · right
    refine ⟨?_, ?_⟩
    · rintro ⟨m1, m2⟩
      refine g3 ⟨(hlim _ rfl).2 m1, ?_⟩
      rcases m2 with ⟨m2, m3 | m3⟩ | m2
      · exact Or.inl ⟨m2, m3⟩
      · exact Or.inr (Or.inl ⟨m2, m3, hslot m2⟩)
      · exact Or.inr (Or.inr m2)
    · exact pollConnect_once hw' g2

theorem pollOpen_result {cfg : RCfg} {s : Sys} {timer o : Bool} (hp : s.phase = .waitOpen) {r : Res CErr Str}
    (h : .connectReturned r ∈ (pollOpen cfg s timer o).2) :
    (∃ x, s.openSlot = some x ∧ r = .ok x.sid) ∨ (s.openSlot = none ∧ s.task.live = false ∧ r = .panic) ∨
    (timer = true ∧ r = .err (.timeout .openPacket)) := by
  rcases pollOpen_cases cfg s timer o with ⟨h1, _, _⟩ | h1 | ⟨h2, h1⟩
  · rw [h1] at h; simp at h
  · simp only [step, hp] at h1
    split at h1
    · rename_i x hx
      simp only [Option.some.injEq] at h1
      rw [← h1] at h
      exact Or.inl ⟨x, hx, by simpa using h⟩
    · rename_i hx
      split at h1
      · simp at h1
      · rename_i hl
        simp only [Option.some.injEq] at h1
        rw [← h1] at h
        exact Or.inr (Or.inl ⟨hx, by simpa using hl, by simpa using h⟩)
  · simp only [step, hp, Sys.failConnect, Option.some.injEq] at h1
    rw [← h1] at h
    exact Or.inr (Or.inr ⟨h2, by simpa using h⟩)

/-- C66: what `connect` returns: what has come, and from ten seconds on perhaps the timeout that belongs to what it was
waiting for. -/
theorem C66_result (cfg : RCfg) (acts : List TAct) (t t' : TSys) (tr : List (Nat × Ev)) (h : TRuns cfg acts t tr) (t0 : Nat)
    (h0 : DialedAt acts t0) (hs : Option Handshake) (o o' : Bool) (evs : List Ev)
    (h1 : tstep cfg t (.pollConnect hs o o') = some (t', evs)) (r : Res CErr Str) (hr : .connectReturned r ∈ evs) :
    ReadyResult t.sys hs r ∨ (t0 + 10000 ≤ elapsed acts ∧ TimerResult t.sys hs r) := by
  obtain ⟨c1, c2⟩ := truns_clock h
  have hst := (c2 t0).1 h0
  obtain ⟨acts0, hr0⟩ := (tinv h).sys
  have hslot := fun hp => ((pinv hr0).start hp).2.2.2
  simp only [tstep, hst] at h1
  split at h1
  · rename_i hw
    simp only [Option.some.injEq, Prod.mk.injEq] at h1
    obtain ⟨_, rfl⟩ := h1
    have hlim : decide (t0 + timeLimit ≤ t.now) = true → t0 + 10000 ≤ elapsed acts := by
      rw [c1]; exact of_decide_eq_true
    rcases pollConnect_cases cfg t.sys (decide (t0 + timeLimit ≤ t.now)) hs o o' hw with ⟨k1, k2, k3, k4⟩ | ⟨k1, k2, k3⟩ |
      ⟨e, k1, k2, k3⟩ | ⟨k1, k2, k3⟩ | ⟨s1, k1, k2, k3, k4, k5⟩ | ⟨k1, k2⟩
    · rw [k2] at hr; simp at hr
    · simp only [step, k1, Option.some.injEq] at k3
      rw [← k3] at hr
      exact Or.inr ⟨hlim k2, Or.inl ⟨k1, by simpa using hr⟩⟩
    · simp only [step, k1, Option.some.injEq] at k3
      rw [← k3] at hr
      exact Or.inl (Or.inl ⟨k1, e, k2, by simpa using hr⟩)
    · simp only [step, k1, Option.some.injEq] at k3
      rw [← k3] at hr
      exact Or.inl (Or.inr (Or.inl ⟨k1, k2, by simpa using hr⟩))
    · rw [k5] at hr
      have hs1 : s1.openSlot = none ∧ s1.task.live = true := by
        simp only [step, k1, Option.some.injEq, Prod.mk.injEq] at k3
        rw [← k3.1]
        exact ⟨hslot k1, rfl⟩
      rcases pollOpen_result k4 hr with ⟨x, hx, _⟩ | ⟨_, hx, _⟩ | ⟨hx, hy⟩
      · rw [hs1.1] at hx; simp at hx
      · rw [hs1.2] at hx; simp at hx
      · exact Or.inr ⟨hlim hx, Or.inr ⟨Or.inr k2, hy⟩⟩
    · rw [k2] at hr
      rcases pollOpen_result k1 hr with hx | hx | ⟨hx, hy⟩
      · exact Or.inl (Or.inr (Or.inr (Or.inl ⟨k1, hx⟩)))
      · exact Or.inl (Or.inr (Or.inr (Or.inr ⟨k1, hx⟩)))
      · exact Or.inr ⟨hlim hx, Or.inr ⟨Or.inl k1, hy⟩⟩
  · simp at h1

/-- C66: if the time is up and the awaited thing has come, both can be returned: what is asked first decides. -/
theorem C66_either (cfg : RCfg) (t : TSys) (t0 : Nat) (h0 : t.started = some t0) (hle : t0 + 10000 ≤ t.now)
    (hw : t.sys.phase = .handshake ∨ t.sys.phase = .waitOpen) (hs : Option Handshake) :
    (∀ r, ReadyResult t.sys hs r → ∀ o o', (t.sys.phase = .handshake → o = false) → (t.sys.phase = .waitOpen → o' = false) →
      ∃ t', tstep cfg t (.pollConnect hs o o') = some (t', [.connectReturned r])) ∧
    ∀ o o', (t.sys.phase = .handshake → o = true) → (t.sys.phase = .waitOpen → o' = true) →
      ∃ t' r, tstep cfg t (.pollConnect hs o o') = some (t', [.connectReturned r]) ∧
        ((t.sys.phase = .handshake ∧ r = .err (.timeout .handshake)) ∨ (t.sys.phase = .waitOpen ∧ r = .err (.timeout .openPacket))) := by
  have hd : decide (t0 + timeLimit ≤ t.now) = true := decide_eq_true hle
  constructor
  · rintro r (⟨hp, e, rfl, rfl⟩ | ⟨hp, rfl, rfl⟩ | ⟨hp, x, hx, rfl⟩ | ⟨hp, hx, hl, rfl⟩) o o' h1 h2
    · simp [h1 hp, tstep, h0, hp, Phase.waiting, pollConnect, hd, select, step, Handshake.act]
    · simp [h1 hp, tstep, h0, hp, Phase.waiting, pollConnect, hd, select, step, Handshake.act]
    · simp [h2 hp, tstep, h0, hp, Phase.waiting, pollConnect, pollOpen, hd, select, step, hx]
    · simp [h2 hp, tstep, h0, hp, Phase.waiting, pollConnect, pollOpen, hd, select, step, hx, hl]
  · intro o o' h1 h2
    rcases hw with hp | hp
    · cases hs with
      | none => simp [tstep, h0, hp, Phase.waiting, pollConnect, hd, select, step]
      | some r => cases r <;> simp [h1 hp, tstep, h0, hp, Phase.waiting, pollConnect, hd, select, step, Handshake.act]
    · simp only [h2 hp, tstep, h0, hp, Phase.waiting, pollConnect, pollOpen, hd, select, step, Sys.failConnect, if_true]
      cases t.sys.openSlot with
      | some x => simp
      | none => cases t.sys.task.live <;> simp

/-- C66: likewise for `close`. -/
theorem C66_close_either (cfg : RCfg) (t : TSys) (hc : t.sys.closeCall = true) (hle : t.closeAt + 10000 ≤ t.now)
    (r : Res CErr Unit) (hr : t.sys.task = .done r) :
    (∃ t', tstep cfg t (.pollClose false) = some (t', [.closeReturned r])) ∧
    ∃ t', tstep cfg t (.pollClose true) = some (t', [.closeReturned (.err (.timeout .close))]) := by
  have hd : decide (t.closeAt + timeLimit ≤ t.now) = true := decide_eq_true hle
  simp [tstep, hc, pollClose, hd, select, step, hr]

/-- C66: once the ten seconds are over, every poll of `connect` returns. -/
theorem C66_returns (cfg : RCfg) (acts : List TAct) (hs : Option Handshake) (o o' : Bool) (t : TSys) (tr : List (Nat × Ev))
    (h : TRuns cfg (acts ++ [.pollConnect hs o o']) t tr) (t0 : Nat) (h0 : DialedAt acts t0) (hle : t0 + 10000 ≤ elapsed acts) :
    ∃ r, (elapsed acts, .connectReturned r) ∈ tr := by
  obtain ⟨v, tr1, tr2, h1, h2, rfl⟩ := texec_append acts h
  obtain ⟨evs, h3, rfl⟩ := texec_one h2
  have hv : v.sys.phase = .handshake ∨ v.sys.phase = .waitOpen := by
    simp only [tstep] at h3
    split at h3
    · simp at h3
    · split at h3
      · rename_i hw
        cases hp : v.sys.phase <;> simp_all [Phase.waiting]
      · simp at h3
  obtain ⟨t', evs', h4, h5⟩ := C66_pending cfg acts v tr1 h1 t0 h0 hv hs o o'
  rw [h3] at h4
  simp only [Option.some.injEq, Prod.mk.injEq] at h4
  obtain ⟨rfl, rfl⟩ := h4
  rcases h5 with ⟨h5, _⟩ | ⟨_, r, rfl⟩
  · omega
  · exact ⟨r, by simp [(truns_clock h1).1]⟩

/-- C66: there is no limit for the function passed to `connect`: however long it takes, `connect` goes on waiting, and
without a stream it does not return. -/
theorem C66_dial (cfg : RCfg) : (∀ acts t tr, TRuns cfg acts t tr → .dialed ∉ acts → ∀ n r, (n, .connectReturned r) ∉ tr) ∧
    ∀ n, ∃ t, TRuns cfg [.wait n] t [] ∧ t.sys.phase = .handshake ∧ t.now = n := by
  constructor
  · intro acts t tr h hd
    refine (tinv h).dial ?_
    cases hx : t.started with
    | none => rfl
    | some t0 =>
      obtain ⟨a, b, rfl, _⟩ := ((truns_clock h).2 t0).2 hx
      simp at hd
  · intro n
    exact ⟨⟨Sys.init, 0 + n, none, 0⟩, rfl, rfl, Nat.zero_add n⟩

/-- C66: `close` returns a timeout only ten seconds or more after it was called. -/
theorem C66_close_timeout (cfg : RCfg) (acts : List TAct) (t : TSys) (tr : List (Nat × Ev)) (h : TRuns cfg acts t tr) (n : Nat)
    (hn : (n, .closeReturned (.err (.timeout .close))) ∈ tr) : ∃ m, (m, .closeRequested) ∈ tr ∧ m + 10000 ≤ n :=
  (tinv h).close n hn

/-- C66: a waiting `close` can be polled at any time.  It returns the result of the task if there is one and a timeout
otherwise; before the ten seconds are over only the former, after that always one of the two. -/
theorem C66_close (cfg : RCfg) (acts : List TAct) (t : TSys) (tr : List (Nat × Ev)) (h : TRuns cfg acts t tr)
    (hc : t.sys.closeCall = true) (o : Bool) :
    ∃ m, (m, .closeRequested) ∈ tr ∧ (∀ m', (m', .closeRequested) ∈ tr → m' = m) ∧
      ∃ t' evs, tstep cfg t (.pollClose o) = some (t', evs) ∧
        ((evs = [] ∧ t' = t ∧ elapsed acts < m + 10000 ∧ ∀ r, t.sys.task ≠ .done r) ∨
         (∃ r, t.sys.task = .done r ∧ evs = [.closeReturned r]) ∨
         (m + 10000 ≤ elapsed acts ∧ evs = [.closeReturned (.err (.timeout .close))])) := by
  have hi := tinv h
  have hm := hi.call hc
  refine ⟨t.closeAt, hm, fun m' h' => (hi.once m' h').1, _, _, by simp only [tstep, hc, if_true]; rfl, ?_⟩
  have hnow := (truns_clock h).1
  rcases pollClose_spec cfg t.sys (decide (t.closeAt + timeLimit ≤ t.now)) o hc with ⟨k1, k2, k3⟩ | ⟨r, k1, k2 | ⟨rfl, k2⟩⟩
  · left
    rw [k1]
    refine ⟨rfl, rfl, ?_, k3⟩
    rw [hnow] at k2
    have := of_decide_eq_false k2
    simp only [timeLimit] at this
    omega
  · right; left
    rw [k1]
    exact ⟨r, k2, rfl⟩
  · right; right
    rw [k1]
    rw [hnow] at k2
    exact ⟨of_decide_eq_true k2, rfl⟩

/-- C66: the call of `close` itself asks the task to end and returns only if the task is already over. -/
theorem C66_close_call (cfg : RCfg) (t t' : TSys) (o : Bool) (evs : List Ev) (h : tstep cfg t (.close o) = some (t', evs))
    (hh : t.sys.handleHere = true) :
    (evs = [.closeRequested] ∧ t'.sys.closeCall = true ∧ ∀ r, t.sys.task ≠ .done r) ∨
    ∃ r, evs = [.closeRequested, .closeReturned r] ∧ t.sys.task = .done r := by
  simp only [tstep, step, hh, if_true] at h
  split at h
  · simp at h
  · rename_i s e1 h1
    split at h1
    · simp only [Option.some.injEq, Prod.mk.injEq] at h1
      obtain ⟨rfl, rfl⟩ := h1
      simp only [if_true, Option.some.injEq, Prod.mk.injEq] at h
      obtain ⟨rfl, rfl⟩ := h
      have hnow : decide (t.now + timeLimit ≤ t.now) = false := decide_eq_false (by simp only [timeLimit]; omega)
      rw [hnow]
      rcases pollClose_spec cfg { t.sys with handleHere := false, closeSig := true, closeCall := true } false o rfl with
        ⟨h2, _, h3⟩ | ⟨r, h2, h3⟩
      · rw [h2]
        exact Or.inl ⟨rfl, rfl, h3⟩
      · rw [h2]
        refine Or.inr ⟨r, rfl, ?_⟩
        rcases h3 with h3 | h3
        · exact h3
        · simp at h3
    · simp at h1

/-- C66: when the calls can be made and polled; the second call of `close` is refused at once. -/
theorem C66_calls (cfg : RCfg) (t : TSys) :
    (∀ o, tstep cfg t (.close o) ≠ none ↔ t.sys.client = true ∧ t.sys.closeCall = false) ∧
    (∀ o, t.sys.client = true → t.sys.closeCall = false → t.sys.handleHere = false →
      tstep cfg t (.close o) = some (t, [.closeReturned (.err .alreadyClosed)])) ∧
    (∀ o, tstep cfg t (.pollClose o) ≠ none ↔ t.sys.closeCall = true) ∧
    (∀ hs o o', tstep cfg t (.pollConnect hs o o') ≠ none ↔ t.started ≠ none ∧ (t.sys.phase = .handshake ∨ t.sys.phase = .waitOpen)) ∧
    (tstep cfg t .dialed ≠ none ↔ t.started = none) ∧
    (∀ t' evs, tstep cfg t .dialed = some (t', evs) → t' = { t with started := some t.now } ∧ evs = []) := by
  refine ⟨fun o => ?_, fun o h1 h2 h3 => ?_, fun o => ?_, fun hs o o' => ?_, ?_, ?_⟩
  · cases h1 : t.sys.client <;> cases h2 : t.sys.closeCall <;> cases h3 : t.sys.handleHere <;> simp [tstep, step, h1, h2, h3]
  · simp [tstep, step, h1, h2, h3]
  · cases h : t.sys.closeCall <;> simp [tstep, h]
  · cases h : t.started with
    | none => simp [tstep, h]
    | some t0 => cases hp : t.sys.phase <;> simp [tstep, h, hp, Phase.waiting]
  · cases h : t.started <;> simp [tstep, h]
  · intro t' evs
    cases h : t.started with
    | some t0 => simp [tstep, h]
    | none =>
      simp only [tstep, h, if_true, Option.some.injEq, Prod.mk.injEq]
      rintro ⟨rfl, rfl⟩
      exact ⟨rfl, rfl⟩

/-- C66: time alone does nothing. -/
theorem C66_wait (cfg : RCfg) (t : TSys) (n : Nat) : tstep cfg t (.wait n) = some ({ t with now := t.now + n }, []) := rfl

/-- C66: everything that is not part of `connect` or `close` can happen at any time, exactly as without a clock, and what is part
of them happens only in their polls. -/
theorem C66_free (cfg : RCfg) (t : TSys) (a : Act) :
    (¬ OfCall a → ∀ s' evs, step cfg t.sys a = some (s', evs) ↔ tstep cfg t (.other a) = some ({ t with sys := s' }, evs)) ∧
    (OfCall a → tstep cfg t (.other a) = none) := by
  have hi : a.inPoll = true ↔ OfCall a := by cases a <;> simp [Act.inPoll, OfCall]
  constructor
  · intro hn s' evs
    have : a.inPoll = false := by
      cases h : a.inPoll with
      | false => rfl
      | true => exact absurd (hi.1 h) hn
    simp only [tstep, this, Bool.false_eq_true, if_false]
    cases step cfg t.sys a with
    | none => simp
    | some x => simp [TSys.mk.injEq, Prod.ext_iff]
  · intro h
    simp only [tstep, hi.2 h, if_true]

/-- C66: nothing else is limited.  While neither `connect` nor `close` is waiting, what can happen and what comes of it
does not depend on the time: the client does not use `pingInterval` and `pingTimeout`. -/
theorem C66_idle (cfg : RCfg) (t : TSys) (hp : t.sys.phase ≠ .handshake) (hp' : t.sys.phase ≠ .waitOpen)
    (hc : t.sys.closeCall = false) (n : Nat) (a : TAct) :
    (tstep cfg { t with now := n } a).map (fun x => (x.1.sys, x.2)) = (tstep cfg t a).map fun x => (x.1.sys, x.2) := by
  have hw : t.sys.phase.waiting = false := by cases hx : t.sys.phase <;> simp_all [Phase.waiting]
  have hnow : ∀ n, decide (n + timeLimit ≤ n) = false := fun n => decide_eq_false (by simp only [timeLimit]; omega)
  cases a with
  | wait k => rfl
  | dialed => simp only [tstep]; split <;> rfl
  | pollConnect hs o o' =>
    simp only [tstep, hw]
    split <;> rfl
  | close o =>
    simp only [tstep, hnow]
    split
    · rfl
    · split <;> rfl
  | pollClose o => simp only [tstep, hc]; rfl
  | other a =>
    simp only [tstep]
    split
    · rfl
    · split <;> rfl

/-- What is seen of an execution with time, and when. -/
def seenAt (cfg : RCfg) (acts : List TAct) : Option (List (Nat × Tag)) :=
  (texec cfg TSys.init acts).map fun x => x.2.map fun y => (y.1, tag y.2)

-- the stream is there after three seconds, the handshake is over six seconds later, and no open packet comes: the ten seconds
-- are not counted anew for it; one millisecond before thirteen seconds `connect` still waits
example : seenAt exCfg [.wait 3000, .dialed, .pollConnect none false false, .wait 6000, .pollConnect (some .ok) false false,
      .wait 3999, .pollConnect none true true, .wait 1, .pollConnect none true true] =
    some [(13000, .connectReturned (.timeout .openPacket))] := by decide +kernel
-- without a handshake the other error; an hour in the function passed to `connect` is not counted
example : seenAt exCfg [.wait 3600000, .dialed, .wait 9999, .pollConnect none true true, .wait 1, .pollConnect none false true] =
    some [(3610000, .connectReturned (.timeout .handshake))] := by decide +kernel
-- the open packet is there, the future is polled late: both outcomes are possible
example : seenAt exCfg [.dialed, .pollConnect (some .ok) false false, .other (.recv exOpen false), .wait 20000,
      .pollConnect none false false] =
    some [(0, .received exOpen), (0, .opened ['s']), (20000, .connectReturned .ok)] ∧
    seenAt exCfg [.dialed, .pollConnect (some .ok) false false, .other (.recv exOpen false), .wait 20000,
      .pollConnect none false true] =
    some [(0, .received exOpen), (0, .opened ['s']), (20000, .connectReturned (.timeout .openPacket))] := by decide +kernel
-- in time it is not
example : seenAt exCfg [.dialed, .pollConnect (some .ok) false false, .other (.recv exOpen false), .wait 9999,
      .pollConnect none false true] =
    some [(0, .received exOpen), (0, .opened ['s']), (9999, .connectReturned .ok)] := by decide +kernel

/-- Actions up to a connected client, with time. -/
def exConnectAt : List TAct :=
  [.dialed, .pollConnect (some .ok) false false, .other (.recv exOpen false), .pollConnect none false false]

-- `close` with a server that does not answer; a second call comes after that
example : seenAt exCfg (exConnectAt ++ [.wait 86400000, .close true, .wait 9999, .pollClose true, .wait 1, .pollClose true, .close true]) =
    some [(0, .received exOpen), (0, .opened ['s']), (0, .connectReturned .ok), (86400000, .closeRequested),
      (86410000, .closeReturned (.timeout .close)), (86410000, .closeReturned .alreadyClosed)] := by decide +kernel
-- with a server that does, and with one that has already gone: the result of the task
example : seenAt exCfg (exConnectAt ++ [.close true, .other .seeClose, .wait 5000, .other .streamEnd, .pollClose true]) =
    some [(0, .received exOpen), (0, .opened ['s']), (0, .connectReturned .ok), (0, .closeRequested), (0, .closeSeen),
      (5000, .taskEnd .ok), (5000, .closeReturned .ok)] ∧
    seenAt exCfg (exConnectAt ++ [.other (.streamErr 7), .wait 5, .close true]) =
    some [(0, .received exOpen), (0, .opened ['s']), (0, .connectReturned .ok), (0, .taskEnd (.websocket 7)), (5, .closeRequested),
      (5, .closeReturned (.websocket 7))] := by decide +kernel

-- non-vacuity of `C66_free`: a message is received at any time
example : ¬ OfCall (.recv .close false) ∧ ∃ s' evs, step ⟨⟨fun _ => true, fun _ => []⟩, true⟩ { Sys.init with task := .running } (.recv .close false) = some (s', evs) :=
  ⟨by simp [OfCall], _, _, rfl⟩

end SIO
