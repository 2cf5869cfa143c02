import Verif.Spec.Executor
import Verif.Lemmas.ClientInv
import Verif.Lemmas.ClientSched
import Verif.Lemmas.ClientConn
import Verif.Lemmas.ClientTag
import Verif.Props.ClientPanic
/-
C67: an executor that drops the task.
-/
namespace SIO
open Spec

/-- What remains of a client without its task. -/
structure Gone (o : Option Open) (s : Sys) : Prop where
  task : s.task = .done .panic
  phase : s.phase ≠ .handshake
  slot : s.openSlot = o

theorem gone_trans {cfg : RCfg} {o : Option Open} {s s' : Sys} {evs : List Ev} (hg : Gone o s) (ht : Trans cfg s s' evs) :
    Gone o s' ∧ (∀ e ∈ evs, ¬ ByTask e) ∧
    (∀ r, .connectReturned r ∈ evs → s.phase = .waitOpen ∧ ((∃ x, o = some x ∧ r = .ok x.sid) ∨ (o = none ∧ r = .panic) ∨
      r = .err (.timeout .openPacket))) ∧
    (∀ r, .closeReturned r ∈ evs → r = .panic ∨ r = .err (.timeout .close) ∨ r = .err .alreadyClosed) ∧
    (s'.poisoned = s.poisoned) := by
  obtain ⟨h1, h2, h3⟩ := hg
  have hr : ¬ s.task.reads := by rw [h1]; rintro (h | h) <;> simp at h
  cases ht with
  | sendOk src g s0 evs hs hl hc => rw [h1] at hl; simp [Task.live] at hl
  | sendFail src g s0 evs hs hl =>
    cases hs with
    | pong w st hx _ _ => exact absurd hx hr
    | _ => exact ⟨⟨h1, h2, h3⟩, by simp [ByTask], by simp, by simp, rfl⟩
  | openOk x hp ho => exact ⟨⟨h1, by simp, h3⟩, by simp [ByTask], by simp [hp, ← h3, ho], by simp, rfl⟩
  | openPanic hp ho hl => exact ⟨⟨h1, by simp, h3⟩, by simp [ByTask], by simp [hp, ← h3, ho], by simp, rfl⟩
  | openTimeout hp => exact ⟨⟨h1, by simp, h3⟩, by simp [ByTask], by simp [hp], by simp, rfl⟩
  | closeReady r hc hr' =>
    rw [h1] at hr'
    simp only [Task.done.injEq] at hr'
    exact ⟨⟨h1, h2, h3⟩, by simp [ByTask], by simp, by simp [← hr'], rfl⟩
  | _ => first
    | (exact absurd ‹s.phase = .handshake› h2)
    | (exact absurd ‹s.task.reads› hr)
    | (simp_all [Task.live]; done)
    | (exact ⟨⟨h1, by first | exact h2 | simp, h3⟩, by simp [ByTask], by simp, by simp, rfl⟩)

theorem gone_exec {cfg : RCfg} {o : Option Open} (acts : List Act) : ∀ {s s' : Sys} {tr : List Ev}, Gone o s →
    exec cfg s acts = some (s', tr) → Gone o s' ∧ s'.poisoned = s.poisoned ∧ ∀ e ∈ tr, ¬ ByTask e ∧
      (∀ r, e = .connectReturned r → (∃ x, o = some x ∧ r = .ok x.sid) ∨ (o = none ∧ r = .panic) ∨ r = .err (.timeout .openPacket)) ∧
      (∀ r, e = .closeReturned r → r = .panic ∨ r = .err (.timeout .close) ∨ r = .err .alreadyClosed) := by
  induction acts with
  | nil =>
    intro s s' tr hg h
    simp only [exec, Option.some.injEq, Prod.mk.injEq] at h
    obtain ⟨rfl, rfl⟩ := h
    exact ⟨hg, rfl, by simp⟩
  | cons a acts ih =>
    intro s s' tr hg h
    simp only [exec] at h
    split at h
    · simp at h
    · rename_i s1 e1 h1
      split at h
      · simp at h
      · rename_i s2 e2 h2
        simp only [Option.some.injEq, Prod.mk.injEq] at h
        obtain ⟨rfl, rfl⟩ := h
        obtain ⟨k1, k2, k3, k4, k5⟩ := gone_trans hg (step_trans h1)
        obtain ⟨m1, m2, m3⟩ := ih k1 h2
        refine ⟨m1, by rw [m2, k5], ?_⟩
        intro e he
        rcases List.mem_append.1 he with he | he
        · exact ⟨k2 e he, fun r hr => (k3 r (hr ▸ he)).2, fun r hr => k4 r (hr ▸ he)⟩
        · exact m3 e he

/-- A schedule without `kill`. -/
theorem kexec_act {cfg : RCfg} (acts : List Act) : ∀ {s : Sys},
    kexec cfg s (acts.map .act) = (exec cfg s acts).map fun x => (x.1, x.2.map .ev) := by
  induction acts with
  | nil => intro s; rfl
  | cons a acts ih =>
    intro s
    simp only [List.map_cons, kexec, kstep, exec]
    cases h : step cfg s a with
    | none => rfl
    | some x =>
      simp only [ih]
      cases exec cfg x.1 acts <;> simp

/-- A schedule with it. -/
theorem kexec_split {cfg : RCfg} (acts : List KAct) : ∀ {s s' : Sys} {tr : List KEv}, kexec cfg s acts = some (s', tr) →
    (∃ as evs, acts = as.map .act ∧ exec cfg s as = some (s', evs) ∧ tr = evs.map .ev) ∨
    ∃ as bs s1 e1 s2 e2, acts = as.map .act ++ .kill :: bs ∧ exec cfg s as = some (s1, e1) ∧ s1.task.live = true ∧
      kexec cfg (s1.endTask (.done .panic)) bs = some (s2, e2) ∧ s' = s2 ∧ tr = e1.map .ev ++ .killed :: e2 := by
  induction acts with
  | nil =>
    intro s s' tr h
    simp only [kexec, Option.some.injEq, Prod.mk.injEq] at h
    obtain ⟨rfl, rfl⟩ := h
    exact Or.inl ⟨[], [], rfl, rfl, rfl⟩
  | cons a acts ih =>
    intro s s' tr h
    simp only [kexec] at h
    cases hk : kstep cfg s a with
    | none => simp [hk] at h
    | some x =>
      obtain ⟨s1, e1⟩ := x
      simp only [hk] at h
      cases hx : kexec cfg s1 acts with
      | none => simp [hx] at h
      | some y =>
        obtain ⟨s2, e2⟩ := y
        simp only [hx, Option.some.injEq, Prod.mk.injEq] at h
        obtain ⟨rfl, rfl⟩ := h
        cases a with
        | kill =>
          simp only [kstep] at hk
          split at hk
          · rename_i hl
            simp only [Option.some.injEq, Prod.mk.injEq] at hk
            obtain ⟨rfl, rfl⟩ := hk
            exact Or.inr ⟨[], acts, s, [], s2, e2, rfl, rfl, hl, hx, rfl, rfl⟩
          · simp at hk
        | act a =>
          simp only [kstep] at hk
          cases hs : step cfg s a with
          | none => simp [hs] at hk
          | some z =>
            obtain ⟨s3, e3⟩ := z
            simp only [hs, Option.some.injEq, Prod.mk.injEq] at hk
            obtain ⟨rfl, rfl⟩ := hk
            rcases ih hx with ⟨as, evs, rfl, h2, rfl⟩ | ⟨as, bs, t1, f1, t2, f2, rfl, h2, h3, h4, rfl, rfl⟩
            · exact Or.inl ⟨a :: as, e3 ++ evs, rfl, by simp [exec, hs, h2], by simp⟩
            · exact Or.inr ⟨a :: as, bs, t1, e3 ++ f1, _, f2, rfl, by simp [exec, hs, h2], h3, h4, rfl, by simp⟩

theorem no_kill {cfg : RCfg} {o : Option Open} {acts : List KAct} {s s' : Sys} {tr : List KEv} (hg : Gone o s)
    (h : kexec cfg s acts = some (s', tr)) :
    ∃ as evs, acts = as.map .act ∧ exec cfg s as = some (s', evs) ∧ tr = evs.map .ev := by
  rcases kexec_split acts h with h1 | ⟨as, bs, t1, f1, t2, f2, _, h2, h3, _⟩
  · exact h1
  · have := (gone_exec as hg h2).1.task
    rw [this] at h3
    simp [Task.live] at h3

theorem gone_start {cfg : RCfg} {acts : List Act} {s : Sys} {tr : List Ev} (h : Runs cfg acts s tr) (hl : s.task.live = true) :
    Gone s.openSlot (s.endTask (.done .panic)) := by
  refine ⟨rfl, ?_, rfl⟩
  intro hp
  have := ((pinv h).start hp).1
  rw [this] at hl
  simp [Task.live] at hl

/-- C67: until the executor drops the task, the execution is one of the machine; that it does not happen twice. -/
theorem C67_before (cfg : RCfg) (acts : List KAct) (s : Sys) (tr : List KEv) (h : KRuns cfg acts s tr) :
    (∃ as evs, Runs cfg as s evs ∧ acts = as.map .act ∧ tr = evs.map .ev) ∨
    ∃ (as bs : List Act) (s1 : Sys) (e1 e2 : List Ev), acts = as.map .act ++ .kill :: bs.map .act ∧ Runs cfg as s1 e1 ∧ s1.task.live = true ∧
      tr = e1.map .ev ++ .killed :: e2.map .ev := by
  rcases kexec_split acts h with ⟨as, evs, h1, h2, h3⟩ | ⟨as, bs, s1, e1, s2, e2, rfl, h2, h3, h4, rfl, rfl⟩
  · exact Or.inl ⟨as, evs, h2, h1, h3⟩
  · obtain ⟨cs, evs, rfl, _, rfl⟩ := no_kill (gone_start h2 h3) h4
    exact Or.inr ⟨as, cs, s1, e1, evs, rfl, h2, h3, rfl⟩

/-- C67: every execution of the machine in which the task lives can be followed by that. -/
theorem C67_possible (cfg : RCfg) (as : List Act) (s : Sys) (evs : List Ev) (h : Runs cfg as s evs) (hl : s.task.live = true) :
    ∃ s', KRuns cfg (as.map .act ++ [.kill]) s' (evs.map .ev ++ [.killed]) := by
  have key : ∀ (as : List Act) (s0 : Sys) (evs : List Ev), exec cfg s0 as = some (s, evs) →
      kexec cfg s0 (as.map .act ++ [.kill]) = some (s.endTask (.done .panic), evs.map .ev ++ [.killed]) := by
    intro as
    induction as with
    | nil =>
      intro s0 evs h
      simp only [exec, Option.some.injEq, Prod.mk.injEq] at h
      obtain ⟨rfl, rfl⟩ := h
      simp [kexec, kstep, hl]
    | cons a as ih =>
      intro s0 evs h
      simp only [exec] at h
      cases hs : step cfg s0 a with
      | none => simp [hs] at h
      | some x =>
        obtain ⟨s1, e1⟩ := x
        simp only [hs] at h
        cases hx : exec cfg s1 as with
        | none => simp [hx] at h
        | some y =>
          obtain ⟨s2, e2⟩ := y
          simp only [hx, Option.some.injEq, Prod.mk.injEq] at h
          obtain ⟨rfl, rfl⟩ := h
          simp [kexec, kstep, hs, ih s1 e2 hx]
  exact ⟨_, key as Sys.init evs h⟩

theorem killed_unique {e1 f1 : List Ev} {x y : List KEv} (h : e1.map .ev ++ .killed :: x = f1.map .ev ++ .killed :: y) :
    e1 = f1 ∧ x = y := by
  induction e1 generalizing f1 with
  | nil =>
    cases f1 with
    | nil => simpa using h
    | cons b f1 => simp at h
  | cons a e1 ih =>
    cases f1 with
    | nil => simp at h
    | cons b f1 =>
      simp only [List.map_cons, List.cons_append, List.cons.injEq, KEv.ev.injEq] at h
      obtain ⟨rfl, h⟩ := h
      obtain ⟨rfl, rfl⟩ := ih h
      exact ⟨rfl, rfl⟩

theorem ev_injective {a b : List Ev} (h : a.map KEv.ev = b.map KEv.ev) : a = b := by
  induction a generalizing b with
  | nil => cases b <;> simp_all
  | cons x a ih =>
    cases b with
    | nil => simp at h
    | cons y b =>
      simp only [List.map_cons, List.cons.injEq, KEv.ev.injEq] at h
      obtain ⟨rfl, h⟩ := h
      rw [ih h]

theorem killed_cases {cfg : RCfg} {acts : List KAct} {s : Sys} {e1 e2 : List Ev}
    (h : KRuns cfg acts s (e1.map .ev ++ .killed :: e2.map .ev)) :
    ∃ as bs s1, Runs cfg as s1 e1 ∧ s1.task.live = true ∧ exec cfg (s1.endTask (.done .panic)) bs = some (s, e2) := by
  rcases kexec_split acts h with ⟨as, evs, _, _, h3⟩ | ⟨as, bs, s1, f1, s2, f2, rfl, h2, h3, h4, rfl, h5⟩
  · have : KEv.killed ∈ evs.map KEv.ev := by rw [← h3]; simp
    simp at this
  · obtain ⟨cs, evs, rfl, h6, rfl⟩ := no_kill (gone_start h2 h3) h4
    obtain ⟨rfl, h7⟩ := killed_unique h5
    obtain rfl := ev_injective h7
    exact ⟨as, cs, s1, h2, h3, h6⟩

/-- C67: after that the task does nothing any more and nothing gets into its queue: no message is received, no callback
called, no message written. -/
theorem C67_silent (cfg : RCfg) (acts : List KAct) (s : Sys) (e1 e2 : List Ev)
    (h : KRuns cfg acts s (e1.map .ev ++ .killed :: e2.map .ev)) : ∀ e ∈ e2, ¬ ByTask e := by
  obtain ⟨as, bs, s1, h1, h2, h3⟩ := killed_cases h
  exact fun e he => ((gone_exec bs (gone_start h1 h2) h3).2.2 e he).1

/-- C67: a `connect` that was waiting returns the client if the open packet had come, although the client is of no use;
otherwise it panics; or the time is up. -/
theorem C67_connect (cfg : RCfg) (acts : List KAct) (s : Sys) (e1 e2 : List Ev)
    (h : KRuns cfg acts s (e1.map .ev ++ .killed :: e2.map .ev)) (r : Res CErr Str) (hr : .connectReturned r ∈ e2) :
    (∃ o, .eff (.opened o) ∈ e1 ∧ r = .ok o.sid) ∨ ((∀ o, .eff (.opened o) ∉ e1) ∧ r = .panic) ∨
      r = .err (.timeout .openPacket) := by
  obtain ⟨as, bs, s1, h1, h2, h3⟩ := killed_cases h
  have hc := conninv h1
  rcases ((gone_exec bs (gone_start h1 h2) h3).2.2 _ hr).2.1 r rfl with ⟨x, hx, rfl⟩ | ⟨hx, rfl⟩ | rfl
  · exact Or.inl ⟨x, hc.slot x hx, rfl⟩
  · exact Or.inr (Or.inl ⟨hc.empty hx, rfl⟩)
  · exact Or.inr (Or.inr rfl)

/-- C67: `close` panics (or its time is up, or it was called before). -/
theorem C67_close (cfg : RCfg) (acts : List KAct) (s : Sys) (e1 e2 : List Ev)
    (h : KRuns cfg acts s (e1.map .ev ++ .killed :: e2.map .ev)) (r : Res CErr Unit) (hr : .closeReturned r ∈ e2) :
    r = .panic ∨ r = .err (.timeout .close) ∨ r = .err .alreadyClosed := by
  obtain ⟨as, bs, s1, h1, h2, h3⟩ := killed_cases h
  exact ((gone_exec bs (gone_start h1 h2) h3).2.2 _ hr).2.2 r rfl

/-- C67: nobody waits for ever: a waiting `connect` or `close` is ready. -/
theorem C67_ready (cfg : RCfg) (acts : List KAct) (s : Sys) (e1 e2 : List Ev)
    (h : KRuns cfg acts s (e1.map .ev ++ .killed :: e2.map .ev)) :
    (s.phase = .waitOpen → ∃ s' r, kstep cfg s (.act .openReady) = some (s', [.ev (.connectReturned r)]) ∧
      ∀ e, r ≠ .err e) ∧
    (s.closeCall = true → ∃ s', kstep cfg s (.act .closeReady) = some (s', [.ev (.closeReturned .panic)])) := by
  obtain ⟨as, bs, s1, h1, h2, h3⟩ := killed_cases h
  have hg := (gone_exec bs (gone_start h1 h2) h3).1
  constructor
  · intro hp
    simp only [kstep, step, hp]
    cases s.openSlot with
    | some x => exact ⟨_, _, rfl, by simp⟩
    | none =>
      simp only [hg.task, Task.live]
      exact ⟨_, _, rfl, by simp⟩
  · intro hc
    simp [kstep, step, hc, hg.task]

/-- C67: everything the application sends is lost, and it is not told: sending goes on as before. -/
theorem C67_lost (cfg : RCfg) (acts : List KAct) (s : Sys) (e1 e2 : List Ev)
    (h : KRuns cfg acts s (e1.map .ev ++ .killed :: e2.map .ev)) :
    (∀ g, s.ownSend = true ∨ 0 < s.clones → kstep cfg s (.act (.rawSend g)) = some (s, [.ev (.sendFailed .raw g)])) ∧
    (∀ ns cb g, s.emit = some (.sending ns cb g) → s.ownSend = true →
      kstep cfg s (.act .emitEnqueue) = some ({ s with emit := none }, [.ev (.sendFailed (.emit ns cb) g)])) ∧
    (∀ hd b vs g, hd ∈ s.handles → Builder.finish (vs.foldl (fun b v => (b.serializeArg v).1) (Builder.newAck hd.ns hd.id b)) = .ok g →
      ∃ s', kstep cfg s (.act (.reply hd b vs)) = some (s', [.ev (.sendFailed (.reply hd) g)])) := by
  obtain ⟨as, bs, s1, h1, h2, h3⟩ := killed_cases h
  have hg := (gone_exec bs (gone_start h1 h2) h3).1
  have hl : s.task.live = false := by rw [hg.task]; rfl
  refine ⟨?_, ?_, ?_⟩
  · intro g hs
    simp [kstep, step, hs, Sys.enqueue, hl]
  · intro ns cb g he ho
    simp [kstep, step, he, ho, Sys.enqueue, hl]
  · intro hd b vs g hm hf
    simp [kstep, step, hm, hf, Sys.enqueue, hl]

/-- C67: it leaves everything the application has as it was: the client, the registry, the handles, the call it is in. -/
theorem C67_kept (cfg : RCfg) (s s' : Sys) (evs : List KEv) (h : kstep cfg s .kill = some (s', evs)) :
    evs = [.killed] ∧ s'.reg = s.reg ∧ s'.poisoned = s.poisoned ∧ s'.phase = s.phase ∧ s'.openSlot = s.openSlot ∧
    s'.client = s.client ∧ s'.handleHere = s.handleHere ∧ s'.handleDropped = s.handleDropped ∧ s'.closeCall = s.closeCall ∧ s'.ownSend = s.ownSend ∧
    s'.clones = s.clones ∧ s'.handles = s.handles ∧ s'.nextId = s.nextId ∧ s'.allocs = s.allocs ∧ s'.emit = s.emit := by
  simp only [kstep] at h
  split at h
  · simp only [Option.some.injEq, Prod.mk.injEq] at h
    obtain ⟨rfl, rfl⟩ := h
    exact ⟨rfl, rfl, rfl, rfl, rfl, rfl, rfl, rfl, rfl, rfl, rfl, rfl, rfl, rfl, rfl⟩
  · simp at h

/-- C67: the registry is not poisoned by it: callbacks can be set and cleared as before. -/
theorem C67_registry (cfg : RCfg) (acts : List KAct) (s : Sys) (e1 e2 : List Ev)
    (h : KRuns cfg acts s (e1.map .ev ++ .killed :: e2.map .ev)) (hc : s.client = true) (op : RegOp) (ho : op.public = true) :
    kstep cfg s (.act (.reg op)) = some ({ s with reg := op.run s.reg }, [.ev (.regOp op)]) := by
  obtain ⟨as, bs, s1, h1, h2, h3⟩ := killed_cases h
  have hp : s.poisoned = false := by
    rw [(gone_exec bs (gone_start h1 h2) h3).2.1]
    cases hx : s1.poisoned with
    | false => exact hx
    | true =>
      rw [poisoned_done h1 hx] at h2
      simp [Task.live] at h2
  simp [kstep, step, hc, ho, hp]

/-- What is seen of an execution; `none` is the end of the task. -/
def kseen (cfg : RCfg) (acts : List KAct) : Option (List (Option Tag)) :=
  (kexec cfg Sys.init acts).map fun x => x.2.map fun
    | .ev e => some (tag e)
    | .killed => none

-- the task is dropped in the middle of a message of two parts: the second part is not written, a further message is lost,
-- `close` panics, and the next call returns an error
example : kseen exCfg (exConnect.map .act ++ [.act (.rawSend [.text ['x'], .text ['y']]), .act .dequeue, .act .write, .kill,
      .act (.rawSend [.text ['z']]), .act .closeStart, .act .closeReady, .act .closeStart]) =
    some [some (.received exOpen), some (.opened ['s']), some (.connectReturned .ok),
      some (.enqueued .raw [.text ['x'], .text ['y']]), some (.dequeued [.text ['x'], .text ['y']]), some (.wrote (.text ['x'])),
      none, some (.sendFailed .raw [.text ['z']]), some .closeRequested, some (.closeReturned .panic),
      some (.closeReturned .alreadyClosed)] := by decide +kernel
-- before the open packet `connect` panics; after it, it returns a client
example : kseen exCfg [.act .handshakeOk, .kill, .act .openReady] = some [none, some (.connectReturned .panic)] ∧
    kseen exCfg [.act .handshakeOk, .act (.recv exOpen false), .kill, .act .openReady] =
      some [some (.received exOpen), some (.opened ['s']), none, some (.connectReturned .ok)] := by decide +kernel
-- not without a task, and not twice
example : kseen exCfg [.kill] = none ∧ kseen exCfg [.act .handshakeOk, .kill, .kill] = none := by decide +kernel

end SIO
