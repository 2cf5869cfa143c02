import Verif.Props.ClientLive
import Verif.Lemmas.ClientSched
import Verif.Lemmas.ClientTag
import Verif.Props.ClientAck
import Verif.Props.ClientSend
/-
C48: what the application gives to a builder is what is sent, and where it goes.
-/
namespace SIO
open Spec

/-- A call on the builder of an event. -/
def Spec.isEmit : Act → Bool
  | .emitStart _ _ => true
  | .emitBinary _ => true
  | .emitCallback => true
  | .emitArgs => true
  | .emitArg _ => true
  | .emitSend => true
  | .emitEnqueue => true
  | .emitDrop => true
  | _ => false

/-- The calls on builders in a schedule. -/
def Spec.emitCalls (acts : List Act) : List Act := acts.filter isEmit

/-- Calls of `binary` and `callback`. -/
def Spec.IsOption : Act → Prop
  | .emitBinary _ => True
  | .emitCallback => True
  | _ => False

/-- The last value given to `binary`; text if there is none. -/
def Spec.lastBinary (opts : List Act) : Bool :=
  opts.foldl (fun b a => match a with | .emitBinary b' => b' | _ => b) false

/-- The last id and callback given out. -/
def Spec.lastAlloc (tr : List Ev) : Option (Nat × Cb) :=
  tr.foldl (fun x e => match e with | .allocated id cb => some (id, cb) | _ => x) none

/-- The application has put a sender of another queue into the client, and not put the own one
back. -/
def Spec.swapped (acts : List Act) : Bool :=
  acts.foldl (fun b a => match a with | .takeSend => true | .putSend => false | _ => b) false

/-- The options of a builder after the calls `opts`. -/
structure Opts (opts : List Act) (tr : List Ev) (b : Bool) (cb : Option (Nat × Cb)) : Prop where
  opt : ∀ a ∈ opts, IsOption a
  binary : b = lastBinary opts
  callback : cb.isSome = true ↔ .emitCallback ∈ opts
  last : cb.isSome = true → cb = lastAlloc tr

/-- The calls that led to a builder. -/
def Built (acts : List Act) (tr : List Ev) : Option Emit → Prop
  | none => True
  | some (.building ns ev b cb) => ∃ pre opts, emitCalls acts = pre ++ .emitStart ns ev :: opts ∧ Opts opts tr b cb
  | some (.args ns cb bld) => ∃ pre ev opts vs b0, emitCalls acts = pre ++ .emitStart ns ev :: (opts ++ .emitArgs :: vs.map .emitArg) ∧
      Opts opts tr (lastBinary opts) cb ∧ Builder.newEvent ev ns (cb.map Prod.fst) (lastBinary opts) = .ok b0 ∧ bld = adds b0 vs
  | some (.sending ns cb g) => ∃ pre ev opts vs b0,
      emitCalls acts = pre ++ .emitStart ns ev :: (opts ++ .emitArgs :: (vs.map .emitArg ++ [.emitSend])) ∧
      Opts opts tr (lastBinary opts) cb ∧ Builder.newEvent ev ns (cb.map Prod.fst) (lastBinary opts) = .ok b0 ∧
      (adds b0 vs).finish = .ok g

theorem emitCalls_append (a b : List Act) : emitCalls (a ++ b) = emitCalls a ++ emitCalls b := by simp [emitCalls]

theorem lastAlloc_append {tr evs : List Ev} (h : ∀ e ∈ evs, ∀ id cb, e ≠ .allocated id cb) : lastAlloc (tr ++ evs) = lastAlloc tr := by
  unfold lastAlloc
  rw [List.foldl_append]
  generalize List.foldl _ none tr = x
  induction evs generalizing x with
  | nil => rfl
  | cons e evs ih =>
    rw [List.foldl_cons, ih (fun y hy => h y (by simp [hy]))]
    have := h e (by simp)
    cases e <;> first | rfl | exact absurd rfl (this _ _)

theorem enqueue_events (s : Sys) (src : Src) (g : List Ws) :
    (s.enqueue src g).2 = [.enqueued src g] ∨ (s.enqueue src g).2 = [.sendFailed src g] := by
  unfold Sys.enqueue
  split
  · exact Or.inl rfl
  · exact Or.inr rfl

theorem recv_events (cfg : RCfg) (s : Sys) (w : Ws) (p : Bool) : ∀ e ∈ (s.recv cfg w p).2,
    e = .received w ∨ (∃ x, e = .eff x) ∨ (∃ g, e = .enqueued .pong g ∨ e = .sendFailed .pong g) ∨ ∃ r, e = .taskEnd r := by
  have heff : ∀ (effs : List Eff) (s : Sys), ∀ e ∈ (s.effects effs).2,
      (∃ x, e = .eff x) ∨ (∃ g, e = .enqueued .pong g ∨ e = .sendFailed .pong g) := by
    intro effs
    induction effs with
    | nil => intro s; simp [Sys.effects]
    | cons x effs ih =>
      intro s e he
      simp only [Sys.effects, List.mem_append] at he
      rcases he with he | he
      · cases x with
        | enqueue g =>
          simp only [Sys.effect, List.mem_cons] at he
          rcases he with rfl | he
          · exact Or.inl ⟨_, rfl⟩
          · rcases enqueue_events s .pong g with h | h <;> rw [h] at he <;> simp at he <;> subst he
            · exact Or.inr ⟨g, Or.inl rfl⟩
            · exact Or.inr ⟨g, Or.inr rfl⟩
        | event ns name cb A ack => cases ack <;> simp [Sys.effect] at he <;> exact Or.inl ⟨_, he⟩
        | _ => simp [Sys.effect] at he; exact Or.inl ⟨_, he⟩
      · exact ih _ e he
  have hx := heff (processWs cfg s.rx s.reg w).effs
    { s with rx := (processWs cfg s.rx s.reg w).st, reg := (processWs cfg s.rx s.reg w).reg }
  intro e he
  unfold Sys.recv at he
  simp only at he
  have key : ∀ r : List Ev, (∀ e ∈ r, ∃ x, e = .taskEnd x) →
      e ∈ Ev.received w :: ((Sys.effects { s with rx := (processWs cfg s.rx s.reg w).st, reg := (processWs cfg s.rx s.reg w).reg }
        (processWs cfg s.rx s.reg w).effs).2 ++ r) →
      e = .received w ∨ (∃ x, e = .eff x) ∨ (∃ g, e = .enqueued .pong g ∨ e = .sendFailed .pong g) ∨ ∃ r, e = .taskEnd r := by
    intro r hr he
    rcases List.mem_cons.1 he with he | he
    · exact Or.inl he
    rcases List.mem_append.1 he with he | he
    · rcases hx e he with h | h
      · exact Or.inr (Or.inl h)
      · exact Or.inr (Or.inr (Or.inl h))
    · exact Or.inr (Or.inr (Or.inr (hr e he)))
  split at he
  · exact key _ (by simp [Sys.finishTask]) he
  · split at he
    · exact key [] (by simp) (by simpa using he)
    · exact key _ (by simp [Sys.finishTask]) he
    · exact key _ (by simp [Sys.finishTask]) he

theorem recv_no_alloc (cfg : RCfg) (s : Sys) (w : Ws) (p : Bool) (id : Nat) (cb : Cb) :
    .allocated id cb ∉ (s.recv cfg w p).2 := by
  intro h
  rcases recv_events cfg s w p _ h with h | ⟨x, h⟩ | ⟨g, h | h⟩ | ⟨r, h⟩ <;> simp at h

/-- Actions that are no calls on a builder do not change it. -/
theorem step_emit_frame {cfg : RCfg} {s s' : Sys} {a : Act} {evs : List Ev} (h : step cfg s a = some (s', evs))
    (ha : isEmit a = false) : s'.emit = s.emit ∧ ∀ e ∈ evs, ∀ id cb, e ≠ .allocated id cb := by
  cases a with
  | recv w p =>
    obtain ⟨rx, reg, slot, hs, n, q, po, t, hf⟩ := recv_frame cfg s w p
    have hn := recv_no_alloc cfg s w p
    have key : s.recv cfg w p = (s', evs) → s'.emit = s.emit ∧ ∀ e ∈ evs, ∀ id cb, e ≠ .allocated id cb := by
      intro h
      rw [h] at hf hn
      simp only at hf hn
      refine ⟨by rw [hf], ?_⟩
      rintro e he id cb rfl
      exact hn id cb he
    simp only [step] at h
    split at h
    · exact key (by simpa using h)
    · exact key (by simpa using h)
    · simp at h
  | rawSend g =>
    simp only [step] at h
    obtain ⟨q, hf⟩ := enqueue_frame s .raw g
    split at h
    · simp only [Option.some.injEq] at h
      have he := enqueue_events s .raw g
      rw [h] at hf he
      simp only at hf he
      refine ⟨by rw [hf], ?_⟩
      rcases he with he | he <;> rw [he] <;> simp
    · simp at h
  | reply x b args =>
    simp only [step] at h
    split at h
    · split at h
      · simp only [Option.some.injEq, Prod.mk.injEq] at h; rw [← h.1, ← h.2]; simp
      · rename_i g _
        simp only [Option.some.injEq] at h
        obtain ⟨q, hf⟩ := enqueue_frame { s with handles := s.handles.erase x, senders := s.senders - 1 } (.reply x) g
        have he := enqueue_events { s with handles := s.handles.erase x, senders := s.senders - 1 } (.reply x) g
        rw [h] at hf he
        simp only at hf he
        refine ⟨by rw [hf], ?_⟩
        rcases he with he | he <;> rw [he] <;> simp
    · simp at h
  | emitStart => simp [isEmit] at ha
  | emitBinary => simp [isEmit] at ha
  | emitCallback => simp [isEmit] at ha
  | emitArgs => simp [isEmit] at ha
  | emitArg => simp [isEmit] at ha
  | emitSend => simp [isEmit] at ha
  | emitEnqueue => simp [isEmit] at ha
  | emitDrop => simp [isEmit] at ha
  | _ =>
    simp only [step, Sys.finishTask, Sys.endTask, Sys.failConnect, Sys.closeOver] at h
    grind

theorem Opts.congr {opts : List Act} {tr evs : List Ev} {b : Bool} {cb : Option (Nat × Cb)} (h : Opts opts tr b cb)
    (he : ∀ e ∈ evs, ∀ id cb, e ≠ .allocated id cb) : Opts opts (tr ++ evs) b cb :=
  ⟨h.opt, h.binary, h.callback, fun hc => by rw [lastAlloc_append he]; exact h.last hc⟩

theorem Built.congr {acts : List Act} {tr evs : List Ev} {a : Act} {e : Option Emit} (h : Built acts tr e)
    (ha : isEmit a = false) (he : ∀ e ∈ evs, ∀ id cb, e ≠ .allocated id cb) : Built (acts ++ [a]) (tr ++ evs) e := by
  have hc : emitCalls (acts ++ [a]) = emitCalls acts := by simp [emitCalls, ha]
  unfold Built at *
  split at h
  · trivial
  · obtain ⟨pre, opts, h1, h2⟩ := h
    exact ⟨pre, opts, by rw [hc, h1], h2.congr he⟩
  · obtain ⟨pre, ev, opts, vs, b0, h1, h2, h3⟩ := h
    exact ⟨pre, ev, opts, vs, b0, by rw [hc, h1], h2.congr he, h3⟩
  · obtain ⟨pre, ev, opts, vs, b0, h1, h2, h3⟩ := h
    exact ⟨pre, ev, opts, vs, b0, by rw [hc, h1], h2.congr he, h3⟩

theorem emitCalls_snoc {acts : List Act} {a : Act} (h : isEmit a = true) : emitCalls (acts ++ [a]) = emitCalls acts ++ [a] := by
  simp [emitCalls, h]

theorem built {cfg : RCfg} {acts : List Act} {s : Sys} {tr : List Ev} (h : Runs cfg acts s tr) : Built acts tr s.emit := by
  refine sched_induct (P := fun acts tr s => Built acts tr s.emit) ?_ ?_ h
  · simp [Sys.init, Built]
  intro acts tr s s' evs a hr hi hs
  cases ha : isEmit a with
  | false =>
    obtain ⟨h1, h2⟩ := step_emit_frame hs ha
    rw [h1]
    exact hi.congr ha h2
  | true =>
    have hsn := emitCalls_snoc (acts := acts) ha
    cases a with
    | emitStart ns ev =>
      simp only [step] at hs
      split at hs
      · simp only [Option.some.injEq, Prod.mk.injEq] at hs
        obtain ⟨rfl, rfl⟩ := hs
        exact ⟨emitCalls acts, [], hsn, by constructor <;> simp [lastBinary]⟩
      · simp at hs
    | emitBinary b =>
      simp only [step] at hs
      split at hs
      · rename_i ns ev b0 cb he
        simp only [Option.some.injEq, Prod.mk.injEq] at hs
        obtain ⟨rfl, rfl⟩ := hs
        rw [he] at hi
        obtain ⟨pre, opts, h1, h2⟩ := hi
        refine ⟨pre, opts ++ [.emitBinary b], by rw [hsn, h1]; simp, ?_⟩
        refine ⟨?_, by simp [lastBinary], by simpa using h2.callback, by simpa using h2.last⟩
        intro x hx
        rcases List.mem_append.1 hx with hx | hx
        · exact h2.opt x hx
        · simp at hx; subst hx; trivial
      · simp at hs
    | emitCallback =>
      simp only [step] at hs
      split at hs
      · rename_i ns ev b0 cb he
        simp only [Option.some.injEq, Prod.mk.injEq] at hs
        obtain ⟨rfl, rfl⟩ := hs
        rw [he] at hi
        obtain ⟨pre, opts, h1, h2⟩ := hi
        refine ⟨pre, opts ++ [.emitCallback], by rw [hsn, h1]; simp, ?_⟩
        refine ⟨?_, by simp [lastBinary, h2.binary], by simp, by simp [lastAlloc]⟩
        intro x hx
        rcases List.mem_append.1 hx with hx | hx
        · exact h2.opt x hx
        · simp at hx; subst hx; trivial
      · simp at hs
    | emitArgs =>
      simp only [step] at hs
      split at hs
      · rename_i ns ev b0 cb he
        rw [he] at hi
        obtain ⟨pre, opts, h1, h2⟩ := hi
        obtain rfl := h2.binary
        split at hs
        · rename_i bld hb
          simp only [Option.some.injEq, Prod.mk.injEq] at hs
          obtain ⟨rfl, rfl⟩ := hs
          exact ⟨pre, ev, opts, [], bld, by rw [hsn, h1]; simp, by simpa using h2, hb, rfl⟩
        · simp only [Option.some.injEq, Prod.mk.injEq] at hs
          obtain ⟨rfl, rfl⟩ := hs
          trivial
      · simp at hs
    | emitArg v =>
      simp only [step] at hs
      split at hs
      · rename_i ns cb bld he
        rw [he] at hi
        obtain ⟨pre, ev, opts, vs, b0, h1, h2, h3, rfl⟩ := hi
        split at hs
        · simp only [Option.some.injEq, Prod.mk.injEq] at hs
          obtain ⟨rfl, rfl⟩ := hs
          trivial
        · rename_i b' r hb
          simp only [Option.some.injEq, Prod.mk.injEq] at hs
          obtain ⟨rfl, rfl⟩ := hs
          refine ⟨pre, ev, opts, vs ++ [v], b0, by rw [hsn, h1]; simp, by simpa using h2, h3, ?_⟩
          rw [adds_snoc, hb]
      · simp at hs
    | emitSend =>
      simp only [step] at hs
      split at hs
      · rename_i ns cb bld he
        rw [he] at hi
        obtain ⟨pre, ev, opts, vs, b0, h1, h2, h3, rfl⟩ := hi
        split at hs
        · simp only [Option.some.injEq, Prod.mk.injEq] at hs
          obtain ⟨rfl, rfl⟩ := hs
          trivial
        · rename_i g hg
          split at hs
          · simp only [Option.some.injEq, Prod.mk.injEq] at hs
            obtain ⟨rfl, rfl⟩ := hs
            exact ⟨pre, ev, opts, vs, b0, by rw [hsn, h1]; simp, by simpa using h2, h3, hg⟩
          · split at hs
            · simp only [Option.some.injEq, Prod.mk.injEq] at hs
              obtain ⟨rfl, rfl⟩ := hs
              trivial
            · simp only [Option.some.injEq, Prod.mk.injEq] at hs
              obtain ⟨rfl, rfl⟩ := hs
              exact ⟨pre, ev, opts, vs, b0, by rw [hsn, h1]; simp, h2.congr (by simp), h3, hg⟩
      · simp at hs
    | emitEnqueue =>
      have : s'.emit = none := by
        simp only [step] at hs
        split at hs
        · rename_i ns cb g he
          obtain ⟨q, hf⟩ := enqueue_frame { s with emit := none } (.emit ns cb) g
          split at hs
          · simp only [Option.some.injEq] at hs
            rw [hs] at hf; simp only at hf; rw [hf]
          · simp only [Option.some.injEq, Prod.mk.injEq] at hs; rw [← hs.1]
        · simp at hs
      rw [this]; trivial
    | emitDrop =>
      have : s'.emit = none := by
        simp only [step] at hs
        split at hs
        · simp only [Option.some.injEq, Prod.mk.injEq] at hs; rw [← hs.1]
        · simp only [Option.some.injEq, Prod.mk.injEq] at hs; rw [← hs.1]
        · simp at hs
      rw [this]; trivial
    | _ => simp [isEmit] at ha

/-- The event of a builder's `send` comes from that call, and what it shows is what is in the builder. -/
theorem step_emits {cfg : RCfg} {s s' : Sys} {a : Act} {evs : List Ev} (h : step cfg s a = some (s', evs)) {e : Ev}
    {ns : Str} {cb : Option (Nat × Cb)} {g : List Ws} (hm : e ∈ evs)
    (he : e = .enqueued (.emit ns cb) g ∨ e = .sendFailed (.emit ns cb) g ∨ e = .sentElsewhere (.emit ns cb) g) :
    a = .emitEnqueue ∧ s.emit = some (.sending ns cb g) ∧ evs = [e] := by
  cases a with
  | recv w p =>
    have key : s.recv cfg w p = (s', evs) → Act.recv w p = .emitEnqueue ∧ s.emit = some (.sending ns cb g) ∧ evs = [e] := by
      intro hx
      have := recv_events cfg s w p
      rw [hx] at this
      rcases this e hm with h | ⟨x, h⟩ | ⟨g, h | h⟩ | ⟨r, h⟩ <;> subst h <;> simp at he
    simp only [step] at h
    split at h
    · exact key (by simpa using h)
    · exact key (by simpa using h)
    · simp at h
  | rawSend g' =>
    simp only [step] at h
    split at h
    · simp only [Option.some.injEq] at h
      have hx := enqueue_events s .raw g'
      rw [h] at hx
      simp only at hx
      rcases hx with hx | hx <;> subst hx <;> simp only [List.mem_singleton] at hm <;> subst hm <;> simp at he
    · simp at h
  | reply x b args =>
    simp only [step] at h
    split at h
    · split at h
      · simp only [Option.some.injEq, Prod.mk.injEq] at h
        rw [← h.2] at hm
        simp only [List.mem_singleton] at hm; subst hm; simp at he
      · rename_i g' _
        simp only [Option.some.injEq] at h
        have hx := enqueue_events { s with handles := s.handles.erase x, senders := s.senders - 1 } (.reply x) g'
        rw [h] at hx
        simp only at hx
        rcases hx with hx | hx <;> subst hx <;> simp only [List.mem_singleton] at hm <;> subst hm <;> simp at he
    · simp at h
  | emitEnqueue =>
    simp only [step] at h
    split at h
    · rename_i ns' cb' g' hem
      split at h
      · simp only [Option.some.injEq] at h
        have hx := enqueue_events { s with emit := none } (.emit ns' cb') g'
        rw [h] at hx
        simp only at hx
        rcases hx with hx | hx <;> subst hx <;> simp only [List.mem_singleton] at hm <;> subst hm <;> simp at he <;>
          obtain ⟨⟨rfl, rfl⟩, rfl⟩ := he <;> exact ⟨rfl, hem, rfl⟩
      · simp only [Option.some.injEq, Prod.mk.injEq] at h
        obtain ⟨_, rfl⟩ := h
        simp only [List.mem_singleton] at hm; subst hm; simp at he
        obtain ⟨⟨rfl, rfl⟩, rfl⟩ := he
        exact ⟨rfl, hem, rfl⟩
    · simp at h
  | _ =>
    simp only [step, Sys.finishTask, Sys.endTask, Sys.failConnect, Sys.closeOver] at h
    grind

/-- C48: what `send` of an event puts into a queue is what its builder was given: the messages of a
packet with the namespace and the name given to `emit`, the last value given to `binary`, the
arguments given to `arg` one after the other, and, exactly if `callback` was called, the id that
call gave out.  The calls of the builder are the last ones before that `send`. -/
theorem C48_emit (cfg : RCfg) (acts : List Act) (s : Sys) (tr : List Ev) (h : Runs cfg acts s tr)
    (t1 t2 : List Ev) (e : Ev) (ns : Str) (cb : Option (Nat × Cb)) (g : List Ws) (he : tr = t1 ++ e :: t2)
    (hg : e = .enqueued (.emit ns cb) g ∨ e = .sendFailed (.emit ns cb) g ∨ e = .sentElsewhere (.emit ns cb) g) :
    ∃ a1 a2 s1 pre ev opts vs b0, acts = a1 ++ .emitEnqueue :: a2 ∧ Runs cfg a1 s1 t1 ∧
      emitCalls a1 = pre ++ .emitStart ns ev :: (opts ++ .emitArgs :: (vs.map .emitArg ++ [.emitSend])) ∧
      (∀ a ∈ opts, IsOption a) ∧
      Builder.newEvent ev ns (cb.map Prod.fst) (lastBinary opts) = .ok b0 ∧ (adds b0 vs).finish = .ok g ∧
      (cb.isSome = true ↔ .emitCallback ∈ opts) ∧ (cb.isSome = true → cb = lastAlloc t1) := by
  obtain ⟨a1, s0, tr0, a, a2, s1, x, y, rfl, hr, hs, rfl⟩ := run_split' h he
  obtain ⟨rfl, hem, hxy⟩ := step_emits hs (e := e) (by simp) hg
  have hx : x = [] := by
    cases x with
    | nil => rfl
    | cons z x => simp at hxy
  subst hx
  have hb := built hr
  rw [hem] at hb
  obtain ⟨pre, ev, opts, vs, b0, h1, h2, h3, h4⟩ := hb
  exact ⟨a1, a2, s0, pre, ev, opts, vs, b0, rfl, by simpa using hr, h1, h2.opt, h3, h4, h2.callback, by simpa using h2.last⟩

/-- Receiving and sending leave the rest of the system alone. -/
theorem step_io {cfg : RCfg} {s s' : Sys} {a : Act} {evs : List Ev} (h : step cfg s a = some (s', evs))
    (ha : (∃ w p, a = .recv w p) ∨ (∃ g, a = .rawSend g) ∨ a = .emitEnqueue ∨ ∃ x b args, a = .reply x b args) :
    s'.phase = s.phase ∧ s'.client = s.client ∧ s'.ownSend = s.ownSend ∧ s'.clones = s.clones ∧ s'.chanClosed = s.chanClosed := by
  rcases ha with ⟨w, p, rfl⟩ | ⟨g, rfl⟩ | rfl | ⟨x, b, args, rfl⟩
  · obtain ⟨rx, reg, slot, hs, n, q, po, t, hf⟩ := recv_frame cfg s w p
    simp only [step] at h
    split at h
    · simp only [Option.some.injEq] at h; rw [h] at hf; simp only at hf; rw [hf]; simp
    · simp only [Option.some.injEq] at h; rw [h] at hf; simp only at hf; rw [hf]; simp
    · simp at h
  · obtain ⟨q, hf⟩ := enqueue_frame s .raw g
    simp only [step] at h
    split at h
    · simp only [Option.some.injEq] at h; rw [h] at hf; simp only at hf; rw [hf]; simp
    · simp at h
  · simp only [step] at h
    split at h
    · rename_i ns cb g _
      obtain ⟨q, hf⟩ := enqueue_frame { s with emit := none } (.emit ns cb) g
      split at h
      · simp only [Option.some.injEq] at h; rw [h] at hf; simp only at hf; rw [hf]; simp
      · simp only [Option.some.injEq, Prod.mk.injEq] at h; rw [← h.1]; simp
    · simp at h
  · simp only [step] at h
    split at h
    · split at h
      · simp only [Option.some.injEq, Prod.mk.injEq] at h; rw [← h.1]; simp
      · rename_i g _
        obtain ⟨q, hf⟩ := enqueue_frame { s with handles := s.handles.erase x, senders := s.senders - 1 } (.reply x) g
        simp only [Option.some.injEq] at h; rw [h] at hf; simp only at hf; rw [hf]; simp
    · simp at h

theorem swapped_snoc (acts : List Act) (a : Act) :
    swapped (acts ++ [a]) = match a with | .takeSend => true | .putSend => false | _ => swapped acts := by
  simp [swapped]

theorem own_swapped {cfg : RCfg} {acts : List Act} {s : Sys} {tr : List Ev} (h : Runs cfg acts s tr) :
    (s.client = true → s.ownSend = !swapped acts) ∧ (s.phase = .handshake ∨ s.phase = .waitOpen → swapped acts = false) := by
  refine sched_induct (P := fun acts _ s => (s.client = true → s.ownSend = !swapped acts) ∧
    (s.phase = .handshake ∨ s.phase = .waitOpen → swapped acts = false)) ?_ ?_ h
  · simp [Sys.init, swapped]
  intro acts tr s s' evs a hr ⟨h1, h2⟩ hs
  have hp := pinv hr
  have h3 := hp.client
  have h4 := hp.send
  rw [swapped_snoc]
  cases a with
  | recv w p =>
    obtain ⟨k1, k2, k3, _⟩ := step_io hs (Or.inl ⟨_, _, rfl⟩)
    rw [k1, k2, k3]; exact ⟨h1, h2⟩
  | rawSend g =>
    obtain ⟨k1, k2, k3, _⟩ := step_io hs (Or.inr (Or.inl ⟨_, rfl⟩))
    rw [k1, k2, k3]; exact ⟨h1, h2⟩
  | emitEnqueue =>
    obtain ⟨k1, k2, k3, _⟩ := step_io hs (Or.inr (Or.inr (Or.inl rfl)))
    rw [k1, k2, k3]; exact ⟨h1, h2⟩
  | reply x b args =>
    obtain ⟨k1, k2, k3, _⟩ := step_io hs (Or.inr (Or.inr (Or.inr ⟨_, _, _, rfl⟩)))
    rw [k1, k2, k3]; exact ⟨h1, h2⟩
  | _ =>
    simp only [step, Sys.finishTask, Sys.endTask, Sys.failConnect, Sys.closeOver] at hs
    grind

theorem chan_closed {cfg : RCfg} {acts : List Act} {s : Sys} {tr : List Ev} (h : Runs cfg acts s tr) :
    s.chanClosed = true ↔ .closeChannel ∈ acts := by
  refine sched_induct (P := fun acts _ s => s.chanClosed = true ↔ .closeChannel ∈ acts) ?_ ?_ h
  · simp [Sys.init]
  intro acts tr s s' evs a hr hi hs
  cases a with
  | closeChannel =>
    simp only [step] at hs
    split at hs
    · simp only [Option.some.injEq, Prod.mk.injEq] at hs; rw [← hs.1]; simp
    · simp at hs
  | _ => rw [step_chan hs (by simp), hi]; simp

/-- Where a group goes that is sent into the queue of the task. -/
def Spec.Goes (open_ : Prop) (src : Src) (g : List Ws) (evs : List Ev) : Prop :=
  (open_ → evs = [.enqueued src g]) ∧ (¬ open_ → evs = [.sendFailed src g])

theorem enqueue_goes {cfg : RCfg} {acts : List Act} {s0 s : Sys} {tr : List Ev} (h : Runs cfg acts s0 tr)
    (h1 : s.task = s0.task) (h2 : s.chanClosed = s0.chanClosed) (src : Src) (g : List Ws) :
    Goes (s0.task.live = true ∧ .closeChannel ∉ acts) src g (s.enqueue src g).2 := by
  have hc := chan_closed h
  unfold Sys.enqueue Goes
  rw [h1, h2]
  constructor
  · rintro ⟨k1, k2⟩
    rw [← hc] at k2
    simp [k1, k2]
  · intro k
    rw [← hc] at k
    simp only [Bool.not_eq_true]
    rw [if_neg (by simpa using k)]

/-- C48: a message group is accepted exactly as long as the task lives and the application has not
closed the channel; a refused one is lost silently.  An event goes into the queue of the task
unless the application has put another sender into the client. -/
theorem C48_route (cfg : RCfg) (acts : List Act) (s s' : Sys) (tr evs : List Ev) (h : Runs cfg acts s tr) :
    (∀ g, step cfg s (.rawSend g) = some (s', evs) → Goes (s.task.live = true ∧ .closeChannel ∉ acts) .raw g evs) ∧
    (∀ x b vs g, step cfg s (.reply x b vs) = some (s', evs) → (adds (Builder.newAck x.ns x.id b) vs).finish = .ok g →
      Goes (s.task.live = true ∧ .closeChannel ∉ acts) (.reply x) g evs) ∧
    (∀ ns cb g, step cfg s .emitEnqueue = some (s', evs) → s.emit = some (.sending ns cb g) →
      if swapped acts then evs = [.sentElsewhere (.emit ns cb) g]
      else Goes (s.task.live = true ∧ .closeChannel ∉ acts) (.emit ns cb) g evs) := by
  refine ⟨?_, ?_, ?_⟩
  · intro g hs
    simp only [step] at hs
    split at hs
    · simp only [Option.some.injEq] at hs
      have := enqueue_goes h (s := s) rfl rfl .raw g
      rw [hs] at this
      exact this
    · simp at hs
  · intro x b vs g hs hg
    simp only [step] at hs
    unfold adds at hg
    rw [hg] at hs
    split at hs
    · simp only [Option.some.injEq] at hs
      have := enqueue_goes h (s := { s with handles := s.handles.erase x, senders := s.senders - 1 }) rfl rfl (.reply x) g
      rw [hs] at this
      exact this
    · simp at hs
  · intro ns cb g hs he
    have ho := (own_swapped h).1 ((pinv h).emit (by rw [he]; simp))
    simp only [step, he] at hs
    cases hsw : swapped acts with
    | true =>
      rw [hsw] at ho
      simp [ho] at hs
      simp [hs.2]
    | false =>
      rw [hsw] at ho
      rw [if_pos (by simpa using ho)] at hs
      simp only [Option.some.injEq] at hs
      have := enqueue_goes h (s := { s with emit := none }) rfl rfl (.emit ns cb) g
      rw [hs] at this
      simpa using this

/-- C48: with the client in hand and its own sender in it, the application can always send; and so
it can with a reply handle, and finish a `send` it has begun. -/
theorem C48_possible (cfg : RCfg) (acts : List Act) (s : Sys) (tr : List Ev) (h : Runs cfg acts s tr) :
    (s.client = true → swapped acts = false → ∀ g, step cfg s (.rawSend g) ≠ none) ∧
    (∀ x ∈ s.handles, ∀ b vs, step cfg s (.reply x b vs) ≠ none) ∧
    (∀ ns cb g, s.emit = some (.sending ns cb g) → step cfg s .emitEnqueue ≠ none) ∧
    (s.client = true → s.emit = none → ∀ ns ev, step cfg s (.emitStart ns ev) ≠ none) := by
  refine ⟨?_, ?_, ?_, ?_⟩
  · intro hc hsw g
    have := (own_swapped h).1 hc
    simp [step, this, hsw]
  · intro x hx b vs
    simp only [step, hx, if_true]
    split <;> simp
  · intro ns cb g he
    simp only [step, he]
    split <;> simp
  · intro hc he ns ev
    simp [step, hc, he]

-- non-vacuity: two options, two arguments
example : seen exCfg (exConnect ++ [.emitStart ['/', 'n'] ['e'], .emitBinary false, .emitCallback, .emitBinary true, .emitArgs,
      .emitArg (.int 1), .rawSend [.text ['x']], .emitArg (.bytes [7]), .emitSend, .emitEnqueue]) =
    some [.received exOpen, .opened ['s'], .connectReturned .ok, .allocated 0 0, .enqueued .raw [.text ['x']],
      .registered ['/', 'n'] 0 0,
      .enqueued (.emit ['/', 'n'] (some (0, 0)))
        [.text "451-/n,0[\"e\",1,{\"_placeholder\":true,\"num\":0}]".toList, .binary [4, 7]]] := by
  decide +kernel
-- a client with another sender, a closed channel, an ended task
example : seen exCfg (exConnect ++ [.takeSend, .emitStart ['/'] ['e'], .emitArgs, .emitSend, .emitEnqueue, .putSend,
      .emitStart ['/'] ['e'], .emitArgs, .emitSend, .emitEnqueue, .closeChannel, .rawSend [.text ['x']]]) =
    some [.received exOpen, .opened ['s'], .connectReturned .ok, .sentElsewhere (.emit ['/'] none) [.text "42[\"e\"]".toList],
      .enqueued (.emit ['/'] none) [.text "42[\"e\"]".toList], .sendFailed .raw [.text ['x']]] := by
  decide +kernel
example : seen exCfg (exConnect ++ [.streamEnd, .rawSend [.text ['x']]]) =
    some [.received exOpen, .opened ['s'], .connectReturned .ok, .taskEnd .ok, .sendFailed .raw [.text ['x']]] := by
  decide +kernel

end SIO
