import Verif.Spec.Bounded
import Verif.Props.Pair
/-
C58: two clients on a network that holds only so many messages.  The connection task does not read while it
writes, so the two can block each other for good.
-/
namespace SIO
open Spec

theorem Spec.Later.swap {n : Nat} {cfgA cfgB : RCfg} {oA oB : Ws} {sA0 sB0 sA sB : Sys} {tA0 tB0 tA tB : List Ev}
    (h : Later n cfgA cfgB oA oB sA0 tA0 sB0 tB0 sA tA sB tB) : Later n cfgB cfgA oB oA sB0 tB0 sA0 tA0 sB tB sA tA := by
  induction h with
  | now => exact .now
  | left _ h1 ih => exact .right ih h1
  | right _ h1 ih => exact .left ih h1

theorem Spec.Later.runs {n : Nat} {cfgA cfgB : RCfg} {oA oB : Ws} {sA0 sB0 sA sB : Sys} {tA0 tB0 tA tB : List Ev}
    (h : Later n cfgA cfgB oA oB sA0 tA0 sB0 tB0 sA tA sB tB) {acts0 : List Act} (h0 : Runs cfgA acts0 sA0 tA0) :
    ∃ acts, Runs cfgA acts sA tA := by
  induction h with
  | now => exact ⟨_, h0⟩
  | left _ h1 ih =>
    obtain ⟨acts, ih⟩ := ih
    exact ⟨acts ++ [_], exec_snoc ih h1.step⟩
  | right _ _ ih => exact ih

/-- What the state of the network is in every execution. -/
structure Net (n : Nat) (o : Ws) (t u : List Ev) : Prop where
  came : dataOf (inbox t) <+: o :: dataOf (written u)
  room : inFlight t u ≤ n

theorem Spec.Later.net {n : Nat} {cfgA cfgB : RCfg} {oA oB : Ws} {sA0 sB0 sA sB : Sys} {tA0 tB0 tA tB : List Ev}
    (h : Later n cfgA cfgB oA oB sA0 tA0 sB0 tB0 sA tA sB tB) (hA : Net n oA tA0 tB0) (hB : Net n oB tB0 tA0) :
    Net n oA tA tB ∧ Net n oB tB tA := by
  have key : ∀ {o : Ws} {t u evs : List Ev}, Net n o t u → Net n o t (u ++ evs) := by
    intro o t u evs h
    constructor
    · refine h.came.trans ((List.prefix_cons_inj _).2 ?_)
      rw [written_append, dataOf_append]
      exact List.prefix_append _ _
    · have := h.room
      simp only [inFlight, inbox_append, dataOf_append, List.length_append] at this ⊢
      omega
  induction h with
  | now => exact ⟨hA, hB⟩
  | left _ h1 ih => exact ⟨⟨h1.came, h1.room⟩, key ih.2⟩
  | right _ h1 ih => exact ⟨key ih.1, ⟨h1.came, h1.room⟩⟩

theorem net_start (n : Nat) (o : Ws) : Net n o [] [] := ⟨List.nil_prefix, Nat.zero_le _⟩

theorem recv_io (cfg : RCfg) (s : Sys) (w : Ws) (hr : s.task.reads) :
    ∃ s' evs, step cfg s (.recv w false) = some (s', evs) ∧ inbox evs = [w] ∧ written evs = [] := by
  have h0 : ∃ rest, (s.recv cfg w false).2 = .received w :: rest := by
    unfold Sys.recv
    simp only [Bool.false_eq_true, false_and, if_false]
    split <;> exact ⟨_, rfl⟩
  have h1 : step cfg s (.recv w false) = some ((s.recv cfg w false).1, (s.recv cfg w false).2) := by
    rcases hr with hr | hr <;> simp [step, hr]
  obtain ⟨rest, h0⟩ := h0
  have ht := step_trans h1
  refine ⟨_, _, h1, ?_⟩
  generalize (s.recv cfg w false).1 = s' at ht
  rw [h0] at ht ⊢
  generalize he : Ev.received w :: rest = evs at ht
  cases ht with
  | sendOk src g s0 evs hs => cases hs <;> simp at he <;> (obtain ⟨rfl, rfl⟩ := he; exact ⟨rfl, rfl⟩)
  | sendFail src g s0 evs hs => cases hs <;> simp at he <;> (obtain ⟨rfl, rfl⟩ := he; exact ⟨rfl, rfl⟩)
  | _ => simp at he <;> (obtain ⟨rfl, rfl⟩ := he; exact ⟨rfl, rfl⟩)

/-- A task that writes does nothing else. -/
theorem writing_stays {cfg : RCfg} {s s' : Sys} {evs : List Ev} {w : Ws} {rest : List Ws} (h : Trans cfg s s' evs)
    (hp : s.phase ≠ .handshake) (ht : s.task = .writing (w :: rest)) :
    evs = [.wrote w] ∨ .writeFailed w ∈ evs ∨ .taskDropped ∈ evs ∨ (s'.task = s.task ∧ inbox evs = [] ∧ written evs = []) := by
  have hr : ¬ s.task.reads := by rw [ht]; simp [Task.reads]
  cases h with
  | sendOk src g s0 evs hs => cases hs <;> first | exact absurd ‹s.task.reads› hr | exact Or.inr (Or.inr (Or.inr ⟨rfl, rfl, rfl⟩))
  | sendFail src g s0 evs hs => cases hs <;> first | exact absurd ‹s.task.reads› hr | exact Or.inr (Or.inr (Or.inr ⟨rfl, rfl, rfl⟩))
  | write w' rest' h =>
    rw [ht] at h
    simp only [Task.writing.injEq, List.cons.injEq] at h
    rw [h.1]
    exact Or.inl rfl
  | writeFail w' rest' e h =>
    rw [ht] at h
    simp only [Task.writing.injEq, List.cons.injEq] at h
    rw [h.1]
    exact Or.inr (Or.inl (by simp))
  | dropTask => exact Or.inr (Or.inr (Or.inl (by simp)))
  | _ =>
    first
      | exact absurd ‹s.task.reads› hr
      | exact absurd ‹s.phase = .handshake› hp
      | (exfalso; have := ‹s.task = _›; rw [ht] at this; simp at this; done)
      | exact Or.inr (Or.inr (Or.inr ⟨rfl, rfl, rfl⟩))

theorem dataOf_mem {l : List Ws} {x : Ws} (h : x ∈ dataOf l) : dataOf [x] = [x] := by
  simp only [dataOf, List.mem_filter] at h
  simp only [dataOf, List.filter_cons, h.2, if_true, List.filter_nil]

theorem prefix_next {α : Type} {a b : List α} (h : a <+: b) (hn : a ≠ b) : ∃ x, a ++ [x] <+: b ∧ x ∈ b := by
  obtain ⟨t, rfl⟩ := h
  cases t with
  | nil => simp at hn
  | cons x t => exact ⟨x, ⟨t, by simp⟩, by simp⟩

theorem side_progress {n : Nat} {cfg : RCfg} {o : Ws} {s : Sys} {t u : List Ev} (ho : dataOf [o] = [o]) (hn : Net n o t u)
    (hl : s.task.live = true) :
    (∃ a s' evs, Labours a ∧ Does n cfg o u s t a s' evs) ∨ Idle o u s t ∨
      ((∃ w rest, s.task = .writing (w :: rest) ∧ dataOf [w] = [w]) ∧ inFlight t u = n) := by
  have quiet : ∀ {evs : List Ev}, inbox evs = [] → dataOf (written evs) = [] →
      dataOf (inbox (t ++ evs)) <+: o :: dataOf (written u) ∧ inFlight (t ++ evs) u ≤ n := by
    intro evs h1 h2
    refine ⟨by rw [inbox_append, h1, List.append_nil]; exact hn.came, ?_⟩
    have := hn.room
    unfold inFlight at this ⊢
    rw [written_append, dataOf_append, h2, List.append_nil]
    exact this
  have read : s.task.reads → dataOf (inbox t) ≠ o :: dataOf (written u) → ∃ a s' evs, Labours a ∧ Does n cfg o u s t a s' evs := by
    intro hr hne
    obtain ⟨x, h1, h2⟩ := prefix_next hn.came hne
    have hx : dataOf [x] = [x] := by
      rcases List.mem_cons.1 h2 with rfl | h2
      · exact ho
      · exact dataOf_mem h2
    obtain ⟨s', evs, h3, h4, h5⟩ := recv_io cfg s x hr
    refine ⟨_, s', evs, .recv x, h3, ?_, ?_⟩
    · rw [inbox_append, dataOf_append, h4, hx]
      exact h1
    · have := hn.room
      unfold inFlight at this ⊢
      rw [written_append, h5, List.append_nil]
      exact this
  cases ht : s.task with
  | unborn => rw [ht] at hl; simp [Task.live] at hl
  | dropped => rw [ht] at hl; simp [Task.live] at hl
  | done r => rw [ht] at hl; simp [Task.live] at hl
  | closing =>
    by_cases hc : dataOf (inbox t) = o :: dataOf (written u)
    · exact Or.inr (Or.inl ⟨hc, Or.inr ht⟩)
    · exact Or.inl (read (Or.inr ht) hc)
  | running =>
    by_cases hc : dataOf (inbox t) = o :: dataOf (written u)
    · cases hq : s.queue with
      | nil => exact Or.inr (Or.inl ⟨hc, Or.inl ⟨ht, hq⟩⟩)
      | cons g q =>
        have h1 : step cfg s .dequeue = some ({ s with queue := q, task := .writing g }, [.dequeued g]) := by
          simp [step, ht, hq]
        obtain ⟨h2, h3⟩ := quiet (evs := [.dequeued g]) rfl rfl
        exact Or.inl ⟨_, _, _, .dequeue, h1, h2, h3⟩
    · exact Or.inl (read (Or.inl ht) hc)
  | writing l =>
    cases l with
    | nil =>
      have h1 : step cfg s .endGroup = some ({ s with task := .running }, [.groupDone]) := by simp [step, ht]
      obtain ⟨h2, h3⟩ := quiet (evs := [.groupDone]) rfl rfl
      exact Or.inl ⟨_, _, _, .endGroup, h1, h2, h3⟩
    | cons w rest =>
      have h1 : step cfg s .write = some ({ s with task := .writing rest }, [.wrote w]) := by simp [step, ht]
      have hw : written [Ev.wrote w] = [w] := rfl
      by_cases hd : dataOf [w] = [w]
      · by_cases hf : inFlight t u = n
        · exact Or.inr (Or.inr ⟨⟨w, rest, rfl, hd⟩, hf⟩)
        · refine Or.inl ⟨_, _, _, .write, h1, ?_, ?_⟩
          · rw [inbox_append, show inbox [Ev.wrote w] = [] from rfl, List.append_nil]
            exact hn.came
          · have := hn.room
            unfold inFlight at this hf ⊢
            rw [written_append, dataOf_append, hw, hd, List.length_append, List.length_singleton]
            omega
      · obtain ⟨h2, h3⟩ := quiet (evs := [.wrote w]) rfl (by
          rw [hw]
          cases w <;> simp [dataOf] at hd ⊢)
        exact Or.inl ⟨_, _, _, .write, h1, h2, h3⟩

/-- C58: what holds.  As long as both tasks run, one of them can work, or there is nothing left to do for both,
or both are writing and neither has room for its message. -/
theorem C58_partial (n : Nat) (hn : 0 < n) (cfgA cfgB : RCfg) (oA oB : Ws) (opA opB : Open) (sA sB : Sys) (tA tB : List Ev)
    (hoA : Wire oA (.opened opA)) (hoB : Wire oB (.opened opB)) (h : Bounded n cfgA cfgB oA oB sA tA sB tB)
    (hA : sA.task.live = true) (hB : sB.task.live = true) :
    (∃ a s' evs, Labours a ∧ (Does n cfgA oA tB sA tA a s' evs ∨ Does n cfgB oB tA sB tB a s' evs)) ∨
    (Idle oA tB sA tA ∧ Idle oB tA sB tB) ∨ Blocked n sA tA sB tB := by
  have data : ∀ {o : Ws} {op : Open}, Wire o (.opened op) → dataOf [o] = [o] := by
    intro o op h
    cases h
    rfl
  obtain ⟨nA, nB⟩ := h.net (net_start n oA) (net_start n oB)
  have idle : ∀ {o : Ws} {s : Sys} {t u : List Ev}, Idle o u s t → inFlight u t ≠ n := by
    intro o s t u hi
    have := congrArg List.length hi.came
    unfold inFlight
    rw [List.length_cons] at this
    omega
  rcases side_progress (cfg := cfgA) (data hoA) nA hA with ⟨a, s', evs, h1, h2⟩ | hiA | ⟨hwA, hfA⟩
  · exact Or.inl ⟨a, s', evs, h1, Or.inl h2⟩
  · rcases side_progress (cfg := cfgB) (data hoB) nB hB with ⟨a, s', evs, h1, h2⟩ | hiB | ⟨hwB, hfB⟩
    · exact Or.inl ⟨a, s', evs, h1, Or.inr h2⟩
    · exact Or.inr (Or.inl ⟨hiA, hiB⟩)
    · exact absurd hfB (idle hiA)
  · rcases side_progress (cfg := cfgB) (data hoB) nB hB with ⟨a, s', evs, h1, h2⟩ | hiB | ⟨hwB, hfB⟩
    · exact Or.inl ⟨a, s', evs, h1, Or.inr h2⟩
    · exact absurd hfA (idle hiB)
    · exact Or.inr (Or.inr ⟨hwA, hwB, hfA, hfB⟩)

/-- C58: two clients that block each other receive and write nothing any more, whatever the applications do, until
the connection breaks or one of the tasks is dropped. -/
theorem C58_forever (n : Nat) (cfgA cfgB : RCfg) (oA oB : Ws) (sA0 sB0 sA sB : Sys) (tA0 tB0 tA tB : List Ev)
    (h0 : Bounded n cfgA cfgB oA oB sA0 tA0 sB0 tB0) (hb : Blocked n sA0 tA0 sB0 tB0)
    (h : Later n cfgA cfgB oA oB sA0 tA0 sB0 tB0 sA tA sB tB) :
    (∃ w, .writeFailed w ∈ tA ∨ .writeFailed w ∈ tB) ∨ .taskDropped ∈ tA ∨ .taskDropped ∈ tB ∨
    (inbox tA = inbox tA0 ∧ written tA = written tA0 ∧ inbox tB = inbox tB0 ∧ written tB = written tB0 ∧ Blocked n sA tA sB tB) := by
  obtain ⟨actsA, hA0⟩ := h0.runs (acts0 := []) rfl
  obtain ⟨actsB, hB0⟩ := h0.swap.runs (acts0 := []) rfl
  have one : ∀ {cfg : RCfg} {o : Ws} {acts : List Act} {s s' : Sys} {t u evs : List Ev} {a : Act}, Runs cfg acts s t →
      (∃ w rest, s.task = .writing (w :: rest) ∧ dataOf [w] = [w]) → inFlight t u = n →
      (dataOf (inbox u)).length ≤ (dataOf (written t)).length + 1 → Does n cfg o u s t a s' evs →
      (∃ w, .writeFailed w ∈ evs) ∨ .taskDropped ∈ evs ∨ (s'.task = s.task ∧ inbox evs = [] ∧ written evs = []) := by
    intro cfg o acts s s' t u evs a hr hw hf hle hd
    obtain ⟨w, rest, ht, hw⟩ := hw
    have hp : s.phase ≠ .handshake := by
      intro hp
      have := ((pinv hr).start hp).1
      rw [ht] at this
      simp at this
    rcases writing_stays (step_trans hd.step) hp ht with rfl | h1 | h1 | h1
    · have := hd.room
      unfold inFlight at this hf
      rw [written_append, dataOf_append, show written [Ev.wrote w] = [w] from rfl, hw, List.length_append, List.length_singleton] at this
      exfalso
      omega
    · exact Or.inl ⟨w, h1⟩
    · exact Or.inr (Or.inl h1)
    · exact Or.inr (Or.inr h1)
  have hle : ∀ {o : Ws} {t u : List Ev}, Net n o u t → (dataOf (inbox u)).length ≤ (dataOf (written t)).length + 1 := by
    intro o t u hn
    simpa using hn.came.length_le
  have n0 := h0.net (net_start n oA) (net_start n oB)
  induction h with
  | now => exact Or.inr (Or.inr (Or.inr ⟨rfl, rfl, rfl, rfl, hb⟩))
  | @left sA sB sA' tA tB evs a hl hd ih =>
    rcases ih with ⟨w, h1 | h1⟩ | h1 | h1 | ⟨h1, h2, h3, h4, h5⟩
    · exact Or.inl ⟨w, Or.inl (List.mem_append_left _ h1)⟩
    · exact Or.inl ⟨w, Or.inr h1⟩
    · exact Or.inr (Or.inl (List.mem_append_left _ h1))
    · exact Or.inr (Or.inr (Or.inl h1))
    · obtain ⟨acts, hr⟩ := hl.runs hA0
      rcases one hr h5.left h5.fullA (hle (hl.net n0.1 n0.2).2) hd with ⟨w, k⟩ | k | ⟨k1, k2, k3⟩
      · exact Or.inl ⟨w, Or.inl (List.mem_append_right _ k)⟩
      · exact Or.inr (Or.inl (List.mem_append_right _ k))
      · refine Or.inr (Or.inr (Or.inr ⟨by simp [k2, h1], by simp [k3, h2], h3, h4, ⟨by rw [k1]; exact h5.left, h5.right, ?_, ?_⟩⟩))
        · have := h5.fullA
          unfold inFlight at this ⊢
          rw [written_append, k3, List.append_nil]
          exact this
        · have := h5.fullB
          unfold inFlight at this ⊢
          rw [inbox_append, k2, List.append_nil]
          exact this
  | @right sA sB sB' tA tB evs a hl hd ih =>
    rcases ih with ⟨w, h1 | h1⟩ | h1 | h1 | ⟨h1, h2, h3, h4, h5⟩
    · exact Or.inl ⟨w, Or.inl h1⟩
    · exact Or.inl ⟨w, Or.inr (List.mem_append_left _ h1)⟩
    · exact Or.inr (Or.inl h1)
    · exact Or.inr (Or.inr (Or.inl (List.mem_append_left _ h1)))
    · obtain ⟨acts, hr⟩ := hl.swap.runs hB0
      rcases one hr h5.right h5.fullB (hle (hl.net n0.1 n0.2).1) hd with ⟨w, k⟩ | k | ⟨k1, k2, k3⟩
      · exact Or.inl ⟨w, Or.inr (List.mem_append_right _ k)⟩
      · exact Or.inr (Or.inr (Or.inl (List.mem_append_right _ k)))
      · refine Or.inr (Or.inr (Or.inr ⟨h1, h2, by simp [k2, h3], by simp [k3, h4], ⟨h5.left, by rw [k1]; exact h5.right, ?_, ?_⟩⟩))
        · have := h5.fullA
          unfold inFlight at this ⊢
          rw [inbox_append, k2, List.append_nil]
          exact this
        · have := h5.fullB
          unfold inFlight at this ⊢
          rw [written_append, k3, List.append_nil]
          exact this

/-- C58: if the network can hold all one of the clients ever sent, it is not blocked. -/
theorem C58_room (n : Nat) (cfgA cfgB : RCfg) (oA oB : Ws) (sA sB : Sys) (tA tB : List Ev)
    (h : Bounded n cfgA cfgB oA oB sA tA sB tB) (hb : Blocked n sA tA sB tB) :
    n < (dataOf (groups tA).flatten).length ∧ n < (dataOf (groups tB).flatten).length := by
  have one : ∀ {cfg : RCfg} {acts : List Act} {s : Sys} {t u : List Ev}, Runs cfg acts s t →
      (∃ w rest, s.task = .writing (w :: rest) ∧ dataOf [w] = [w]) → inFlight t u = n → n < (dataOf (groups t).flatten).length := by
    intro cfg acts s t u hr hw hf
    obtain ⟨w, rest, ht, hw⟩ := hw
    have h1 := (winv hr).wire
    rw [ht] at h1
    have h2 := C32_queue cfg acts s t hr (by rw [ht]; rfl)
    rw [h2, List.flatten_append, ← h1.1, show w :: rest = [w] ++ rest from rfl]
    simp only [dataOf_append, List.length_append, hw, List.length_singleton]
    unfold inFlight at hf
    omega
  obtain ⟨actsA, hA⟩ := h.runs (acts0 := []) rfl
  obtain ⟨actsB, hB⟩ := h.swap.runs (acts0 := []) rfl
  exact ⟨one hA hb.left hb.fullA, one hB hb.right hb.fullB⟩

/-- One client acts alone for a while. -/
theorem Spec.Later.alone {n : Nat} {cfgA cfgB : RCfg} {oA oB : Ws} {sA0 sB0 : Sys} {tA0 tB0 : List Ev} {acts : List Act} :
    ∀ {sA sB s' : Sys} {tA tB evs : List Ev}, Later n cfgA cfgB oA oB sA0 tA0 sB0 tB0 sA tA sB tB →
    exec cfgA sA acts = some (s', evs) → dataOf (inbox (tA ++ evs)) <+: oA :: dataOf (written tB) → inFlight (tA ++ evs) tB ≤ n →
    Later n cfgA cfgB oA oB sA0 tA0 sB0 tB0 s' (tA ++ evs) sB tB := by
  induction acts with
  | nil =>
    intro sA sB s' tA tB evs h he _ _
    simp only [exec, Option.some.injEq, Prod.mk.injEq] at he
    obtain ⟨rfl, rfl⟩ := he
    rw [List.append_nil]
    exact h
  | cons a acts ih =>
    intro sA sB s' tA tB evs h he hc hr
    simp only [exec] at he
    split at he
    · simp at he
    · rename_i s1 e1 h1
      split at he
      · simp at he
      · rename_i s2 e2 h2
        simp only [Option.some.injEq, Prod.mk.injEq] at he
        obtain ⟨rfl, rfl⟩ := he
        rw [← List.append_assoc] at hc hr ⊢
        refine ih (.left h ⟨h1, ?_, ?_⟩) h2 hc hr
        · refine List.IsPrefix.trans ?_ hc
          rw [inbox_append (tA ++ e1), dataOf_append]
          exact List.prefix_append _ _
        · refine Nat.le_trans ?_ hr
          unfold inFlight
          rw [written_append (tA ++ e1), dataOf_append, List.length_append]
          omega

/-- The message of an event without arguments. -/
def exMsg : Ws := .text "42[\"e\"]".toList

/-- An event is emitted. -/
def exAsk : List Act := [.emitStart ['/'] ['e'], .emitArgs, .emitSend, .emitEnqueue]

/-- A message is sent. -/
def exPut : List Act := [.dequeue, .write, .endGroup]

theorem exMsg_built : ∃ b, Builder.newEvent ['e'] ['/'] none false = .ok b ∧ b.finish = .ok [exMsg] := by
  cases h : Builder.newEvent ['e'] ['/'] none false with
  | panic => exact absurd h (by decide +kernel)
  | err e => exact e.elim
  | ok b =>
    refine ⟨b, rfl, ?_⟩
    have : (match Builder.newEvent ['e'] ['/'] none false with | .ok b => b.finish | _ => .panic) = .ok [exMsg] := by decide +kernel
    rw [h] at this
    exact this

theorem ask_one (cfg : RCfg) (s : Sys) (h1 : s.client = true) (h2 : s.emit = none) (h3 : s.ownSend = true) (h4 : s.task = .running)
    (h5 : s.chanClosed = false) :
    exec cfg s exAsk = some ({ s with queue := s.queue ++ [[exMsg]] }, [.enqueued (.emit ['/'] none) [exMsg]]) := by
  obtain ⟨b, k1, k2⟩ := exMsg_built
  simp [exec, exAsk, step, h1, h2, h3, h4, h5, k1, k2, Sys.enqueue, Task.live]

theorem ask_many (cfg : RCfg) : ∀ (k : Nat) (s : Sys), s.client = true → s.emit = none → s.ownSend = true → s.task = .running →
    s.chanClosed = false → exec cfg s (List.replicate k exAsk).flatten =
      some ({ s with queue := s.queue ++ List.replicate k [exMsg] }, List.replicate k (.enqueued (.emit ['/'] none) [exMsg])) := by
  intro k
  induction k with
  | zero => intro s _ _ _ _ _; simp [exec]
  | succ k ih =>
    intro s h1 h2 h3 h4 h5
    rw [List.replicate_succ, List.flatten_cons]
    have := exec_append (ask_one cfg s h1 h2 h3 h4 h5) (ih { s with queue := s.queue ++ [[exMsg]] } h1 h2 h3 h4 h5)
    rw [this]
    simp [List.replicate_succ]

theorem put_many (cfg : RCfg) : ∀ (k : Nat) (s : Sys) (q : List (List Ws)), s.task = .running → s.queue = List.replicate k [exMsg] ++ q →
    exec cfg s (List.replicate k exPut).flatten =
      some ({ s with queue := q }, (List.replicate k [.dequeued [exMsg], .wrote exMsg, .groupDone]).flatten) := by
  intro k
  induction k with
  | zero =>
    intro s q _ h
    simp at h
    simp [exec, ← h]
  | succ k ih =>
    intro s q h1 h2
    rw [List.replicate_succ, List.cons_append] at h2
    have one : exec cfg s exPut = some ({ s with queue := List.replicate k [exMsg] ++ q }, [.dequeued [exMsg], .wrote exMsg, .groupDone]) := by
      simp [exec, exPut, step, h1, h2]
    rw [List.replicate_succ, List.flatten_cons, exec_append one (ih _ q h1 rfl)]
    simp [List.replicate_succ]

/-- A client sends `k + 1` events and is about to write the last one. -/
theorem about_to_write (k : Nat) : ∃ s tr, Runs exCfg (exConnect ++ ((List.replicate (k + 1) exAsk).flatten ++
      ((List.replicate k exPut).flatten ++ [.dequeue]))) s tr ∧ s.client = true ∧ s.task = .writing [exMsg] ∧ inbox tr = [exOpen] ∧
      written tr = List.replicate k exMsg ∧ sources tr = List.replicate (k + 1) (.emit ['/'] none, [exMsg]) := by
  have h0 : ∃ s tr, Runs exCfg exConnect s tr ∧ s.client = true ∧ s.emit = none ∧ s.ownSend = true ∧ s.task = .running ∧
      s.chanClosed = false ∧ s.queue = [] ∧ inbox tr = [exOpen] ∧ written tr = [] ∧ sources tr = [] := by
    have h : (match exec exCfg Sys.init exConnect with
      | some (s, tr) => decide (s.client = true ∧ s.emit = none ∧ s.ownSend = true ∧ s.chanClosed = false ∧ s.queue = [] ∧
          inbox tr = [exOpen] ∧ written tr = [] ∧ sources tr = []) && (match s.task with | .running => true | _ => false)
      | none => false) = true := by decide +kernel
    split at h
    · rename_i s tr he
      rw [Bool.and_eq_true, decide_eq_true_eq] at h
      obtain ⟨⟨h1, h2, h3, h4, h5, h6, h7, h8⟩, h9⟩ := h
      refine ⟨s, tr, he, h1, h2, h3, ?_, h4, h5, h6, h7, h8⟩
      split at h9
      · assumption
      · simp at h9
    · simp at h
  obtain ⟨s, tr, hr, h1, h2, h3, h4, h5, h6, h7, h8, h9⟩ := h0
  have e1 := ask_many exCfg (k + 1) s h1 h2 h3 h4 h5
  have e2 := put_many exCfg k { s with queue := s.queue ++ List.replicate (k + 1) [exMsg] } [[exMsg]] h4
    (by rw [h6, List.replicate_succ']; rfl)
  have e3 : exec exCfg { s with queue := [[exMsg]] } [.dequeue] = some ({ s with queue := [], task := .writing [exMsg] }, [.dequeued [exMsg]]) := by
    simp [exec, step, h4]
  refine ⟨_, _, exec_append hr (exec_append e1 (exec_append e2 e3)), h1, rfl, ?_, ?_, ?_⟩
  · have a1 : ∀ j, inbox (List.replicate j (Ev.enqueued (.emit ['/'] none) [exMsg])) = [] := by
      intro j; induction j with
      | zero => rfl
      | succ j ih => exact ih
    have a2 : ∀ j, inbox (List.replicate j [Ev.dequeued [exMsg], .wrote exMsg, .groupDone]).flatten = [] := by
      intro j; induction j with
      | zero => rfl
      | succ j ih => exact ih
    simp only [inbox_append, h7, a1, a2]
    rfl
  · have a1 : ∀ j, written (List.replicate j (Ev.enqueued (.emit ['/'] none) [exMsg])) = [] := by
      intro j; induction j with
      | zero => rfl
      | succ j ih => exact ih
    have a2 : ∀ j, written (List.replicate j [Ev.dequeued [exMsg], .wrote exMsg, .groupDone]).flatten = List.replicate j exMsg := by
      intro j; induction j with
      | zero => rfl
      | succ j ih => exact congrArg (exMsg :: ·) ih
    simp only [written_append, h8, a1, a2]
    simp [written]
  · have a1 : ∀ j, sources (List.replicate j (Ev.enqueued (.emit ['/'] none) [exMsg])) = List.replicate j (.emit ['/'] none, [exMsg]) := by
      intro j; induction j with
      | zero => rfl
      | succ j ih => exact congrArg (_ :: ·) ih
    have a2 : ∀ j, sources (List.replicate j [Ev.dequeued [exMsg], .wrote exMsg, .groupDone]).flatten = [] := by
      intro j; induction j with
      | zero => rfl
      | succ j ih => exact ih
    have a3 : ∀ a b : List Ev, sources (a ++ b) = sources a ++ sources b := by intro a b; simp [sources]
    simp only [a3, h9, a1, a2]
    simp [sources]

/-- C58 is false as stated: however much the network can hold, two connected clients that only emit events without
arguments can block each other. -/
theorem C58_counterexample (n : Nat) : ∃ sA tA sB tB, Bounded n exCfg exCfg exOpen exOpen sA tA sB tB ∧
    sA.client = true ∧ sB.client = true ∧ sources tA = List.replicate (n + 1) (.emit ['/'] none, [exMsg]) ∧
    sources tB = List.replicate (n + 1) (.emit ['/'] none, [exMsg]) ∧ Blocked n sA tA sB tB := by
  obtain ⟨s, tr, hr, h1, h2, h3, h4, h5⟩ := about_to_write n
  have hd : ∀ j, dataOf (List.replicate j exMsg) = List.replicate j exMsg := by
    intro j; induction j with
    | zero => rfl
    | succ j ih => exact congrArg (exMsg :: ·) ih
  have hi : dataOf (inbox tr) = [exOpen] := by rw [h3]; rfl
  have f1 : inFlight tr [] = n := by simp only [inFlight, h4, hd]; simp [inbox, dataOf]
  have f2 : inFlight tr tr = n := by simp [inFlight, h4, hd, hi]
  have l1 : Bounded n exCfg exCfg exOpen exOpen s tr Sys.init [] :=
    Later.alone .now hr (by rw [List.nil_append, hi]; exact ⟨[], rfl⟩) (by rw [List.nil_append]; exact Nat.le_of_eq f1)
  have l2 : Bounded n exCfg exCfg exOpen exOpen s tr s tr :=
    (Later.alone l1.swap hr (by rw [List.nil_append, hi]; exact ⟨_, rfl⟩) (by rw [List.nil_append]; exact Nat.le_of_eq f2)).swap
  exact ⟨s, tr, s, tr, l2, h1, h1, h5, h5, ⟨exMsg, [], h2, rfl⟩, ⟨exMsg, [], h2, rfl⟩, f2, f2⟩

-- two events each are enough if only one is on its way at a time
example : ∃ sA tA sB tB, Bounded 1 exCfg exCfg exOpen exOpen sA tA sB tB ∧ Blocked 1 sA tA sB tB ∧ (sources tA).length = 2 := by
  obtain ⟨sA, tA, sB, tB, h1, _, _, h2, _, h3⟩ := C58_counterexample 1
  exact ⟨sA, tA, sB, tB, h1, h3, by rw [h2]; rfl⟩

-- with one more place the second message can be written
example : ∃ s tr s' evs, Bounded 2 exCfg exCfg exOpen exOpen s tr Sys.init [] ∧ Does 2 exCfg exOpen [] s tr .write s' evs ∧
    evs = [.wrote exMsg] := by
  obtain ⟨s, tr, hr, _, h2, h3, h4, _⟩ := about_to_write 1
  have hi : dataOf (inbox tr) <+: exOpen :: dataOf (written []) := by rw [h3]; exact ⟨[], rfl⟩
  refine ⟨s, tr, { s with task := .writing [] }, [.wrote exMsg], Later.alone .now hr hi ?_, ⟨by simp [step, h2], ?_, ?_⟩, rfl⟩
  · rw [List.nil_append, inFlight, h4]; decide +kernel
  · rw [inbox_append, dataOf_append]; simpa [inbox, dataOf] using hi
  · rw [inFlight, written_append, h4]; decide +kernel

end SIO
