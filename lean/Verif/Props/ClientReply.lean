import Verif.Lemmas.ClientConn
import Verif.Lemmas.ClientTag
import Verif.Props.Builder
/-
C41 and C43 for the whole client: what callbacks get, and replies.
-/
namespace SIO
open Spec

theorem arrived_received (t : List Ev) (w : Ws) (l : List (Callbacks × Ws)) (reg : Callbacks) (h : l.map Prod.snd = inbox t) :
    payloads (l ++ [(reg, w)]) = arrived (t ++ [.received w]) := by
  apply payloads_inbox
  rw [List.map_append, h, inbox_append]
  rfl

/-- C43, in the running client: an event callback gets the arguments and attachments of the packet
made of the engine messages that arrived last; the name is given by argument 0; and a reply handle
is passed iff the packet has an id (C41). -/
theorem C43_system (cfg : RCfg) (acts : List Act) (s : Sys) (tr : List Ev) (h : Runs cfg acts s tr)
    (t1 t2 : List Ev) (ns name : Str) (cb : Cb) (A : Args) (ack : Option AckHandle)
    (he : tr = t1 ++ .eff (.event ns name cb A ack) :: t2) :
    ∃ (pre : List Payload) (p : Pkt) (v : Str) (vs : List Str) (bs : List Bytes),
      arrived t1 = pre ++ .text p.text :: bs.map .binary ∧
      p.Wf ∧ p.Longest ∧ p.Fits ∧ p.ArgTexts (v :: vs) ∧ p.Means (v :: vs) bs (.event p.id (v :: vs) bs) ∧
      ns = p.ns.getD ['/'] ∧ ArgsShow A (v :: vs) bs ∧ NameOf v bs name ∧
      ack = p.id.map (fun i => ⟨ns, i⟩) := by
  obtain ⟨t0, w, l, reg, h1, h2, h3, h4, h5⟩ := eff_source h _ _ _ he _ rfl
  obtain ⟨pre, p, v, vs, bs, k1, k2, k3, k4, k5, k6, k7, k8, k9, k10, _⟩ := C43_event cfg l h3 reg w ns name cb A ack h5
  rw [arrived_received t0 w l reg h2, ← h1] at k1
  exact ⟨pre, p, v, vs, bs, k1, k2, k3, k4, k5, k6, k7, k8, k9, k10⟩

/-- C43, the same for ack callbacks. -/
theorem C43_system_ack (cfg : RCfg) (acts : List Act) (s : Sys) (tr : List Ev) (h : Runs cfg acts s tr)
    (t1 t2 : List Ev) (ns : Str) (id : Nat) (cb : Cb) (A : Args) (he : tr = t1 ++ .eff (.ack ns id cb A) :: t2) :
    ∃ (pre : List Payload) (p : Pkt) (vs : List Str) (bs : List Bytes),
      arrived t1 = pre ++ .text p.text :: bs.map .binary ∧
      p.Wf ∧ p.Longest ∧ p.Fits ∧ p.ArgTexts vs ∧ p.Means vs bs (.ack id vs bs) ∧ ns = p.ns.getD ['/'] ∧
      ArgsShow A vs bs := by
  obtain ⟨t0, w, l, reg, h1, h2, h3, h4, h5⟩ := eff_source h _ _ _ he _ rfl
  obtain ⟨pre, p, vs, bs, k1, k2, k3, k4, k5, k6, k7, k8, _⟩ := C43_ack cfg l h3 reg w ns id cb A h5
  rw [arrived_received t0 w l reg h2, ← h1] at k1
  exact ⟨pre, p, vs, bs, k1, k2, k3, k4, k5, k6, k7, k8⟩

theorem handed_mem {tr : List Ev} {x : AckHandle} (h : x ∈ handed tr) :
    ∃ t1 t2 ns name cb A, tr = t1 ++ .eff (.event ns name cb A (some x)) :: t2 := by
  simp only [handed, List.mem_filterMap] at h
  obtain ⟨e, he, hx⟩ := h
  split at hx
  · subst hx
    obtain ⟨a, b, hab⟩ := mem_split he
    exact ⟨a, b, _, _, _, _, hab⟩
  · simp at hx

/-- A reply handle that was given to a callback has a proper namespace and a 64-bit id. -/
theorem handed_ok {cfg : RCfg} {acts : List Act} {s : Sys} {tr : List Ev} (h : Runs cfg acts s tr) {x : AckHandle}
    (hx : x ∈ handed tr) : NsOk x.ns ∧ x.id < 2 ^ 64 := by
  obtain ⟨t1, t2, ns, name, cb, A, he⟩ := handed_mem hx
  obtain ⟨pre, p, v, vs, bs, _, hw, _, hf, _, _, hns, _, _, ha⟩ := C43_system cfg acts s tr h t1 t2 ns name cb A (some x) he
  cases hid : p.id with
  | none => rw [hid] at ha; simp at ha
  | some i =>
    rw [hid] at ha
    simp only [Option.map_some, Option.some.injEq] at ha
    subst ha
    refine ⟨?_, hf.id i hid⟩
    rw [hns]
    cases hn : p.ns with
    | none => exact Or.inl rfl
    | some n => exact Or.inr (hw.ns n hn)

theorem handles_handed {cfg : RCfg} {acts : List Act} {s : Sys} {tr : List Ev} (h : Runs cfg acts s tr) {x : AckHandle}
    (hx : x ∈ s.handles) : x ∈ handed tr := by
  have := (handinv h).count x
  have h1 := List.count_pos_iff.2 hx
  exact List.count_pos_iff.1 (by omega)

/-- C41: a handle is used for at most one reply each time it was given to a callback, and what
gets into the queue is a group of messages of a reply builder with its id and namespace. -/
theorem C41_handles (cfg : RCfg) (acts : List Act) (s : Sys) (tr : List Ev) (h : Runs cfg acts s tr) (x : AckHandle) :
    (replied tr).count x ≤ (handed tr).count x ∧ ∀ g, .enqueued (.reply x) g ∈ tr → ReplyGroup x g := by
  have hi := handinv h
  refine ⟨?_, hi.queued x⟩
  have := hi.count x
  omega

/-- What `AckArgsBuilder::send` does: one group, put into the queue unless that is closed. -/
theorem reply_step {cfg : RCfg} {s s' : Sys} {x : AckHandle} {binary : Bool} {args : List SVal} {evs : List Ev} {g : List Ws}
    (hs : step cfg s (.reply x binary args) = some (s', evs))
    (hg : (adds (Builder.newAck x.ns x.id binary) args).finish = .ok g) :
    x ∈ s.handles ∧
    ((s.task.live = true ∧ s.chanClosed = false ∧ evs = [.enqueued (.reply x) g] ∧ s'.queue = s.queue ++ [g]) ∨
     ((s.task.live = false ∨ s.chanClosed = true) ∧ evs = [.sendFailed (.reply x) g] ∧ s'.queue = s.queue)) := by
  simp only [step] at hs
  split at hs
  · rename_i hx
    refine ⟨hx, ?_⟩
    have hg' : (args.foldl (fun b v => (b.serializeArg v).1) (Builder.newAck x.ns x.id binary)).finish = .ok g := hg
    rw [hg'] at hs
    simp only [Sys.enqueue] at hs
    split at hs
    · rename_i hc
      simp only [Option.some.injEq, Prod.mk.injEq] at hs
      obtain ⟨rfl, rfl⟩ := hs
      exact Or.inl ⟨hc.1, by simpa using hc.2, rfl, rfl⟩
    · rename_i hc
      simp only [Option.some.injEq, Prod.mk.injEq] at hs
      obtain ⟨rfl, rfl⟩ := hs
      refine Or.inr ⟨?_, rfl, rfl⟩
      cases hl : s.task.live
      · exact Or.inl rfl
      · right; simpa [hl] using hc
  · simp at hs

/-- C41, what holds: a reply with at least one argument, of which the first can be serialized, is
one enqueued group (as long as the connection task runs), which the peer reads as an ack with the
id and namespace of the event the handle belongs to.  Missing for the full claim: replies without
arguments (`C41_counterexample`), and the restrictions of C03 on the argument texts. -/
theorem C41_reply_partial (cfg : RCfg) (acts : List Act) (s : Sys) (tr : List Ev) (h : Runs cfg acts s tr)
    (x : AckHandle) (binary : Bool) (arg : SVal) (args : List SVal) (s' : Sys) (evs : List Ev)
    (hs : step cfg s (.reply x binary (arg :: args)) = some (s', evs))
    (hf : ∀ v ∈ arg :: args, v.FloatsOk) (hm : binary = true → ∀ v ∈ arg :: args, v.NoMixed)
    (h1 : (docOf arg).isSome) (hc : (ackBlobs binary ((arg :: args).filterMap docOf)).length < 2 ^ 64) :
    ∃ g, x ∈ handed tr ∧
      ((s.task.live = true ∧ s.chanClosed = false ∧ evs = [.enqueued (.reply x) g]) ∨
       ((s.task.live = false ∨ s.chanClosed = true) ∧ evs = [.sendFailed (.reply x) g])) ∧
      (Unambiguous x.ns g → ∃ pk vs, PeerReads .active g pk ∧
        Shows pk x.ns (.ack x.id vs (ackBlobs binary ((arg :: args).filterMap docOf))) ∧
        TextsDenote vs (ackWire binary ((arg :: args).filterMap docOf))) := by
  have hx : x ∈ handed tr := by
    simp only [step] at hs
    split at hs
    · exact handles_handed h ‹_›
    · simp at hs
  obtain ⟨hn, hid⟩ := handed_ok h hx
  obtain ⟨g, hg, hread⟩ := C03_partial binary x.ns x.id hn hid arg args hf hm h1 hc
  obtain ⟨_, h2⟩ := reply_step hs hg
  refine ⟨g, hx, ?_, hread⟩
  rcases h2 with ⟨a, b, c, _⟩ | ⟨a, b, _⟩
  · exact Or.inl ⟨a, b, c⟩
  · exact Or.inr ⟨a, b⟩

/-- C41 is false for replies without arguments: they are enqueued, but no peer reads them. -/
theorem C41_counterexample (cfg : RCfg) (acts : List Act) (s : Sys) (tr : List Ev) (h : Runs cfg acts s tr)
    (x : AckHandle) (binary : Bool) (s' : Sys) (evs : List Ev) (hs : step cfg s (.reply x binary []) = some (s', evs)) :
    ∃ g, (evs = [.enqueued (.reply x) g] ∨ evs = [.sendFailed (.reply x) g]) ∧ ∀ pk, ¬ PeerReads .active g pk := by
  have hx : x ∈ handed tr := by
    simp only [step] at hs
    split at hs
    · exact handles_handed h ‹_›
    · simp at hs
  obtain ⟨hn, hid⟩ := handed_ok h hx
  obtain ⟨g, hg, hread⟩ := C03_counterexample binary x.ns x.id hn
  obtain ⟨_, h2⟩ := reply_step hs hg
  refine ⟨g, ?_, hread⟩
  rcases h2 with ⟨_, _, c, _⟩ | ⟨_, b, _⟩
  · exact Or.inl c
  · exact Or.inr b

-- non-vacuity: events with and without id; a reply, a reply without arguments
example : seen exCfg (exConnect ++ [.reg (.setEvent ['/'] ['a'] 1), .recv (.text "42[\"a\"]".toList) false,
      .recv (.text "423[\"a\"]".toList) false, .recv (.text "424[\"a\"]".toList) false,
      .reply ⟨['/'], 4⟩ false [.bool true], .reply ⟨['/'], 3⟩ false []]) =
    some [.received exOpen, .opened ['s'], .connectReturned .ok, .regOp,
      .received (.text "42[\"a\"]".toList), .event ['/'] ['a'] 1 none,
      .received (.text "423[\"a\"]".toList), .event ['/'] ['a'] 1 (some ⟨['/'], 3⟩),
      .received (.text "424[\"a\"]".toList), .event ['/'] ['a'] 1 (some ⟨['/'], 4⟩),
      .enqueued (.reply ⟨['/'], 4⟩) [.text "434[true]".toList],
      .enqueued (.reply ⟨['/'], 3⟩) [.text "433".toList]] := by
  decide +kernel

-- a handle is used up by a reply
example : seen exCfg (exConnect ++ [.reg (.setEvent ['/'] ['a'] 1), .recv (.text "423[\"a\"]".toList) false,
      .reply ⟨['/'], 3⟩ false [], .reply ⟨['/'], 3⟩ false []]) = none := by
  decide +kernel

end SIO
