import Verif.Lemmas.ClientConn
import Verif.Lemmas.ClientTag
import Verif.Props.Callbacks
/-
C26, C28, C29, C30 for the whole client: every interleaving of the application with the
connection task.
-/
namespace SIO
open Spec

/-! ### C26 -/

/-- C26, at every moment of every execution: the callback an event goes to is the one the history
of calls puts in charge. -/
theorem C26_system (cfg : RCfg) (acts : List Act) (s : Sys) (tr : List Ev) (h : Runs cfg acts s tr)
    (ns name : Str) (c : Option Cb) : s.reg.getEvent ns name = c ↔ InCharge (history tr) ns name c := by
  rw [(ginv h).getEvent, C26_lookup]

/-- C26, deliveries: every event delivered in an execution went to the callback that the calls
before it put in charge. -/
theorem C26_dispatch (cfg : RCfg) (acts : List Act) (s : Sys) (tr : List Ev) (h : Runs cfg acts s tr)
    (t1 t2 : List Ev) (ns name : Str) (cb : Cb) (A : Args) (ack : Option AckHandle)
    (he : tr = t1 ++ .eff (.event ns name cb A ack) :: t2) : InCharge (history t1) ns name (some cb) := by
  obtain ⟨t0, w, l, reg, h1, h2, h3, h4, h5⟩ := eff_source h _ _ _ he _ rfl
  obtain ⟨_, _, _, _, _, _, _, _, _, _, _, _, _, _, _, h6⟩ := C43_event cfg l h3 reg w ns name cb A ack h5
  have h7 : history t1 = history t0 := by
    rw [h1, history_append]; show _ ++ [] = _; simp
  rw [h7, ← C26_lookup, ← h4.getEvent]
  exact h6

/-- C26, the other direction: an incoming event with a callback in charge is delivered to it,
unless formatting it for the log panics (C22). -/
theorem C26_delivered (cfg : RCfg) (acts : List Act) (s : Sys) (tr : List Ev) (h : Runs cfg acts s tr)
    (txt : Str) (ms : List EMsg) (pk : Packet) (hd : Decoded txt ms pk) (ns v name : Str) (vs : List Str)
    (bs : List Bytes) (id : Option Nat) (hs : Shows pk ns (.event id (v :: vs) bs)) (hn : NameOf v bs name)
    (cb : Cb) (hc : InCharge (history tr) ns name (some cb)) (hl : cfg.logInfo = true → pk.display cfg.ext.fin ≠ .panic) :
    ∃ A, processPacket cfg s.reg pk = (s.reg, [.event ns name cb A (id.map fun i => ⟨ns, i⟩)], .ok ()) ∧
      ArgsShow A (v :: vs) bs := by
  obtain ⟨h1, A, h2, h3⟩ := hs
  obtain ⟨vs', bs', hv, hs', _⟩ := decoded_args hd (Or.inl ⟨id, h2⟩)
  have hvs : v ∈ vs' := by
    have e1 := h3.get 0
    rw [hs'.get 0] at e1
    cases vs' with
    | nil => simp at e1
    | cons a b => simp at e1; simp [e1]
  obtain ⟨t, ht⟩ := hv v hvs
  have hl' : ¬ LogPanics cfg pk := fun hx => hl hx.1 hx.2
  refine ⟨A, ?_, h3⟩
  rcases processPacket_event (reg := s.reg) hl' h1 h2 h3 ht with ⟨name', g1, g2⟩ | ⟨g1, _⟩
  · rw [g2, nameOf_unique g1 hn, (C26_system cfg acts s tr h ns name (some cb)).2 hc]
  · exact absurd hn (g1 name)

-- non-vacuity: registered, delivered, cleared, delivered to the fallback
example : seen exCfg (exConnect ++ [.reg (.setEvent ['/'] ['a'] 5), .reg (.setFallback ['/'] 6),
      .recv (.text "42[\"a\"]".toList) false, .reg (.clearEvent ['/'] ['a']), .recv (.text "42[\"a\"]".toList) false]) =
    some [.received exOpen, .opened ['s'], .connectReturned .ok, .regOp, .regOp,
      .received (.text "42[\"a\"]".toList), .event ['/'] ['a'] 5 none, .regOp,
      .received (.text "42[\"a\"]".toList), .event ['/'] ['a'] 6 none] := by
  decide +kernel

/-! ### C28 -/

/-- C28: no ack callback runs twice. -/
theorem C28_once (cfg : RCfg) (acts : List Act) (s : Sys) (tr : List Ev) (h : Runs cfg acts s tr) :
    (ackRuns tr).Nodup := (ainv h).nodup

/-- Everything before an event of an execution is an execution up to the middle of an action:
what holds of ack callbacks then. -/
theorem ack_before {cfg : RCfg} {acts : List Act} {s : Sys} {tr : List Ev} (h : Runs cfg acts s tr) :
    ∀ t1 e t2, tr = t1 ++ e :: t2 →
      (∀ ns id cb A, e = .eff (.ack ns id cb A) → .allocated id cb ∈ t1 ∧ .registered ns id cb ∈ t1) ∧
      (∀ ns id cb g, (e = .enqueued (.emit ns (some (id, cb))) g ∨ e = .sendFailed (.emit ns (some (id, cb))) g ∨
          e = .sentElsewhere (.emit ns (some (id, cb))) g) → .registered ns id cb ∈ t1) := by
  refine before_induct (I := AInv) ainv_init (fun _ _ _ _ hi ht => ainv_trans hi ht) ?_ h
  intro tr s s' evs hi ht a e b heq
  have key : ∀ {ns id cb}, s.reg.ak ns id = some cb → .allocated id cb ∈ tr ∧ .registered ns id cb ∈ tr := by
    intro ns id cb hk
    have h1 := (hi.ak ns id cb hk).1
    exact ⟨(hi.alloc id cb).2 (hi.regd _ _ _ h1), h1⟩
  have hm : e ∈ evs := by rw [heq]; simp
  cases ht with
  | recvAck w st ns id cb A hr hk hp =>
    have := key hk
    constructor
    · rintro ns' id' cb' A' rfl
      simp at hm
      obtain ⟨rfl, rfl, rfl, rfl⟩ := hm
      exact ⟨List.mem_append_left _ this.1, List.mem_append_left _ this.2⟩
    · rintro ns' id' cb' g' (rfl | rfl | rfl) <;> simp at hm
  | recvAckPanic w st ns id cb A hr hk hp =>
    have := key hk
    constructor
    · rintro ns' id' cb' A' rfl
      simp at hm
      obtain ⟨rfl, rfl, rfl, rfl⟩ := hm
      exact ⟨List.mem_append_left _ this.1, List.mem_append_left _ this.2⟩
    · rintro ns' id' cb' g' (rfl | rfl | rfl) <;> simp at hm
  | sendOk src g s0 evs hs hl hc =>
    cases hs with
    | emit ns cb g hem _ =>
      refine ⟨?_, ?_⟩
      · rintro ns' id' cb' A' rfl; simp at hm
      · rintro ns' id' cb' g' (rfl | rfl | rfl) <;> simp at hm
        obtain ⟨⟨rfl, rfl⟩, rfl⟩ := hm
        exact List.mem_append_left _ (hi.sending ns' id' cb' (by rw [hem]; rfl))
    | _ =>
      refine ⟨?_, ?_⟩
      · rintro ns' id' cb' A' rfl; simp at hm
      · rintro ns' id' cb' g' (rfl | rfl | rfl) <;> simp at hm
  | sendFail src g s0 evs hs hc =>
    cases hs with
    | emit ns cb g hem _ =>
      refine ⟨?_, ?_⟩
      · rintro ns' id' cb' A' rfl; simp at hm
      · rintro ns' id' cb' g' (rfl | rfl | rfl) <;> simp at hm
        obtain ⟨⟨rfl, rfl⟩, rfl⟩ := hm
        exact List.mem_append_left _ (hi.sending ns' id' cb' (by rw [hem]; rfl))
    | _ =>
      refine ⟨?_, ?_⟩
      · rintro ns' id' cb' A' rfl; simp at hm
      · rintro ns' id' cb' g' (rfl | rfl | rfl) <;> simp at hm
  | emitElsewhere ns cb g hem _ =>
    refine ⟨?_, ?_⟩
    · rintro ns' id' cb' A' rfl; simp at hm
    · rintro ns' id' cb' g' (rfl | rfl | rfl) <;> simp at hm
      obtain ⟨⟨rfl, rfl⟩, rfl⟩ := hm
      exact List.mem_append_left _ (hi.sending ns' id' cb' (by rw [hem]; rfl))
  | _ =>
    refine ⟨?_, ?_⟩
    · rintro ns' id' cb' A' rfl; simp at hm
    · rintro ns' id' cb' g' (rfl | rfl | rfl) <;> simp at hm

/-- C28: an ack callback runs only when an ack packet with its own id, in the namespace it was
registered for, has just arrived completely. -/
theorem C28_own (cfg : RCfg) (acts : List Act) (s : Sys) (tr : List Ev) (h : Runs cfg acts s tr)
    (t1 t2 : List Ev) (ns : Str) (id : Nat) (cb : Cb) (A : Args) (he : tr = t1 ++ .eff (.ack ns id cb A) :: t2) :
    .allocated id cb ∈ t1 ∧ .registered ns id cb ∈ t1 ∧
    ∃ (pre : List Payload) (p : Pkt) (vs : List Str) (bs : List Bytes),
      arrived t1 = pre ++ .text p.text :: bs.map .binary ∧ p.Wf ∧ p.Longest ∧ p.ArgTexts vs ∧
      p.Means vs bs (.ack id vs bs) ∧ ns = p.ns.getD ['/'] ∧ ArgsShow A vs bs := by
  obtain ⟨h1, h2⟩ := (ack_before h _ _ _ he).1 ns id cb A rfl
  refine ⟨h1, h2, ?_⟩
  obtain ⟨t0, w, l, reg, k1, k2, k3, k4, k5⟩ := eff_source h _ _ _ he _ rfl
  obtain ⟨pre, p, vs, bs, g1, g2, g3, _, g4, g5, g6, g7, _⟩ := C43_ack cfg l k3 reg w ns id cb A k5
  refine ⟨pre, p, vs, bs, ?_, g2, g3, g4, g5, g6, g7⟩
  rw [← g1]
  symm
  refine payloads_inbox ?_
  rw [k1, inbox_append, List.map_append, k2]
  rfl

/-- C28: the namespace and the id are those of the event the callback was sent with. -/
theorem C28_emit (cfg : RCfg) (acts : List Act) (s : Sys) (tr : List Ev) (h : Runs cfg acts s tr)
    (ns ns' : Str) (id id' : Nat) (cb : Cb) (A : Args) (g : List Ws) (he : .eff (.ack ns id cb A) ∈ tr)
    (hg : .enqueued (.emit ns' (some (id', cb))) g ∈ tr) : ns = ns' ∧ id = id' ∧ EventGroup ns (some id) g := by
  obtain ⟨a, b, hab⟩ := mem_split he
  obtain ⟨a', b', hab'⟩ := mem_split hg
  have h1 := ((ack_before h _ _ _ hab).1 ns id cb A rfl).2
  have h2 := (ack_before h _ _ _ hab').2 ns' id' cb g (Or.inl rfl)
  have h3 := (ainv h).uniq ns id cb ns' id' (by rw [hab]; exact List.mem_append_left _ h1)
    (by rw [hab']; exact List.mem_append_left _ h2)
  refine ⟨h3.1, h3.2, ?_⟩
  rw [h3.1, h3.2]
  exact (eminv h).queued _ _ _ hg

theorem ak_history {cfg : RCfg} {acts : List Act} {s : Sys} {tr : List Ev} (h : Runs cfg acts s tr) (ns : Str) (id : Nat)
    (cb : Cb) : (s.reg.getAndClearAck ns id).1 = some cb ↔ LastAck (history tr) ns id cb := by
  rw [Callbacks.getAck_eq, (ginv h).ak, lastAck_iff]

/-- C28, acks nobody waits for: an ack for which no callback is pending is an error and runs
nothing, unless formatting it for the log panics (`C28_counterexample`). -/
theorem C28_unexpected_partial (cfg : RCfg) (acts : List Act) (s : Sys) (tr : List Ev) (h : Runs cfg acts s tr)
    (pk : Packet) (ns : Str) (id : Nat) (vs : List Str) (bs : List Bytes) (hs : Shows pk ns (.ack id vs bs))
    (hn : ∀ cb, ¬ LastAck (history tr) ns id cb) (hl : cfg.logInfo = true → pk.display cfg.ext.fin ≠ .panic) :
    (processPacket cfg s.reg pk).2 = ([], .err (.unexpectedAck pk)) := by
  obtain ⟨h1, A, h2, h3⟩ := hs
  have hl' : ¬ LogPanics cfg pk := fun hx => hl hx.1 hx.2
  rw [processPacket_ack hl' h1 h2]
  cases hc : (s.reg.getAndClearAck ns id).1 with
  | none => rfl
  | some cb => exact absurd ((ak_history h ns id cb).1 hc) (hn cb)

/-- The packet is an ack that cannot be formatted. -/
def ackPanics (pk : Packet) : Bool :=
  match pk.namespace_, pk.data with
  | .ok _, .ok (.ack _ _) => decide (pk.display exCfg.ext.fin = .panic)
  | _, _ => false

/-- C28, C30: with info logging an ack whose placeholder designates no attachment is no error but
a panic, pending callback or not. -/
theorem C28_counterexample : ∃ (cfg : RCfg) (txt : Str) (ms : List EMsg) (pk : Packet) (ns : Str) (id : Nat) (vs : List Str)
    (bs : List Bytes), Decoded txt ms pk ∧ Shows pk ns (.ack id vs bs) ∧
    ∀ reg, processPacket cfg reg pk = (reg, [], .panic) := by
  obtain ⟨pk, hd, hf⟩ := Res.okWith_spec (r := decodeAll "61-3[{\"_placeholder\":true,\"num\":5}]".toList [[7, 9]])
    (f := ackPanics) (by decide +kernel)
  have hdec := decodeAll_decoded hd
  unfold ackPanics at hf
  split at hf
  · rename_i ns id A h1 h2
    simp only [decide_eq_true_eq] at hf
    obtain ⟨vs, bs, hv, hs, _⟩ := decoded_args hdec (Or.inr ⟨id, h2⟩)
    exact ⟨⟨exCfg.ext, true⟩, _, _, pk, ns, id, vs, bs, hdec, ⟨h1, A, h2, hs⟩, fun reg => processPacket_log ⟨rfl, hf⟩⟩
  · simp at hf

/-- Actions that emit an event with a callback. -/
def exEmit : List Act := [.emitStart ['/'] ['e'], .emitCallback, .emitArgs, .emitSend, .emitEnqueue]

-- non-vacuity: an event with a callback, its ack, and a second ack
example : seen exCfg (exConnect ++ exEmit ++ [.recv (.text "430[true]".toList) false, .recv (.text "430[true]".toList) false]) =
    some [.received exOpen, .opened ['s'], .connectReturned .ok, .allocated 0 0, .registered ['/'] 0 0,
      .enqueued (.emit ['/'] (some (0, 0))) [.text "420[\"e\"]".toList],
      .received (.text "430[true]".toList), .ack ['/'] 0 0, .received (.text "430[true]".toList), .taskEnd .processing] := by
  decide +kernel

/-! ### C29 -/

/-- C29: the ids given out by `callback()` are all different, as long as no more than 2^64 are
asked for. -/
theorem C29_distinct (cfg : RCfg) (acts : List Act) (s : Sys) (tr : List Ev) (h : Runs cfg acts s tr)
    (hn : (ackIds tr).length ≤ 2 ^ 64) : (ackIds tr).Nodup := by
  have hi := (ainv h).ids
  rw [hi, List.length_map, List.length_range] at hn
  rw [hi]
  rw [List.Nodup, List.pairwise_map]
  refine List.Pairwise.imp_of_mem ?_ (List.nodup_range (n := s.allocs))
  intro x y hx hy hne hxy
  rw [List.mem_range] at hx hy
  refine hne ?_
  rwa [Nat.mod_eq_of_lt (Nat.lt_of_lt_of_le hx hn), Nat.mod_eq_of_lt (Nat.lt_of_lt_of_le hy hn)] at hxy

/-- C29, the ids in detail: they count up from 0, whatever happens to the events. -/
theorem C29_ids (cfg : RCfg) (acts : List Act) (s : Sys) (tr : List Ev) (h : Runs cfg acts s tr) :
    ackIds tr = (List.range (ackIds tr).length).map (· % 2 ^ 64) := by
  have hi := (ainv h).ids
  have hl : (ackIds tr).length = s.allocs := by rw [hi]; simp
  rw [hl, ← hi]

-- non-vacuity: two callbacks on a dropped builder, one on a sent one
example : (exec exCfg Sys.init (exConnect ++ [.emitStart ['/'] ['e'], .emitCallback, .emitCallback, .emitDrop] ++ exEmit)).map
      (fun x => ackIds x.2) = some [0, 1, 2] := by
  decide +kernel

/-! ### C30 -/

/-- C30: when an event with a callback has been put into the queue, its callback was registered
before, and it is pending or has run. -/
theorem C30_pending (cfg : RCfg) (acts : List Act) (s : Sys) (tr : List Ev) (h : Runs cfg acts s tr)
    (hn : (ackIds tr).length ≤ 2 ^ 64) (ns : Str) (id : Nat) (cb : Cb) (g : List Ws) (t1 t2 : List Ev)
    (he : tr = t1 ++ .enqueued (.emit ns (some (id, cb))) g :: t2) :
    .registered ns id cb ∈ t1 ∧ EventGroup ns (some id) g ∧
    (LastAck (history tr) ns id cb ∨ ∃ A, .eff (.ack ns id cb A) ∈ tr) := by
  have h1 := (ack_before h _ _ _ he).2 ns id cb g (Or.inl rfl)
  have h2 : .registered ns id cb ∈ tr := by rw [he]; exact List.mem_append_left _ h1
  refine ⟨h1, (eminv h).queued ns (some (id, cb)) g (by rw [he]; simp), ?_⟩
  have hl : s.allocs ≤ 2 ^ 64 := by
    rw [(ainv h).ids, List.length_map, List.length_range] at hn
    exact hn
  rcases (ainv h).pend hl ns id cb h2 with h3 | h3
  · left
    rw [← ak_history h, Callbacks.getAck_eq]
    exact h3
  · right
    simp only [ackRuns, List.mem_filterMap] at h3
    obtain ⟨e, k1, k2⟩ := h3
    split at k2
    · rename_i ns' id' cb' A
      simp only [Option.some.injEq] at k2
      subst k2
      obtain ⟨a, b, hab⟩ := mem_split k1
      have h4 := ((ack_before h _ _ _ hab).1 ns' id' cb' A rfl).2
      obtain ⟨rfl, rfl⟩ := (ainv h).uniq ns id cb' ns' id' h2 (by rw [hab]; exact List.mem_append_left _ h4)
      exact ⟨A, k1⟩
    · simp at k2

/-- C30, the consequence: a matching ack runs the callback of an event in the queue that has not
run yet, unless formatting the ack for the log panics (`C28_counterexample`). -/
theorem C30_runs_partial (cfg : RCfg) (acts : List Act) (s : Sys) (tr : List Ev) (h : Runs cfg acts s tr)
    (hn : (ackIds tr).length ≤ 2 ^ 64) (ns : Str) (id : Nat) (cb : Cb) (g : List Ws)
    (he : .enqueued (.emit ns (some (id, cb))) g ∈ tr) (hr : ∀ A, .eff (.ack ns id cb A) ∉ tr)
    (pk : Packet) (vs : List Str) (bs : List Bytes) (hs : Shows pk ns (.ack id vs bs))
    (hl : cfg.logInfo = true → pk.display cfg.ext.fin ≠ .panic) :
    ∃ A, (processPacket cfg s.reg pk).2 = ([.ack ns id cb A], .ok ()) ∧ ArgsShow A vs bs := by
  obtain ⟨a, b, hab⟩ := mem_split he
  obtain ⟨_, _, h3⟩ := C30_pending cfg acts s tr h hn ns id cb g a b hab
  obtain ⟨h1, A, h2, hA⟩ := hs
  have hl' : ¬ LogPanics cfg pk := fun hx => hl hx.1 hx.2
  refine ⟨A, ?_, hA⟩
  rw [processPacket_ack hl' h1 h2]
  rcases h3 with h3 | ⟨A', h3⟩
  · rw [(ak_history h ns id cb).2 h3]
  · exact absurd h3 (hr A')

theorem tag_enqueued {e : Ev} {src : Src} {g : List Ws} (h : tag e = .enqueued src g) : e = .enqueued src g := by
  unfold tag at h
  split at h <;> simp_all
theorem tag_received {e : Ev} {w : Ws} (h : tag e = .received w) : e = .received w := by
  unfold tag at h
  split at h <;> simp_all
theorem tag_panic {e : Ev} (h : tag e = .taskEnd .panic) : e = .taskEnd .panic := by
  unfold tag at h
  split at h <;> simp_all
  rename_i r
  unfold outcome at h
  split at h <;> simp_all

theorem payloads_nil {bs : List Bytes} (h : Payloads [] (bs.map Payload.binary)) : bs = [] := by
  cases bs with
  | nil => rfl
  | cons b bs => cases h

/-- C30 is false as stated: with info logging the task panics on a matching ack that cannot be displayed, and the callback
does not run. -/
theorem C30_counterexample : ∃ (cfg : RCfg) (acts : List Act) (s : Sys) (tr before : List Ev) (ns : Str) (id : Nat) (cb : Cb) (g : List Ws)
    (txt : Str) (pk : Packet) (vs : List Str), Runs cfg acts s tr ∧ .enqueued (.emit ns (some (id, cb))) g ∈ before ∧
    Decoded txt [] pk ∧ Shows pk ns (.ack id vs []) ∧
    tr = before ++ [.received (.text ('4' :: txt)), .taskEnd .panic] ∧ ∀ A, .eff (.ack ns id cb A) ∉ tr := by
  obtain ⟨pk, hd, hf⟩ := Res.okWith_spec (r := decodeAll "30[\"\\ud800\"]".toList [])
    (f := fun pk => decide (pk.namespace_ = .ok ['/']) && (match pk.data with | .ok (.ack 0 _) => true | _ => false)) (by decide +kernel)
  have hdec := decodeAll_decoded hd
  simp only [Bool.and_eq_true, decide_eq_true_eq] at hf
  obtain ⟨h1, h2⟩ := hf
  split at h2
  · rename_i A h2'
    obtain ⟨vs, bs, hv, hs, hb⟩ := decoded_args hdec (Or.inr ⟨0, h2'⟩)
    obtain ⟨s, tr, hr, ht⟩ := runs_of_seen (cfg := ⟨exCfg.ext, true⟩)
      (acts := exConnect ++ exEmit ++ [.recv (.text "430[\"\\ud800\"]".toList) false])
      (ts := [.received exOpen, .opened ['s'], .connectReturned .ok, .allocated 0 0, .registered ['/'] 0 0,
        .enqueued (.emit ['/'] (some (0, 0))) [.text "420[\"e\"]".toList]] ++ [.received (.text "430[\"\\ud800\"]".toList), .taskEnd .panic])
      (by decide +kernel)
    have hna : ∀ A, Ev.eff (.ack ['/'] 0 0 A) ∉ tr := by
      intro A hm
      have := List.mem_map_of_mem (f := tag) hm
      rw [ht] at this
      simp [tag] at this
    obtain ⟨before, rest, rfl, hb', hr'⟩ := List.map_eq_append_iff.1 ht
    obtain ⟨x, r1, rfl, hx, hr1⟩ := List.map_eq_cons_iff.1 hr'
    obtain ⟨y, r2, rfl, hy, hr2⟩ := List.map_eq_cons_iff.1 hr1
    obtain rfl := List.map_eq_nil_iff.1 hr2
    obtain rfl := payloads_nil hb
    refine ⟨_, _, s, _, before, ['/'], 0, 0, [.text "420[\"e\"]".toList], "30[\"\\ud800\"]".toList, pk, vs, hr, ?_, hdec, ⟨h1, A, h2', hs⟩, ?_, hna⟩
    · have : Tag.enqueued (.emit ['/'] (some (0, 0))) [.text "420[\"e\"]".toList] ∈ before.map tag := by rw [hb']; simp
      obtain ⟨e, he, hte⟩ := List.mem_map.1 this
      rw [← tag_enqueued hte]; exact he
    · rw [tag_received hx, tag_panic hy]; rfl
  · simp at h2

-- non-vacuity: the hypotheses of the two theorems hold after `exEmit`
example : ∃ s tr, Runs exCfg (exConnect ++ exEmit) s tr ∧ tr.map tag =
    [.received exOpen, .opened ['s'], .connectReturned .ok, .allocated 0 0, .registered ['/'] 0 0,
      .enqueued (.emit ['/'] (some (0, 0))) [.text "420[\"e\"]".toList]] :=
  runs_of_seen (by decide +kernel)

end SIO
