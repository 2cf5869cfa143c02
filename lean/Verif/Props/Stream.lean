import Verif.Lemmas.Stream
import Verif.Props.Callbacks
import Verif.Props.Receiver
import Verif.Lemmas.ClientData
import Verif.Props.ClientSend
/-
C54: everything that is received on a connection.
-/
namespace SIO
open Spec

theorem whoOf_registry (h : List RegOp) : whoOf (registry h) = Who.after h := by
  have h1 : (fun ns name o => (registry h).getEvent ns name = o) = InCharge h := by
    funext ns name o
    exact propext (C26_lookup h ns name o)
  have h2 : (fun ns id cb => ((registry h).getAndClearAck ns id).1 = some cb) = LastAck h := by
    funext ns id cb
    exact propext (C26_ack_lookup h ns id cb)
  unfold whoOf Who.after
  rw [h1, h2]

/-- The messages, each received after a history of registrations. -/
def received (l : List (List RegOp × Ws)) : List (Callbacks × Ws) := l.map fun x => (registry x.1, x.2)

/-- The same with whom to call. -/
def expected (l : List (List RegOp × Ws)) : List (Who × Payload) := marks (l.map fun x => (Who.after x.1, x.2))

theorem whos_received (l : List (List RegOp × Ws)) : marks (whos (received l)) = expected l := by
  unfold whos received expected
  rw [List.map_map]
  congr 1
  apply List.map_congr_left
  intro x _
  simp [whoOf_registry]

/-- C54: if the messages follow the engine protocol and their contents, cut into packets, are packets
for which there is somebody to call (or nobody has to be called), then all are accepted, and the calls made are
exactly those for the packets, in order. -/
theorem C54_stream (cfg : RCfg) (l : List (List RegOp × Ws)) (cs : List Call)
    (he : EngineOk .fresh (l.map Prod.snd)) (hd : Dispatched cfg (expected l) cs) :
    (∀ o ∈ outs cfg RState.new (received l), o.res = .ok ()) ∧
      Makes ((outs cfg RState.new (received l)).flatMap ROut.effs) cs := by
  refine stream_runs cfg (received l) RState.new cs ?_ (Or.inl ⟨rfl, ?_⟩)
  · have : (received l).map Prod.snd = l.map Prod.snd := by simp [received]
    rw [this]
    exact he
  · rw [whos_received]
    exact hd

/-- C54, the other direction: only such messages are accepted. -/
theorem C54_only (cfg : RCfg) (l : List (List RegOp × Ws))
    (hok : ∀ o ∈ outs cfg RState.new (received l), o.res = .ok ()) :
    EngineOk .fresh (l.map Prod.snd) ∧ ∃ cs, Dispatched cfg (expected l) cs := by
  obtain ⟨h1, h2, _⟩ := stream_only cfg (received l) RState.new hok
  rw [whos_received] at h2
  have : (received l).map Prod.snd = l.map Prod.snd := by simp [received]
  rw [this] at h1
  exact ⟨h1, h2 rfl⟩

/-! ### The packets of a stream are determined -/

theorem argsShow_unique {A : Args} {vs vs' : List Str} {bs bs' : List Bytes} (h1 : ArgsShow A vs bs)
    (h2 : ArgsShow A vs' bs') : vs = vs' ∧ bs = bs' := by
  have e1 := h1.iter
  rw [h2.iter] at e1
  simp only [Res.ok.injEq] at e1
  have e2 := h1.atts
  rw [h2.atts] at e2
  refine ⟨(List.map_inj_right ?_).1 e1.symm, (List.map_inj_right ?_).1 e2.symm⟩
  · intro x y h
    simpa using h
  · intro x y h
    simpa using h

theorem isCall_unique {e : Eff} {c c' : Call} (h1 : IsCall e c) (h2 : IsCall e c') : c = c' := by
  cases h1 with
  | event a => cases h2 with | event b => obtain ⟨rfl, rfl⟩ := argsShow_unique a b; rfl
  | ack a => cases h2 with | ack b => obtain ⟨rfl, rfl⟩ := argsShow_unique a b; rfl

theorem isCall_runs {e : Eff} {c : Call} (h : IsCall e c) : RunsCallback e := by
  cases h <;> trivial

theorem makes_unique {es : List Eff} {cs cs' : List Call} (h1 : Makes es cs) (h2 : Makes es cs') : cs = cs' := by
  induction h1 generalizing cs' with
  | nil => cases h2; rfl
  | call h _ ih =>
    cases h2 with
    | call h' h'' => rw [isCall_unique h h', ih h'']
    | other h' _ => exact absurd (isCall_runs h) h'
  | other h _ ih =>
    cases h2 with
    | call h' _ => exact absurd (isCall_runs h') h
    | other _ h'' => exact ih h''

/-- A message with the contents. -/
def messageOf : Payload → Ws
  | .text s => .text ('4' :: s)
  | .binary b => .binary (4 :: b)

theorem engineOk_messages (l : List Payload) : EngineOk .opened (l.map messageOf) := by
  induction l with
  | nil => exact .nil _
  | cons x l ih =>
    cases x with
    | text s => exact .text (by simp) (.text s) ih
    | binary b => exact .binary (.binary b) ih

def anOpen : Ws := .text "0[\"s\",1,1]".toList

theorem anOpen_wire : Wire anOpen (.opened ⟨['s'], 1, 1⟩) := by
  have h : ∃ p, (decode .initial anOpen).2 = .ok p ∧ p = .opened ⟨['s'], 1, 1⟩ := by
    refine ⟨.opened ⟨['s'], 1, 1⟩, ?_, rfl⟩
    decide +kernel
  obtain ⟨p, h1, rfl⟩ := h
  exact ((decode_ok_iff .initial anOpen _).1 ⟨_, h1, .opened _⟩).2.1

/-- C54: there is only one way to cut contents into packets and to act on them. -/
theorem C54_unique (cfg : RCfg) (ms : List (List RegOp × Payload)) (cs cs' : List Call)
    (h : Dispatched cfg (ms.map fun x => (Who.after x.1, x.2)) cs)
    (h' : Dispatched cfg (ms.map fun x => (Who.after x.1, x.2)) cs') : cs = cs' := by
  have e : expected (([], anOpen) :: ms.map fun x => (x.1, messageOf x.2)) = ms.map fun x => (Who.after x.1, x.2) := by
    unfold expected marks
    simp only [List.map_cons, List.map_map, List.filterMap_cons, List.filterMap_map]
    rw [show payload? anOpen = none from by decide]
    simp only [Option.map_none]
    rw [← List.filterMap_eq_map]
    congr 1
    funext x
    obtain ⟨r, pl⟩ := x
    cases pl <;> simp [messageOf, payload?]
  have he : EngineOk .fresh ((([], anOpen) :: ms.map fun x => (x.1, messageOf x.2)).map (Prod.snd : List RegOp × Ws → Ws)) := by
    simp only [List.map_cons, List.map_map]
    refine .opening anOpen_wire ?_
    have := engineOk_messages (ms.map Prod.snd)
    rw [List.map_map] at this
    exact this
  exact makes_unique (C54_stream cfg _ cs he (by rw [e]; exact h)).2 (C54_stream cfg _ cs' he (by rw [e]; exact h')).2

-- non-vacuity: an open packet, an event in the middle of which come a ping and a control frame, an ack, an event
-- nobody has asked for, and the header of a packet that does not get complete
def exStream : List (List RegOp × Ws) :=
  let h : List RegOp := [.setEvent ['/'] ['a'] 1, .setAck ['/'] 7 2]
  [([], anOpen), (h, .text "451-3[\"a\",{\"_placeholder\":true,\"num\":0}]".toList), (h, .text ['2']), (h, .ping [1]),
   (h, .binary [4, 9]), (h, .text "437[true]".toList), (h, .text "42[\"b\"]".toList), (h, .text "452-[\"a\"]".toList),
   (h, .binary [4])]

/-- All messages were accepted. -/
def allOk (os : List ROut) : Bool :=
  os.all fun o => match o.res with
    | .ok () => true
    | _ => false

theorem allOk_spec {os : List ROut} (h : allOk os = true) : ∀ o ∈ os, o.res = .ok () := by
  intro o ho
  have := List.all_eq_true.1 h o ho
  split at this
  · assumption
  · simp at this

theorem exStream_ok : allOk (outs exCfg RState.new (received exStream)) = true := by decide +kernel

example : EngineOk .fresh (exStream.map Prod.snd) ∧ ∃ cs, Dispatched exCfg (expected exStream) cs :=
  C54_only exCfg exStream (allOk_spec exStream_ok)

example : ((outs exCfg RState.new (received exStream)).flatMap ROut.effs).map brief =
    [.other, .other, .event ['/'] ['a'] 1 2 (some ⟨['/'], 3⟩), .ack ['/'] 7 2 1] := by
  decide +kernel

/-! ### In the running client -/

/-- The engine messages of a trace, each with whom to call at that time. -/
def incomingFrom (before : List Ev) : List Ev → List (Who × Payload)
  | [] => []
  | .received w :: tr =>
    ((payload? w).map fun pl => (Who.after (history before), pl)).toList ++ incomingFrom (before ++ [.received w]) tr
  | e :: tr => incomingFrom (before ++ [e]) tr

/-- The same from the start. -/
def incoming (tr : List Ev) : List (Who × Payload) := incomingFrom [] tr

/-- What the receiver did. -/
def effects (tr : List Ev) : List Eff :=
  tr.filterMap fun
    | .eff e => some e
    | _ => none

theorem incomingFrom_append (b x y : List Ev) :
    incomingFrom b (x ++ y) = incomingFrom b x ++ incomingFrom (b ++ x) y := by
  induction x generalizing b with
  | nil => simp [incomingFrom]
  | cons e x ih =>
    cases e <;> simp [incomingFrom, ih]

theorem incoming_append (x y : List Ev) : incoming (x ++ y) = incoming x ++ incomingFrom x y := by
  simp [incoming, incomingFrom_append]

theorem effects_append (x y : List Ev) : effects (x ++ y) = effects x ++ effects y := by simp [effects]

theorem whoOf_ginv {tr : List Ev} {s : Sys} (h : GInv tr s) : whoOf s.reg = Who.after (history tr) := by
  rw [← whoOf_registry]
  unfold whoOf
  congr 1
  · funext ns name o
    rw [h.getEvent]
  · funext ns id cb
    rw [Callbacks.getAck_eq, Callbacks.getAck_eq, h.ak]

/-- The task ended with an error of the receiver. -/
def Rejected (tr : List Ev) : Prop := ∃ e, .taskEnd (.err (.processing e)) ∈ tr

theorem rejected_append (x y : List Ev) : Rejected (x ++ y) ↔ Rejected x ∨ Rejected y := by
  simp only [Rejected, List.mem_append, exists_or]

/-- What is known of everything received. -/
def StreamInv (cfg : RCfg) (tr : List Ev) (s : Sys) : Prop :=
  ∃ l : List (Callbacks × Ws), l.map Prod.snd = inbox tr ∧ marks (whos l) = incoming tr ∧
    (outs cfg RState.new l).flatMap ROut.effs = effects tr ∧
    (s.task.live = true ∨ s.task = .unborn → s.rx = after cfg RState.new l ∧ ¬ Rejected tr ∧ .taskEnd .panic ∉ tr) ∧
    ((∀ o ∈ outs cfg RState.new l, o.res = .ok ()) ∨ Rejected tr ∨ .taskEnd .panic ∈ tr) ∧
    (Rejected tr → ∃ o ∈ outs cfg RState.new l, o.res ≠ .ok ())

theorem streamInv_other {cfg : RCfg} {tr evs : List Ev} {s s' : Sys} (hi : StreamInv cfg tr s) (h1 : inbox evs = [])
    (h2 : incomingFrom tr evs = []) (h3 : effects evs = []) (h4 : ¬ Rejected evs)
    (h5 : (s'.task.live = true ∨ s'.task = .unborn) →
      (s.task.live = true ∨ s.task = .unborn) ∧ s'.rx = s.rx ∧ .taskEnd .panic ∉ evs) : StreamInv cfg (tr ++ evs) s' := by
  obtain ⟨l, k1, k2, k3, k4, k5, k6⟩ := hi
  refine ⟨l, by rw [inbox_append, h1, k1, List.append_nil], by rw [incoming_append, h2, k2, List.append_nil],
    by rw [effects_append, h3, k3, List.append_nil], ?_, ?_, ?_⟩
  · intro h
    obtain ⟨g1, g2, g3⟩ := h5 h
    obtain ⟨j1, j2, j3⟩ := k4 g1
    refine ⟨by rw [g2, j1], ?_, ?_⟩
    · rw [rejected_append]; rintro (h | h)
      · exact j2 h
      · exact h4 h
    · rw [List.mem_append]; rintro (h | h)
      · exact j3 h
      · exact g3 h
  · rw [rejected_append, List.mem_append]
    rcases k5 with h | h | h
    · exact Or.inl h
    · exact Or.inr (Or.inl (Or.inl h))
    · exact Or.inr (Or.inr (Or.inl h))
  · rw [rejected_append]
    rintro (h | h)
    · exact k6 h
    · exact absurd h h4

theorem streamInv_recv {cfg : RCfg} {tr evs : List Ev} {s s' : Sys} {w : Ws} {o : ROut} (hi : StreamInv cfg tr s)
    (hg : GInv tr s) (hr : s.task.reads) (ho : processWs cfg s.rx s.reg w = o) (h1 : inbox evs = [w])
    (h2 : incomingFrom tr evs = ((payload? w).map fun pl => (Who.after (history tr), pl)).toList)
    (h3 : effects evs = o.effs) (h4 : o.res = .ok () ∨ Rejected evs ∨ .taskEnd .panic ∈ evs)
    (h5 : (s'.task.live = true ∨ s'.task = .unborn) → s'.rx = o.st ∧ .taskEnd .panic ∉ evs ∧ ¬ Rejected evs)
    (h6 : Rejected evs → o.res ≠ .ok ()) : StreamInv cfg (tr ++ evs) s' := by
  obtain ⟨l, k1, k2, k3, k4, k5, k6⟩ := hi
  obtain ⟨j1, j2, j3⟩ := k4 (Or.inl hr.live)
  have e : outs cfg RState.new (l ++ [(s.reg, w)]) = outs cfg RState.new l ++ [o] := by
    rw [outs_append, ← j1, ← ho]
    rfl
  refine ⟨l ++ [(s.reg, w)], by rw [inbox_append, h1, List.map_append, k1]; rfl, ?_, ?_, ?_, ?_, ?_⟩
  · rw [incoming_append, h2, ← k2, ← whoOf_ginv hg]
    unfold marks whos
    rw [List.map_append, List.filterMap_append]
    congr 1
  · rw [e, List.flatMap_append, k3, effects_append, h3]
    simp
  · intro h
    obtain ⟨g1, g2, g3⟩ := h5 h
    refine ⟨?_, ?_, ?_⟩
    · rw [g1, after_append, ← j1, ← ho]; rfl
    · rw [rejected_append]; rintro (h | h)
      · exact j2 h
      · exact g3 h
    · rw [List.mem_append]; rintro (h | h)
      · exact j3 h
      · exact g2 h
  · rw [rejected_append, List.mem_append, e]
    rcases h4 with h | h | h
    · refine Or.inl ?_
      intro x hx
      rcases List.mem_append.1 hx with hx | hx
      · rcases k5 with h' | h' | h'
        · exact h' x hx
        · exact absurd h' j2
        · exact absurd h' j3
      · simp only [List.mem_singleton] at hx; rw [hx, h]
    · exact Or.inr (Or.inl (Or.inr h))
    · exact Or.inr (Or.inr (Or.inr h))
  · rw [rejected_append, e]
    rintro (h | h)
    · exact absurd h j2
    · exact ⟨o, by simp, h6 h⟩

theorem streamInv_trans {cfg : RCfg} {tr : List Ev} {s s' : Sys} {evs : List Ev} (hp : PInv s) (hg : GInv tr s)
    (hi : StreamInv cfg tr s) (ht : Trans cfg s s' evs) : StreamInv cfg (tr ++ evs) s' := by
  have other : inbox evs = [] → incomingFrom tr evs = [] → effects evs = [] → ¬ Rejected evs →
      ((s'.task.live = true ∨ s'.task = .unborn) →
        (s.task.live = true ∨ s.task = .unborn) ∧ s'.rx = s.rx ∧ .taskEnd .panic ∉ evs) →
      StreamInv cfg (tr ++ evs) s' := streamInv_other hi
  cases ht with
  | handshakeOk h => exact other rfl rfl rfl (by simp [Rejected]) (fun _ => ⟨Or.inr (hp.start h).1, rfl, by simp⟩)
  | sendOk src g s0 evs hs hl' hc =>
    cases hs with
    | pong w st hr _ h =>
      exact streamInv_recv hi hg hr h rfl (by simp [incomingFrom]) rfl (Or.inl rfl) (fun _ => ⟨rfl, by simp, by simp [Rejected]⟩)
        (by simp [Rejected])
    | _ => exact other rfl rfl rfl (by simp [Rejected]) (fun h => ⟨h, rfl, by simp⟩)
  | sendFail src g s0 evs hs hc =>
    cases hs with
    | pong w st hr _ h =>
      exact streamInv_recv hi hg hr h rfl (by simp [incomingFrom]) rfl (Or.inl rfl) (fun _ => ⟨rfl, by simp, by simp [Rejected]⟩)
        (by simp [Rejected])
    | _ => exact other rfl rfl rfl (by simp [Rejected]) (fun h => ⟨h, rfl, by simp⟩)
  | recvQuiet w st hr h =>
    exact streamInv_recv hi hg hr h rfl (by simp [incomingFrom]) rfl (Or.inl rfl) (fun _ => ⟨rfl, by simp, by simp [Rejected]⟩)
      (by simp [Rejected])
  | recvOpened w st o hr h =>
    exact streamInv_recv hi hg hr h rfl (by simp [incomingFrom]) rfl (Or.inl rfl) (fun _ => ⟨rfl, by simp, by simp [Rejected]⟩)
      (by simp [Rejected])
  | recvSecond w st o hr h =>
    exact streamInv_recv hi hg hr h rfl (by simp [incomingFrom]) rfl (Or.inl rfl) (fun _ => ⟨rfl, by simp, by simp [Rejected]⟩)
      (by simp [Rejected])
  | recvEvent w st ns name cb A ack hr _ h =>
    exact streamInv_recv hi hg hr h rfl (by simp [incomingFrom]) rfl (Or.inl rfl)
      (fun _ => ⟨by cases ack <;> rfl, by simp, by simp [Rejected]⟩) (by simp [Rejected])
  | recvAck w st ns id cb A hr _ h =>
    exact streamInv_recv hi hg hr h rfl (by simp [incomingFrom]) rfl (Or.inl rfl) (fun _ => ⟨rfl, by simp, by simp [Rejected]⟩)
      (by simp [Rejected])
  | recvEventPanic w st ns name cb A ack hr _ h =>
    exact streamInv_recv hi hg hr h rfl (by simp [incomingFrom]) rfl (Or.inl rfl)
      (by rintro (h | h) <;> simp [Sys.endTask, Task.live] at h) (by simp [Rejected])
  | recvAckPanic w st ns id cb A hr _ h =>
    exact streamInv_recv hi hg hr h rfl (by simp [incomingFrom]) rfl (Or.inl rfl)
      (by rintro (h | h) <;> simp [Sys.endTask, Task.live] at h) (by simp [Rejected])
  | recvErr w st e hr h =>
    exact streamInv_recv hi hg hr h rfl (by simp [incomingFrom]) rfl (Or.inr (Or.inl ⟨e, by simp⟩))
      (by rintro (h | h) <;> simp [Sys.endTask, Task.live] at h) (by simp)
  | recvNoAck w st ns id pk hr _ h =>
    exact streamInv_recv hi hg hr h rfl (by simp [incomingFrom]) rfl (Or.inr (Or.inl ⟨.unexpectedAck pk, by simp⟩))
      (by rintro (h | h) <;> simp [Sys.endTask, Task.live] at h) (by simp)
  | recvPanic w st hr h =>
    exact streamInv_recv hi hg hr h rfl (by simp [incomingFrom]) rfl (Or.inr (Or.inr (by simp)))
      (by rintro (h | h) <;> simp [Sys.endTask, Task.live] at h) (by simp)
  | dequeue g q h _ => exact other rfl rfl rfl (by simp [Rejected]) (fun _ => ⟨Or.inl (by rw [h]; rfl), rfl, by simp⟩)
  | write w rest h => exact other rfl rfl rfl (by simp [Rejected]) (fun _ => ⟨Or.inl (by rw [h]; rfl), rfl, by simp⟩)
  | endGroup h => exact other rfl rfl rfl (by simp [Rejected]) (fun _ => ⟨Or.inl (by rw [h]; rfl), rfl, by simp⟩)
  | seeClose h _ => exact other rfl rfl rfl (by simp [Rejected]) (fun _ => ⟨Or.inl (by rw [h]; rfl), rfl, by simp⟩)
  | _ =>
    first
      | exact other rfl rfl rfl (by simp [Rejected]) (fun h => ⟨h, rfl, by simp⟩)
      | exact other rfl rfl rfl (by simp [Rejected]) (by rintro (h | h) <;> simp [Sys.endTask, Task.live] at h)

theorem streamInv {cfg : RCfg} {acts : List Act} {s : Sys} {tr : List Ev} (h : Runs cfg acts s tr) : StreamInv cfg tr s := by
  refine (exec_induct (P := fun tr s => PInv s ∧ GInv tr s ∧ StreamInv cfg tr s) ⟨pinv_init, ginv_init, ?_⟩ ?_ acts s tr h).2.2
  · exact ⟨[], rfl, rfl, rfl, fun _ => ⟨rfl, by simp [Rejected], by simp⟩, Or.inl (by simp [outs]), by simp [Rejected]⟩
  · intro tr s s' evs ⟨h1, h2, h3⟩ ht
    exact ⟨pinv_trans h1 ht, ginv_trans h2 ht, streamInv_trans h1 h2 h3 ht⟩

/-- C54, in the running client: as long as the connection task has not ended by a panic or by an error of
the receiver, everything received is as it has to be, and the callbacks called are those for
the packets received, in order. -/
theorem C54_system (cfg : RCfg) (acts : List Act) (s : Sys) (tr : List Ev) (h : Runs cfg acts s tr)
    (hr : ¬ Rejected tr) (hp : .taskEnd .panic ∉ tr) :
    EngineOk .fresh (inbox tr) ∧ ∃ cs, Dispatched cfg (incoming tr) cs ∧ Makes (effects tr) cs := by
  obtain ⟨l, k1, k2, k3, k4, k5, k6⟩ := streamInv h
  have hok : ∀ o ∈ outs cfg RState.new l, o.res = .ok () := by
    rcases k5 with h | h | h
    · exact h
    · exact absurd h hr
    · exact absurd h hp
  obtain ⟨g1, g2, _⟩ := stream_only cfg l RState.new hok
  obtain ⟨cs, g2⟩ := g2 rfl
  have g3 := (stream_runs cfg l RState.new cs g1 (Or.inl ⟨rfl, g2⟩)).2
  rw [k2] at g2
  rw [k3] at g3
  rw [k1] at g1
  exact ⟨g1, cs, g2, g3⟩

/-- C54, in the running client: whatever ends the task, if everything received is as it has to be, no error of the receiver
did, and the callbacks called are those for the packets received. -/
theorem C54_system_ok (cfg : RCfg) (acts : List Act) (s : Sys) (tr : List Ev) (h : Runs cfg acts s tr)
    (he : EngineOk .fresh (inbox tr)) (cs : List Call) (hd : Dispatched cfg (incoming tr) cs) :
    ¬ Rejected tr ∧ Makes (effects tr) cs := by
  obtain ⟨l, k1, k2, k3, k4, k5, k6⟩ := streamInv h
  rw [← k1] at he
  rw [← k2] at hd
  obtain ⟨g1, g2⟩ := stream_runs cfg l RState.new cs he (Or.inl ⟨rfl, hd⟩)
  rw [k3] at g2
  refine ⟨fun hr => ?_, g2⟩
  obtain ⟨o, ho, hn⟩ := k6 hr
  exact hn (g1 o ho)

-- non-vacuity: who gets an event with an attachment is decided when the attachment comes
example : seen exCfg (exConnect ++ [.reg (.setEvent ['/'] ['a'] 1), .recv (.text "451-[\"a\"]".toList) false,
      .reg (.setEvent ['/'] ['a'] 2), .recv (.binary [4, 9]) false, .recv (.text "42[\"a\"]".toList) false]) =
    some [.received exOpen, .opened ['s'], .connectReturned .ok, .regOp, .received (.text "451-[\"a\"]".toList), .regOp,
      .received (.binary [4, 9]), .event ['/'] ['a'] 2 none, .received (.text "42[\"a\"]".toList),
      .event ['/'] ['a'] 2 none] := by
  decide +kernel

end SIO
