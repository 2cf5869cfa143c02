import Verif.Lemmas.Rejected
import Verif.Props.Stream
import Verif.Lemmas.ClientConn
/-
C65: what is wrong with a message that is not accepted.
-/
namespace SIO
open Spec

/-- The contents of the engine messages. -/
def contents (ws : List Ws) : List Payload := ws.filterMap payload?

theorem payloads_received (l : List (List RegOp × Ws)) : payloads (received l) = contents (l.map Prod.snd) := by
  simp [payloads, received, contents, List.filterMap_map, Function.comp_def]

/-- C65: messages that were accepted are cut into packets in exactly one way. -/
theorem C65_cut (cfg : RCfg) (l : List (List RegOp × Ws)) (hok : ∀ o ∈ outs cfg RState.new (received l), o.res = .ok ()) :
    ∃ x, Cut (contents (l.map Prod.snd)) x ∧ ∀ y, Cut (contents (l.map Prod.snd)) y → y = x := by
  obtain ⟨x, hx, _⟩ := stands_at cfg _ (received l) rfl hok
  rw [payloads_received] at hx
  exact ⟨x, hx, fun y hy => cut_unique hx hy⟩

theorem received_exact (cfg : RCfg) (l : List (List RegOp × Ws))
    (hok : ∀ o ∈ outs cfg RState.new (received l), o.res = .ok ()) (x : Option Begun)
    (hx : Cut (contents (l.map Prod.snd)) x) (h : List RegOp) (w : Ws) (o : ROut)
    (ho : o = processWs cfg (after cfg RState.new (received l)) (registry h) w) :
    (∀ f, (∃ e, o.res = .err e ∧ Names e f) ↔ Wrong cfg (Who.after h) (l.map Prod.snd) x w f) ∧
      (o.res = .panic ↔ Fatal cfg (l.map Prod.snd) x w) ∧ (∀ e, o.res = .err e → ∃ f, Names e f) ∧
      (o.res ≠ .ok () → o.effs = []) := by
  obtain ⟨y, hy, k⟩ := ws_exact cfg (received l) hok (registry h) w
  rw [payloads_received] at hy
  have := cut_unique hx hy
  subst this
  have : (received l).map Prod.snd = l.map Prod.snd := by simp [received]
  rw [this, whoOf_registry] at k
  rw [ho]
  exact k

/-- C65: a message after messages that were accepted gives an error exactly if there is something wrong
with it, and the error tells what. -/
theorem C65_error (cfg : RCfg) (l : List (List RegOp × Ws))
    (hok : ∀ o ∈ outs cfg RState.new (received l), o.res = .ok ()) (x : Option Begun)
    (hx : Cut (contents (l.map Prod.snd)) x) (h : List RegOp) (w : Ws) (o : ROut)
    (ho : o = processWs cfg (after cfg RState.new (received l)) (registry h) w) :
    (∀ f, (∃ e, o.res = .err e ∧ Names e f) ↔ Wrong cfg (Who.after h) (l.map Prod.snd) x w f) ∧
      ∀ e, o.res = .err e → ∃ f, Names e f :=
  have k := received_exact cfg l hok x hx h w o ho
  ⟨k.1, k.2.2.1⟩

/-- C65: and it makes the receiver panic exactly if it has a number that is too large or completes a packet that cannot
be put into the log. -/
theorem C65_panic (cfg : RCfg) (l : List (List RegOp × Ws))
    (hok : ∀ o ∈ outs cfg RState.new (received l), o.res = .ok ()) (x : Option Begun)
    (hx : Cut (contents (l.map Prod.snd)) x) (h : List RegOp) (w : Ws) (o : ROut)
    (ho : o = processWs cfg (after cfg RState.new (received l)) (registry h) w) :
    o.res = .panic ↔ Fatal cfg (l.map Prod.snd) x w :=
  (received_exact cfg l hok x hx h w o ho).2.1

/-- C65: a message that is not accepted does nothing: no callback is called, nothing is sent, and whom the registry has
stays. -/
theorem C65_silent (cfg : RCfg) (l : List (List RegOp × Ws))
    (hok : ∀ o ∈ outs cfg RState.new (received l), o.res = .ok ()) (h : List RegOp) (w : Ws) (o : ROut)
    (ho : o = processWs cfg (after cfg RState.new (received l)) (registry h) w) (hn : o.res ≠ .ok ()) :
    o.effs = [] ∧ ∀ ns, (∀ name, o.reg.getEvent ns name = (registry h).getEvent ns name) ∧
      ∀ id, (o.reg.getAndClearAck ns id).1 = ((registry h).getAndClearAck ns id).1 := by
  obtain ⟨x, hx, _⟩ := C65_cut cfg l hok
  refine ⟨(received_exact cfg l hok x hx h w o ho).2.2.2 hn, ?_⟩
  have hsh := processWs_shape cfg (after cfg RState.new (received l)) (registry h) w
  rw [← ho] at hsh
  obtain ⟨st, reg', effs, res⟩ := o
  simp only at hsh hn ⊢
  cases hsh with
  | packet x hx =>
    cases hx with
    | quiet => exact fun ns => ⟨fun _ => rfl, fun _ => rfl⟩
    | noAck ns id pk hk =>
      intro ns'
      refine ⟨fun name => ?_, fun id' => ?_⟩
      · rw [Callbacks.getEvent_eq, Callbacks.getEvent_eq, Callbacks.ev_run, Callbacks.fb_run]
      · rw [Callbacks.getAck_eq, Callbacks.getAck_eq, Callbacks.ak_run]
        simp only
        split
        · rename_i g; rw [g.1, g.2, hk]
        · rfl
    | event ns name cb A ack hcb hns => exact absurd rfl hn
    | ack ns id cb A hcb => exact absurd rfl hn
  | opened o => exact absurd rfl hn
  | secondOpen o => exact absurd rfl hn
  | ping hw => exact absurd rfl hn

/-- C65: nothing can be wrong in two ways. -/
theorem C65_one (cfg : RCfg) (l : List (List RegOp × Ws))
    (hok : ∀ o ∈ outs cfg RState.new (received l), o.res = .ok ()) (x : Option Begun)
    (hx : Cut (contents (l.map Prod.snd)) x) (h : List RegOp) (w : Ws) :
    (∀ f f', Wrong cfg (Who.after h) (l.map Prod.snd) x w f → Wrong cfg (Who.after h) (l.map Prod.snd) x w f' → f = f') ∧
    (∀ f, Wrong cfg (Who.after h) (l.map Prod.snd) x w f → ¬ Fatal cfg (l.map Prod.snd) x w) := by
  obtain ⟨k1, k2, _⟩ := received_exact cfg l hok x hx h w _ rfl
  refine ⟨fun f f' h1 h2 => ?_, fun f h1 h2 => ?_⟩
  · obtain ⟨e, he, hf⟩ := (k1 f).2 h1
    obtain ⟨e', he', hf'⟩ := (k1 f').2 h2
    rw [he] at he'
    cases he'
    cases hf with
    | engine => cases hf'; rfl
    | socket => cases hf'; rfl
    | name => cases hf'; rfl
    | ack g =>
      cases hf' with
      | ack g' => obtain ⟨rfl, rfl, rfl, rfl⟩ := shows_ack_unique g g'; rfl
  · obtain ⟨e, he, _⟩ := (k1 f).2 h1
    rw [k2.2 h2] at he
    cases he

-- the open packet was received, then one of these messages comes
def exAfter (l : List Ws) (w : Ws) : Option (Option Fault) :=
  match (processWs exCfg (after exCfg RState.new (received (([], exOpen) :: l.map fun w => ([], w)))) (registry []) w).res with
  | .ok () => some none
  | .err (.engine e) => some (some (.engine e))
  | .err (.socket e) => some (some (.socket e))
  | .err (.args (.jsonDeError v)) => some (some (.name v))
  | _ => none

-- what is wrong: not a packet, arguments that are no array, a connect packet with arguments, an event without, a
-- count at an event without attachments, a binary message that belongs to no packet
example : [Ws.text "49".toList, .text "42[,]".toList, .text "40[1]".toList, .text "42/n,".toList, .text "422-[\"a\"]".toList,
      .binary [4, 7]].map (exAfter []) =
    [some (some (.socket (.invalidMessage "9".toList))), some (some (.socket (.invalidDataJson "[,]".toList))),
      some (some (.socket (.invalidExtraData "connect".toList "0[1]".toList))),
      some (some (.socket (.missingData "event".toList "2/n,".toList))), some (some (.socket (.invalidAttachmentCount 0 2))),
      some (some (.socket (.nonAttachmentBinary [7])))] := by
  decide +kernel

-- an event whose name is no string, a name that nobody registered for is fine
example : [Ws.text "42[1,\"a\"]".toList, .text "42[\"a\"]".toList].map (exAfter []) =
    [some (some (.name "1".toList)), some none] := by
  decide +kernel

-- a text in the place of an attachment is found when the packet is complete, and the first one is told
example : exAfter [.text "453-[\"a\"]".toList] (.text "4x".toList) = some none ∧
    exAfter [.text "453-[\"a\"]".toList, .text "4x".toList, .text "4y".toList] (.binary [4]) =
      some (some (.socket (.textAttachment "x".toList))) := by
  decide +kernel

-- too large a number is a panic (C14)
example : exAfter [] (.text "4299999999999999999999[\"a\"]".toList) = none := by
  decide +kernel

-- the fault of the statement: in the middle of a packet nothing is wrong with a text, at its end there is
example : Faulty exCfg (Who.after []) (some ⟨⟨'5', some 2, none, none, some "[\"a\"]".toList⟩, ["\"a\"".toList], [.text ['x']]⟩)
    (.binary [7]) (.socket (.textAttachment ['x'])) :=
  .text (n := 2) (pre := []) (post := [.binary [7]]) rfl rfl rfl

/-! The running client -/

/-- The action an observation belongs to, the execution before it, and the observations after it. -/
theorem run_split_after {cfg : RCfg} {acts : List Act} {s : Sys} {tr : List Ev} (h : Runs cfg acts s tr)
    {t1 t2 : List Ev} {e : Ev} (he : tr = t1 ++ e :: t2) :
    ∃ (acts0 : List Act) (s0 : Sys) (tr0 : List Ev) (s1 : Sys) (x y z : List Ev), Runs cfg acts0 s0 tr0 ∧
      Trans cfg s0 s1 (x ++ e :: y) ∧ t1 = tr0 ++ x ∧ t2 = y ++ z := by
  have := exec_induct_acts (cfg := cfg) (ok := fun _ => True)
    (P := fun tr s => (∃ acts, Runs cfg acts s tr) ∧ ∀ t1 e t2, tr = t1 ++ e :: t2 →
      ∃ (acts0 : List Act) (s0 : Sys) (tr0 : List Ev) (s1 : Sys) (x y z : List Ev), Runs cfg acts0 s0 tr0 ∧
        Trans cfg s0 s1 (x ++ e :: y) ∧ t1 = tr0 ++ x ∧ t2 = y ++ z) ⟨⟨[], rfl⟩, by simp⟩ ?_ h (fun _ _ => trivial)
  · exact this.2 _ _ _ he
  intro tr s s' evs a _ ⟨⟨acts, hr⟩, hi⟩ hs
  refine ⟨⟨acts ++ [a], exec_snoc hr hs⟩, ?_⟩
  intro t1 e t2 heq
  rcases split_append heq with ⟨t, h1, h2⟩ | ⟨t, h1, h2⟩
  · obtain ⟨acts0, s0, tr0, s1, x, y, z, g1, g2, g3, g4⟩ := hi _ _ _ h1
    exact ⟨acts0, s0, tr0, s1, x, y, z ++ evs, g1, g2, g3, by rw [h2, g4, List.append_assoc]⟩
  · subst h2
    exact ⟨acts, s, tr, s', t, t2, [], hr, step_trans hs, h1, by simp⟩

/-- What comes with a received message. -/
theorem trans_received {cfg : RCfg} {s s' : Sys} {x y : List Ev} {w : Ws} (ht : Trans cfg s s' (x ++ .received w :: y)) :
    s.task.reads ∧ x = [] ∧
      (∀ e, (processWs cfg s.rx s.reg w).res = .err e → y = [.taskEnd (.err (.processing e))]) ∧
      ((processWs cfg s.rx s.reg w).res = .panic → y = [.taskEnd .panic]) := by
  generalize he : x ++ .received w :: y = evs at ht
  have hm : Ev.received w ∈ evs := by rw [← he]; simp
  have key : ∀ (w' : Ws) (ys : List Ev), x ++ .received w :: y = .received w' :: ys → Ev.received w ∉ ys →
      x = [] ∧ w = w' ∧ y = ys := by
    intro w' ys h hn
    cases x with
    | nil => simpa using h
    | cons a x =>
      simp only [List.cons_append, List.cons.injEq] at h
      exact absurd (by rw [← h.2]; simp) hn
  cases ht with
  | recvQuiet w' st hr h => obtain ⟨rfl, rfl, rfl⟩ := key _ _ he (by simp); exact ⟨hr, rfl, by simp [h], by simp [h]⟩
  | recvErr w' st e hr h => obtain ⟨rfl, rfl, rfl⟩ := key _ _ he (by simp); exact ⟨hr, rfl, by simp [h], by simp [h]⟩
  | recvPanic w' st hr h => obtain ⟨rfl, rfl, rfl⟩ := key _ _ he (by simp); exact ⟨hr, rfl, by simp [h], by simp [h]⟩
  | recvNoAck w' st ns id pk hr _ h =>
    obtain ⟨rfl, rfl, rfl⟩ := key _ _ he (by simp); exact ⟨hr, rfl, by simp [h], by simp [h]⟩
  | recvOpened w' st o hr h => obtain ⟨rfl, rfl, rfl⟩ := key _ _ he (by simp); exact ⟨hr, rfl, by simp [h], by simp [h]⟩
  | recvSecond w' st o hr h => obtain ⟨rfl, rfl, rfl⟩ := key _ _ he (by simp); exact ⟨hr, rfl, by simp [h], by simp [h]⟩
  | recvEvent w' st ns name cb A ack hr _ h =>
    obtain ⟨rfl, rfl, rfl⟩ := key _ _ he (by simp); exact ⟨hr, rfl, by simp [h], by simp [h]⟩
  | recvEventPanic w' st ns name cb A ack hr _ h =>
    obtain ⟨rfl, rfl, rfl⟩ := key _ _ he (by simp); exact ⟨hr, rfl, by simp [h], by simp [h]⟩
  | recvAck w' st ns id cb A hr _ h =>
    obtain ⟨rfl, rfl, rfl⟩ := key _ _ he (by simp); exact ⟨hr, rfl, by simp [h], by simp [h]⟩
  | recvAckPanic w' st ns id cb A hr _ h =>
    obtain ⟨rfl, rfl, rfl⟩ := key _ _ he (by simp); exact ⟨hr, rfl, by simp [h], by simp [h]⟩
  | sendOk src g s0 evs hs hl' hc =>
    cases hs with
    | pong w' st hr _ h =>
      obtain ⟨rfl, rfl, rfl⟩ := key _ _ he (by simp); exact ⟨hr, rfl, by simp [h], by simp [h]⟩
    | _ => simp at hm
  | sendFail src g s0 evs hs hc =>
    cases hs with
    | pong w' st hr _ h =>
      obtain ⟨rfl, rfl, rfl⟩ := key _ _ he (by simp); exact ⟨hr, rfl, by simp [h], by simp [h]⟩
    | _ => simp at hm
  | _ => simp at hm

/-- The task ends with an error of the receiver together with the message. -/
theorem trans_rejected {cfg : RCfg} {s s' : Sys} {x y : List Ev} {e : RErr}
    (ht : Trans cfg s s' (x ++ .taskEnd (.err (.processing e)) :: y)) :
    ∃ w, s.task.reads ∧ x = [.received w] ∧ (processWs cfg s.rx s.reg w).res = .err e := by
  generalize he : x ++ .taskEnd (.err (.processing e)) :: y = evs at ht
  have hm : Ev.taskEnd (.err (.processing e)) ∈ evs := by rw [← he]; simp
  have key : ∀ (w : Ws) (e' : RErr), x ++ .taskEnd (.err (.processing e)) :: y =
      [.received w, .taskEnd (.err (.processing e'))] → x = [.received w] ∧ e = e' := by
    intro w e' h
    cases x with
    | nil => simp at h
    | cons a x =>
      cases x with
      | nil => simp at h; exact ⟨by rw [h.1], h.2.1⟩
      | cons b x => simp at h
  cases ht with
  | recvErr w st e' hr h => obtain ⟨rfl, rfl⟩ := key _ _ he; exact ⟨w, hr, rfl, by rw [h]⟩
  | recvNoAck w st ns id pk hr _ h => obtain ⟨rfl, rfl⟩ := key _ _ he; exact ⟨w, hr, rfl, by rw [h]⟩
  | sendOk src g s0 evs hs hl' hc => cases hs <;> simp at hm
  | sendFail src g s0 evs hs hc => cases hs <;> simp at hm
  | _ => simp at hm

theorem run_exact {cfg : RCfg} {acts : List Act} {s : Sys} {tr : List Ev} (h : Runs cfg acts s tr) (hr : s.task.reads)
    (w : Ws) : ∃ x, Cut (contents (inbox tr)) x ∧
      (∀ f, (∃ e, (processWs cfg s.rx s.reg w).res = .err e ∧ Names e f) ↔
        Wrong cfg (Who.after (history tr)) (inbox tr) x w f) ∧
      ((processWs cfg s.rx s.reg w).res = .panic ↔ Fatal cfg (inbox tr) x w) ∧
      (∀ e, (processWs cfg s.rx s.reg w).res = .err e → ∃ f, Names e f) := by
  obtain ⟨l, k1, _, _, k4, k5, _⟩ := streamInv h
  obtain ⟨j1, j2, j3⟩ := k4 (Or.inl hr.live)
  have hok : ∀ o ∈ outs cfg RState.new l, o.res = .ok () := by
    rcases k5 with h' | h' | h'
    · exact h'
    · exact absurd h' j2
    · exact absurd h' j3
  obtain ⟨x, hx, m1, m2, m3, _⟩ := ws_exact cfg l hok s.reg w
  rw [whoOf_ginv (ginv h), k1, ← j1] at m1
  rw [k1, ← j1] at m2
  rw [← j1] at m3
  refine ⟨x, ?_, m1, m2, m3⟩
  have : payloads l = contents (inbox tr) := by
    rw [← k1]
    simp [payloads, contents, List.filterMap_map, Function.comp_def]
  rwa [← this]

/-- C65: in the running client. What was received before a message is cut into packets in exactly one way, the task
ends with an error of the receiver directly after the message exactly if there is something wrong with the message, the
error tells what, and a message with too large a number, or one that completes a packet that cannot be put into the log,
ends the task with a panic. -/
theorem C65_task (cfg : RCfg) (acts : List Act) (s : Sys) (pre post : List Ev) (w : Ws)
    (h : Runs cfg acts s (pre ++ .received w :: post)) :
    ∃ x, (∀ y, Cut (contents (inbox pre)) y ↔ y = x) ∧
      (∀ f, (∃ e, post.head? = some (.taskEnd (.err (.processing e))) ∧ Names e f) ↔
        Wrong cfg (Who.after (history pre)) (inbox pre) x w f) ∧
      (Fatal cfg (inbox pre) x w → post.head? = some (.taskEnd .panic)) := by
  obtain ⟨acts0, s0, tr0, s1, x0, y0, z0, h1, h2, h3, h4⟩ := run_split_after h rfl
  obtain ⟨g1, g2, g3, g4⟩ := trans_received h2
  subst g2
  rw [List.append_nil] at h3
  subst h3
  obtain ⟨x, m1, m2, m3, _⟩ := run_exact h1 g1 w
  refine ⟨x, fun y => ⟨fun hy => cut_unique m1 hy, fun hy => by rw [hy]; exact m1⟩, fun f => ?_, fun hf => ?_⟩
  · rw [← m2]
    refine ⟨?_, ?_⟩
    · rintro ⟨e, he, hn⟩
      cases post with
      | nil => simp at he
      | cons a post =>
        simp only [List.head?_cons, Option.some.injEq] at he
        subst he
        obtain ⟨acts', s', tr', s1', x', y', z', h1', h2', h3', h4'⟩ :=
          run_split_after (t1 := pre ++ [.received w]) (t2 := post) (e := .taskEnd (.err (.processing e))) h (by simp)
        obtain ⟨w', k1, k2, k3⟩ := trans_rejected h2'
        subst k2
        obtain ⟨rfl, hw⟩ := List.append_inj' h3' rfl
        simp only [List.cons.injEq, Ev.received.injEq, and_true] at hw
        subst hw
        obtain ⟨x', m1', m2', _, _⟩ := run_exact h1' k1 w
        have := cut_unique m1 m1'
        subst this
        rw [m2, ← m2']
        exact ⟨e, k3, hn⟩
    · rintro ⟨e, he, hn⟩
      refine ⟨e, ?_, hn⟩
      rw [h4, g3 e he]
      rfl
  · rw [h4, g4 (m3.2 hf)]
    rfl

/-- C65: and it ends with such an error only directly after a message. -/
theorem C65_after (cfg : RCfg) (acts : List Act) (s : Sys) (tr : List Ev) (h : Runs cfg acts s tr) (e : RErr)
    (he : .taskEnd (.err (.processing e)) ∈ tr) :
    ∃ pre w post f, tr = pre ++ .received w :: .taskEnd (.err (.processing e)) :: post ∧ Names e f := by
  obtain ⟨t1, t2, rfl⟩ := List.append_of_mem he
  obtain ⟨acts0, s0, tr0, s1, x0, y0, z0, h1, h2, h3, h4⟩ := run_split_after h rfl
  obtain ⟨w, k1, k2, k3⟩ := trans_rejected h2
  obtain ⟨x, _, _, _, m⟩ := run_exact h1 k1 w
  obtain ⟨f, hf⟩ := m e k3
  exact ⟨tr0, w, t2, f, by rw [h3, k2]; simp, hf⟩

-- the connection task ends directly after the message
example : seen exCfg (exConnect ++ [.reg (.setEvent ['/'] ['a'] 1), .recv (.text "42[\"a\"]".toList) false,
      .recv (.text "49".toList) false]) =
    some [.received exOpen, .opened ['s'], .connectReturned .ok, .regOp, .received (.text "42[\"a\"]".toList),
      .event ['/'] ['a'] 1 none, .received (.text "49".toList), .taskEnd .processing] := by
  decide +kernel

end SIO
