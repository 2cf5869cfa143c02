import Verif.Props.Example
/-
C68: ws_connect.rs.
-/
namespace SIO
open SIO.Spec

/-- The end of the main function. -/
def wsTail : List MOp := [.wait, .call .closeStart, .call .dropClient]

/-- A message of the program could not be put into the queue. -/
def rawFailed (tr : List Ev) : Bool :=
  tr.any fun
    | .sendFailed .raw _ => true
    | _ => false

theorem rawFailed_append (a b : List Ev) : rawFailed (a ++ b) = (rawFailed a || rawFailed b) := List.any_append

theorem rawFailed_of {evs : List Ev} (h : rawSent evs = []) : rawFailed evs = false := by
  rw [rawFailed, List.any_eq_false]
  intro e he
  split
  · rename_i g
    have : g ∈ rawSent evs := List.mem_filterMap.2 ⟨_, he, rfl⟩
    rw [h] at this
    cases this
  · simp

/-- How far the main function of ws_connect.rs is: what is left, the registrations, the messages so far, whether it
panicked, and whether it could not send. -/
inductive WsAt (ns : Option Str) : List MOp → List RegOp → List (List Ws) → Bool → Bool → Prop where
  | w0 : WsAt ns (wsConnect ns).main [] [] false false
  | w1 (n : Str) : ns = some n → WsAt ns (.call (.reg (.setFallback n 1)) :: .call (.rawSend [.text ("40".toList ++ n ++ [','])]) :: wsTail)
      [.setFallback ['/'] 0] [] false false
  | w2 (n : Str) : ns = some n → WsAt ns (.call (.rawSend [.text ("40".toList ++ n ++ [','])]) :: wsTail) (wsRegs ns) [] false false
  | w3 : WsAt ns wsTail (wsRegs ns) (wsSent ns) false false
  | w4 : WsAt ns (wsTail.drop 1) (wsRegs ns) (wsSent ns) false false
  | w5 (f : Bool) : WsAt ns [.call .dropClient] (wsRegs ns) (wsSent ns) false f
  | w6 (f : Bool) : WsAt ns [] (wsRegs ns) (wsSent ns) false f
  | aborted (ops : List RegOp) : ops <+: wsRegs ns → WsAt ns [.call .dropClient] ops [] true false
  | ended (ops : List RegOp) : ops <+: wsRegs ns → WsAt ns [] ops [] true false

structure WsInv (ns : Option Str) (t : PSys) (tr : List PEv) : Prop where
  at' : WsAt ns t.todo (regCalls (shown tr)) (rawSent (shown tr)) (anyPanic (shown tr)) (rawFailed (shown tr))
  emit : t.sys.emit = none
  emitted : emitted (shown tr) = []
  output : output true tr = []
  acks : ackCalls (shown tr) = []
  panic : anyPanic (shown tr) = true → t.sys.poisoned = true
  closing : t.sys.closeCall = true → t.todo = [.call .dropClient] ∧ anyPanic (shown tr) = false ∧ rawFailed (shown tr) = false
  gone : t.todo = [] → t.sys.client = false ∧ ∃ sid, t.sys.phase = .connected sid

theorem ws_at {cfg : RCfg} {ns : Option Str} {acts : List PAct} {t : PSys} {tr : List PEv}
    (h : PRuns cfg (wsConnect ns) acts t tr) : WsInv ns t tr := by
  refine prun_induct (p := wsConnect ns) (P := fun tr t => WsInv ns t tr) ⟨.w0, rfl, rfl, rfl, rfl, by simp [shown, anyPanic],
    fun h => (by cases h), fun h => (by simp [AppProg.init, wsConnect] at h)⟩ ?_ h
  rintro acts t tr t' evs hrun ih ht
  have hinv := ws_inv hrun
  rcases other_step hinv ht with ⟨op, rest, s', ab, h1, h2, h3, hr, rfl⟩ | ⟨h1, h2, h3, h4, h5, -, h8, h9, ⟨f1, f2, f3, f4, f5⟩, h7⟩
  · have hat := ih.at'
    have hemit := ih.emit
    have hem := ih.emitted
    have hou := ih.output
    have hak := ih.acks
    have hpan := ih.panic
    have hown : t.sys.ownSend = true := by rw [hinv.own, h2]
    have hcl := ih.closing
    obtain ⟨as, hruns⟩ := prun_exec hrun
    obtain ⟨sid, hph⟩ := (pinv hruns).client h2
    clear hruns
    generalize hrc : regCalls (shown tr) = rc at hat
    generalize hrw : rawSent (shown tr) = rw' at hat
    generalize hpn : anyPanic (shown tr) = pn at hat hpan hcl
    generalize hrf : rawFailed (shown tr) = rf at hat hcl
    generalize htd : t.todo = td at hat h1 hcl
    have fin : ∀ {x s' : Sys} {y es : List Ev}, some (x, y) = some (s', es) → x = s' ∧ y = es := by
      intro x s' y es h
      exact ⟨congrArg Prod.fst (Option.some.inj h), congrArg Prod.snd (Option.some.inj h)⟩
    have mk : ∀ {s' : Sys} {es : List Ev} {todo' : List MOp},
        WsAt ns todo' (rc ++ regCalls es) (rw' ++ rawSent es) (pn || anyPanic es) (rf || rawFailed es) → s'.emit = none →
        emitted es = [] → ackCalls es = [] → ((pn || anyPanic es) = true → s'.poisoned = true) →
        (s'.closeCall = true → todo' = [.call .dropClient] ∧ (pn || anyPanic es) = false ∧ (rf || rawFailed es) = false) →
        (todo' = [] → s'.client = false ∧ s'.phase = t.sys.phase) →
        WsInv ns ⟨s', todo', t.callback⟩ (tr ++ es.map .ev) := by
      intro s' es todo' g1 g2 g3 g4 g5 g6 g7
      refine ⟨?_, g2, by rw [shown_append, shown_ev, emitted_append, hem, g3]; rfl, by rw [output_append, output_ev, hou]; rfl,
        by rw [shown_append, shown_ev, ackCalls_append, hak, g4]; rfl, ?_, ?_,
        fun h => ⟨(g7 h).1, sid, by rw [(g7 h).2, hph]⟩⟩
      · rw [shown_append, shown_ev, regCalls_append, rawSent_append, anyPanic_append, rawFailed_append, hrc, hrw, hpn, hrf]
        exact g1
      · rw [shown_append, shown_ev, anyPanic_append, hpn]
        exact g5
      · rw [shown_append, shown_ev, anyPanic_append, rawFailed_append, hpn, hrf]
        exact g6
    clear hinv ih hrun ht
    cases hat with
    | w0 =>
      have hno : t.sys.closeCall = true → False := by
        intro h
        have := congrArg List.length (hcl h).1
        cases ns <;> simp [wsConnect] at this
      obtain ⟨rfl, hrest⟩ := List.cons.inj (show MOp.call (.reg (.setFallback ['/'] 0)) :: ((match ns with
        | none => []
        | some n => [.call (.reg (.setFallback n 1)), .call (.rawSend [.text ("40".toList ++ n ++ [','])])]) ++ wsTail) = op :: rest from h1)
      obtain ⟨es, hs, rfl, rfl⟩ := runOp_call hr
      simp only [step, h2, RegOp.public, and_self, if_true] at hs
      split at hs
      · obtain ⟨rfl, rfl⟩ := fin hs
        exact mk (.aborted [] List.nil_prefix) hemit rfl rfl (fun _ => ‹_›) (fun h => (hno h).elim) (fun h => by cases h)
      · obtain ⟨rfl, rfl⟩ := fin hs
        subst hrest
        cases ns with
        | none => exact mk .w3 hemit rfl rfl (by simp [anyPanic]) (fun h => (hno h).elim) (fun h => by cases h)
        | some n => exact mk (.w1 n rfl) hemit rfl rfl (by simp [anyPanic]) (fun h => (hno h).elim) (fun h => by cases h)
    | w1 n hn =>
      have hno : t.sys.closeCall = true → False := fun h => absurd (congrArg List.length (hcl h).1) (by simp [wsTail])
      obtain ⟨rfl, rfl⟩ := List.cons.inj h1
      subst hn
      obtain ⟨es, hs, rfl, rfl⟩ := runOp_call hr
      simp only [step, h2, RegOp.public, and_self, if_true] at hs
      split at hs
      · obtain ⟨rfl, rfl⟩ := fin hs
        exact mk (.aborted [.setFallback ['/'] 0] (by simp [wsRegs])) hemit rfl rfl (fun _ => ‹_›) (fun h => (hno h).elim) (fun h => by cases h)
      · obtain ⟨rfl, rfl⟩ := fin hs
        exact mk (.w2 n rfl) hemit rfl rfl (by simp [anyPanic]) (fun h => (hno h).elim) (fun h => by cases h)
    | w2 n hn =>
      have hno : t.sys.closeCall = true → False := fun h => absurd (congrArg List.length (hcl h).1) (by simp [wsTail])
      obtain ⟨rfl, rfl⟩ := List.cons.inj h1
      subst hn
      obtain ⟨es, hs, rfl, rfl⟩ := runOp_call hr
      simp only [step, hown, true_or, if_true, Sys.enqueue] at hs
      split at hs
      · obtain ⟨rfl, rfl⟩ := fin hs
        exact mk (by simpa [Ev.aborts, regCalls, rawSent, anyPanic, rawFailed, wsSent] using WsAt.w3 (ns := some n)) hemit rfl rfl
          (by simp [anyPanic]) (fun h => (hno h).elim) (fun h => by cases h)
      · obtain ⟨rfl, rfl⟩ := fin hs
        exact mk (by simpa [Ev.aborts, regCalls, rawSent, anyPanic, rawFailed, wsSent] using WsAt.w5 (ns := some n) true) hemit rfl rfl
          (by simp [anyPanic]) (fun h => (hno h).elim) (fun h => by cases h)
    | w3 =>
      have hno : t.sys.closeCall = true → False := fun h => absurd (congrArg List.length (hcl h).1) (by simp [wsTail])
      obtain ⟨rfl, rfl⟩ := List.cons.inj (show MOp.wait :: wsTail.drop 1 = op :: rest from h1)
      simp only [runOp, Option.some.injEq, Prod.mk.injEq] at hr
      obtain ⟨rfl, rfl, rfl⟩ := hr
      exact mk (es := []) (by simpa [regCalls, rawSent, anyPanic, rawFailed] using WsAt.w4) hemit rfl rfl (by simp [anyPanic])
        (fun h => (hno h).elim) (fun h => by cases h)
    | w4 =>
      obtain ⟨rfl, rfl⟩ := List.cons.inj (show MOp.call .closeStart :: wsTail.drop 2 = op :: rest from h1)
      obtain ⟨es, hs, rfl, rfl⟩ := runOp_call hr
      simp only [step] at hs
      split at hs
      · split at hs
        · obtain ⟨rfl, rfl⟩ := fin hs
          exact mk (by simpa [regCalls, rawSent, anyPanic, rawFailed, Ev.aborts, wsTail] using WsAt.w5 (ns := ns) false) hemit rfl rfl (by simp [anyPanic])
            (fun _ => ⟨rfl, rfl, rfl⟩) (fun h => by cases h)
        · obtain ⟨rfl, rfl⟩ := fin hs
          exact mk (by simpa [regCalls, rawSent, anyPanic, rawFailed, Ev.aborts, wsTail] using WsAt.w5 (ns := ns) false) hemit rfl rfl (by simp [anyPanic])
            (fun _ => ⟨rfl, rfl, rfl⟩) (fun h => by cases h)
      · simp at hs
    | w5 f =>
      obtain ⟨rfl, rfl⟩ := List.cons.inj h1
      obtain ⟨es, hs, rfl, rfl⟩ := runOp_call hr
      simp only [step] at hs
      split at hs
      · obtain ⟨rfl, rfl⟩ := fin hs
        exact mk (by simpa [regCalls, rawSent, anyPanic, rawFailed] using WsAt.w6 rf) hemit rfl rfl (by simp [anyPanic])
          (fun h => absurd h (by simp_all)) (fun _ => ⟨rfl, rfl⟩)
      · simp at hs
    | w6 f => simp at h1
    | aborted ops hp =>
      obtain ⟨rfl, rfl⟩ := List.cons.inj h1
      obtain ⟨es, hs, rfl, rfl⟩ := runOp_call hr
      simp only [step] at hs
      split at hs
      · obtain ⟨rfl, rfl⟩ := fin hs
        exact mk (.ended _ (by simpa [regCalls] using hp)) hemit rfl rfl (fun _ => hpan rfl)
          (fun h => absurd h (by simp_all)) (fun _ => ⟨rfl, rfl⟩)
      · simp at hs
    | ended ops hp => simp at h1
  · have f6 := rawFailed_of f3
    refine ⟨?_, by rw [h2, ih.emit], by rw [shown_append, emitted_append, ih.emitted, f2]; rfl,
      by rw [output_append, ih.output, h7]; rfl, by rw [shown_append, ackCalls_append, ih.acks, f5]; rfl, ?_, ?_, ?_⟩
    · rw [h1, shown_append, regCalls_append, rawSent_append, anyPanic_append, rawFailed_append, f1, f3, f4, f6]
      simpa using ih.at'
    · rw [shown_append, anyPanic_append, f4, Bool.or_false]
      exact fun h => h5 (ih.panic h)
    · intro h
      rw [h1, shown_append, anyPanic_append, rawFailed_append, f4, f6, Bool.or_false, Bool.or_false]
      exact ih.closing (h8 h)
    · intro h
      rw [h1] at h
      obtain ⟨k1, sid, k2⟩ := ih.gone h
      obtain ⟨k3, k4⟩ := h9 sid k2
      exact ⟨by rw [k4, k1], sid, k3⟩

theorem ws_facts {ns : Option Str} {td : List MOp} {rc : List RegOp} {raw : List (List Ws)} {pn rf : Bool}
    (h : WsAt ns td rc raw pn rf) :
    (raw = [] ∨ raw = wsSent ns) ∧ rc <+: wsRegs ns ∧ (pn = false → (td.length ≤ 3 → raw = wsSent ns)) ∧
    (pn = true → raw = []) ∧ (pn = true ∨ rf = true → td.length ≤ 1) ∧ (raw ≠ [] → td.length ≤ 3) := by
  cases h with
  | w0 =>
    refine ⟨Or.inl rfl, List.nil_prefix, fun _ h => ?_, by simp, by simp, by simp⟩
    cases ns <;> simp [wsConnect] at h
  | w1 n hn => exact ⟨Or.inl rfl, by simp [wsRegs], fun _ h => by simp [wsTail] at h, by simp, by simp, by simp⟩
  | w2 n hn => exact ⟨Or.inl rfl, List.prefix_refl _, fun _ h => by simp [wsTail] at h, by simp, by simp, by simp⟩
  | w3 => exact ⟨Or.inr rfl, List.prefix_refl _, fun _ _ => rfl, by simp, by simp, by simp [wsTail]⟩
  | w4 => exact ⟨Or.inr rfl, List.prefix_refl _, fun _ _ => rfl, by simp, by simp, by simp [wsTail]⟩
  | w5 => exact ⟨Or.inr rfl, List.prefix_refl _, fun _ _ => rfl, by simp, by simp, by simp⟩
  | w6 => exact ⟨Or.inr rfl, List.prefix_refl _, fun _ _ => rfl, by simp, by simp, by simp⟩
  | aborted ops hp => exact ⟨Or.inl rfl, hp, by simp, by simp, by simp, by simp⟩
  | ended ops hp => exact ⟨Or.inl rfl, hp, by simp, by simp, by simp, by simp⟩

theorem rawFailed_iff (tr : List Ev) : rawFailed tr = true ↔ ∃ g, .sendFailed .raw g ∈ tr := by
  rw [rawFailed, List.any_eq_true]
  constructor
  · rintro ⟨e, he, h⟩
    split at h
    · exact ⟨_, he⟩
    · cases h
  · exact fun ⟨g, h⟩ => ⟨_, h, rfl⟩

/-- C68, ws_connect.rs: whatever the server does, the program sends the message that opens the namespace it was given at
most once and nothing else; it did so when it waits, closes or has ended, unless it panicked before.  When the message
cannot be sent, it ends. -/
theorem C68_ws_sent (cfg : RCfg) (ns : Option Str) (acts : List PAct) (t : PSys) (tr : List PEv)
    (h : PRuns cfg (wsConnect ns) acts t tr) :
    emitted (shown tr) = [] ∧ answered (shown tr) = [] ∧ output true tr = [] ∧
    (rawSent (shown tr) = [] ∨ rawSent (shown tr) = wsSent ns) ∧ (t.todo.length > 3 → rawSent (shown tr) = []) ∧
    (.userPanic ∈ shown tr → rawSent (shown tr) = [] ∧ t.todo.length ≤ 1) ∧
    (.userPanic ∉ shown tr → t.todo.length ≤ 3 → rawSent (shown tr) = wsSent ns) ∧
    (∀ g, .sendFailed .raw g ∈ shown tr → t.todo.length ≤ 1 ∧ t.sys.closeCall = false) := by
  have hi := ws_at h
  obtain ⟨k1, k2, k3, k4, k5, k6⟩ := ws_facts hi.at'
  refine ⟨hi.emitted, ?_, hi.output, k1, ?_, ?_, ?_, ?_⟩
  · obtain ⟨ls, gs, hr, ha, -⟩ := (ws_inv h).rest
    have ho : (shown tr).flatMap ((wsConnect ns).owes cfg.ext.fin) = [] := by
      rw [List.flatMap_eq_nil_iff]
      intro e _
      cases e with
      | eff x =>
        cases x with
        | event ns' name cb A ack =>
          cases ack with
          | none => rfl
          | some x =>
            simp only [AppProg.owes, AppProg.reply, wsConnect]
            cases A.display cfg.ext.fin <;> rfl
        | _ => rfl
      | _ => rfl
    rw [ho] at ha
    exact (List.append_eq_nil_iff.1 ha).1
  · intro hl
    rcases k1 with k1 | k1
    · exact k1
    · cases hr : rawSent (shown tr) with
      | nil => rfl
      | cons a l => exact absurd (k6 (by rw [hr]; simp)) (by omega)
  · intro hp
    rw [← anyPanic_iff] at hp
    exact ⟨k4 hp, k5 (Or.inl hp)⟩
  · intro hp hl
    refine k3 ?_ hl
    cases hx : anyPanic (shown tr) with
    | false => rfl
    | true => exact absurd ((anyPanic_iff _).1 hx) hp
  · intro g hg
    have hf := (rawFailed_iff _).2 ⟨g, hg⟩
    refine ⟨k5 (Or.inr hf), ?_⟩
    cases hc : t.sys.closeCall with
    | false => rfl
    | true => have := (hi.closing hc).2.2; rw [hf] at this; cases this

/-- C68, ws_connect.rs: nothing else is written to the connection than pongs and that message, which needs a namespace. -/
theorem C68_ws_written (cfg : RCfg) (ns : Option Str) (acts : List PAct) (t : PSys) (tr : List PEv)
    (h : PRuns cfg (wsConnect ns) acts t tr) (w : Ws) (hw : w ∈ written (shown tr)) :
    w = .text ['3'] ∨ ∃ n, ns = some n ∧ w = .text ("40".toList ++ n ++ ",".toList) := by
  obtain ⟨as, hruns⟩ := prun_exec h
  obtain ⟨s1, s2, -, s3, -⟩ := C68_ws_sent cfg ns acts t tr h
  have hg : ∃ g ∈ groups (shown tr), w ∈ g := by
    obtain ⟨whole, more, part, h1, h2, h3⟩ := C32_wire cfg as _ _ hruns
    rw [h2, List.mem_append] at hw
    rcases hw with hw | hw
    · obtain ⟨g, hg, hw⟩ := List.mem_flatten.1 hw
      exact ⟨g, by rw [h1]; simp [hg], hw⟩
    · rcases h3 with rfl | ⟨g, rest, rfl, h3⟩
      · cases hw
      · exact ⟨g, by rw [h1]; simp, h3.subset hw⟩
  obtain ⟨g, hg, hwg⟩ := hg
  simp only [groups, List.mem_filterMap] at hg
  obtain ⟨e, he, heq⟩ := hg
  cases e <;> simp at heq
  rename_i src g'
  subst heq
  cases src with
  | pong =>
    obtain ⟨a, b, hab⟩ := List.append_of_mem he
    have := (C31_pongs cfg as _ _ hruns a b _ hab).1
    subst this
    left
    simpa using hwg
  | raw =>
    have hr : g' ∈ rawSent (shown tr) := List.mem_filterMap.2 ⟨_, he, rfl⟩
    right
    rcases s3 with s3 | s3 <;> rw [s3] at hr
    · cases hr
    · cases ns with
      | none => cases hr
      | some n =>
        simp only [wsSent, List.mem_singleton] at hr
        subst hr
        exact ⟨n, rfl, by simpa using hwg⟩
  | emit x cb =>
    have : g' ∈ emitted (shown tr) := List.mem_filterMap.2 ⟨_, he, rfl⟩
    rw [s1] at this
    cases this
  | reply x =>
    have hx : (x, g') ∈ answered (shown tr) := List.mem_filterMap.2 ⟨_, he, rfl⟩
    rw [s2] at hx
    cases hx

/-- C68, ws_connect.rs: the callbacks print one line for each event, in order, those of the namespace it was given with
its name in front. -/
theorem C68_ws_output (cfg : RCfg) (ns : Option Str) (acts : List PAct) (t : PSys) (tr : List PEv)
    (h : PRuns cfg (wsConnect ns) acts t tr) :
    ackRuns (shown tr) = [] ∧ output false tr <+: (shown tr).flatMap (wsLines ns cfg.ext.fin) ∧
    (t.callback = [] → output false tr = (shown tr).flatMap (wsLines ns cfg.ext.fin)) := by
  obtain ⟨as, hruns⟩ := prun_exec h
  have noack : ∀ ns' id cb A, Ev.eff (.ack ns' id cb A) ∉ shown tr := by
    intro ns' id cb A he
    obtain ⟨a, b, hab⟩ := List.append_of_mem he
    have h1 := (C28_own cfg as _ _ hruns a b ns' id cb A hab).2.1
    have h2 : (ns', id, cb) ∈ ackCalls (shown tr) := List.mem_filterMap.2 ⟨.registered ns' id cb, by rw [hab]; simp [h1], rfl⟩
    rw [(ws_at h).acks] at h2
    cases h2
  obtain ⟨ls, gs, hr, -, hl⟩ := (ws_inv h).rest
  have ho : (shown tr).flatMap ((wsConnect ns).lines cfg.ext.fin) = (shown tr).flatMap (wsLines ns cfg.ext.fin) := by
    refine flatMap_congr' fun e he => ?_
    cases e with
    | eff x =>
      cases x with
      | event ns' name cb A ack =>
        simp only [AppProg.lines, wsConnect, wsLines]
        cases hd : A.display cfg.ext.fin with
        | ok v => cases ns <;> simp
        | panic => rfl
        | err e => cases e
      | ack ns' id cb A => exact absurd he (noack _ _ _ _)
      | _ => rfl
    | _ => rfl
  rw [ho] at hl
  refine ⟨?_, ⟨ls, hl⟩, fun hc => ?_⟩
  · simp only [ackRuns, List.filterMap_eq_nil_iff]
    intro e he
    split
    · exact absurd he (noack _ _ _ _)
    · rfl
  · rw [hc] at hr
    generalize t.sys.handles = hs at hr
    cases hr
    simpa using hl

/-- C68, ws_connect.rs: an event goes to the second callback exactly if it is of the namespace the program was given and
that callback is already registered, and otherwise to the first, which gets events of the namespace "/" only. -/
theorem C68_ws_callbacks (cfg : RCfg) (ns : Option Str) (acts : List PAct) (t : PSys) (tr : List PEv)
    (h : PRuns cfg (wsConnect ns) acts t tr) (t1 t2 : List Ev) (m name : Str) (cb : Cb) (A : Args) (ack : Option AckHandle)
    (he : shown tr = t1 ++ .eff (.event m name cb A ack) :: t2) :
    cb = 1 ∧ ns = some m ∧ .regOp (.setFallback m 1) ∈ t1 ∨
    cb = 0 ∧ m = ['/'] ∧ .regOp (.setFallback ['/'] 0) ∈ t1 ∧ ¬ (ns = some ['/'] ∧ .regOp (.setFallback ['/'] 1) ∈ t1) := by
  obtain ⟨as, hruns⟩ := prun_exec h
  have hin := C26_dispatch cfg as _ _ hruns t1 t2 m name cb A ack he
  have hpre : regCalls t1 <+: wsRegs ns := by
    refine List.IsPrefix.trans ?_ (ws_facts (ws_at h).at').2.1
    rw [he, regCalls_append]
    exact List.prefix_append _ _
  have hreg : ∀ op, Ev.regOp op ∈ t1 ↔ op ∈ regCalls t1 := by
    intro op
    simp only [regCalls, List.mem_filterMap]
    constructor
    · intro h
      exact ⟨_, h, rfl⟩
    · rintro ⟨e, h1, h2⟩
      cases e <;> simp at h2
      subst h2
      exact h1
  have hin' : ∀ op ∈ regCalls t1, op = .setFallback ['/'] 0 ∨ ∃ n, ns = some n ∧ op = .setFallback n 1 := by
    intro op hop
    have := hpre.subset hop
    cases ns with
    | none => simpa [wsRegs] using this
    | some n => simpa [wsRegs] using this
  have hpub : ∀ op, Ev.regOp op ∈ t1 → op.public = true := by
    intro op hop
    rcases hin' op ((hreg op).1 hop) with rfl | ⟨n, -, rfl⟩ <;> rfl
  have hmem : ∀ op, op.public = true → (op ∈ history t1 ↔ op ∈ regCalls t1) := by
    intro op hop
    rw [regCalls_history t1 hpub, List.mem_filter]
    simp [hop]
  cases hin with
  | event _ hl =>
    obtain ⟨pre, post, hh, -⟩ := hl
    have hm := (hmem (.setEvent m name cb) rfl).1 (by rw [hh]; simp)
    rcases hin' _ hm with hm | ⟨n, -, hm⟩ <;> cases hm
  | fallback _ hno hl =>
    obtain ⟨pre, post, hh, hlast⟩ := hl
    have hm := (hmem (.setFallback m cb) rfl).1 (by rw [hh]; simp)
    have hm' : Ev.regOp (.setFallback m cb) ∈ t1 := (hreg _).2 hm
    rcases hin' _ hm with hm | ⟨n, hn, hm⟩
    · cases hm
      refine Or.inr ⟨rfl, rfl, hm', ?_⟩
      rintro ⟨rfl, h1⟩
      have hpf : pre.filter RegOp.public ++ .setFallback ['/'] 0 :: post.filter RegOp.public <+:
          [.setFallback ['/'] 0, .setFallback ['/'] 1] := by
        have := regCalls_history t1 hpub
        rw [hh, List.filter_append, List.filter_cons_of_pos (by rfl)] at this
        rw [← this]
        exact hpre
      have hreg1 : RegOp.setFallback ['/'] 1 ∈ pre.filter RegOp.public ++ .setFallback ['/'] 0 :: post.filter RegOp.public := by
        have h2 := (hmem _ rfl).2 ((hreg _).1 h1)
        have := List.mem_filter (p := RegOp.public).2 ⟨h2, rfl⟩
        rwa [hh, List.filter_append, List.filter_cons_of_pos (by rfl)] at this
      obtain ⟨s, hs⟩ := hpf
      have hpost : RegOp.setFallback ['/'] 1 ∈ post := by
        generalize pre.filter RegOp.public = x at hs hreg1
        generalize hy : post.filter RegOp.public = y at hs hreg1
        have : RegOp.setFallback ['/'] 1 ∈ y := by
          match x, y, hs, hreg1 with
          | [], y, _, hr => simpa using hr
          | [_], y, hs, _ => simp at hs
          | _ :: _ :: _, y, hs, _ => simp at hs
        rw [← hy] at this
        exact (List.mem_filter.1 this).1
      have := hlast _ hpost
      simp at this
    · cases hm
      exact Or.inl ⟨rfl, hn, hm'⟩

/-- C68, ws_connect.rs: a call of the program panics, and the lock is poisoned, only if a callback could not print its
arguments. -/
theorem C68_ws_panic (cfg : RCfg) (ns : Option Str) (acts : List PAct) (t : PSys) (tr : List PEv)
    (h : PRuns cfg (wsConnect ns) acts t tr)
    (hp : .userPanic ∈ shown tr ∨ t.sys.poisoned = true) : ∃ e ∈ shown tr, Unprintable cfg.ext.fin e := by
  refine (ws_inv h).poison ?_
  rcases hp with hp | hp
  · exact (ws_at h).panic ((anyPanic_iff _).2 hp)
  · exact hp

theorem ws_continues (cfg : RCfg) (ns : Option Str) (acts : List PAct) (t : PSys) (tr : List PEv)
    (h : PRuns cfg (wsConnect ns) acts t tr) (hc : t.sys.client = true) : Continues cfg (wsConnect ns) t := by
  by_cases hcb : t.callback = []
  · cases hcc : t.sys.closeCall with
    | true => exact continues_close hc hcc
    | false =>
      have hown : t.sys.ownSend = true := by rw [(ws_inv h).own, hc]
      have hi := ws_at h
      have hgone := hi.gone
      have hemit := hi.emit
      have hat := hi.at'
      generalize regCalls (shown tr) = rc at hat
      generalize rawSent (shown tr) = raw at hat
      generalize anyPanic (shown tr) = pn at hat
      generalize rawFailed (shown tr) = rf at hat
      generalize htd : t.todo = td at hat hgone
      have fin := fun op rest ht hm => continues_main (p := wsConnect ns) (cfg := cfg) hc hcb hcc op rest ht hm
      have go : ∀ a rest, t.todo = MOp.call a :: rest → a.ofMain = true → a ≠ .dropClient → step cfg t.sys a ≠ none → rest ≠ [] →
          Continues cfg (wsConnect ns) t := fun a rest h1 h2 h3 h4 h5 => fin _ rest h1 h2 (Or.inl ⟨a, rfl, h3, h4, h5⟩)
      cases hat with
      | w0 =>
        refine go (.reg (.setFallback ['/'] 0)) _ htd rfl (by simp) ?_ (by simp)
        simp only [step, hc, RegOp.public, and_self, if_true]
        split <;> simp
      | w1 n hn =>
        refine go (.reg (.setFallback n 1)) _ htd rfl (by simp) ?_ (by simp)
        simp only [step, hc, RegOp.public, and_self, if_true]
        split <;> simp
      | w2 n hn =>
        refine go (.rawSend [.text ("40".toList ++ n ++ [','])]) _ htd rfl (by simp) ?_ (by simp [wsTail])
        simp only [step, hown, true_or, if_true, ne_eq, reduceCtorEq, not_false_eq_true]
      | w3 => exact fin .wait (wsTail.drop 1) htd rfl (Or.inr (Or.inr (Or.inl rfl)))
      | w4 =>
        refine go .closeStart (wsTail.drop 2) htd rfl (by simp) ?_ (by simp [wsTail])
        simp only [step, hc, hcc, Bool.false_eq_true, not_false_eq_true, and_self, if_true]
        split <;> simp
      | w5 => exact fin (.call .dropClient) [] htd rfl (Or.inr (Or.inr (Or.inr ⟨rfl, hemit, rfl⟩)))
      | w6 => have := (hgone rfl).1; rw [hc] at this; cases this
      | aborted => exact fin (.call .dropClient) [] htd rfl (Or.inr (Or.inr (Or.inr ⟨rfl, hemit, rfl⟩)))
      | ended => have := (hgone rfl).1; rw [hc] at this; cases this
  · exact continues_callback (ws_inv h) hc hcb

/-- C68, ws_connect.rs: once connected, the program can always go on to its end. -/
theorem C68_ws_ends (cfg : RCfg) (ns : Option Str) (acts : List PAct) (t : PSys) (tr : List PEv)
    (h : PRuns cfg (wsConnect ns) acts t tr) (hc : t.sys.client = true) :
    ∃ acts' t' tr', pexec cfg (wsConnect ns) t acts' = some (t', tr') ∧
      (∀ a ∈ acts', a = .main ∨ a = .callback ∨ a = .env .closeTimeout) ∧ t'.todo = [] ∧ t'.callback = [] ∧
      t'.sys.client = false :=
  continues_ends (ws_continues cfg ns) _ acts t tr h (Nat.le_refl _) hc

/-! ### Executions -/

/-! ### While a callback runs -/

/-- Nothing of the registry, of the websocket and of the callbacks. -/
def Ev.aside : Ev → Bool
  | .regOp _ => false
  | .registered _ _ _ => false
  | .received _ => false
  | .eff _ => false
  | .wrote _ => false
  | _ => true

theorem await_aside {cfg : RCfg} {s s' : Sys} {a : Act} {evs : List Ev} (hs : step cfg s a = some (s', evs)) (ha : a.ofAwait = true) :
    s'.reg = s.reg ∧ ∀ e ∈ evs, e.aside = true := by
  cases a <;> simp only [Act.ofAwait, Bool.false_eq_true] at ha
  all_goals
    simp only [step, Sys.failConnect, Sys.closeOver] at hs
    repeat' split at hs
  all_goals try (simp only [reduceCtorEq] at hs; done)
  all_goals
    simp only [Option.some.injEq, Prod.mk.injEq] at hs
    obtain ⟨rfl, rfl⟩ := hs
    exact ⟨rfl, by simp [Ev.aside]⟩

theorem main_aside {cfg : RCfg} {s s' : Sys} {a : Act} {evs : List Ev} (hs : step cfg s a = some (s', evs)) (ha : a.ofMain = true)
    (hl : (MOp.call a).locks = false) : s'.reg = s.reg ∧ ∀ e ∈ evs, e.aside = true := by
  cases a <;> simp only [Act.ofMain, Bool.false_eq_true] at ha
  all_goals try (simp only [MOp.locks, Bool.true_eq_false] at hl; done)
  all_goals
    simp only [step, Sys.enqueue] at hs
    repeat' split at hs
  all_goals try (simp only [reduceCtorEq] at hs; done)
  all_goals
    simp only [Option.some.injEq, Prod.mk.injEq] at hs
    obtain ⟨rfl, rfl⟩ := hs
    exact ⟨rfl, by simp [Ev.aside]⟩

theorem reply_aside {cfg : RCfg} {s s' : Sys} {a : Act} {evs : List Ev} (hs : step cfg s a = some (s', evs))
    (ha : (∃ h, a = .dropHandle h) ∨ ∃ h b vs, a = .reply h b vs) : s'.reg = s.reg ∧ ∀ e ∈ evs, e.aside = true := by
  rcases ha with ⟨h, rfl⟩ | ⟨h, b, vs, rfl⟩
  all_goals
    simp only [step, Sys.enqueue] at hs
    repeat' split at hs
  all_goals try (simp only [reduceCtorEq] at hs; done)
  all_goals
    simp only [Option.some.injEq, Prod.mk.injEq] at hs
    obtain ⟨rfl, rfl⟩ := hs
    exact ⟨rfl, by simp [Ev.aside]⟩

/-- C68: while a callback runs, the registry stays as it is, nothing is read or written and no other callback is called. -/
theorem C68_exclusive (cfg : RCfg) (p : AppProg) (hp : p = socketioTest ∨ ∃ ns, p = wsConnect ns) (acts : List PAct) (t t' : PSys)
    (tr evs : List PEv) (h : PRuns cfg p acts t tr) (hc : t.callback ≠ []) (a : PAct) (hs : pstep cfg p t a = some (t', evs)) :
    t'.sys.reg = t.sys.reg ∧ ∀ e ∈ shown evs, (∀ op, e ≠ .regOp op) ∧ (∀ n i c, e ≠ .registered n i c) ∧
      (∀ w, e ≠ .received w) ∧ (∀ x, e ≠ .eff x) ∧ ∀ w, e ≠ .wrote w := by
  have hi : ProgInv cfg p t tr := by
    rcases hp with rfl | ⟨ns, rfl⟩
    · exact test_inv h
    · exact ws_inv h
  suffices hk : t'.sys.reg = t.sys.reg ∧ ∀ e ∈ shown evs, e.aside = true by
    refine ⟨hk.1, fun e he => ?_⟩
    have := hk.2 e he
    refine ⟨?_, ?_, ?_, ?_, ?_⟩ <;> intros <;> rintro rfl <;> simp [Ev.aside] at this
  have hce : t.callback.isEmpty = false := by
    cases hx : t.callback with
    | nil => exact absurd hx hc
    | cons _ _ => rfl
  have fin : ∀ {x : PSys} {y : List PEv}, some (x, y) = some (t', evs) → x = t' ∧ y = evs := by
    intro x y h
    exact ⟨congrArg Prod.fst (Option.some.inj h), congrArg Prod.snd (Option.some.inj h)⟩
  cases a with
  | main =>
    simp only [pstep] at hs
    split at hs
    · simp at hs
    · rename_i op rest hto
      split at hs
      · rename_i hcl
        split at hs
        · simp at hs
        · rename_i s' evs' ab hr
          obtain ⟨rfl, rfl⟩ := fin hs
          have hl : op.locks = false := by
            cases hx : op.locks with
            | false => rfl
            | true => rw [hce] at hcl; exact absurd (hcl.2 hx) (by simp)
          have hom := hi.todo op (by rw [hto]; simp)
          cases op with
          | call b =>
            obtain ⟨es, hr', rfl, rfl⟩ := runOp_call hr
            rw [shown_ev]
            exact main_aside hr' hom hl
          | print l => simp only [runOp, Option.some.injEq, Prod.mk.injEq] at hr; obtain ⟨rfl, rfl, rfl⟩ := hr; exact ⟨rfl, by simp [shown]⟩
          | wait => simp only [runOp, Option.some.injEq, Prod.mk.injEq] at hr; obtain ⟨rfl, rfl, rfl⟩ := hr; exact ⟨rfl, by simp [shown]⟩
      · simp at hs
  | callback =>
    simp only [pstep] at hs
    split at hs
    · simp at hs
    · rename_i op rest hto
      split at hs
      · simp at hs
      · rename_i s' evs' ab hr
        obtain ⟨rfl, rfl⟩ := fin hs
        obtain ⟨ls, gs, hre, -⟩ := hi.rest
        rw [hto] at hre
        generalize t.sys.handles = hh at hre
        cases hre with
        | print l _ =>
          simp only [runOp, Option.some.injEq, Prod.mk.injEq] at hr; obtain ⟨rfl, rfl, rfl⟩ := hr; exact ⟨rfl, by simp [shown]⟩
        | drop x =>
          obtain ⟨es, hr', rfl, rfl⟩ := runOp_call hr
          rw [shown_ev]
          exact reply_aside hr' (.inl ⟨_, rfl⟩)
        | reply x vs g _ =>
          obtain ⟨es, hr', rfl, rfl⟩ := runOp_call hr
          rw [shown_ev]
          exact reply_aside hr' (.inr ⟨_, _, _, rfl⟩)
  | env a =>
    by_cases hw : ∃ w b, a = .recv w b
    · obtain ⟨w, b, rfl⟩ := hw
      simp [pstep, hce] at hs
    · have h' : (if a.ofAwait = true ∨ (a.ofTask = true ∧ t.callback.isEmpty = true) then
          match step cfg t.sys a with
          | none => none
          | some (s', evs) => some ((⟨s', t.todo, t.callback⟩ : PSys), evs.map PEv.ev)
        else none) = some (t', evs) := by
        rw [← hs]
        cases a <;> first | rfl | exact absurd ⟨_, _, rfl⟩ hw
      split at h'
      · rename_i hco
        split at h'
        · simp at h'
        · rename_i s' evs' hst
          obtain ⟨rfl, rfl⟩ := fin h'
          rw [shown_ev]
          rcases hco with hco | hco
          · exact await_aside hst hco
          · rw [hce] at hco
            exact absurd hco.2 (by simp)
      · simp at h'

/-- What can be seen of an execution of a program: the messages written, the lines of the main function and of the
callbacks, how many operations are left, and whether the lock is poisoned. -/
def outcomeOf (cfg : RCfg) (p : AppProg) (acts : List PAct) : Option (List Ws × List Str × List Str × Nat × Bool) :=
  (pexec cfg p p.init acts).map fun x =>
    (written (shown x.2), output true x.2, output false x.2, x.1.todo.length, x.1.sys.poisoned)

def exStart : List PAct := [.env .handshakeOk, .env (.recv exOpen false), .env .openReady]

def exText (s : String) : PAct := .env (.recv (.text s.toList) false)

-- socketio_test.rs with a server that asks for an ack, sends another event and acknowledges the event of the program
example : outcomeOf exCfg socketioTest (exStart ++ List.replicate 11 .main ++
      [exText "427[\"types\",1]", .callback, .callback, .callback, exText "42[\"x\",true]", .callback, exText "430[\"ok\"]",
        .callback, exText "2", .env .dequeue, .env .write, .env .write, .env .endGroup, .env .dequeue, .env .write,
        .env .endGroup, .env .dequeue, .env .write, .main, .main, .env .closeTimeout, .main]) =
    some (theEvent ++ [theReply 7, .text ['3']], ["Callbacks registered".toList],
      ["types messaged received: [\"types\", 1]".toList, "Emitting ack".toList, "[\"x\", true]".toList,
        "event ack received: [\"ok\"]".toList], 0, false) := by
  decide +kernel

-- arguments that cannot be printed: the callback panics, and so does the next registration
example : outcomeOf exCfg socketioTest (exStart ++ [.main, .env (.recv (.text "42[\"x\",\"\\ud800\"]".toList) true), .main, .main]) =
    some ([], [], [], 0, true) := by
  decide +kernel

-- and not otherwise
example : outcomeOf exCfg socketioTest (exStart ++ [.main, .env (.recv (.text "42[\"x\",\"y\"]".toList) true)]) = none := by
  decide +kernel

-- while a callback runs, the program cannot register another one
example : outcomeOf exCfg socketioTest (exStart ++ [.main, exText "42[\"types\"]", .main]) = none := by
  decide +kernel

-- ws_connect.rs with a namespace
example : outcomeOf exCfg (wsConnect (some "/a".toList)) (exStart ++
      [.main, .main, .main, exText "42/a,5[\"x\",1]", .callback, .callback, exText "42[\"y\"]", .callback, .env .dequeue,
        .env .write, .env .endGroup, .main, .main, .env .closeTimeout, .main]) =
    some ([.text "40/a,".toList], [], ["/a: [\"x\", 1]".toList, "[\"y\"]".toList], 0, false) := by
  decide +kernel

-- without one
example : outcomeOf exCfg (wsConnect none) (exStart ++ [.main, exText "42[\"y\"]", .callback, .main, .main, .env .closeTimeout, .main]) =
    some ([], [], ["[\"y\"]".toList], 0, false) := by
  decide +kernel

-- with the namespace "/", the second callback takes the place of the first
example : outcomeOf exCfg (wsConnect (some ['/'])) (exStart ++ [.main, .main, exText "42[\"y\"]", .callback]) =
    some ([], [], ["/: [\"y\"]".toList], 4, false) := by
  decide +kernel

-- the connection ends before the message is sent, and so does the program
example : outcomeOf exCfg (wsConnect (some "/a".toList)) (exStart ++ [.main, .main, .env .streamEnd, .main, .main]) =
    some ([], [], [], 0, false) := by
  decide +kernel

end SIO
