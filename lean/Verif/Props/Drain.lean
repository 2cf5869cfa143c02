import Verif.Spec.Drain
import Verif.Props.Pair
import Verif.Props.Bounded
/-
Two clients that are connected with each other: everything they have sent gets through, whatever the schedule.
-/
namespace SIO

open SIO.Spec

theorem steady_written {cfg : RCfg} {acts : List Act} {s : Sys} {tr : List Ev} (h : Runs cfg acts s tr)
    {ss : List (Sent × List Ws)} (hs : ss.map Prod.snd = groups tr) (hf : ∀ x ∈ ss, Fit x) : ∀ w ∈ written tr, Steady w := by
  intro w hw
  obtain ⟨whole, more, part, h1, h2, h3⟩ := C32_wire cfg acts s tr h
  have hg : ∃ g ∈ groups tr, w ∈ g := by
    rw [h2] at hw
    rcases List.mem_append.1 hw with hw | hw
    · obtain ⟨g, hg, hw⟩ := List.mem_flatten.1 hw
      exact ⟨g, by rw [h1]; simp [hg], hw⟩
    · rcases h3 with rfl | ⟨g, rest, rfl, h3⟩
      · simp at hw
      · exact ⟨g, by rw [h1]; simp, h3.subset hw⟩
  obtain ⟨g, hg, hw⟩ := hg
  rw [← hs] at hg
  obtain ⟨x, hx, rfl⟩ := List.mem_map.1 hg
  exact fit_steady (hf x hx) w hw

theorem steady_plain {w : Ws} (h : Steady w) : ¬ IsPing w ∧ dataOf [w] = [w] := by
  rcases h with h | ⟨t, h⟩ | ⟨b, h⟩ <;> cases h <;> exact ⟨by simp [IsPing], rfl⟩

theorem opening_plain {w : Ws} {op : Open} (h : Wire w (.opened op)) : ¬ IsPing w ∧ dataOf [w] = [w] := by
  cases h
  exact ⟨by simp [IsPing], rfl⟩

/-- What receiving a message that is no ping does to the rest of the client. -/
theorem recv_shape {cfg : RCfg} {s s' : Sys} {evs rest : List Ev} {w : Ws} (tr : List Ev) (ht : Trans cfg s s' evs)
    (he : evs = .received w :: rest) (hw : ¬ IsPing w) :
    inbox evs = [w] ∧ written evs = [] ∧ sources evs = [] ∧ ackIds evs = [] ∧ .closeSeen ∉ evs ∧
    incomingFrom tr evs = ((payload? w).map fun pl => (Who.after (history tr), pl)).toList ∧
    ((∃ r, .taskEnd r ∈ evs) ∨ (s'.task = s.task ∧ s'.queue = s.queue)) := by
  cases ht with
  | sendOk src g s0 evs hs =>
    cases hs <;> simp at he
    obtain ⟨rfl, _⟩ := he
    exact absurd (by assumption) hw
  | sendFail src g s0 evs hs =>
    cases hs <;> simp at he
    obtain ⟨rfl, _⟩ := he
    exact absurd (by assumption) hw
  | recvEvent w' st ns name cb A ack =>
    simp only [List.cons.injEq, Ev.received.injEq] at he
    obtain ⟨rfl, _⟩ := he
    cases ack <;> exact ⟨rfl, rfl, rfl, rfl, by simp, by simp [incomingFrom], Or.inr ⟨rfl, rfl⟩⟩
  | _ =>
    simp at he
    try
      obtain ⟨rfl, _⟩ := he
      first
        | exact ⟨rfl, rfl, rfl, rfl, by simp, by simp [incomingFrom], Or.inr ⟨rfl, rfl⟩⟩
        | exact ⟨rfl, rfl, rfl, rfl, by simp, by simp [incomingFrom], Or.inl ⟨_, by simp; rfl⟩⟩

/-- What has come can be acted on, if it is what the other side has sent. -/
theorem accepted_stream {cfgA cfgB : RCfg} {actsA : List Act} {sA : Sys} {trA trB : List Ev}
    (hA : Runs cfgA actsA sA trA) {ss : List (Sent × List Ws)}
    (hs : ss.map Prod.snd = groups trA) (hf : ∀ x ∈ ss, Fit x) (hread : ∀ x ∈ ss, x.1.Readable cfgB.ext.fin)
    {o : Ws} {op : Open} (ho : Wire o (.opened op)) (hc : dataOf (inbox trB) <+: o :: written trA)
    (hw : ∃ cs, Delivered (incoming trB) ss cs) :
    EngineOk .fresh (inbox trB) ∧ ∃ cs, Dispatched cfgB (incoming trB) cs := by
  obtain ⟨cs, hw⟩ := hw
  refine ⟨engineOk_data ?_, dispatched_of (cfg := cfgB) hw hf hread⟩
  have hall := steady_written hA hs hf
  generalize dataOf (inbox trB) = d at hc
  cases d with
  | nil => exact .nil _
  | cons y d =>
    rw [List.cons_prefix_cons] at hc
    obtain ⟨rfl, hc⟩ := hc
    exact .opening ho (engineOk_steady fun w hw => hall w (hc.subset hw))

/-- Two clients are connected with each other and both send only what can be sent and read (C57); `ssA` and `ssB` is what
they have sent. -/
structure Talk (cfgA cfgB : RCfg) (oA oB : Ws) (sA : Sys) (tA : List Ev) (sB : Sys) (tB : List Ev)
    (ssA ssB : List (Sent × List Ws)) : Prop where
  openA : ∃ op, Wire oA (.opened op)
  openB : ∃ op, Wire oB (.opened op)
  joint : Joint cfgA cfgB oA oB sA tA sB tB
  sentA : ssA.map (fun x => (x.1.src, x.2)) = sources tA
  sentB : ssB.map (fun x => (x.1.src, x.2)) = sources tB
  fitA : ∀ x ∈ ssA, Fit x ∧ x.1.Readable cfgB.ext.fin
  fitB : ∀ x ∈ ssB, Fit x ∧ x.1.Readable cfgA.ext.fin
  idsA : (ackIds tA).length ≤ 2 ^ 64
  idsB : (ackIds tB).length ≤ 2 ^ 64

theorem Talk.swap {cfgA cfgB : RCfg} {oA oB : Ws} {sA sB : Sys} {tA tB : List Ev} {ssA ssB : List (Sent × List Ws)}
    (h : Talk cfgA cfgB oA oB sA tA sB tB ssA ssB) : Talk cfgB cfgA oB oA sB tB sA tA ssB ssA :=
  ⟨h.openB, h.openA, h.joint.swap, h.sentB, h.sentA, h.fitB, h.fitA, h.idsB, h.idsA⟩

theorem effects_task : ∀ (es : List Eff) (s : Sys) (r : Res CErr Unit), .taskEnd r ∉ (s.effects es).2
  | [], s, r => by simp [Sys.effects]
  | e :: es, s, r => by
    simp only [Sys.effects, List.mem_append, not_or]
    refine ⟨?_, effects_task es _ r⟩
    cases e with
    | enqueue g => simp only [Sys.effect, Sys.enqueue]; split <;> simp
    | _ => simp [Sys.effect]

/-- The next message of the peer is accepted. -/
theorem talk_accepts {cfgA cfgB : RCfg} {oA oB : Ws} {sA sB sA' : Sys} {tA tB evs : List Ev} {ssA ssB : List (Sent × List Ws)}
    (h : Talk cfgA cfgB oA oB sA tA sB tB ssA ssB) {w : Ws} (hs : step cfgA sA (.recv w false) = some (sA', evs))
    (hc : dataOf (inbox tA) ++ [w] <+: oA :: written tB) :
    Talk cfgA cfgB oA oB sA' (tA ++ evs) sB tB ssA ssB ∧ inbox evs = [w] ∧ dataOf [w] = [w] ∧ written evs = [] ∧
      sources evs = [] ∧ ackIds evs = [] ∧ .closeSeen ∉ evs ∧ sA'.task = sA.task ∧ sA'.queue = sA.queue := by
  obtain ⟨opA, hoA⟩ := h.openA
  obtain ⟨opB, hoB⟩ := h.openB
  obtain ⟨actsA, hA⟩ := h.joint.runs
  obtain ⟨actsB, hB⟩ := h.joint.swap.runs
  have hr : sA.task.reads := by
    simp only [step] at hs
    split at hs
    · exact Or.inl (by assumption)
    · exact Or.inr (by assumption)
    · simp at hs
  have hst : step cfgA sA (.recv w false) = some (sA.recv cfgA w false) := by
    rcases hr with hr | hr <;> simp [step, hr]
  have hout : (sA', evs) = sA.recv cfgA w false := by
    rw [hs] at hst
    exact Option.some.inj hst
  have hplain : ¬ IsPing w ∧ dataOf [w] = [w] := by
    have hm : w ∈ oA :: written tB := hc.subset (by simp)
    rcases List.mem_cons.1 hm with rfl | hm
    · exact opening_plain hoA
    · exact steady_plain (steady_written hB (sources_groups h.sentB) (fun x hx => (h.fitB x hx).1) w hm)
  have h0 : ∃ rest, evs = .received w :: rest := by
    have : evs = (sA.recv cfgA w false).2 := congrArg Prod.snd hout
    rw [this]
    unfold Sys.recv
    simp only [Bool.false_eq_true, false_and, if_false]
    split <;> exact ⟨_, rfl⟩
  obtain ⟨rest, he⟩ := h0
  obtain ⟨e1, e2, e3, e4, e5, e6, e7⟩ := recv_shape tA (step_trans hs) he hplain.1
  have hin : dataOf (inbox (tA ++ evs)) = dataOf (inbox tA) ++ [w] := by rw [inbox_append, dataOf_append, e1, hplain.2]
  have hj : Joint cfgA cfgB oA oB sA' (tA ++ evs) sB tB := .left h.joint hs (by rw [hin]; exact hc)
  have ht : Talk cfgA cfgB oA oB sA' (tA ++ evs) sB tB ssA ssB := by
    refine ⟨h.openA, h.openB, hj, ?_, h.sentB, h.fitA, h.fitB, ?_, h.idsB⟩
    · have : sources (tA ++ evs) = sources tA ++ sources evs := by simp [sources]
      rw [this, e3, List.append_nil]
      exact h.sentA
    · have : ackIds (tA ++ evs) = ackIds tA ++ ackIds evs := by simp [ackIds]
      rw [this, e4, List.append_nil]
      exact h.idsA
  obtain ⟨_, _, ⟨cs, _, hd⟩, _⟩ := C57_pair cfgA cfgB oA oB opA opB sA' sB (tA ++ evs) tB ssA ssB hoA hoB hj ht.sentA ht.sentB
    h.fitA h.fitB ht.idsA ht.idsB
  obtain ⟨g1, cs', g2⟩ := accepted_stream (cfgB := cfgA) hB (sources_groups h.sentB) (fun x hx => (h.fitB x hx).1) (fun x hx => (h.fitB x hx).2)
    hoA (by rw [hin]; exact hc) ⟨cs, hd⟩
  obtain ⟨l, k1, k2, _, k4, _, _⟩ := streamInv hA
  obtain ⟨j1, j2, j3⟩ := k4 (Or.inl hr.live)
  have hok : (processWs cfgA sA.rx sA.reg w).res = .ok () := by
    have m1 : (l ++ [(sA.reg, w)]).map Prod.snd = inbox (tA ++ evs) := by
      rw [inbox_append, e1, List.map_append, k1]; rfl
    have m2 : marks (whos (l ++ [(sA.reg, w)])) = incoming (tA ++ evs) := by
      rw [incoming_append, e6, ← k2, ← whoOf_ginv (ginv hA)]
      unfold marks whos
      rw [List.map_append, List.filterMap_append]
      congr 1
    have := (stream_runs cfgA (l ++ [(sA.reg, w)]) RState.new cs' (by rw [m1]; exact g1) (Or.inl ⟨rfl, by rw [m2]; exact g2⟩)).1
    rw [outs_append, ← j1] at this
    exact this (processWs cfgA sA.rx sA.reg w) (by simp [outs])
  refine ⟨ht, e1, hplain.2, e2, e3, e4, e5, ?_⟩
  rcases e7 with ⟨r, hr'⟩ | h7
  · exfalso
    have : evs = (sA.recv cfgA w false).2 := congrArg Prod.snd hout
    rw [this] at hr'
    unfold Sys.recv at hr'
    simp only [Bool.false_eq_true, false_and, if_false, hok] at hr'
    simp only [List.mem_cons, reduceCtorEq, false_or] at hr'
    exact effects_task _ _ _ hr'
  · exact h7

theorem written_append' (a b : List Ev) : written (a ++ b) = written a ++ written b := by simp [written]

theorem talk_quiet {cfgA cfgB : RCfg} {oA oB : Ws} {sA sB sA' : Sys} {tA tB evs : List Ev} {ssA ssB : List (Sent × List Ws)} {a : Act}
    (h : Talk cfgA cfgB oA oB sA tA sB tB ssA ssB) (hs : step cfgA sA a = some (sA', evs)) (h1 : inbox evs = [])
    (h2 : sources evs = []) (h3 : ackIds evs = []) : Talk cfgA cfgB oA oB sA' (tA ++ evs) sB tB ssA ssB := by
  refine ⟨h.openA, h.openB, .left h.joint hs ?_, ?_, h.sentB, h.fitA, h.fitB, ?_, h.idsB⟩
  · rw [inbox_append, h1, List.append_nil]
    exact h.joint.link
  · have : sources (tA ++ evs) = sources tA ++ sources evs := by simp [sources]
    rw [this, h2, List.append_nil]
    exact h.sentA
  · have : ackIds (tA ++ evs) = ackIds tA ++ ackIds evs := by simp [ackIds]
    rw [this, h3, List.append_nil]
    exact h.idsA

/-- A piece of work is less work, and it keeps the task and what was sent. -/
theorem chore_keeps {cfgA cfgB : RCfg} {oA oB : Ws} {sA sB sA' : Sys} {tA tB evs : List Ev} {ssA ssB : List (Sent × List Ws)}
    (h : Talk cfgA cfgB oA oB sA tA sB tB ssA ssB) (hl : sA.task.live = true) (hc : Chore cfgA oA tB sA tA sA' evs) :
    Talk cfgA cfgB oA oB sA' (tA ++ evs) sB tB ssA ssB ∧ sA'.task.live = true ∧ .closeSeen ∉ evs ∧
      workLeft sA tA sB tB = workLeft sA' (tA ++ evs) sB tB + 1 := by
  have l1 := h.joint.link.length_le
  have l2 := h.joint.swap.link.length_le
  rw [List.length_cons] at l1 l2
  cases hc with
  | @read w _ _ hs hc =>
    obtain ⟨h1, h2, h2', h3, _, _, h6, h7, h8⟩ := talk_accepts h hs hc
    refine ⟨h1, by rw [h7]; exact hl, h6, ?_⟩
    have hle := hc.length_le
    rw [List.length_append, List.length_singleton, List.length_cons] at hle
    unfold workLeft onItsWay toSend
    rw [h7, h8, written_append', h3, List.append_nil, inbox_append, h2, dataOf_append, h2', List.length_append, List.length_singleton]
    omega
  | @take g _ hs =>
    have hs' := hs
    simp only [step] at hs'
    split at hs' <;> try (simp at hs')
    rename_i htask
    split at hs' <;> try (split at hs' <;> simp [Sys.finishTask] at hs')
    · rename_i g' q hq
      simp only [Option.some.injEq, Prod.mk.injEq, List.cons.injEq, Ev.dequeued.injEq, and_true] at hs'
      obtain ⟨rfl, rfl⟩ := hs'
      refine ⟨talk_quiet h hs rfl rfl rfl, rfl, by simp, ?_⟩
      unfold workLeft onItsWay toSend
      rw [written_append', inbox_append, show written [Ev.dequeued g'] = [] from rfl, show inbox [Ev.dequeued g'] = [] from rfl,
        List.append_nil, List.append_nil, htask, hq]
      simp only [List.map_cons, List.sum_cons]
      omega
  | @write w _ hs =>
    have hs' := hs
    simp only [step] at hs'
    split at hs' <;> try (simp at hs')
    rename_i w' rest htask
    obtain ⟨rfl, rfl⟩ := hs'
    refine ⟨talk_quiet h hs rfl rfl rfl, rfl, by simp, ?_⟩
    unfold workLeft onItsWay toSend
    rw [written_append', inbox_append, show written [Ev.wrote w'] = [w'] from rfl, show inbox [Ev.wrote w'] = [] from rfl,
      List.append_nil, htask]
    simp only [List.length_append, List.length_cons, List.length_nil]
    omega
  | finish hs =>
    have hs' := hs
    simp only [step] at hs'
    split at hs' <;> try (simp at hs')
    rename_i htask
    subst hs'
    refine ⟨talk_quiet h hs rfl rfl rfl, rfl, by simp, ?_⟩
    unfold workLeft onItsWay toSend
    rw [written_append', inbox_append, show written [Ev.groupDone] = [] from rfl, show inbox [Ev.groupDone] = [] from rfl,
      List.append_nil, List.append_nil, htask]
    simp only [List.length_nil]
    omega

theorem chores_keep {cfgA cfgB : RCfg} {oA oB : Ws} {sA0 sB0 sA sB : Sys} {tA0 tB0 tA tB : List Ev} {ssA ssB : List (Sent × List Ws)}
    (h : Talk cfgA cfgB oA oB sA0 tA0 sB0 tB0 ssA ssB) (hA : sA0.task.live = true) (hB : sB0.task.live = true) {k : Nat}
    (hw : Chores cfgA cfgB oA oB sA0 tA0 sB0 tB0 k sA tA sB tB) :
    Talk cfgA cfgB oA oB sA tA sB tB ssA ssB ∧ sA.task.live = true ∧ sB.task.live = true ∧
      (∃ u, tA = tA0 ++ u ∧ .closeSeen ∉ u) ∧ (∃ u, tB = tB0 ++ u ∧ .closeSeen ∉ u) ∧
      workLeft sA0 tA0 sB0 tB0 = workLeft sA tA sB tB + k := by
  have comm : ∀ (sA : Sys) (tA : List Ev) (sB : Sys) (tB : List Ev), workLeft sA tA sB tB = workLeft sB tB sA tA := by
    intro sA tA sB tB
    unfold workLeft
    omega
  induction hw with
  | now => exact ⟨h, hA, hB, ⟨[], by simp⟩, ⟨[], by simp⟩, rfl⟩
  | @left k sA sB sA' tA tB evs _ hc ih =>
    obtain ⟨h1, h2, h3, ⟨u, h4, h5⟩, h6, h7⟩ := ih
    obtain ⟨k1, k2, k3, k4⟩ := chore_keeps h1 h2 hc
    exact ⟨k1, k2, h3, ⟨u ++ evs, by rw [h4, List.append_assoc], by simp [h5, k3]⟩, h6, by omega⟩
  | @right k sA sB sB' tA tB evs _ hc ih =>
    obtain ⟨h1, h2, h3, h6, ⟨u, h4, h5⟩, h7⟩ := ih
    obtain ⟨k1, k2, k3, k4⟩ := chore_keeps h1.swap h3 hc
    rw [comm sB, comm sB'] at k4
    exact ⟨k1.swap, h2, k2, h6, ⟨u ++ evs, by rw [h4, List.append_assoc], by simp [h5, k3]⟩, by omega⟩

/-- A task that cannot work has received everything and has nothing to send, unless it is closing. -/
theorem no_chore {cfgA cfgB : RCfg} {oA oB : Ws} {sA sB : Sys} {tA tB : List Ev} {ssA ssB : List (Sent × List Ws)}
    (h : Talk cfgA cfgB oA oB sA tA sB tB ssA ssB) (hl : sA.task.live = true) (hn : ¬ ∃ s' evs, Chore cfgA oA tB sA tA s' evs) :
    dataOf (inbox tA) = oA :: written tB ∧ (.closeSeen ∉ tA → written tA = (groups tA).flatten) := by
  obtain ⟨acts, hr⟩ := h.joint.runs
  have read : sA.task.reads → dataOf (inbox tA) = oA :: written tB := by
    intro hrd
    apply Classical.byContradiction
    intro hne
    obtain ⟨x, h1, h2⟩ := prefix_next h.joint.link hne
    obtain ⟨s', evs, h3, _, _⟩ := recv_io cfgA sA x hrd
    exact hn ⟨s', evs, .read h3 h1⟩
  have hi := winv hr
  cases ht : sA.task with
  | unborn => rw [ht] at hl; simp [Task.live] at hl
  | dropped => rw [ht] at hl; simp [Task.live] at hl
  | done r => rw [ht] at hl; simp [Task.live] at hl
  | closing =>
    refine ⟨read (Or.inr ht), fun hc => ?_⟩
    exact absurd ((kinv hr).closing ht) hc
  | running =>
    refine ⟨read (Or.inl ht), fun _ => ?_⟩
    have hq : sA.queue = [] := by
      cases hq : sA.queue with
      | nil => rfl
      | cons g q => exact absurd ⟨_, _, .take (g := g) (by simp [step, ht, hq]; rfl)⟩ hn
    have h1 := hi.wire
    rw [ht] at h1
    rcases hi.queue with h2 | h2
    · rw [h2, hq, List.append_nil]
      exact h1
    · rw [hl] at h2
      simp at h2
  | writing l =>
    exfalso
    cases l with
    | nil => exact hn ⟨_, _, .finish (by simp [step, ht]; rfl)⟩
    | cons w rest => exact hn ⟨_, _, .write (w := w) (by simp [step, ht]; rfl)⟩

/-- If everything has come, everything has been told. -/
theorem delivered_all {ms : List (Who × Payload)} {ss : List (Sent × List Ws)} {cs : List Call} (h : Delivered ms ss cs)
    (hf : ∀ x ∈ ss, Fit x) (hm : ms.map Prod.snd = pays ss) : AllTold ss cs := by
  induction h with
  | nothing ss =>
    induction ss with
    | nil => exact .nil
    | cons x ss ih =>
      obtain ⟨s, g⟩ := x
      have h1 : g.filterMap payload? = [] ∧ pays ss = [] := by
        have := hm.symm
        simp only [pays, List.flatMap_cons, List.map_nil, List.append_eq_nil_iff] at this
        exact this
      have hs : s = .pong := by
        apply Classical.byContradiction
        intro hne
        exact fit_payloads (hf (s, g) (by simp)) hne h1.1
      subst hs
      exact .pong (ih (fun x hx => hf x (by simp [hx])) (by rw [h1.2]; rfl))
  | @pong ms g ss cs _ ih =>
    refine .pong (ih (fun x hx => hf x (by simp [hx])) ?_)
    have h0 : g = [.text ['3']] := (hf (.pong, g) (by simp)).group
    subst h0
    simpa [pays, payload?] using hm
  | @cut ms s g ss more h1 h2 =>
    exfalso
    have e := congrArg List.length h1
    have e' := congrArg List.length hm
    simp only [pays, List.flatMap_cons, List.length_append] at e e'
    have : more.length ≠ 0 := fun h => h2 (List.length_eq_zero_iff.1 h)
    omega
  | @whole pre rest who pl s g ss now later h1 h2 _ ih =>
    refine .told h2 (ih (fun x hx => hf x (by simp [hx])) ?_)
    have e : (pre ++ (who, pl) :: rest).map Prod.snd = (pre ++ [(who, pl)]).map Prod.snd ++ rest.map Prod.snd := by simp
    rw [e, h1] at hm
    simp only [pays, List.flatMap_cons] at hm
    exact List.append_cancel_left hm

/-- C72: while the applications wait, the connection tasks of two clients that are connected with each other do not fail
and send nothing else, whatever the order in which they work; and each piece of work leaves one piece less. -/
theorem C72_work (cfgA cfgB : RCfg) (oA oB : Ws) (sA0 sB0 sA sB : Sys) (tA0 tB0 tA tB : List Ev) (ssA ssB : List (Sent × List Ws))
    (h : Talk cfgA cfgB oA oB sA0 tA0 sB0 tB0 ssA ssB) (hA : sA0.task.live = true) (hB : sB0.task.live = true) (k : Nat)
    (hw : Chores cfgA cfgB oA oB sA0 tA0 sB0 tB0 k sA tA sB tB) :
    Talk cfgA cfgB oA oB sA tA sB tB ssA ssB ∧ sA.task.live = true ∧ sB.task.live = true ∧
      workLeft sA0 tA0 sB0 tB0 = workLeft sA tA sB tB + k := by
  obtain ⟨h1, h2, h3, _, _, h4⟩ := chores_keep h hA hB hw
  exact ⟨h1, h2, h3, h4⟩

/-- C72: when neither of them can work any more, each has received all that the other one has written; and if the other
one has not turned to closing, that is all it has sent, and the callbacks have been called for exactly that, in order. -/
theorem C72_delivered (cfgA cfgB : RCfg) (oA oB : Ws) (sA0 sB0 sA sB : Sys) (tA0 tB0 tA tB : List Ev) (ssA ssB : List (Sent × List Ws))
    (h : Talk cfgA cfgB oA oB sA0 tA0 sB0 tB0 ssA ssB) (hA : sA0.task.live = true) (hB : sB0.task.live = true) (k : Nat)
    (hw : Chores cfgA cfgB oA oB sA0 tA0 sB0 tB0 k sA tA sB tB)
    (hnA : ¬ ∃ s' evs, Chore cfgA oA tB sA tA s' evs) (hnB : ¬ ∃ s' evs, Chore cfgB oB tA sB tB s' evs) :
    dataOf (inbox tA) = oA :: written tB ∧ dataOf (inbox tB) = oB :: written tA ∧
    (.closeSeen ∉ tB0 → dataOf (inbox tA) = oA :: (ssB.map Prod.snd).flatten ∧ ∃ cs, Makes (effects tA) cs ∧ AllTold ssB cs) ∧
    (.closeSeen ∉ tA0 → dataOf (inbox tB) = oB :: (ssA.map Prod.snd).flatten ∧ ∃ cs, Makes (effects tB) cs ∧ AllTold ssA cs) := by
  obtain ⟨h1, h2, h3, ⟨uA, eA, cA⟩, ⟨uB, eB, cB⟩, _⟩ := chores_keep h hA hB hw
  obtain ⟨i1, i2⟩ := no_chore h1 h2 hnA
  obtain ⟨i3, i4⟩ := no_chore h1.swap h3 hnB
  have side : ∀ {cfgA cfgB : RCfg} {oA oB : Ws} {sA sB : Sys} {tA tB : List Ev} {ssA ssB : List (Sent × List Ws)},
      Talk cfgA cfgB oA oB sA tA sB tB ssA ssB → dataOf (inbox tA) = oA :: written tB → written tB = (groups tB).flatten →
      dataOf (inbox tA) = oA :: (ssB.map Prod.snd).flatten ∧ ∃ cs, Makes (effects tA) cs ∧ AllTold ssB cs := by
    intro cfgA cfgB oA oB sA sB tA tB ssA ssB h hi hw
    obtain ⟨opA, hoA⟩ := h.openA
    obtain ⟨opB, hoB⟩ := h.openB
    obtain ⟨_, _, ⟨cs, hm, hd⟩, _⟩ := C57_pair cfgA cfgB oA oB opA opB sA sB tA tB ssA ssB hoA hoB h.joint h.sentA h.sentB
      h.fitA h.fitB h.idsA h.idsB
    have e : dataOf (inbox tA) = oA :: (ssB.map Prod.snd).flatten := by rw [hi, hw, sources_groups h.sentB]
    refine ⟨e, cs, hm, delivered_all hd (fun x hx => (h.fitB x hx).1) ?_⟩
    have p1 := come_payloads (tr := tA) hoA (l := ssB) (by rw [e]; exact List.prefix_refl _)
    obtain ⟨_, hB⟩ := h.joint.swap.runs
    have p2 := link_prefix hB (sources_groups h.sentB) hoA h.joint.link
    exact p2.eq_of_length_le p1.length_le
  refine ⟨i1, i3, fun hc => ?_, fun hc => ?_⟩
  · exact side h1 i1 (i4 (by rw [eB]; simp [hc, cB]))
  · exact side h1.swap i3 (i2 (by rw [eA]; simp [hc, cA]))

/-- C72: the work can be done. -/
theorem C72_possible (cfgA cfgB : RCfg) (oA oB : Ws) (sA0 sB0 : Sys) (tA0 tB0 : List Ev) (ssA ssB : List (Sent × List Ws))
    (h : Talk cfgA cfgB oA oB sA0 tA0 sB0 tB0 ssA ssB) (hA : sA0.task.live = true) (hB : sB0.task.live = true) :
    ∃ k sA tA sB tB, k ≤ workLeft sA0 tA0 sB0 tB0 ∧ Chores cfgA cfgB oA oB sA0 tA0 sB0 tB0 k sA tA sB tB ∧
      (¬ ∃ s' evs, Chore cfgA oA tB sA tA s' evs) ∧ ¬ ∃ s' evs, Chore cfgB oB tA sB tB s' evs := by
  have key : ∀ (m : Nat) (k : Nat) (sA : Sys) (tA : List Ev) (sB : Sys) (tB : List Ev),
      Chores cfgA cfgB oA oB sA0 tA0 sB0 tB0 k sA tA sB tB → workLeft sA tA sB tB ≤ m →
      ∃ k sA tA sB tB, Chores cfgA cfgB oA oB sA0 tA0 sB0 tB0 k sA tA sB tB ∧
        (¬ ∃ s' evs, Chore cfgA oA tB sA tA s' evs) ∧ ¬ ∃ s' evs, Chore cfgB oB tA sB tB s' evs := by
    intro m
    induction m with
    | zero =>
      intro k sA tA sB tB hw hm
      refine ⟨k, sA, tA, sB, tB, hw, ?_, ?_⟩
      · rintro ⟨s', evs, hc⟩
        have e1 := (chores_keep h hA hB hw).2.2.2.2.2
        have e2 := (chores_keep h hA hB (.left hw hc)).2.2.2.2.2
        omega
      · rintro ⟨s', evs, hc⟩
        have e1 := (chores_keep h hA hB hw).2.2.2.2.2
        have e2 := (chores_keep h hA hB (.right hw hc)).2.2.2.2.2
        omega
    | succ m ih =>
      intro k sA tA sB tB hw hm
      have e1 := (chores_keep h hA hB hw).2.2.2.2.2
      by_cases hcA : ∃ s' evs, Chore cfgA oA tB sA tA s' evs
      · obtain ⟨s', evs, hc⟩ := hcA
        have e2 := (chores_keep h hA hB (.left hw hc)).2.2.2.2.2
        exact ih _ _ _ _ _ (.left hw hc) (by omega)
      · by_cases hcB : ∃ s' evs, Chore cfgB oB tA sB tB s' evs
        · obtain ⟨s', evs, hc⟩ := hcB
          have e2 := (chores_keep h hA hB (.right hw hc)).2.2.2.2.2
          exact ih _ _ _ _ _ (.right hw hc) (by omega)
        · exact ⟨k, sA, tA, sB, tB, hw, hcA, hcB⟩
  obtain ⟨k, sA, tA, sB, tB, h1, h2, h3⟩ := key _ 0 sA0 tA0 sB0 tB0 .now (Nat.le_refl _)
  refine ⟨k, sA, tA, sB, tB, ?_, h1, h2, h3⟩
  have := (chores_keep h hA hB h1).2.2.2.2.2
  omega

/-- Both connect; one has sent an event and its task has not begun to work. -/
def exWaits : List (Bool × Act) :=
  exConnect.map (fun a => (true, a)) ++ exConnect.map (fun a => (false, a)) ++
    [(false, .reg (.setEvent ['/'] ['b'] 2)),
     (true, .emitStart ['/'] ['b']), (true, .emitCallback), (true, .emitArgs), (true, .emitSend), (true, .emitEnqueue)]

def exWaiting : List (Sent × List Ws) := [(.event ['/'] ['b'] (some (0, 0)) false [], [.text "420[\"b\"]".toList])]

theorem exWaits_talk {A B : Sys × List Ev} (h : runPair exCfg exOpen pairFrom pairFrom exWaits = some (A, B)) :
    Talk exCfg exCfg exOpen exOpen A.1 A.2 B.1 B.2 exWaiting [] := by
  have ho : ∃ op, Wire exOpen (.opened op) :=
    ⟨⟨['s'], 2, 1⟩, ((C50_decoded [exOpen] 0 _).1
      ⟨.opened ⟨['s'], 2, 1⟩, by unfold DecodedAt; decide +kernel, .opened _⟩).elim fun w hw => by
        have h1 := hw.1
        simp only [List.getElem?_cons_zero, Option.some.injEq] at h1
        subst h1
        exact hw.2.1⟩
  have e : (runPair exCfg exOpen pairFrom pairFrom exWaits).map (fun x => (sources x.1.2, sources x.2.2,
      (ackIds x.1.2).length, (ackIds x.2.2).length)) =
      some (exWaiting.map (fun x => (x.1.src, x.2)), [], 1, 0) := by decide +kernel
  rw [h] at e
  simp only [Option.map_some, Option.some.injEq, Prod.mk.injEq] at e
  obtain ⟨e1, e2, e3, e4⟩ := e
  refine ⟨ho, ho, runPair_joint _ _ _ _ _ .start h, e1.symm, by rw [e2]; rfl, ?_, by simp, by rw [e3]; decide, by rw [e4]; decide⟩
  intro x hx
  simp only [exWaiting, List.mem_singleton] at hx
  subst hx
  refine ⟨⟨exSent_group (by simp) (by decide +kernel), ⟨Or.inl rfl, by simp⟩, ⟨by simp, by simp, by decide +kernel⟩, Or.inl rfl⟩, ?_⟩
  simp [Sent.Readable, Sent.docs, DocReadable, docDepth, docNums, NoRaw, Doc.keys, Sent.binary]

-- four pieces of work are left, whatever the order: take the group, write the message, end the group, receive the message
example : (runPair exCfg exOpen pairFrom pairFrom exWaits).map (fun x => (x.1.1.task.live, x.2.1.task.live,
    workLeft x.1.1 x.1.2 x.2.1 x.2.2)) = some (true, true, 4) := by decide +kernel
example : (runPair exCfg exOpen pairFrom pairFrom (exWaits ++ [(true, .dequeue), (true, .write),
    (false, .recv (.text "420[\"b\"]".toList) false), (true, .endGroup)])).map (fun x => (workLeft x.1.1 x.1.2 x.2.1 x.2.2,
      handed x.2.2)) = some (0, [⟨['/'], 0⟩]) := by decide +kernel
-- they can be done
example : ∃ A B k sA tA sB tB, runPair exCfg exOpen pairFrom pairFrom exWaits = some (A, B) ∧ k ≤ 4 ∧
    Chores exCfg exCfg exOpen exOpen A.1 A.2 B.1 B.2 k sA tA sB tB ∧
    ∃ cs, Makes (effects tB) cs ∧ AllTold exWaiting cs := by
  have e : (runPair exCfg exOpen pairFrom pairFrom exWaits).map (fun x => (x.1.1.task.live, x.2.1.task.live,
    workLeft x.1.1 x.1.2 x.2.1 x.2.2, x.1.2.any (fun e => match e with | .closeSeen => true | _ => false))) =
      some (true, true, 4, false) := by decide +kernel
  cases h : runPair exCfg exOpen pairFrom pairFrom exWaits with
  | none => rw [h] at e; simp at e
  | some x =>
    obtain ⟨A, B⟩ := x
    rw [h] at e
    simp only [Option.map_some, Option.some.injEq, Prod.mk.injEq] at e
    obtain ⟨e1, e2, e3, e4⟩ := e
    have ht := exWaits_talk h
    obtain ⟨k, sA, tA, sB, tB, h1, h2, h3, h4⟩ := C72_possible _ _ _ _ _ _ _ _ _ _ ht e1 e2
    obtain ⟨_, _, _, h5⟩ := C72_delivered _ _ _ _ _ _ _ _ _ _ _ _ _ _ ht e1 e2 k h2 h3 h4
    refine ⟨A, B, k, sA, tA, sB, tB, rfl, by omega, h2, (h5 ?_).2⟩
    intro hm
    rw [List.any_eq_false] at e4
    exact absurd rfl (e4 _ hm)

end SIO
