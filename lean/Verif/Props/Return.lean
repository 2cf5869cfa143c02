import Verif.Props.Delivery
/-
C56: what has come completely is acted on; the callback of an event that was answered does run.
-/
namespace SIO
open Spec

theorem makes_call {es : List Eff} {cs : List Call} (h : Makes es cs) {c : Call} (hc : c ∈ cs) : ∃ e ∈ es, IsCall e c := by
  induction h with
  | nil => simp at hc
  | call h1 _ ih =>
    rcases List.mem_cons.1 hc with rfl | hc
    · exact ⟨_, List.mem_cons_self, h1⟩
    · obtain ⟨e, he, h⟩ := ih hc
      exact ⟨e, List.mem_cons_of_mem _ he, h⟩
  | other _ _ ih =>
    obtain ⟨e, he, h⟩ := ih hc
    exact ⟨e, List.mem_cons_of_mem _ he, h⟩

theorem fit_payloads {s : Sent} {g : List Ws} (hx : Fit (s, g)) (hp : s ≠ .pong) : g.filterMap payload? ≠ [] := by
  obtain ⟨p, vs, body, rfl, _⟩ := sent_packet (s := s) (ws := g) hx.group hx.address hx.sendable hx.clear hp
  rw [payloads_group]
  simp

/-- Whatever has come completely was acted on, by what was registered at its last message. -/
theorem delivered_told {ms : List (Who × Payload)} {ss : List (Sent × List Ws)} {cs : List Call} (h : Delivered ms ss cs) :
    ∀ (pre post : List (Sent × List Ws)) (s : Sent) (g : List Ws), ss = pre ++ (s, g) :: post → (∀ x ∈ ss, Fit x) →
      s ≠ .pong → (pre ++ [(s, g)]).flatMap (fun x => x.2.filterMap payload?) <+: ms.map Prod.snd →
      ∃ a who pl b now, ms = a ++ (who, pl) :: b ∧
        (a ++ [(who, pl)]).map Prod.snd = (pre ++ [(s, g)]).flatMap (fun x => x.2.filterMap payload?) ∧
        Told who s now ∧ ∀ c ∈ now, c ∈ cs := by
  induction h with
  | nothing ss =>
    intro pre post s g he hf hp hl
    exfalso
    have hx := fit_payloads (hf (s, g) (by simp [he])) hp
    simp [List.flatMap_append] at hl
    exact hx (by simpa using hl.2)
  | @pong ms g0 ss cs hd ih =>
    intro pre post s g he hf hp hl
    have h0 : g0 = [.text ['3']] := (hf (.pong, g0) (by simp)).group
    cases pre with
    | nil =>
      simp only [List.nil_append, List.cons.injEq, Prod.mk.injEq] at he
      exact absurd he.1.1.symm hp
    | cons y pre =>
      simp only [List.cons_append, List.cons.injEq] at he
      obtain ⟨rfl, rfl⟩ := he
      subst h0
      have e : ∀ l : List (Sent × List Ws), ((Sent.pong, [Ws.text ['3']]) :: l).flatMap (fun x => x.2.filterMap payload?) =
          l.flatMap (fun x => x.2.filterMap payload?) := fun l => rfl
      rw [List.cons_append, e] at hl ⊢
      exact ih pre post s g rfl (fun x hx => hf x (by simp [hx])) hp hl
  | @cut ms s0 g0 ss more h1 h2 =>
    intro pre post s g he hf hp hl
    exfalso
    have hlen : (g0.filterMap payload?).length ≤ ms.length := by
      cases pre with
      | nil =>
        simp only [List.nil_append, List.cons.injEq, Prod.mk.injEq] at he
        obtain ⟨⟨rfl, rfl⟩, rfl⟩ := he
        have := hl.length_le
        simpa using this
      | cons y pre =>
        simp only [List.cons_append, List.cons.injEq] at he
        obtain ⟨rfl, rfl⟩ := he
        have := hl.length_le
        simp only [List.cons_append, List.flatMap_cons, List.length_append, List.length_map] at this
        omega
    have h3 := congrArg List.length h1
    simp only [List.length_append, List.length_map] at h3
    have := List.length_pos_iff.2 h2
    omega
  | @whole a rest who pl s0 g0 ss now later h1 h2 _ ih =>
    intro pre post s g he hf hp hl
    cases pre with
    | nil =>
      simp only [List.nil_append, List.cons.injEq, Prod.mk.injEq] at he
      obtain ⟨⟨rfl, rfl⟩, rfl⟩ := he
      exact ⟨a, who, pl, rest, now, rfl, by simpa using h1, h2, fun c hc => by simp [hc]⟩
    | cons y pre =>
      simp only [List.cons_append, List.cons.injEq] at he
      obtain ⟨rfl, rfl⟩ := he
      have e : (a ++ (who, pl) :: rest).map Prod.snd = g0.filterMap payload? ++ rest.map Prod.snd := by
        rw [← h1]; simp
      rw [e, List.cons_append, List.flatMap_cons] at hl
      obtain ⟨a', who', pl', b, now', k1, k2, k3, k4⟩ := ih pre post s g rfl (fun x hx => hf x (by simp [hx])) hp
        ((List.prefix_append_right_inj _).1 hl)
      refine ⟨a ++ (who, pl) :: a', who', pl', b, now', by simp [k1], ?_, k3, fun c hc => by simp [k4 c hc]⟩
      rw [List.cons_append, List.flatMap_cons, ← k2, ← h1]
      simp

/-- A message of the list, in the trace. -/
theorem incoming_split : ∀ (tr b : List Ev) (x y : List (Who × Payload)) (who : Who) (pl : Payload),
    incomingFrom b tr = x ++ (who, pl) :: y →
    ∃ t1 w t2, tr = t1 ++ .received w :: t2 ∧ payload? w = some pl ∧ who = Who.after (history (b ++ t1)) ∧
      incomingFrom b t1 = x := by
  intro tr
  induction tr with
  | nil => intro b x y who pl h; simp [incomingFrom] at h
  | cons e tr ih =>
    intro b x y who pl h
    have other : incomingFrom (b ++ [e]) tr = x ++ (who, pl) :: y → (∀ t, incomingFrom b (e :: t) = incomingFrom (b ++ [e]) t) →
        ∃ t1 w t2, e :: tr = t1 ++ .received w :: t2 ∧ payload? w = some pl ∧ who = Who.after (history (b ++ t1)) ∧
          incomingFrom b t1 = x := by
      intro h he
      obtain ⟨t1, w, t2, h1, h2, h3, h4⟩ := ih _ _ _ _ _ h
      exact ⟨e :: t1, w, t2, by simp [h1], h2, by simpa using h3, by rw [he, h4]⟩
    cases e with
    | received w =>
      cases hw : payload? w with
      | none =>
        refine other (by simpa [incomingFrom, hw] using h) (fun t => by simp [incomingFrom, hw])
      | some q =>
        simp only [incomingFrom, hw, Option.map_some, Option.toList_some, List.singleton_append] at h
        cases x with
        | nil =>
          simp only [List.nil_append, List.cons.injEq, Prod.mk.injEq] at h
          exact ⟨[], w, tr, rfl, by rw [hw, h.1.2], by simpa using h.1.1.symm, rfl⟩
        | cons z x =>
          simp only [List.cons_append, List.cons.injEq] at h
          obtain ⟨t1, w', t2, h1, h2, h3, h4⟩ := ih _ _ _ _ _ h.2
          refine ⟨.received w :: t1, w', t2, by simp [h1], h2, by simpa using h3, ?_⟩
          simp [incomingFrom, hw, h4, h.1]
    | _ => exact other h (fun t => rfl)

theorem payloads_flatten (l : List (Sent × List Ws)) :
    (l.map Prod.snd).flatten.filterMap payload? = l.flatMap (fun x => x.2.filterMap payload?) := by
  induction l with
  | nil => rfl
  | cons x l ih => simp [List.filterMap_append, ih]

/-- The messages up to the end of one thing sent have come. -/
theorem come_payloads {tr : List Ev} {o : Ws} {op : Open} (ho : Wire o (.opened op)) {l : List (Sent × List Ws)}
    (h : o :: (l.map Prod.snd).flatten <+: dataOf (inbox tr)) :
    l.flatMap (fun x => x.2.filterMap payload?) <+: (incoming tr).map Prod.snd := by
  unfold incoming
  rw [incomingFrom_payloads, ← payload_dataOf, ← payloads_flatten]
  obtain ⟨t, ht⟩ := h
  refine ⟨t.filterMap payload?, ?_⟩
  rw [← ht, List.filterMap_append, List.filterMap_cons, payload_opening ho]

/-- C56: whatever one client has sent is acted on by the other one as soon as all of its messages have come, by what is
registered when the last one comes, unless the receiver has failed. -/
theorem C56_told (cfgA cfgB : RCfg) (actsA actsB : List Act) (sA sB : Sys) (trA trB : List Ev)
    (hA : Runs cfgA actsA sA trA) (hB : Runs cfgB actsB sB trB) (ss : List (Sent × List Ws))
    (hs : ss.map Prod.snd = groups trA) (hf : ∀ x ∈ ss, Fit x) (o : Ws) (op : Open) (ho : Wire o (.opened op))
    (hc : dataOf (inbox trB) <+: o :: written trA) (hr : ¬ Rejected trB) (hp : .taskEnd .panic ∉ trB)
    (pre post : List (Sent × List Ws)) (s : Sent) (g : List Ws) (he : ss = pre ++ (s, g) :: post) (hn : s ≠ .pong)
    (hcome : o :: ((pre ++ [(s, g)]).map Prod.snd).flatten <+: dataOf (inbox trB)) :
    ∃ t1 w t2 now, trB = t1 ++ .received w :: t2 ∧
      arrived (t1 ++ [.received w]) = ((pre ++ [(s, g)]).map Prod.snd).flatten.filterMap payload? ∧
      Told (Who.after (history t1)) s now ∧ ∀ c ∈ now, ∃ e, .eff e ∈ trB ∧ IsCall e c := by
  obtain ⟨cs, hm, hd⟩ := C55_delivered cfgA cfgB actsA actsB sA sB trA trB hA hB ss hs hf o op ho hc hr hp
  obtain ⟨a, who, pl, b, now, k1, k2, k3, k4⟩ := delivered_told hd pre post s g he hf hn (come_payloads ho hcome)
  obtain ⟨t1, w, t2, h1, h2, h3, h4⟩ := incoming_split trB [] a b who pl k1
  rw [List.nil_append] at h3
  subst h3
  refine ⟨t1, w, t2, now, h1, ?_, k3, ?_⟩
  · rw [payloads_flatten, ← k2, ← h4, List.map_append, incomingFrom_payloads]
    simp [arrived, inbox, List.filterMap_append, h2]
  · intro c hc
    obtain ⟨e, he, hcall⟩ := makes_call hm (k4 c hc)
    exact ⟨e, mem_effects.1 he, hcall⟩

/-- C56, events: the callback in charge when the last message comes is called, with the values sent and with a reply handle
exactly if the event was sent with a callback. -/
theorem C56_event (cfgA cfgB : RCfg) (actsA actsB : List Act) (sA sB : Sys) (trA trB : List Ev)
    (hA : Runs cfgA actsA sA trA) (hB : Runs cfgB actsB sB trB) (ss : List (Sent × List Ws))
    (hs : ss.map Prod.snd = groups trA) (hf : ∀ x ∈ ss, Fit x) (o : Ws) (op : Open) (ho : Wire o (.opened op))
    (hc : dataOf (inbox trB) <+: o :: written trA) (hr : ¬ Rejected trB) (hp : .taskEnd .panic ∉ trB)
    (pre post : List (Sent × List Ws)) (ns name : Str) (ack : Option (Nat × Cb)) (binary : Bool) (args : List SVal) (g : List Ws)
    (he : ss = pre ++ (.event ns name ack binary args, g) :: post)
    (hread : (Sent.event ns name ack binary args).Readable cfgB.ext.fin)
    (hcome : o :: ((pre.map Prod.snd).flatten ++ g) <+: dataOf (inbox trB)) :
    ∃ t1 w t2, trB = t1 ++ .received w :: t2 ∧
      arrived (t1 ++ [.received w]) = ((pre.map Prod.snd).flatten ++ g).filterMap payload? ∧
      ∀ cb, InCharge (history t1) ns name (some cb) →
        ∃ A, .eff (.event ns name cb A (ack.map fun x => ⟨ns, x.1⟩)) ∈ trB ∧
          ShowsValues cfgB.ext.fin A (.str name :: args.filterMap docOf) := by
  have hfl : ∀ y : Sent, ((pre ++ [(y, g)]).map Prod.snd).flatten = (pre.map Prod.snd).flatten ++ g := by simp
  obtain ⟨t1, w, t2, now, h1, h2, h3, h4⟩ := C56_told cfgA cfgB actsA actsB sA sB trA trB hA hB ss hs hf o op ho hc hr hp
    pre post _ g he (by simp) (by rw [hfl]; exact hcome)
  rw [hfl] at h2
  refine ⟨t1, w, t2, h1, h2, ?_⟩
  intro cb hcb
  have hsend := (hf (.event ns name ack binary args, g) (by rw [he]; simp)).sendable
  generalize hx : Sent.event ns name ack binary args = x at h3 hsend hread
  have hval := fun c e hc hcall => C55_values cfgB.ext.fin _ x now c e hsend hread h3 hc hcall
  cases h3 with
  | @event _ _ _ _ _ cb' vs k1 k2 =>
    cases hx
    have : cb' = cb := by
      have a1 := (C26_lookup (history t1) ns name (some cb')).2 k1
      have a2 := (C26_lookup (history t1) ns name (some cb)).2 hcb
      rw [a1] at a2
      simpa using a2
    subst this
    obtain ⟨e, he, hcall⟩ := h4 _ (List.mem_singleton.2 rfl)
    rcases hval _ e (List.mem_singleton.2 rfl) hcall with ⟨_, _, _, A, _, rfl, hv⟩ | ⟨_, _, _, _, rfl, _⟩
    · cases hcall
      exact ⟨A, he, hv⟩
    · cases hcall
  | nobody k1 =>
    cases hx
    have a1 := (C26_lookup (history t1) ns name none).2 k1
    have a2 := (C26_lookup (history t1) ns name (some cb)).2 hcb
    rw [a1] at a2
    simp at a2
  | reply => cases hx

/-- C56, replies: two clients receive what the other one writes.  When all messages of a reply have come back, the callback of
the event it answers has run, exactly once, with the values of the reply; and that is the event sent under this id. -/
theorem C56_returns (cfgA cfgB : RCfg) (actsA actsB : List Act) (sA sB : Sys) (trA trB : List Ev)
    (hA : Runs cfgA actsA sA trA) (hB : Runs cfgB actsB sB trB) (ssA ssB : List (Sent × List Ws))
    (hsA : ssA.map (fun x => (x.1.src, x.2)) = sources trA) (hsB : ssB.map (fun x => (x.1.src, x.2)) = sources trB)
    (hfA : ∀ x ∈ ssA, Fit x) (hfB : ∀ x ∈ ssB, Fit x) (hread : ∀ x ∈ ssB, x.1.Readable cfgA.ext.fin)
    (oA oB : Ws) (opA opB : Open) (hoA : Wire oA (.opened opA)) (hoB : Wire oB (.opened opB))
    (hcA : dataOf (inbox trA) <+: oA :: written trB) (hcB : dataOf (inbox trB) <+: oB :: written trA)
    (hrA : ¬ Rejected trA) (hpA : .taskEnd .panic ∉ trA) (hrB : ¬ Rejected trB) (hpB : .taskEnd .panic ∉ trB)
    (hids : (ackIds trA).length ≤ 2 ^ 64)
    (pre post : List (Sent × List Ws)) (ns : Str) (id : Nat) (binary : Bool) (args : List SVal) (g : List Ws)
    (he : ssB = pre ++ (.reply ns id binary args, g) :: post)
    (hcome : oA :: ((pre.map Prod.snd).flatten ++ g) <+: dataOf (inbox trA)) :
    ∃ cb A, .eff (.ack ns id cb A) ∈ trA ∧ ShowsValues cfgA.ext.fin A (args.filterMap docOf) ∧
      (ackRuns trA).count cb = 1 ∧ (∃ g', .enqueued (.emit ns (some (id, cb))) g' ∈ trA) ∧
      ∀ ns' cb' g', .enqueued (.emit ns' (some (id, cb'))) g' ∈ trA → ns' = ns ∧ cb' = cb := by
  have hgB : ssB.map Prod.snd = groups trB := by rw [groups_sources, ← hsB, List.map_map]; rfl
  have hfl : ∀ y : Sent, ((pre ++ [(y, g)]).map Prod.snd).flatten = (pre.map Prod.snd).flatten ++ g := by simp
  obtain ⟨t1, w, t2, now, h1, _, h3, h4⟩ := C56_told cfgB cfgA actsB actsA sB sA trB trA hB hA ssB hgB hfB oA opA hoA hcA hrA hpA
    pre post _ g he (by simp) (by rw [hfl]; exact hcome)
  have hmem : (Sent.reply ns id binary args, g) ∈ ssB := by rw [he]; simp
  have hval := fun c e hc hcall => C55_values cfgA.ext.fin _ _ now c e (hfB _ hmem).sendable (hread _ hmem) h3 hc hcall
  generalize hx : Sent.reply ns id binary args = x at h3
  cases h3 with
  | event => cases hx
  | nobody => cases hx
  | @reply _ _ _ _ cb vs k1 k2 =>
    cases hx
    obtain ⟨e, he', hcall⟩ := h4 _ (List.mem_singleton.2 rfl)
    rcases hval _ e (List.mem_singleton.2 rfl) hcall with ⟨_, _, _, _, _, rfl, _⟩ | ⟨_, _, _, A, rfl, hv⟩
    · cases hcall
    · cases hcall
      obtain ⟨hem, _⟩ := C55_roundtrip cfgA cfgB actsA actsB sA sB trA trB hA hB ssA ssB hsA hsB hfA hfB hread oA oB opA opB hoA hoB
        hcA hcB hrA hpA hrB hpB hids ns id cb A he'
      have hrun : cb ∈ ackRuns trA := by
        simp only [ackRuns, List.mem_filterMap]
        exact ⟨_, he', rfl⟩
      refine ⟨cb, A, he', hv, ?_, hem, ?_⟩
      · have := List.nodup_iff_count.1 (C28_once cfgA actsA sA trA hA) cb
        have := List.count_pos_iff.2 hrun
        omega
      · intro ns' cb' g' hg'
        obtain ⟨u1, u2, hu⟩ := mem_split he'
        obtain ⟨v1, v2, hv'⟩ := mem_split hg'
        have q1 := ((ack_before hA _ _ _ hu).1 ns id cb A rfl).2
        have q2 := (ack_before hA _ _ _ hv').2 ns' id cb' g' (Or.inl rfl)
        have q1 : Ev.registered ns id cb ∈ trA := by rw [hu]; exact List.mem_append_left _ q1
        have q2 : Ev.registered ns' id cb' ∈ trA := by rw [hv']; exact List.mem_append_left _ q2
        have r1 := (ainv hA).regd ns id cb q1
        have r2 := (ainv hA).regd ns' id cb' q2
        have hl : sA.allocs ≤ 2 ^ 64 := by
          rw [(ainv hA).ids, List.length_map, List.length_range] at hids
          exact hids
        have e1 := Nat.mod_eq_of_lt (Nat.lt_of_lt_of_le r1.1 hl)
        have e2 := Nat.mod_eq_of_lt (Nat.lt_of_lt_of_le r2.1 hl)
        have hcb : cb' = cb := by rw [← e1, ← e2, ← r1.2, ← r2.2]
        subst hcb
        exact ⟨((ainv hA).uniq _ _ _ _ _ q2 q1).1, rfl⟩

-- non-vacuity: `exAsks` and `exAnswers` (C55) are connected in both directions, and the reply has come back
example : ((exec exCfg Sys.init exAsks).map fun x => (dataOf (inbox x.2), ackRuns x.2)) =
    some ([exOpen, .text "430[true]".toList], [0]) := by decide +kernel
example : ((exec exCfg Sys.init exAnswers).map fun x => (sources x.2, written x.2)) =
    some ([(.reply ⟨['/'], 0⟩, [.text "430[true]".toList])], [.text "430[true]".toList]) := by decide +kernel
example : (Sent.reply ['/'] 0 false [.bool true]).Group [.text "430[true]".toList] := by
  have h := C51_ack ['/'] 0 false [.bool true] (by simp [SVal.FloatsOk])
  exact h.trans (by decide +kernel)

end SIO
