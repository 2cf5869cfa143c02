import Verif.Spec.Pair
import Verif.Props.Return
import Verif.Lemmas.ClientOnce
/-
C57: two clients that are connected with each other do not make each other fail.
-/
namespace SIO
open Spec

theorem Spec.Joint.swap {cfgA cfgB : RCfg} {oA oB : Ws} {sA sB : Sys} {tA tB : List Ev}
    (h : Joint cfgA cfgB oA oB sA tA sB tB) : Joint cfgB cfgA oB oA sB tB sA tA := by
  induction h with
  | start => exact .start
  | left _ h1 h2 ih => exact .right ih h1 h2
  | right _ h1 h2 ih => exact .left ih h1 h2

theorem Spec.Joint.runs {cfgA cfgB : RCfg} {oA oB : Ws} {sA sB : Sys} {tA tB : List Ev}
    (h : Joint cfgA cfgB oA oB sA tA sB tB) : ∃ acts, Runs cfgA acts sA tA := by
  induction h with
  | start => exact ⟨[], rfl⟩
  | left _ h1 _ ih =>
    obtain ⟨acts, ih⟩ := ih
    exact ⟨acts ++ [_], exec_snoc ih h1⟩
  | right _ _ _ ih => exact ih

theorem written_prefix {a b : List Ev} (h : a <+: b) : written a <+: written b := by
  obtain ⟨t, rfl⟩ := h
  exact ⟨written t, by simp [written]⟩

theorem Spec.Joint.link {cfgA cfgB : RCfg} {oA oB : Ws} {sA sB : Sys} {tA tB : List Ev}
    (h : Joint cfgA cfgB oA oB sA tA sB tB) : dataOf (inbox tA) <+: oA :: written tB := by
  induction h with
  | start => exact List.nil_prefix
  | left _ _ h2 _ => exact h2
  | right _ _ _ ih =>
    exact ih.trans ((List.prefix_cons_inj _).2 (written_prefix (List.prefix_append _ _)))

theorem received_first {cfg : RCfg} {s s' : Sys} {evs a b : List Ev} {w : Ws} (h : Trans cfg s s' evs)
    (he : evs = a ++ .received w :: b) : a = [] := by
  cases a with
  | nil => rfl
  | cons x a =>
    exfalso
    have hm : .received w ∈ evs.tail := by rw [he]; simp
    cases h with
    | sendOk src g s0 evs hs => cases hs <;> simp at hm
    | sendFail src g s0 evs hs => cases hs <;> simp at hm
    | _ => simp at hm

theorem dataOf_append (a b : List Ws) : dataOf (a ++ b) = dataOf a ++ dataOf b := by simp [dataOf]

/-- The two clients at the time when one of them received a message. -/
theorem Spec.Joint.at {cfgA cfgB : RCfg} {oA oB : Ws} {sA sB : Sys} {tA tB : List Ev}
    (h : Joint cfgA cfgB oA oB sA tA sB tB) : ∀ (t1 : List Ev) (w : Ws) (t2 : List Ev), tA = t1 ++ .received w :: t2 →
    ∃ sA0 sB0 tB0, Joint cfgA cfgB oA oB sA0 t1 sB0 tB0 ∧ tB0 <+: tB ∧
      dataOf (inbox (t1 ++ [.received w])) <+: oA :: written tB0 := by
  induction h with
  | start => intro t1 w t2 h; simp at h
  | @left sA sB sA' tA tB evs a hj h1 h2 ih =>
    intro t1 w t2 he
    rcases split_append he with ⟨t, h3, _⟩ | ⟨t, h3, h4⟩
    · exact ih _ _ _ h3
    · have := received_first (step_trans h1) h4
      subst this
      rw [List.append_nil] at h3
      subst h3
      refine ⟨sA, sB, tB, hj, List.prefix_rfl, List.IsPrefix.trans ?_ h2⟩
      rw [h4, List.nil_append]
      refine ⟨dataOf (inbox t2), ?_⟩
      rw [← dataOf_append]
      simp [inbox]
  | right hj h1 h2 ih =>
    intro t1 w t2 he
    obtain ⟨sA0, sB0, tB0, k1, k2, k3⟩ := ih _ _ _ he
    exact ⟨sA0, sB0, tB0, k1, k2.trans (List.prefix_append _ _), k3⟩

/-! ### Handles and replies -/

/-- The reply handle the other side gets. -/
def handleOf : Sent × List Ws → Option AckHandle
  | (.event ns _ (some (id, _)) _ _, _) => some ⟨ns, id⟩
  | _ => none

/-- The reply handle of a call. -/
def callHandle : Call → Option AckHandle
  | .event _ _ _ _ _ h => h
  | _ => none

theorem told_handles {who : Who} {s : Sent} {g : List Ws} {now : List Call} (h : Told who s now) :
    (now.filterMap callHandle).Sublist ([(s, g)].filterMap handleOf) := by
  cases h with
  | @event ns name ack binary args cb vs h1 h2 =>
    cases ack with
    | none => exact List.Sublist.refl []
    | some x => exact List.Sublist.refl [_]
  | nobody => exact List.nil_sublist _
  | reply => exact List.nil_sublist _

theorem delivered_handles {ms : List (Who × Payload)} {ss : List (Sent × List Ws)} {cs : List Call} (h : Delivered ms ss cs) :
    (cs.filterMap callHandle).Sublist (ss.filterMap handleOf) := by
  induction h with
  | nothing => simp
  | pong _ ih => exact ih
  | cut => exact List.nil_sublist _
  | @whole pre rest who pl s g ss now later h1 h2 _ ih =>
    rw [List.filterMap_append, show (s, g) :: ss = [(s, g)] ++ ss from rfl, List.filterMap_append]
    exact (told_handles h2).append ih

theorem handed_effects {tr : List Ev} {cs : List Call} (h : Makes (effects tr) cs) : handed tr = cs.filterMap callHandle := by
  have key : ∀ {es : List Eff} {cs : List Call}, Makes es cs →
      es.filterMap (fun e => match e with | .event _ _ _ _ h => h | _ => none) = cs.filterMap callHandle := by
    intro es cs h
    induction h with
    | nil => rfl
    | call h1 _ ih => cases h1 <;> simp [List.filterMap_cons, callHandle, ih]
    | @other e es cs h1 _ ih =>
      cases e with
      | event => exact absurd trivial h1
      | ack => exact absurd trivial h1
      | _ => simpa [List.filterMap_cons] using ih
  rw [← key h]
  unfold handed effects
  rw [List.filterMap_filterMap]
  congr 1
  funext e
  cases e with
  | eff e => cases e <;> rfl
  | _ => rfl

/-- The handles of the events in the queue. -/
def mailHandles (tr : List Ev) : List (AckHandle × Cb) :=
  (sources tr).filterMap fun
    | (.emit ns (some (id, c)), _) => some (⟨ns, id⟩, c)
    | _ => none

theorem mailHandles_mailed (tr : List Ev) : (mailHandles tr).map Prod.snd = mailed tr := by
  unfold mailHandles sources mailed
  rw [List.filterMap_filterMap, List.map_filterMap]
  congr 1
  funext e
  cases e with
  | enqueued src g =>
    cases src with
    | emit ns ack => cases ack <;> rfl
    | _ => rfl
  | _ => rfl

theorem mailHandles_sent {ss : List (Sent × List Ws)} {tr : List Ev} (h : ss.map (fun x => (x.1.src, x.2)) = sources tr) :
    (mailHandles tr).map Prod.fst = ss.filterMap handleOf := by
  unfold mailHandles
  rw [← h, List.filterMap_map, List.map_filterMap]
  congr 1
  funext x
  obtain ⟨s, g⟩ := x
  cases s with
  | event ns name ack binary args => cases ack <;> rfl
  | _ => rfl

theorem mem_mailHandles {tr : List Ev} {x : AckHandle} {c : Cb} (h : (x, c) ∈ mailHandles tr) :
    ∃ g, .enqueued (.emit x.ns (some (x.id, c))) g ∈ tr := by
  simp only [mailHandles, List.mem_filterMap] at h
  obtain ⟨⟨src, g⟩, h1, h2⟩ := h
  cases src with
  | emit ns ack =>
    cases ack with
    | none => simp at h2
    | some y =>
      obtain ⟨id, c'⟩ := y
      simp only [Option.some.injEq, Prod.mk.injEq] at h2
      obtain ⟨rfl, rfl⟩ := h2
      exact ⟨g, mem_sources.1 h1⟩
  | _ => simp at h2

/-- As long as the ids have not wrapped around, no two events in the queue ask for the same reply. -/
theorem handles_nodup {cfg : RCfg} {acts : List Act} {s : Sys} {tr : List Ev} (h : Runs cfg acts s tr)
    (hn : (ackIds tr).length ≤ 2 ^ 64) : ((mailHandles tr).map Prod.fst).Nodup := by
  have hl : s.allocs ≤ 2 ^ 64 := by
    rw [(ainv h).ids, List.length_map, List.length_range] at hn
    exact hn
  have hc : ∀ x ∈ mailHandles tr, x.1.id = x.2 := by
    rintro ⟨x, c⟩ hx
    obtain ⟨g, hg⟩ := mem_mailHandles hx
    obtain ⟨t1, t2, he⟩ := mem_split hg
    have h1 := (ack_before h _ _ _ he).2 x.ns x.id c g (Or.inl rfl)
    have h2 := (ainv h).regd x.ns x.id c (by rw [he]; exact List.mem_append_left _ h1)
    rw [Nat.mod_eq_of_lt (Nat.lt_of_lt_of_le h2.1 hl)] at h2
    exact h2.2
  have hm : ((mailHandles tr).map Prod.snd).Nodup := by rw [mailHandles_mailed]; exact (onceinv h).nodup
  rw [List.Nodup, List.pairwise_map] at hm ⊢
  refine List.Pairwise.imp_of_mem ?_ hm
  intro x y hx hy hne hxy
  exact hne (by rw [← hc x hx, ← hc y hy, hxy])

/-- Replies with a handle, in a list of what was sent. -/
def answers (x : AckHandle) (ss : List (Sent × List Ws)) : Nat := ss.countP fun y => y.1.src = .reply x

theorem answers_replied {ss : List (Sent × List Ws)} {tr : List Ev} (h : ss.map (fun x => (x.1.src, x.2)) = sources tr)
    (x : AckHandle) : answers x ss ≤ (replied tr).count x := by
  have e : answers x ss = (sources tr).countP fun y => y.1 = .reply x := by
    rw [← h, List.countP_map]
    rfl
  rw [e]
  clear e h
  induction tr with
  | nil => simp [sources]
  | cons e tr ih =>
    have split : ∀ l : List Ev, sources (e :: l) = sources [e] ++ sources l ∧ replied (e :: l) = replied [e] ++ replied l := by
      intro l
      exact ⟨List.filterMap_append (l := [e]), List.filterMap_append (l := [e])⟩
    rw [(split tr).1, (split tr).2, List.countP_append, List.count_append]
    have : ((sources [e]).countP fun y => y.1 = .reply x) ≤ (replied [e]).count x := by
      cases e with
      | enqueued src g =>
        cases src with
        | reply y =>
          by_cases hy : y = x
          · subst hy; simp [sources, replied]
          · simp [sources, replied, hy]
        | _ => simp [sources]
      | _ => simp [sources]
    omega

/-! ### What has been acted on -/

abbrev pays (l : List (Sent × List Ws)) : List Payload := l.flatMap (fun x => x.2.filterMap payload?)

theorem pays_prefix {a b : List (Sent × List Ws)} (h : a <+: b) : (pays a).length ≤ (pays b).length := by
  obtain ⟨t, rfl⟩ := h
  simp [pays]

theorem pays_snoc (l : List (Sent × List Ws)) (s : Sent) (g : List Ws) :
    pays (l ++ [(s, g)]) = pays l ++ g.filterMap payload? := by simp [pays]

/-- Every call was made for something that has come completely. -/
theorem delivered_source {ms : List (Who × Payload)} {ss : List (Sent × List Ws)} {cs : List Call} (h : Delivered ms ss cs)
    (hf : ∀ x ∈ ss, Fit x) {c : Call} (hc : c ∈ cs) : ∃ pre s g post who now, ss = pre ++ (s, g) :: post ∧ Told who s now ∧ c ∈ now ∧
      (pays (pre ++ [(s, g)])).length ≤ ms.length := by
  induction h with
  | nothing => simp at hc
  | @pong ms g0 ss cs _ ih =>
    obtain ⟨pre, s, g, post, who, now, h1, h2, h3, h4⟩ := ih (fun x hx => hf x (by simp [hx])) hc
    have h0 : g0 = [.text ['3']] := (hf (.pong, g0) (by simp)).group
    subst h0
    refine ⟨(.pong, [.text ['3']]) :: pre, s, g, post, who, now, by simp [h1], h2, h3, ?_⟩
    simpa [pays, payload?] using h4
  | cut => simp at hc
  | @whole a rest who pl s g ss now later h1 h2 _ ih =>
    have hl := congrArg List.length h1
    simp only [List.length_map, List.length_append, List.length_cons, List.length_nil] at hl
    rcases List.mem_append.1 hc with hc | hc
    · refine ⟨[], s, g, ss, who, now, rfl, h2, hc, ?_⟩
      simp only [pays, List.nil_append, List.flatMap_cons, List.flatMap_nil, List.append_nil, List.length_append, List.length_cons]
      omega
    · obtain ⟨pre, s', g', post, who', now', k1, k2, k3, k4⟩ := ih (fun x hx => hf x (by simp [hx])) hc
      refine ⟨(s, g) :: pre, s', g', post, who', now', by simp [k1], k2, k3, ?_⟩
      simp only [pays, List.cons_append, List.flatMap_cons, List.length_append, List.length_cons] at k4 ⊢
      omega

theorem told_reply {who : Who} {ns : Str} {id : Nat} {cb : Cb} {binary : Bool} {args : List SVal} (hw : who.ack ns id cb)
    (ht : ∃ vs, TextsDenote vs (ackWire binary (args.filterMap docOf))) : ∃ now, Told who (.reply ns id binary args) now := by
  obtain ⟨vs, ht⟩ := ht
  exact ⟨_, .reply hw ht⟩

/-- If somebody waits for every reply when its last message comes, everything can be acted on. -/
theorem delivered_exists : ∀ (ss : List (Sent × List Ws)) (ms : List (Who × Payload)), (∀ x ∈ ss, Fit x) →
    (∀ x ∈ ms, ∃ h, x.1 = Who.after h) →
    (∀ a who pl b pre ns id binary args g post, ms = a ++ (who, pl) :: b → ss = pre ++ (.reply ns id binary args, g) :: post →
      (a ++ [(who, pl)]).map Prod.snd = pays (pre ++ [(.reply ns id binary args, g)]) → ∃ cb, who.ack ns id cb) →
    ms.map Prod.snd <+: pays ss → ∃ cs, Delivered ms ss cs := by
  intro ss
  induction ss with
  | nil =>
    intro ms _ _ _ hm
    have : ms = [] := by simpa [pays] using hm
    subst this
    exact ⟨_, .nothing _⟩
  | cons x ss ih =>
    obtain ⟨s, g⟩ := x
    intro ms hf hw hn hm
    have hx := hf (s, g) (by simp)
    have ih := fun ms => ih ms (fun x hx => hf x (by simp [hx]))
    simp only [pays, List.flatMap_cons] at hm
    by_cases hp : s = .pong
    · subst hp
      have : g = [.text ['3']] := hx.group
      subst this
      obtain ⟨cs, h⟩ := ih ms hw (fun a who pl b pre ns id binary args g post h1 h2 h3 =>
        hn a who pl b ((.pong, [.text ['3']]) :: pre) ns id binary args g post h1 (by simp [h2])
          (by rw [h3]; simp [pays, payload?])) (by simpa [payload?] using hm)
      exact ⟨cs, .pong h⟩
    by_cases hlt : ms.length < (g.filterMap payload?).length
    · rcases List.prefix_or_prefix_of_prefix hm (List.prefix_append _ _) with h | h
      · obtain ⟨more, h⟩ := h
        refine ⟨_, .cut (more := more) h ?_⟩
        rintro rfl
        have := congrArg List.length h
        simp at this
        omega
      · have := h.length_le
        simp at this
        omega
    · obtain ⟨p, vs, body, he, hr, hme, hden, hb⟩ := sent_packet (s := s) (ws := g) hx.group hx.address hx.sendable hx.clear hp
      have hg : 0 < (g.filterMap payload?).length := by rw [he, payloads_group]; simp
      generalize hk : (g.filterMap payload?).length = k at *
      have hsplit : ms = ms.take (k - 1) ++ (ms.drop (k - 1)) := (List.take_append_drop _ _).symm
      cases hd : ms.drop (k - 1) with
      | nil =>
        have := congrArg List.length hd
        simp at this
        omega
      | cons y rest =>
        obtain ⟨who, pl⟩ := y
        rw [hd] at hsplit
        generalize hpre : ms.take (k - 1) = pre at *
        have hl : pre.length = k - 1 := by rw [← hpre, List.length_take]; omega
        rw [hsplit] at hm hw
        have e : (pre ++ (who, pl) :: rest).map Prod.snd = (pre ++ [(who, pl)]).map Prod.snd ++ rest.map Prod.snd := by simp
        rw [e] at hm
        obtain ⟨t, ht⟩ := hm
        rw [List.append_assoc] at ht
        obtain ⟨e1, e2⟩ := List.append_inj ht (by simp [hk, hl]; omega)
        obtain ⟨cs, h⟩ := ih rest (fun x hx => hw x (by simp [hx]))
          (fun a who' pl' b pre' ns id binary args g' post h1 h2 h3 =>
            hn (pre ++ (who, pl) :: a) who' pl' b ((s, g) :: pre') ns id binary args g' post (by rw [hsplit, h1]; simp)
              (by rw [h2]; rfl) (by
                have e3 : (pre ++ (who, pl) :: a ++ [(who', pl')]).map Prod.snd =
                    (pre ++ [(who, pl)]).map Prod.snd ++ (a ++ [(who', pl')]).map Prod.snd := by simp
                rw [e3, e1, h3]
                simp [pays])) ⟨t, e2⟩
        rw [hsplit]
        cases s with
        | pong => exact absurd rfl hp
        | reply ns id binary args =>
          obtain ⟨cb, hcb⟩ := hn pre who pl rest [] ns id binary args g ss hsplit rfl (by rw [e1]; simp [pays])
          obtain ⟨now, hnow⟩ := told_reply hcb ⟨vs, hden⟩
          exact ⟨_, .whole e1 hnow h⟩
        | event ns name ack binary args =>
          obtain ⟨now, hnow⟩ := told_event (ns := ns) (ack := ack) (hw (who, pl) (by simp)) ⟨vs, hden⟩
          exact ⟨_, .whole e1 hnow h⟩

/-! ### Two clients in one order of time -/

/-- What a client sent, up to a time. -/
theorem sent_until {ss : List (Sent × List Ws)} {t tr : List Ev} (hs : ss.map (fun x => (x.1.src, x.2)) = sources tr) (h : t <+: tr) :
    ∃ ss0, ss0 <+: ss ∧ ss0.map (fun x => (x.1.src, x.2)) = sources t := by
  obtain ⟨u, rfl⟩ := h
  have e : sources (t ++ u) = sources t ++ sources u := by simp [sources]
  refine ⟨ss.take (sources t).length, List.take_prefix _ _, ?_⟩
  rw [List.map_take, hs, e]
  simp

theorem ids_until {t tr : List Ev} (h : t <+: tr) : (ackIds t).length ≤ (ackIds tr).length := by
  obtain ⟨u, rfl⟩ := h
  simp

theorem sources_groups {ss : List (Sent × List Ws)} {tr : List Ev} (hs : ss.map (fun x => (x.1.src, x.2)) = sources tr) :
    ss.map Prod.snd = groups tr := by
  rw [groups_sources, ← hs, List.map_map]
  rfl

/-- Somebody waits for a reply when its last message comes. -/
theorem joint_waits {cfgA cfgB : RCfg} {oA oB : Ws} {opA : Open} (hoA : Wire oA (.opened opA)) {sA sB : Sys} {t1 tB : List Ev}
    (hj : Joint cfgA cfgB oA oB sA t1 sB tB) {w : Ws} (hlink : dataOf (inbox (t1 ++ [.received w])) <+: oA :: written tB)
    (hids : (ackIds t1).length ≤ 2 ^ 64) {ssA ssB0 ssB : List (Sent × List Ws)}
    (hsA : ssA.map (fun x => (x.1.src, x.2)) = sources t1) (hsB : ssB0.map (fun x => (x.1.src, x.2)) = sources tB)
    (hpre : ssB0 <+: ssB) (hfB : ∀ x ∈ ssB, Fit x) {csA csB : List Call}
    (mA : Makes (effects t1) csA) (dA : Delivered (incoming t1) ssB0 csA)
    (mB : Makes (effects tB) csB) (dB : Delivered (incoming tB) ssA csB)
    {pre post : List (Sent × List Ws)} {ns : Str} {id : Nat} {binary : Bool} {args : List SVal} {g : List Ws} {pl : Payload}
    (hw : payload? w = some pl) (he : ssB = pre ++ (.reply ns id binary args, g) :: post)
    (hlast : (incoming t1).map Prod.snd ++ [pl] = pays (pre ++ [(.reply ns id binary args, g)])) :
    ∃ cb, LastAck (history t1) ns id cb := by
  obtain ⟨actsA, hA⟩ := hj.runs
  obtain ⟨actsB, hB⟩ := hj.swap.runs
  generalize hx : Sent.reply ns id binary args = x at *
  have hfx := hfB (x, g) (by rw [he]; simp)
  have hpx : x ≠ .pong := by rw [← hx]; simp
  have hne := List.length_pos_iff.2 (fit_payloads hfx hpx)
  -- the reply is among what the other one has sent by now
  have hcame := link_prefix hB (sources_groups hsB) hoA hlink
  have hin : (incoming (t1 ++ [.received w])).map Prod.snd = pays (pre ++ [(x, g)]) := by
    rw [← hlast, incoming_append]
    simp [incomingFrom, hw]
  rw [hin] at hcame
  have hpx' : pre ++ [(x, g)] <+: ssB := ⟨post, by rw [he]; simp⟩
  have hmem : pre ++ [(x, g)] <+: ssB0 := by
    rcases List.prefix_or_prefix_of_prefix hpx' hpre with h | h
    · exact h
    · rcases List.prefix_concat_iff.1 h with h | h
      · exact ⟨[], by rw [h]; simp⟩
      · have h1 := pays_prefix h
        have h2 : (pays (pre ++ [(x, g)])).length ≤ (pays ssB0).length := hcame.length_le
        rw [pays_snoc, List.length_append] at h2
        omega
  obtain ⟨post0, hss⟩ := hmem
  -- there is one event for it
  have h1 := answers_replied hsB ⟨ns, id⟩
  have h2 := (C41_handles cfgB actsB sB tB hB ⟨ns, id⟩).1
  have h3 : (handed tB).count ⟨ns, id⟩ ≤ (ssA.filterMap handleOf).count ⟨ns, id⟩ := by
    rw [handed_effects mB]
    exact (delivered_handles dB).count_le _
  rw [← mailHandles_sent hsA] at h3
  have h4 := List.nodup_iff_count.1 (handles_nodup hA hids) ⟨ns, id⟩
  have h5 : answers ⟨ns, id⟩ ssB0 = answers ⟨ns, id⟩ pre + 1 + answers ⟨ns, id⟩ post0 := by
    rw [← hss, ← hx]
    simp [answers, Sent.src]
    omega
  have h6 : answers ⟨ns, id⟩ pre = 0 := by omega
  have h7 : (⟨ns, id⟩ : AckHandle) ∈ (mailHandles t1).map Prod.fst := List.count_pos_iff.1 (by omega)
  obtain ⟨⟨y, c⟩, h8, h9⟩ := List.mem_map.1 h7
  simp only at h9
  subst h9
  obtain ⟨g', hg'⟩ := mem_mailHandles h8
  obtain ⟨u1, u2, hu⟩ := mem_split hg'
  rcases (C30_pending cfgA actsA sA t1 hA hids ns id c g' u1 u2 hu).2.2 with h | ⟨A, h⟩
  · exact ⟨c, h⟩
  -- its callback has not run yet: that would need an earlier reply
  exfalso
  obtain ⟨cl, hcl, hcall⟩ := makes_mem mA (mem_effects.2 h) trivial
  have hf0 : ∀ y ∈ ssB0, Fit y := fun y hy => hfB y (hpre.subset hy)
  obtain ⟨pre', s', gg, post', who, now, k1, k2, k3, k4⟩ := delivered_source dA hf0 hcl
  have hs' : s'.src = .reply ⟨ns, id⟩ := by
    cases k2 with
    | event =>
      rw [List.mem_singleton] at k3
      subst k3
      cases hcall
    | nobody => simp at k3
    | reply =>
      rw [List.mem_singleton] at k3
      subst k3
      cases hcall
      rfl
  have hlen := congrArg List.length hlast
  simp only [List.length_append, List.length_map, List.length_cons, List.length_nil] at hlen
  have hp1 : pre' ++ [(s', gg)] <+: ssB0 := ⟨post', by rw [k1]; simp⟩
  have hp2 : pre ++ [(x, g)] <+: ssB0 := ⟨post0, hss⟩
  have hin' : (s', gg) ∈ pre := by
    rcases List.prefix_or_prefix_of_prefix hp1 hp2 with h | h
    · rcases List.prefix_concat_iff.1 h with h | h
      · rw [h] at k4
        omega
      · exact h.subset (by simp)
    · have := pays_prefix h
      omega
  have : 0 < answers ⟨ns, id⟩ pre := List.countP_pos_iff.2 ⟨_, hin', by simp [hs']⟩
  omega

/-- One side of C57. -/
theorem joint_side : ∀ (n : Nat) (cfgA cfgB : RCfg) (oA oB : Ws) (opA opB : Open) (sA sB : Sys) (tA tB : List Ev)
    (ssA ssB : List (Sent × List Ws)), tA.length + tB.length ≤ n → Wire oA (.opened opA) → Wire oB (.opened opB) →
    Joint cfgA cfgB oA oB sA tA sB tB →
    ssA.map (fun x => (x.1.src, x.2)) = sources tA → ssB.map (fun x => (x.1.src, x.2)) = sources tB →
    (∀ x ∈ ssA, Fit x ∧ x.1.Readable cfgB.ext.fin) → (∀ x ∈ ssB, Fit x ∧ x.1.Readable cfgA.ext.fin) →
    (ackIds tA).length ≤ 2 ^ 64 → (ackIds tB).length ≤ 2 ^ 64 →
    ¬ Rejected tA ∧ ∃ cs, Makes (effects tA) cs ∧ Delivered (incoming tA) ssB cs := by
  intro n
  induction n with
  | zero =>
    intro cfgA cfgB oA oB opA opB sA sB tA tB ssA ssB hn _ _ _ _ _ _ _ _ _
    have : tA = [] := List.length_eq_zero_iff.1 (by omega)
    subst this
    exact ⟨by simp [Rejected], [], .nil, .nothing _⟩
  | succ n ih =>
    intro cfgA cfgB oA oB opA opB sA sB tA tB ssA ssB hn hoA hoB hj hsA hsB hfA hfB hiA hiB
    obtain ⟨actsA, hA⟩ := hj.runs
    obtain ⟨actsB, hB⟩ := hj.swap.runs
    refine C55_accepted cfgB cfgA actsB actsA sB sA tB tA hB hA ssB (sources_groups hsB) (fun x hx => (hfB x hx).1)
      (fun x hx => (hfB x hx).2) oA opA hoA hj.link ?_
    refine delivered_exists ssB _ (fun x hx => (hfB x hx).1) (after_incoming [] tA) ?_
      (link_prefix hB (sources_groups hsB) hoA hj.link)
    intro a who pl b pre ns id binary args g post h1 h2 h3
    obtain ⟨t1, w, t2, k1, k2, k3, k4⟩ := incoming_split tA [] a b who pl h1
    rw [List.nil_append] at k3
    subst k3
    obtain ⟨sA0, sB0, tB0, j1, j2, j3⟩ := hj.at t1 w t2 k1
    have hpA : t1 <+: tA := ⟨.received w :: t2, k1.symm⟩
    obtain ⟨ssA0, p1, p2⟩ := sent_until hsA hpA
    obtain ⟨ssB0, q1, q2⟩ := sent_until hsB j2
    have hlt : t1.length + tB0.length ≤ n := by
      have := congrArg List.length k1
      have := j2.length_le
      simp at *
      omega
    have fA : ∀ x ∈ ssA0, Fit x ∧ x.1.Readable cfgB.ext.fin := fun x hx => hfA x (p1.subset hx)
    have fB : ∀ x ∈ ssB0, Fit x ∧ x.1.Readable cfgA.ext.fin := fun x hx => hfB x (q1.subset hx)
    have iA := Nat.le_trans (ids_until hpA) hiA
    have iB := Nat.le_trans (ids_until j2) hiB
    obtain ⟨_, csA, mA, dA⟩ := ih cfgA cfgB oA oB opA opB sA0 sB0 t1 tB0 ssA0 ssB0 hlt hoA hoB j1 p2 q2 fA fB iA iB
    obtain ⟨_, csB, mB, dB⟩ := ih cfgB cfgA oB oA opB opA sB0 sA0 tB0 t1 ssB0 ssA0 (by omega) hoB hoA j1.swap q2 p2 fB fA iB iA
    refine joint_waits hoA j1 j3 iA p2 q2 q1 (fun x hx => (hfB x hx).1) mA dA mB dB k2 h2 ?_
    rw [← h3]
    unfold incoming
    rw [k4]
    simp

/-- C57: two clients are connected with each other and send only what can be sent and read.  Then the receivers of both
never fail, whatever happens in whatever order: nobody gets a reply nobody waits for; and on both sides the calls are
exactly those for what the other one has sent. -/
theorem C57_pair (cfgA cfgB : RCfg) (oA oB : Ws) (opA opB : Open) (sA sB : Sys) (tA tB : List Ev)
    (ssA ssB : List (Sent × List Ws)) (hoA : Wire oA (.opened opA)) (hoB : Wire oB (.opened opB))
    (hj : Joint cfgA cfgB oA oB sA tA sB tB)
    (hsA : ssA.map (fun x => (x.1.src, x.2)) = sources tA) (hsB : ssB.map (fun x => (x.1.src, x.2)) = sources tB)
    (hfA : ∀ x ∈ ssA, Fit x ∧ x.1.Readable cfgB.ext.fin) (hfB : ∀ x ∈ ssB, Fit x ∧ x.1.Readable cfgA.ext.fin)
    (hiA : (ackIds tA).length ≤ 2 ^ 64) (hiB : (ackIds tB).length ≤ 2 ^ 64) :
    ¬ Rejected tA ∧ ¬ Rejected tB ∧
    (∃ cs, Makes (effects tA) cs ∧ Delivered (incoming tA) ssB cs) ∧
    ∃ cs, Makes (effects tB) cs ∧ Delivered (incoming tB) ssA cs := by
  obtain ⟨h1, h2⟩ := joint_side _ cfgA cfgB oA oB opA opB sA sB tA tB ssA ssB (Nat.le_refl _) hoA hoB hj hsA hsB hfA hfB hiA hiB
  obtain ⟨h3, h4⟩ := joint_side _ cfgB cfgA oB oA opB opA sB sA tB tA ssB ssA (Nat.le_refl _) hoB hoA hj.swap hsB hsA hfB hfA hiB hiA
  exact ⟨h1, h3, h2, h4⟩

/-- C57, answers: when all messages of a reply have come back, the callback of its event has run, once, with the values of
the reply. -/
theorem C57_answered (cfgA cfgB : RCfg) (oA oB : Ws) (opA opB : Open) (sA sB : Sys) (tA tB : List Ev)
    (ssA ssB : List (Sent × List Ws)) (hoA : Wire oA (.opened opA)) (hoB : Wire oB (.opened opB))
    (hj : Joint cfgA cfgB oA oB sA tA sB tB)
    (hsA : ssA.map (fun x => (x.1.src, x.2)) = sources tA) (hsB : ssB.map (fun x => (x.1.src, x.2)) = sources tB)
    (hfA : ∀ x ∈ ssA, Fit x ∧ x.1.Readable cfgB.ext.fin) (hfB : ∀ x ∈ ssB, Fit x ∧ x.1.Readable cfgA.ext.fin)
    (hiA : (ackIds tA).length ≤ 2 ^ 64) (hiB : (ackIds tB).length ≤ 2 ^ 64)
    (pre post : List (Sent × List Ws)) (ns : Str) (id : Nat) (binary : Bool) (args : List SVal) (g : List Ws)
    (he : ssB = pre ++ (.reply ns id binary args, g) :: post)
    (hcome : oA :: ((pre.map Prod.snd).flatten ++ g) <+: dataOf (inbox tA)) :
    ∃ cb A, .registered ns id cb ∈ tA ∧ .eff (.ack ns id cb A) ∈ tA ∧
      ShowsValues cfgA.ext.fin A (args.filterMap docOf) ∧ (ackRuns tA).count cb = 1 := by
  obtain ⟨actsA, hA⟩ := hj.runs
  obtain ⟨_, _, ⟨cs, hm, hd⟩, _⟩ := C57_pair cfgA cfgB oA oB opA opB sA sB tA tB ssA ssB hoA hoB hj hsA hsB hfA hfB hiA hiB
  have hfl : ((pre ++ [(Sent.reply ns id binary args, g)]).map Prod.snd).flatten = (pre.map Prod.snd).flatten ++ g := by simp
  obtain ⟨a, who, pl, b, now, _, _, k3, k4⟩ := delivered_told hd pre post _ g he (fun x hx => (hfB x hx).1) (by simp)
    (come_payloads hoA (by rw [hfl]; exact hcome))
  have hmem : (Sent.reply ns id binary args, g) ∈ ssB := by rw [he]; simp
  have hval := fun c e hc hcall => C55_values cfgA.ext.fin _ _ now c e (hfB _ hmem).1.sendable (hfB _ hmem).2 k3 hc hcall
  generalize hx : Sent.reply ns id binary args = x at k3
  cases k3 with
  | event => cases hx
  | nobody => cases hx
  | @reply _ _ _ _ cb vs k1 k2 =>
    cases hx
    obtain ⟨e, he', hcall⟩ := makes_call hm (k4 _ (List.mem_singleton.2 rfl))
    have he' := mem_effects.1 he'
    rcases hval _ e (List.mem_singleton.2 rfl) hcall with ⟨_, _, _, _, _, rfl, _⟩ | ⟨_, _, _, A, rfl, hv⟩
    · cases hcall
    · cases hcall
      obtain ⟨u1, u2, hu⟩ := mem_split he'
      have q := ((ack_before hA _ _ _ hu).1 ns id cb A rfl).2
      refine ⟨cb, A, by rw [hu]; exact List.mem_append_left _ q, he', hv, ?_⟩
      have hrun : cb ∈ ackRuns tA := by
        simp only [ackRuns, List.mem_filterMap]
        exact ⟨_, he', rfl⟩
      have := List.nodup_iff_count.1 (C28_once cfgA actsA sA tA hA) cb
      have := List.count_pos_iff.2 hrun
      omega

-- non-vacuity: schedules of two clients, executed
def runPair (cfg : RCfg) (o : Ws) : Sys × List Ev → Sys × List Ev → List (Bool × Act) → Option ((Sys × List Ev) × (Sys × List Ev))
  | A, B, [] => some (A, B)
  | A, B, (true, a) :: l =>
    match step cfg A.1 a with
    | none => none
    | some (s, evs) =>
      if (dataOf (inbox (A.2 ++ evs))).isPrefixOf (o :: written B.2) then runPair cfg o (s, A.2 ++ evs) B l else none
  | A, B, (false, b) :: l =>
    match step cfg B.1 b with
    | none => none
    | some (s, evs) =>
      if (dataOf (inbox (B.2 ++ evs))).isPrefixOf (o :: written A.2) then runPair cfg o A (s, B.2 ++ evs) l else none

theorem runPair_joint {cfg : RCfg} {o : Ws} : ∀ (l : List (Bool × Act)) (A B A' B' : Sys × List Ev),
    Joint cfg cfg o o A.1 A.2 B.1 B.2 → runPair cfg o A B l = some (A', B') → Joint cfg cfg o o A'.1 A'.2 B'.1 B'.2 := by
  intro l
  induction l with
  | nil =>
    intro A B A' B' hj h
    simp only [runPair, Option.some.injEq, Prod.mk.injEq] at h
    obtain ⟨rfl, rfl⟩ := h
    exact hj
  | cons x l ih =>
    intro A B A' B' hj h
    obtain ⟨b, a⟩ := x
    cases b with
    | true =>
      simp only [runPair] at h
      split at h
      · simp at h
      · rename_i s evs hs
        split at h
        · rename_i hp
          exact ih _ _ _ _ (.left hj hs (List.isPrefixOf_iff_prefix.1 hp)) h
        · simp at h
    | false =>
      simp only [runPair] at h
      split at h
      · simp at h
      · rename_i s evs hs
        split at h
        · rename_i hp
          exact ih _ _ _ _ (.right hj hs (List.isPrefixOf_iff_prefix.1 hp)) h
        · simp at h

/-- Both connect; one asks, the other one answers. -/
def exPair : List (Bool × Act) :=
  exConnect.map (fun a => (true, a)) ++ exConnect.map (fun a => (false, a)) ++
    [(false, .reg (.setEvent ['/'] ['b'] 2)),
     (true, .emitStart ['/'] ['b']), (true, .emitCallback), (true, .emitArgs), (true, .emitSend), (true, .emitEnqueue),
     (true, .dequeue), (true, .write), (false, .recv (.text "420[\"b\"]".toList) false),
     (false, .reply ⟨['/'], 0⟩ false [.bool true]), (false, .dequeue), (false, .write), (true, .endGroup),
     (true, .recv (.text "430[true]".toList) false)]

def pairFrom : Sys × List Ev := (Sys.init, [])

example : ((runPair exCfg exOpen pairFrom pairFrom exPair).map fun x => (sources x.1.2, sources x.2.2)) =
    some ([(.emit ['/'] (some (0, 0)), [.text "420[\"b\"]".toList])],
      [(.reply ⟨['/'], 0⟩, [.text "430[true]".toList])]) := by decide +kernel
example : ((runPair exCfg exOpen pairFrom pairFrom exPair).map fun x => (ackRuns x.1.2, handed x.2.2)) =
    some ([0], [⟨['/'], 0⟩]) := by decide +kernel
-- the reply cannot come before it is written
example : (runPair exCfg exOpen pairFrom pairFrom (exConnect.map (fun a => (true, a)) ++
    [(true, .recv (.text "430[true]".toList) false)])).isNone = true := by decide +kernel
-- a message the other application enqueues by itself can make the receiver fail: nobody waits for this reply
example : ((runPair exCfg exOpen pairFrom pairFrom (exConnect.map (fun a => (true, a)) ++ exConnect.map (fun a => (false, a)) ++
    [(false, .rawSend [.text "430[true]".toList]), (false, .dequeue), (false, .write),
     (true, .recv (.text "430[true]".toList) false)])).map fun x => x.1.2.any fun e => match e with
      | .taskEnd (.err (.processing _)) => true
      | _ => false) = some true := by decide +kernel

end SIO
