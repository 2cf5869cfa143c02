import Verif.Lemmas.ClientConn
import Verif.Lemmas.ClientTag
/-
C31, C32, C33, C36 for the whole client: what is put into the queue and what is written.
-/
namespace SIO
open Spec

/-! ### C31 -/

/-- The engine-level close message. -/
def IsEngineClose (w : Ws) : Prop := ∃ r, w = .text ('1' :: r)

theorem processWs_closed (cfg : RCfg) {st : RState} (reg : Callbacks) (w : Ws) (hi : RInv st)
    (hok : (processWs cfg st reg w).res = .ok ()) :
    (processWs cfg st reg w).st.decoder = .closed ↔ st.decoder = .closed ∨ IsEngineClose w := by
  by_cases hcl : st.decoder = .closed
  · simp only [hcl, true_or, iff_true]
    cases w with
    | ping b => simpa [processWs] using hcl
    | pong b => simpa [processWs] using hcl
    | close => simpa [processWs] using hcl
    | text t => simp [processWs, processMessage, decode, hcl] at hok
    | binary t => simp [processWs, processMessage, decode, hcl] at hok
  · simp only [hcl, false_or]
    constructor
    · intro hd
      cases w with
      | ping b => exact absurd hd hcl
      | pong b => exact absurd hd hcl
      | close => exact absurd hd hcl
      | binary b =>
        have h := processWs_out cfg st reg (.binary b)
        generalize ho : processWs cfg st reg (.binary b) = o at h hd
        cases h with
        | opened x _ _ _ _ _ _ h1 _ => rw [h1] at hd; simp at hd
        | ping h1 _ _ _ _ => obtain ⟨r, h1⟩ := h1; simp at h1
        | message m h1 h2 =>
          rw [h2, (processEngineMessage_out (cfg := cfg) (reg := reg) hi ⟨_, _, _, h1⟩).2.1] at hd
          exact absurd hd hcl
        | quiet _ _ _ _ h1 =>
          rcases h1 with h1 | ⟨h1, h2⟩
          · rw [h1] at hd; exact absurd hd hcl
          · rcases decode_state st.decoder (.binary b) with ⟨x, _, k, _⟩ | ⟨k, _, _⟩ | ⟨k1, k2, k3⟩
            · rw [h1] at k; simp at k
            · simp only [decode, if_neg hcl, decodeBinary] at k
              split at k
              · simp at k
              · split at k
                · simp at k
                · split at k <;> simp at k
            · exfalso
              rw [← ho] at h2
              simp only [processWs, processMessage] at h2
              rw [show decode st.decoder (.binary b) = ((decode st.decoder (.binary b)).1, (decode st.decoder (.binary b)).2) from rfl,
                k3] at h2
              generalize hr : (decode st.decoder (.binary b)).2 = r at *
              cases r with
              | panic => simp only at h2; exact hcl h2
              | err e => simp only at h2; exact hcl h2
              | ok p =>
                cases p with
                | opened x => exact absurd rfl (k1 x)
                | close => exact absurd rfl k2
                | ping => simp only at h2; exact hcl h2
                | pong => simp only at h2; exact hcl h2
                | message m =>
                  simp only at h2
                  have hm : decode st.decoder (.binary b) = (st.decoder, .ok (.message m)) := Prod.ext k3 hr
                  have := (processEngineMessage_out (cfg := cfg) (reg := reg) hi ⟨_, _, _, hm⟩).2.1
                  obtain ⟨dec, ip, tx⟩ := st
                  simp only at *
                  rw [this] at h2
                  exact hcl h2
      | text t =>
        rcases decode_state st.decoder (.text t) with ⟨x, k0, k, k3⟩ | ⟨k, _, _⟩ | ⟨k1, k2, k3⟩
        · exfalso
          simp only [processWs, processMessage] at hd
          rw [show decode st.decoder (.text t) = ((decode st.decoder (.text t)).1, (decode st.decoder (.text t)).2) from rfl,
            k3, k0] at hd
          simp only at hd
          split at hd <;> simp at hd
        · simp only [decode, if_neg hcl, decodeText] at k
          cases t with
          | nil => simp at k
          | cons c r =>
            simp only at k
            split at k
            · split at k
              · simp at k
              · split at k <;> simp at k
            · split at k
              · rename_i hc
                subst hc
                exact ⟨r, rfl⟩
              · split at k
                · split at k <;> simp at k
                · split at k
                  · split at k <;> simp at k
                  · split at k <;> simp at k
        · exfalso
          simp only [processWs, processMessage] at hd
          rw [show decode st.decoder (.text t) = ((decode st.decoder (.text t)).1, (decode st.decoder (.text t)).2) from rfl,
            k3] at hd
          generalize hr : (decode st.decoder (.text t)).2 = r at *
          cases r with
          | panic => simp only at hd; exact hcl hd
          | err e => simp only at hd; exact hcl hd
          | ok p =>
            cases p with
            | opened x => exact absurd rfl (k1 x)
            | close => exact absurd rfl k2
            | ping => simp only at hd; exact hcl hd
            | pong => simp only at hd; exact hcl hd
            | message m =>
              simp only at hd
              have hm : decode st.decoder (.text t) = (st.decoder, .ok (.message m)) := Prod.ext k3 hr
              have := (processEngineMessage_out (cfg := cfg) (reg := reg) hi ⟨_, _, _, hm⟩).2.1
              obtain ⟨dec, ip, tx⟩ := st
              simp only at *
              rw [this] at hd
              exact hcl hd
    · rintro ⟨r, rfl⟩
      by_cases hin : st.decoder = .initial
      · simp [processWs, processMessage, decode, decodeText, hin] at hok
      · simp [processWs, processMessage, decode, decodeText, hin, hcl]

theorem after_closed (cfg : RCfg) (l : List (Callbacks × Ws)) :
    ∀ {st : RState}, RInv st → (∀ o ∈ outs cfg st l, o.res = .ok ()) →
      ((after cfg st l).decoder = .closed ↔ st.decoder = .closed ∨ ∃ r ∈ l, IsEngineClose r.2) := by
  induction l with
  | nil => intro st _ _; simp [after]
  | cons x l ih =>
    intro st hi hok
    simp only [outs, List.mem_cons, forall_eq_or_imp] at hok
    rw [after, ih (rinv_step hi) hok.2, processWs_closed cfg x.1 x.2 hi hok.1]
    simp [or_assoc]

/-- A task that reads has an active decoder iff a readable open packet was received and no
engine-level close. -/
theorem active_iff {cfg : RCfg} {acts : List Act} {s : Sys} {tr : List Ev} (h : Runs cfg acts s tr) (hl : s.task.live = true) :
    s.rx.decoder = .active ↔ (∃ w ∈ inbox tr, IsOpen w) ∧ ∀ w ∈ inbox tr, ¬ IsEngineClose w := by
  have hx := (exec_induct (P := fun tr s => PInv s ∧ XInv cfg tr s) ⟨pinv_init, xinv_init cfg⟩
    (fun _ _ _ _ hi ht => ⟨pinv_trans hi.1 ht, xinv_trans hi.1 hi.2 ht⟩) acts s tr h).2
  obtain ⟨l, h1, h2, h3⟩ := hx (Or.inl hl)
  have k1 := after_initial cfg l rinv_new
  have k2 := after_closed cfg l rinv_new h3
  have e1 : (∃ w ∈ inbox tr, IsOpen w) ↔ ∃ r ∈ l, IsOpen r.2 := by
    rw [← h2]
    constructor
    · rintro ⟨w, hw, hx⟩
      obtain ⟨r, hr, rfl⟩ := List.mem_map.1 hw
      exact ⟨r, hr, hx⟩
    · rintro ⟨r, hr, hx⟩
      exact ⟨_, List.mem_map_of_mem hr, hx⟩
  have e2 : (∀ w ∈ inbox tr, ¬ IsEngineClose w) ↔ ∀ r ∈ l, ¬ IsEngineClose r.2 := by
    rw [← h2]
    constructor
    · exact fun hx r hr => hx _ (List.mem_map_of_mem hr)
    · intro hx w hw
      obtain ⟨r, hr, rfl⟩ := List.mem_map.1 hw
      exact hx r hr
  have hini : RState.new.decoder = .initial := rfl
  rw [hini] at k1 k2
  simp only [true_and, reduceCtorEq, false_or] at k1 k2
  rw [h1, e1, e2]
  cases hd : (after cfg RState.new l).decoder with
  | initial =>
    rw [hd] at k1 k2
    simp only [true_iff] at k1
    simp only [reduceCtorEq, false_iff]
    rintro ⟨⟨r, hr, ho⟩, _⟩
    exact k1 r hr ho
  | active =>
    rw [hd] at k1 k2
    simp only [reduceCtorEq, false_iff] at k1 k2
    simp only [true_iff]
    refine ⟨?_, fun r hr hc => k2 ⟨r, hr, hc⟩⟩
    refine Classical.byContradiction fun hn => k1 fun r hr ho => hn ⟨r, hr, ho⟩
  | closed =>
    rw [hd] at k1 k2
    simp only [true_iff] at k2
    simp only [reduceCtorEq, false_iff]
    rintro ⟨_, hc⟩
    obtain ⟨r, hr, hx⟩ := k2
    exact hc r hr hx

/-- C31, in the running client: a ping received after the open packet and before an engine-level
close puts exactly one pong into the queue, at its end, and changes nothing else, unless the
application has closed the queue. -/
theorem C31_system (cfg : RCfg) (acts : List Act) (s : Sys) (tr : List Ev) (h : Runs cfg acts s tr)
    (ho : ∃ w ∈ inbox tr, IsOpen w) (hc : ∀ w ∈ inbox tr, ¬ IsEngineClose w)
    (r : Str) (p : Bool) (s' : Sys) (evs : List Ev) (hs : step cfg s (.recv (.text ('2' :: r)) p) = some (s', evs))
    (hq : s.chanClosed = false) :
    s' = { s with queue := s.queue ++ [[.text ['3']]] } ∧
    evs = [.received (.text ('2' :: r)), .eff (.enqueue [.text ['3']]), .enqueued .pong [.text ['3']]] := by
  have key : s.task.reads → some (s.recv cfg (.text ('2' :: r)) p) = some (s', evs) →
      s' = { s with queue := s.queue ++ [[.text ['3']]] } ∧
      evs = [.received (.text ('2' :: r)), .eff (.enqueue [.text ['3']]), .enqueued .pong [.text ['3']]] := by
    intro hr he
    have ha := (active_iff h hr.live).2 ⟨ho, hc⟩
    simp only [Sys.recv, C31_ping cfg s.rx s.reg r ha, Sys.effects, Sys.effect, Sys.enqueue, hr.live, hq, List.any_cons,
      Eff.isCall, List.any_nil, Option.some.injEq] at he
    simp only [Bool.false_eq_true, not_false_eq_true, and_self, if_true, Bool.or_false, and_false, if_false,
      List.append_nil, Prod.mk.injEq] at he
    exact ⟨by rw [← he.1, ← hq], he.2.symm⟩
  simp only [step] at hs
  split at hs
  · exact key (Or.inl ‹_›) hs
  · exact key (Or.inr ‹_›) hs
  · simp at hs

/-- C31: every pong in the queue answers a ping received just before, and is a pong message. -/
theorem C31_pongs (cfg : RCfg) (acts : List Act) (s : Sys) (tr : List Ev) (h : Runs cfg acts s tr)
    (t1 t2 : List Ev) (g : List Ws) (he : tr = t1 ++ .enqueued .pong g :: t2) :
    g = [.text ['3']] ∧ ∃ t0 w, IsPing w ∧ t1 = t0 ++ [.received w, .eff (.enqueue g)] := by
  have := before_induct (cfg := cfg) (I := fun _ _ => True)
    (Q := fun t1 e => ∀ g, e = .enqueued .pong g →
      g = [.text ['3']] ∧ ∃ t0 w, IsPing w ∧ t1 = t0 ++ [.received w, .eff (.enqueue g)]) trivial
    (fun _ _ _ _ _ _ => trivial) ?_ h _ _ _ he g rfl
  · exact this
  intro tr s s' evs _ ht a e b heq g hg
  subst hg
  have hm : Ev.enqueued .pong g ∈ evs := by rw [heq]; simp
  cases ht with
  | sendOk src g' s0 evs hs hl hc =>
    cases hs with
    | pong w st hr hw _ =>
      simp only [List.cons_append, List.nil_append] at heq
      match a, heq with
      | [], heq => simp at heq
      | [x], heq => simp at heq
      | [x, y], heq =>
        simp only [List.cons_append, List.nil_append, List.cons.injEq, Ev.enqueued.injEq] at heq
        obtain ⟨rfl, rfl, ⟨_, rfl⟩, _⟩ := heq
        exact ⟨rfl, tr, w, hw, rfl⟩
      | x :: y :: z :: a, heq => simp at heq
    | _ => simp at hm
  | sendFail src g s0 evs hs hc => cases hs <;> simp at hm
  | _ => simp at hm

-- non-vacuity: two pings around an emit
example : seen exCfg (exConnect ++ [.recv (.text ['2']) false, .rawSend [.text ['4', 'x']], .recv (.text ['2', 'p']) false]) =
    some [.received exOpen, .opened ['s'], .connectReturned .ok, .received (.text ['2']), .enqueue,
      .enqueued .pong [.text ['3']], .enqueued .raw [.text ['4', 'x']], .received (.text ['2', 'p']), .enqueue,
      .enqueued .pong [.text ['3']]] := by
  decide +kernel

/-! ### C32 -/

theorem taken_groups {tr : List Ev} {s : Sys} (hi : WInv tr s) : taken tr <+: groups tr := by
  rcases hi.queue with h | ⟨_, _, h⟩
  · rw [h]; exact List.prefix_append _ _
  · exact h

/-- C32: the messages written are some enqueued groups, whole and in order, and then at most a
first part of the next group. -/
theorem C32_wire (cfg : RCfg) (acts : List Act) (s : Sys) (tr : List Ev) (h : Runs cfg acts s tr) :
    ∃ (whole more : List (List Ws)) (part : List Ws), groups tr = whole ++ more ∧
      written tr = whole.flatten ++ part ∧ (part = [] ∨ ∃ g rest, more = g :: rest ∧ part <+: g) := by
  have hi := winv h
  obtain ⟨more, hmore⟩ := taken_groups hi
  obtain ⟨rest, h1, h2⟩ := winv_wire hi
  rcases h2 with rfl | ⟨pre, g, h2, part, h3⟩
  · exact ⟨taken tr, more, [], hmore.symm, by simpa using h1, Or.inl rfl⟩
  · refine ⟨pre, g :: more, part, ?_, ?_, Or.inr ⟨g, more, rfl, rest, h3⟩⟩
    · rw [← hmore, h2]; simp
    · rw [h2, ← h3] at h1
      simp only [List.flatten_append, List.flatten_cons, List.flatten_nil, List.append_nil] at h1
      rw [← List.append_assoc] at h1
      exact List.append_cancel_right h1

/-- C32: while the task lives nothing is lost: what was enqueued is what was taken and what waits. -/
theorem C32_queue (cfg : RCfg) (acts : List Act) (s : Sys) (tr : List Ev) (h : Runs cfg acts s tr)
    (hl : s.task.live = true) : groups tr = taken tr ++ s.queue := by
  rcases (winv h).queue with h1 | ⟨h1, _⟩
  · exact h1
  · rw [hl] at h1; simp at h1

/-- C32: also counting a message whose writing failed (it may or may not have reached the peer),
the messages are a beginning of the enqueued ones; nothing is written after it. -/
theorem C32_failed (cfg : RCfg) (acts : List Act) (s : Sys) (tr : List Ev) (h : Runs cfg acts s tr)
    (t1 t2 : List Ev) (w : Ws) (he : tr = t1 ++ .writeFailed w :: t2) :
    written t1 ++ [w] <+: (groups t1).flatten ∧ written tr = written t1 := by
  have := before_induct (cfg := cfg) (I := fun tr s => PInv s ∧ WInv tr s)
    (Q := fun t1 e => ∀ w, e = .writeFailed w → written t1 ++ [w] <+: (groups t1).flatten)
    ⟨pinv_init, ⟨Or.inl rfl, rfl⟩⟩
    (fun _ _ _ _ hi ht => ⟨pinv_trans hi.1 ht, winv_trans hi.1 hi.2 ht⟩) ?_ h _ _ _ he w rfl
  · refine ⟨this, ?_⟩
    have hend : ∃ r t3, t2 = .taskEnd r :: t3 := by
      have := exec_induct (cfg := cfg)
        (P := fun tr _ => ∀ t1 w t2, tr = t1 ++ .writeFailed w :: t2 → ∃ r t3, t2 = .taskEnd r :: t3) (by simp) ?_
        acts s tr h t1 w t2 he
      · exact this
      intro tr s s' evs hi ht t1 w t2 heq
      rcases split_append heq with ⟨t, h1, h2⟩ | ⟨t, h1, h2⟩
      · obtain ⟨r, t3, h3⟩ := hi _ _ _ h1
        exact ⟨r, t3 ++ evs, by rw [h2, h3]; rfl⟩
      · have hm : Ev.writeFailed w ∈ evs := by rw [h2]; simp
        cases ht with
        | sendOk src g s0 evs hs hl hc => cases hs <;> simp at hm
        | sendFail src g s0 evs hs hc => cases hs <;> simp at hm
        | writeFail w' rest e _ =>
          match t, h2 with
          | [], h2 =>
            simp only [List.nil_append, List.cons.injEq] at h2
            exact ⟨_, [], h2.2.symm⟩
          | [x], h2 => simp at h2
          | x :: y :: t, h2 => simp at h2
        | _ => simp at hm
    obtain ⟨r, t3, rfl⟩ := hend
    have h1 := ((einv h).after (t1 ++ [.writeFailed w]) (.taskEnd r) t3 (by rw [he]; simp) (Or.inl ⟨r, rfl⟩)).2
    rw [he]
    have h2 : written t3 = [] := by
      rw [written, List.filterMap_eq_nil_iff]
      intro x hx
      have := h1 x hx
      cases x <;> simp_all [TaskActs]
    rw [written_append]
    show written t1 ++ written t3 = written t1
    rw [h2, List.append_nil]
  intro tr s s' evs ⟨hp, hi⟩ ht a e b heq w hw
  subst hw
  have hm : Ev.writeFailed w ∈ evs := by rw [heq]; simp
  cases ht with
  | sendOk src g s0 evs hs hl hc => cases hs <;> simp at hm
  | sendFail src g s0 evs hs hc => cases hs <;> simp at hm
  | writeFail w' rest e h1 =>
    simp at hm
    subst hm
    have ha : a = [] := by
      cases a with
      | nil => rfl
      | cons x a =>
        simp only [List.cons_append, List.cons.injEq] at heq
        have := congrArg List.length heq.2
        cases a with
        | nil => simp at heq
        | cons y a => simp at this
    subst ha
    rw [List.append_nil]
    have hw := hi.wire
    rw [h1] at hw
    obtain ⟨more, hmore⟩ := taken_groups hi
    rw [← hmore, List.flatten_append, ← hw.1]
    exact ⟨rest ++ more.flatten, by simp⟩
  | _ => simp at hm

/-- C32, the attachments of a packet: a group that was written completely was written without
anything in between. -/
theorem C32_contiguous (cfg : RCfg) (acts : List Act) (s : Sys) (tr : List Ev) (h : Runs cfg acts s tr)
    (a b : List (List Ws)) (g : List Ws) (hg : groups tr = a ++ g :: b) :
    written tr <+: a.flatten ++ g ∨ ∃ rest, written tr = a.flatten ++ g ++ rest := by
  obtain ⟨whole, more, part, h1, h2, h3⟩ := C32_wire cfg acts s tr h
  have hp : written tr <+: (groups tr).flatten := by
    rw [h1, h2, List.flatten_append]
    refine List.prefix_append_right_inj _ |>.2 ?_
    rcases h3 with rfl | ⟨g, rest, rfl, h3⟩
    · exact List.nil_prefix
    · rw [List.flatten_cons]
      exact h3.trans (List.prefix_append _ _)
  rw [hg, List.flatten_append, List.flatten_cons, ← List.append_assoc] at hp
  rcases List.prefix_or_prefix_of_prefix hp (List.prefix_append (a.flatten ++ g) b.flatten) with hp | ⟨t, ht⟩
  · exact Or.inl hp
  · exact Or.inr ⟨t, ht.symm⟩

-- non-vacuity: an event with an attachment is written between two other groups, the last of which
-- is cut off by a failure
example : seen exCfg (exConnect ++ [.rawSend [.text ['3']], .rawSend [.text "451-[\"a\"]".toList, .binary [4, 7]], .dequeue,
      .rawSend [.text ['x'], .text ['y']], .write, .endGroup, .dequeue, .write, .write, .endGroup, .dequeue, .write, .writeFail 3]) =
    some [.received exOpen, .opened ['s'], .connectReturned .ok, .enqueued .raw [.text ['3']],
      .enqueued .raw [.text "451-[\"a\"]".toList, .binary [4, 7]], .dequeued [.text ['3']],
      .enqueued .raw [.text ['x'], .text ['y']], .wrote (.text ['3']), .groupDone,
      .dequeued [.text "451-[\"a\"]".toList, .binary [4, 7]], .wrote (.text "451-[\"a\"]".toList), .wrote (.binary [4, 7]),
      .groupDone, .dequeued [.text ['x'], .text ['y']], .wrote (.text ['x']), .writeFailed (.text ['y']),
      .taskEnd (.websocket 3)] := by
  decide +kernel

/-! ### C33 -/

/-- C33: when the task has seen the close request, every group it took from the queue has been
written completely, and it takes and writes nothing any more. -/
theorem C33_silent (cfg : RCfg) (acts : List Act) (s : Sys) (tr : List Ev) (h : Runs cfg acts s tr)
    (t1 t2 : List Ev) (he : tr = t1 ++ .closeSeen :: t2) :
    written t1 = (taken t1).flatten ∧ ∀ e ∈ t2, ¬ Sending e := by
  obtain ⟨h1, _, h2⟩ := (kinv h).seen t1 t2 he
  exact ⟨h1, fun e he => (h2 e he).1⟩

/-- The events of a received message. -/
theorem recv_shows (cfg : RCfg) (s : Sys) (w : Ws) (p : Bool) :
    ∃ rest, (s.recv cfg w p).2 = .received w :: rest ∧
      ∀ e ∈ (processWs cfg s.rx s.reg w).effs, .eff e ∈ rest := by
  have he : ∀ (effs : List Eff) (s : Sys), ∀ e ∈ effs, .eff e ∈ (s.effects effs).2 := by
    intro effs
    induction effs with
    | nil => simp
    | cons x effs ih =>
      intro s e hm
      simp only [Sys.effects]
      rcases List.mem_cons.1 hm with rfl | hm
      · refine List.mem_append_left _ ?_
        cases e with
        | enqueue g => simp [Sys.effect]
        | event ns name cb A ack => cases ack <;> simp [Sys.effect]
        | _ => simp [Sys.effect]
      · exact List.mem_append_right _ (ih _ e hm)
  have hx := he (processWs cfg s.rx s.reg w).effs
    { s with rx := (processWs cfg s.rx s.reg w).st, reg := (processWs cfg s.rx s.reg w).reg }
  unfold Sys.recv
  simp only
  split
  · exact ⟨_, rfl, fun e h => List.mem_append_left _ (hx e h)⟩
  · split
    · exact ⟨_, rfl, fun e h => hx e h⟩
    · exact ⟨_, rfl, fun e h => List.mem_append_left _ (hx e h)⟩
    · exact ⟨_, rfl, fun e h => List.mem_append_left _ (hx e h)⟩

/-- C33: after the close request was seen, and until the task ends, incoming messages are
received and processed as before. -/
theorem C33_receives (cfg : RCfg) (acts : List Act) (s : Sys) (tr : List Ev) (h : Runs cfg acts s tr)
    (hc : .closeSeen ∈ tr) (hd : .taskDropped ∉ tr) (he : ∀ r, .taskEnd r ∉ tr) (w : Ws) (p : Bool) :
    ∃ s' rest, step cfg s (.recv w p) = some (s', .received w :: rest) ∧
      ∀ e ∈ (processWs cfg s.rx s.reg w).effs, .eff e ∈ rest := by
  obtain ⟨a, b, hab⟩ := mem_split hc
  have h1 := ((kinv h).seen a b hab).2.1
  have h2 : s.task = .closing := by
    generalize ht : s.task = t at h1
    cases t with
    | closing => rfl
    | done r => exact absurd ((einv h).done r ht) (he r)
    | dropped => exact absurd ((einv h).dropped ht) hd
    | unborn => exact h1.elim
    | running => exact h1.elim
    | writing l => exact h1.elim
  obtain ⟨rest, h3, h4⟩ := recv_shows cfg s w p
  refine ⟨(s.recv cfg w p).1, rest, ?_, h4⟩
  simp only [step, h2]
  rw [← h3]

/-- C33: while the client exists, the task sees a close request only if `close` was called. -/
theorem C33_cause (cfg : RCfg) (acts : List Act) (s : Sys) (tr : List Ev) (h : Runs cfg acts s tr)
    (hcl : s.client = true) (s' : Sys) (evs : List Ev) (hs : step cfg s .seeClose = some (s', evs)) :
    .closeRequested ∈ tr := by
  simp only [step] at hs
  split at hs
  · split at hs
    · exact (conninv h).sig hcl ‹_›
    · simp at hs
  · simp at hs

-- non-vacuity: close is requested while a group is written; it is finished, the next group is not
-- sent, and an event is still delivered
example : seen exCfg (exConnect ++ [.reg (.setEvent ['/'] ['a'] 5), .rawSend [.text ['x'], .text ['y']], .rawSend [.text ['z']],
      .dequeue, .write, .closeStart, .write, .endGroup, .seeClose, .recv (.text "42[\"a\"]".toList) false, .streamEnd,
      .closeReady]) =
    some [.received exOpen, .opened ['s'], .connectReturned .ok, .regOp, .enqueued .raw [.text ['x'], .text ['y']],
      .enqueued .raw [.text ['z']], .dequeued [.text ['x'], .text ['y']], .wrote (.text ['x']), .closeRequested,
      .wrote (.text ['y']), .groupDone, .closeSeen, .received (.text "42[\"a\"]".toList), .event ['/'] ['a'] 5 none,
      .taskEnd .ok, .closeReturned .ok] := by
  decide +kernel

/-! ### C36 -/

theorem step_chan {cfg : RCfg} {s s' : Sys} {a : Act} {evs : List Ev} (h : step cfg s a = some (s', evs))
    (ha : a ≠ .closeChannel) : s'.chanClosed = s.chanClosed := by
  have henq : ∀ (s : Sys) src g, (s.enqueue src g).1.chanClosed = s.chanClosed := by
    intro s src g; unfold Sys.enqueue; split <;> rfl
  have heff : ∀ (effs : List Eff) (s : Sys), (s.effects effs).1.chanClosed = s.chanClosed := by
    intro effs
    induction effs with
    | nil => intro s; rfl
    | cons x effs ih =>
      intro s
      simp only [Sys.effects]
      rw [ih]
      cases x with
      | enqueue g => simp only [Sys.effect]; exact henq _ _ _
      | event ns name cb A ack => cases ack <;> rfl
      | _ => rfl
  have hrecv : ∀ w p, (s.recv cfg w p).1.chanClosed = s.chanClosed := by
    intro w p
    have hx := heff (processWs cfg s.rx s.reg w).effs
      { s with rx := (processWs cfg s.rx s.reg w).st, reg := (processWs cfg s.rx s.reg w).reg }
    unfold Sys.recv
    simp only
    split
    · exact hx
    · split <;> exact hx
  cases a with
  | closeChannel => exact absurd rfl ha
  | recv w p =>
    simp only [step] at h
    split at h
    · rw [← hrecv w p]; simp only [Option.some.injEq] at h; rw [h]
    · rw [← hrecv w p]; simp only [Option.some.injEq] at h; rw [h]
    · simp at h
  | rawSend g =>
    simp only [step] at h
    split at h
    · simp only [Option.some.injEq] at h
      rw [← henq s .raw g, h]
    · simp at h
  | emitEnqueue =>
    simp only [step] at h
    split at h
    · split at h
      · simp only [Option.some.injEq] at h
        have := henq { s with emit := none } (.emit ‹_› ‹_›) ‹_›
        rw [h] at this
        exact this
      · simp only [Option.some.injEq, Prod.mk.injEq] at h; rw [← h.1]
    · simp at h
  | reply x b args =>
    simp only [step] at h
    split at h
    · split at h
      · simp only [Option.some.injEq, Prod.mk.injEq] at h; rw [← h.1]
      · simp only [Option.some.injEq] at h
        have := henq { s with handles := s.handles.erase x, senders := s.senders - 1 } (.reply x) ‹_›
        rw [h] at this
        exact this
    · simp at h
  | _ =>
    simp only [step, Sys.finishTask, Sys.endTask, Sys.failConnect, Sys.closeOver] at h
    grind

/-- C36: while the task lives its queue has a sender. -/
theorem C36_senders (cfg : RCfg) (acts : List Act) (s : Sys) (tr : List Ev) (h : Runs cfg acts s tr)
    (hl : s.task.live = true) : 0 < s.senders := by
  have hi := sinv h
  unfold SInv at hi
  rw [hl] at hi
  simp only [Bool.toNat_true] at hi
  omega

/-- C36: as long as the application only clones and drops senders (and does not call
`close_channel`, which futures' senders also have), the queue never ends under the task: it ends
only by an error, the end of the stream, or a panic while a received message is processed. -/
theorem C36_no_panic (cfg : RCfg) (acts : List Act) (s : Sys) (tr : List Ev) (h : Runs cfg acts s tr)
    (hn : .closeChannel ∉ acts) (t1 t2 : List Ev) (he : tr = t1 ++ .taskEnd .panic :: t2) :
    ∃ t0 e, t1 = t0 ++ [e] ∧ ((∃ w, e = .received w) ∨ ∃ x, e = .eff x) := by
  have := exec_induct_acts (cfg := cfg) (ok := fun a => a ≠ .closeChannel)
    (P := fun tr s => PInv s ∧ SInv s ∧ s.chanClosed = false ∧ ∀ t1 t2, tr = t1 ++ .taskEnd .panic :: t2 →
      ∃ t0 e, t1 = t0 ++ [e] ∧ ((∃ w, e = .received w) ∨ ∃ x, e = .eff x))
    ⟨pinv_init, by simp [SInv, Sys.init, Task.live], rfl, by simp⟩ ?_ h (fun a ha hx => hn (hx ▸ ha))
  · exact this.2.2.2 t1 t2 he
  intro tr s s' evs a ha ⟨hp, hi, hc, hq⟩ hs
  have ht := step_trans hs
  refine ⟨pinv_trans hp ht, sinv_trans hp hi ht, by rw [step_chan hs ha, hc], ?_⟩
  intro t1 t2 heq
  rcases split_append heq with ⟨t, h1, _⟩ | ⟨t, h1, h2⟩
  · exact hq _ _ h1
  · have hm : Ev.taskEnd .panic ∈ evs := by rw [h2]; simp
    have hsp := (trans_ends ht _ (Or.inl ⟨_, rfl⟩) hm).2.2
    obtain ⟨pre, hpre, hno⟩ := hsp
    have hteq : t = pre := by
      have : pre ++ Ev.taskEnd .panic :: [] = t ++ Ev.taskEnd .panic :: t2 := by rw [← hpre, h2]
      rcases split_append this with ⟨u, h3, h4⟩ | ⟨u, h3, h4⟩
      · exact absurd rfl ((hno (.taskEnd .panic) (by rw [h3]; simp)).1 _)
      · cases u with
        | nil => simpa using h3
        | cons x u => simp at h4
    subst hteq
    clear hs
    cases ht with
    | sendOk src g s0 evs hs hl hc => cases hs <;> simp at hm
    | sendFail src g s0 evs hs hc => cases hs <;> simp at hm
    | recvPanic w st hr hpw =>
      refine ⟨tr, .received w, ?_, Or.inl ⟨w, rfl⟩⟩
      have : t = [.received w] := by
        have e1 : [Ev.received w] ++ [Ev.taskEnd .panic] = t ++ [Ev.taskEnd .panic] := hpre
        exact (List.append_cancel_right e1).symm
      rw [h1, this]
    | recvEventPanic w st ns name cb A ack hr _ _ =>
      have : t = [.received w, .eff (.event ns name cb A ack)] := by
        have e1 : [Ev.received w, .eff (.event ns name cb A ack)] ++ [Ev.taskEnd .panic] = t ++ [Ev.taskEnd .panic] := hpre
        exact (List.append_cancel_right e1).symm
      exact ⟨tr ++ [.received w], .eff (.event ns name cb A ack), by rw [h1, this]; simp, Or.inr ⟨_, rfl⟩⟩
    | recvAckPanic w st ns id cb A hr _ _ =>
      have : t = [.received w, .eff (.ack ns id cb A)] := by
        have e1 : [Ev.received w, .eff (.ack ns id cb A)] ++ [Ev.taskEnd .panic] = t ++ [Ev.taskEnd .panic] := hpre
        exact (List.append_cancel_right e1).symm
      exact ⟨tr ++ [.received w], .eff (.ack ns id cb A), by rw [h1, this]; simp, Or.inr ⟨_, rfl⟩⟩
    | queueEnd h3 h4 h5 =>
      rcases h5 with h5 | h5
      · rw [hc] at h5; simp at h5
      · unfold SInv at hi
        rw [h3] at hi
        simp [Task.live] at hi
        omega
    | _ => simp at hm

-- non-vacuity: the application drops the client and its clones, the task goes on
example : (exec exCfg Sys.init (exConnect ++ [.cloneSender, .cloneSender, .dropClient, .dropSender, .dropSender])).map
      (fun x => (x.1.senders, x.1.task.live)) = some (1, true) := by
  decide +kernel
-- and the restriction is needed
example : seen exCfg (exConnect ++ [.closeChannel, .dequeue]) =
    some [.received exOpen, .opened ['s'], .connectReturned .ok, .taskEnd .panic] := by
  decide +kernel

end SIO
