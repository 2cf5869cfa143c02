import Verif.Props.ExampleWs
/-
C68: the programs restrict neither the server nor the schedule.
-/
namespace SIO
open SIO.Spec

/-- What the connection task does by itself, without receiving a message. -/
def taskActs (e : Nat) : List Act := [.streamErr e, .streamEnd, .dequeue, .write, .writeFail e, .endGroup, .seeClose, .dropTask]

/-- The ends of the waiting of `connect` and `close`. -/
def awaitActs (e : Nat) : List Act :=
  [.handshakeOk, .handshakeFail e, .handshakeTimeout, .spawnFail, .openReady, .openTimeout, .closeReady, .closeTimeout]

theorem called_end (a : List Ev) (r : Res CErr Unit) : called (a ++ [.taskEnd r]) = called a := by
  induction a with
  | nil => rfl
  | cons x a ih => cases x <;> simp only [List.cons_append, called, ih]

theorem called_recv (cfg : RCfg) (s : Sys) (w : Ws) (b : Bool) :
    called (s.recv cfg w b).2 =
      called (Sys.effects { s with rx := (processWs cfg s.rx s.reg w).st, reg := (processWs cfg s.rx s.reg w).reg }
        (processWs cfg s.rx s.reg w).effs).2 := by
  unfold Sys.recv
  simp only [Sys.finishTask]
  split
  · simp only [called, called_end]
  · split <;> simp only [called, called_end]

/-- C68: in every state of a program, the waiting of `connect` and `close` can end as the client allows; when no callback is
running, the connection task can do what the client allows, and any message can be received if the client allows it. -/
theorem C68_free (cfg : RCfg) (p : AppProg) (t : PSys) :
    (∀ e, ∀ a ∈ awaitActs e, pstep cfg p t (.env a) = (step cfg t.sys a).map fun x => (⟨x.1, t.todo, t.callback⟩, x.2.map .ev)) ∧
    (t.callback = [] →
      (∀ e, ∀ a ∈ taskActs e, pstep cfg p t (.env a) = (step cfg t.sys a).map fun x => (⟨x.1, t.todo, []⟩, x.2.map .ev)) ∧
      ∀ w, (∃ b, step cfg t.sys (.recv w b) ≠ none) →
        ∃ b t' evs, pstep cfg p t (.env (.recv w b)) = some (t', evs) ∧ step cfg t.sys (.recv w b) = some (t'.sys, shown evs)) := by
  refine ⟨?_, fun hc => ⟨?_, ?_⟩⟩
  · intro e a ha
    simp only [awaitActs, List.mem_cons, List.not_mem_nil, or_false] at ha
    rcases ha with rfl | rfl | rfl | rfl | rfl | rfl | rfl | rfl <;>
    · simp only [pstep, Act.ofAwait, true_or, if_true]
      split <;> rename_i h <;> simp only [h, Option.map_none, Option.map_some]
  · intro e a ha
    simp only [taskActs, List.mem_cons, List.not_mem_nil, or_false] at ha
    rcases ha with rfl | rfl | rfl | rfl | rfl | rfl | rfl | rfl <;>
    · simp only [pstep, Act.ofTask, hc, List.isEmpty_nil, and_self, or_true, if_true]
      split <;> rename_i h <;> simp only [h, Option.map_none, Option.map_some]
  · rintro w ⟨b0, hb⟩
    have hst : ∀ b, step cfg t.sys (.recv w b) = some (t.sys.recv cfg w b) := by
      intro b
      simp only [step] at hb ⊢
      cases ht : t.sys.task <;> simp only [ht, ne_eq, not_true, reduceCtorEq, not_false_iff] at hb ⊢
    cases hcl : called (t.sys.recv cfg w false).2 with
    | none =>
      refine ⟨false, ⟨(t.sys.recv cfg w false).1, t.todo, []⟩, (t.sys.recv cfg w false).2.map .ev, ?_, by rw [shown_ev]; exact hst _⟩
      simp only [pstep, hc, List.isEmpty_nil, if_true, hst, hcl, Bool.false_eq_true, if_false]
    | some x =>
      cases hbd : p.body cfg.ext.fin x with
      | ok ops =>
        refine ⟨false, ⟨(t.sys.recv cfg w false).1, t.todo, ops⟩, (t.sys.recv cfg w false).2.map .ev, ?_, by rw [shown_ev]; exact hst _⟩
        simp only [pstep, hc, List.isEmpty_nil, if_true, hst, hcl, hbd, Bool.false_eq_true, if_false]
      | err e => exact e.elim
      | panic =>
        have hct : called (t.sys.recv cfg w true).2 = some x := by rw [called_recv, ← called_recv cfg t.sys w false, hcl]
        refine ⟨true, ⟨(t.sys.recv cfg w true).1, t.todo, unwind x⟩, (t.sys.recv cfg w true).2.map .ev, ?_, by rw [shown_ev]; exact hst _⟩
        simp only [pstep, hc, List.isEmpty_nil, if_true, hst, hct, hbd]

/-! ### The main function -/

/-- C68: the main function waits for a running callback only with the calls that use the registry, and always with these. -/
theorem C68_main (cfg : RCfg) (p : AppProg) (t : PSys) (op : MOp) (rest : List MOp) (ht : t.todo = op :: rest) :
    ((∀ r, op ≠ .call (.reg r)) ∧ op ≠ .call .emitSend →
      (pstep cfg p t .main = none ↔ pstep cfg p ⟨t.sys, t.todo, []⟩ .main = none)) ∧
    (¬ ((∀ r, op ≠ .call (.reg r)) ∧ op ≠ .call .emitSend) → t.callback ≠ [] → pstep cfg p t .main = none) := by
  have hl : op.locks = false ↔ (∀ r, op ≠ .call (.reg r)) ∧ op ≠ .call .emitSend := by
    cases op with
    | call a => cases a <;> simp [MOp.locks]
    | print l => simp [MOp.locks]
    | wait => simp [MOp.locks]
  constructor
  · intro h
    have h := hl.2 h
    simp only [pstep, ht, h, Bool.false_eq_true, false_implies, and_true]
    split
    · cases runOp cfg true t.sys op <;> simp
    · simp
  · intro h hc
    have h : op.locks = true := by
      cases hx : op.locks with
      | true => rfl
      | false => exact absurd (hl.1 hx) h
    have hc : t.callback.isEmpty = false := by
      cases hx : t.callback with
      | nil => exact absurd hx hc
      | cons _ _ => rfl
    simp only [pstep, ht, h, hc, Bool.false_eq_true, imp_false, not_true, and_false, if_false]

/-- C68: when no callback is running, all reply handles have been used or dropped. -/
theorem C68_handles (cfg : RCfg) (p : AppProg) (hp : p = socketioTest ∨ ∃ ns, p = wsConnect ns) (acts : List PAct) (t : PSys)
    (tr : List PEv) (h : PRuns cfg p acts t tr) (hc : t.callback = []) : t.sys.handles = [] := by
  have hi : ProgInv cfg p t tr := by
    rcases hp with rfl | ⟨ns, rfl⟩
    · exact test_inv h
    · exact ws_inv h
  obtain ⟨ls, gs, hr, -⟩ := hi.rest
  rw [hc] at hr
  generalize t.sys.handles = hs at hr
  cases hr
  rfl

/-- The calls of `close` a main function has before it. -/
def closings (ops : List MOp) : Nat :=
  ops.countP fun
    | .call .closeStart => true
    | _ => false

theorem requests_none {evs : List Ev} (h : .closeRequested ∉ evs) : closeRequests evs = 0 :=
  Nat.eq_zero_of_not_pos fun hx => h ((closeRequests_pos evs).1 hx)

theorem main_requests {cfg : RCfg} {s s' : Sys} {a : Act} {evs : List Ev} (hs : step cfg s a = some (s', evs)) (ha : a.ofMain = true)
    (hc : a ≠ .closeStart) : closeRequests evs = 0 := by
  refine requests_none ?_
  cases a <;> simp only [Act.ofMain, Bool.false_eq_true] at ha
  all_goals try exact absurd rfl hc
  all_goals
    simp only [step, Sys.enqueue] at hs
    repeat' split at hs
  all_goals try (simp only [reduceCtorEq] at hs; done)
  all_goals
    simp only [Option.some.injEq, Prod.mk.injEq] at hs
    obtain ⟨rfl, rfl⟩ := hs
    simp

theorem quiet_requests {evs : List Ev} (h : Quiet evs) : closeRequests evs = 0 :=
  requests_none fun hm => by simpa [Ev.quiet] using h _ hm

/-- A call panicked, or the message of the program could not be sent. -/
def Stopped (tr : List Ev) : Prop := .userPanic ∈ tr ∨ ∃ g, .sendFailed .raw g ∈ tr

theorem stopped_of {evs : List Ev} (h : evs.any Ev.aborts = true) : Stopped evs := by
  obtain ⟨e, he, ha⟩ := List.any_eq_true.1 h
  unfold Ev.aborts at ha
  split at ha
  · exact Or.inl he
  · exact Or.inr ⟨_, he⟩
  · cases ha

theorem closes_inv {cfg : RCfg} {p : AppProg} (hm : closings p.main = 1)
    (hinv : ∀ {acts t tr}, PRuns cfg p acts t tr → ProgInv cfg p t tr) {acts : List PAct} {t : PSys} {tr : List PEv}
    (h : PRuns cfg p acts t tr) :
    closeRequests (shown tr) + closings t.todo = 1 ∨ (Stopped (shown tr) ∧ closeRequests (shown tr) = 0 ∧ closings t.todo = 0) := by
  refine prun_induct (P := fun tr t => closeRequests (shown tr) + closings t.todo = 1 ∨
    (Stopped (shown tr) ∧ closeRequests (shown tr) = 0 ∧ closings t.todo = 0)) (.inl (by simpa [AppProg.init, shown, closeRequests] using hm)) ?_ h
  rintro acts t tr t' evs hr ih ht
  have hi := hinv hr
  have keep : ∀ (h1 : closeRequests (shown evs) = 0) (h2 : t'.todo = t.todo),
      closeRequests (shown (tr ++ evs)) + closings t'.todo = 1 ∨
        (Stopped (shown (tr ++ evs)) ∧ closeRequests (shown (tr ++ evs)) = 0 ∧ closings t'.todo = 0) := by
    intro h1 h2
    rw [shown_append, closeRequests_append, h1, h2]
    refine ih.imp id fun ⟨k1, k2, k3⟩ => ⟨?_, k2, k3⟩
    exact k1.imp (List.mem_append_left _) fun ⟨g, hg⟩ => ⟨g, List.mem_append_left _ hg⟩
  cases ht with
  | main op rest s' _ ab h1 h2 h3 hro =>
    have hof := hi.todo op (by rw [h1]; simp)
    rw [h1] at ih
    by_cases hcs : op = .call .closeStart
    · subst hcs
      obtain ⟨es, hst, rfl, rfl⟩ := runOp_call hro
      obtain ⟨as, hru⟩ := prun_exec hr
      have hci := cinv hru
      have hz : closeRequests (shown tr) = 0 ∧ closings rest = 0 := by
        simp only [closings, List.countP_cons, if_true] at ih ⊢
        omega
      have hh : t.sys.handleHere = true := by
        cases hx : t.sys.handleHere with
        | true => rfl
        | false => have := hci.gone h2 hx; omega
      simp only [step, hh, if_true] at hst
      split at hst
      · simp only [Option.some.injEq, Prod.mk.injEq] at hst
        obtain ⟨rfl, rfl⟩ := hst
        left
        rw [shown_append, closeRequests_append, shown_ev, hz.1]
        simp only [List.any_cons, List.any_nil, Ev.aborts, Bool.or_self, Bool.false_eq_true, if_false, hz.2]
        rfl
      · cases hst
    · have hcl : closings (op :: rest) = closings rest := by
        cases op with
        | call a => cases a <;> first | rfl | exact absurd rfl hcs
        | print l => rfl
        | wait => rfl
      rw [hcl] at ih
      have hev : closeRequests (shown evs) = 0 ∧ (ab = true → Stopped (shown evs)) := by
        cases op with
        | call a =>
          obtain ⟨es, hst, rfl, rfl⟩ := runOp_call hro
          rw [shown_ev]
          exact ⟨main_requests hst hof fun h => hcs (by rw [h]), stopped_of⟩
        | print l => simp only [runOp, Option.some.injEq, Prod.mk.injEq] at hro; obtain ⟨rfl, rfl, rfl⟩ := hro; exact ⟨by rfl, by simp⟩
        | wait => simp only [runOp, Option.some.injEq, Prod.mk.injEq] at hro; obtain ⟨rfl, rfl, rfl⟩ := hro; exact ⟨by rfl, by simp⟩
      rw [shown_append, closeRequests_append, hev.1, Nat.add_zero]
      cases ab with
      | false =>
        simp only [Bool.false_eq_true, if_false]
        refine ih.imp id fun ⟨k1, k2, k3⟩ => ⟨?_, k2, k3⟩
        exact k1.imp (List.mem_append_left _) fun ⟨g, hg⟩ => ⟨g, List.mem_append_left _ hg⟩
      | true =>
        have hz : closings [MOp.call .dropClient] = 0 := rfl
        simp only [if_true, hz]
        have hs : Stopped (shown tr ++ shown evs) :=
          (hev.2 rfl).imp (List.mem_append_right _) fun ⟨g, hg⟩ => ⟨g, List.mem_append_right _ hg⟩
        have : closeRequests (shown tr) ≤ 1 := by omega
        rcases Nat.lt_or_ge (closeRequests (shown tr)) 1 with h | h
        · exact Or.inr ⟨hs, by omega, trivial⟩
        · exact Or.inl (by omega)
  | callback op rest s' _ ab h1 hro =>
    refine keep ?_ rfl
    obtain ⟨ls, gs, hre, -⟩ := hi.rest
    rw [h1] at hre
    generalize t.sys.handles = hh at hre
    have aside : ∀ es : List Ev, (∀ e ∈ es, e ≠ .closeRequested) → closeRequests es = 0 := fun es h => requests_none fun hm => h _ hm rfl
    cases hre with
    | print l _ => simp only [runOp, Option.some.injEq, Prod.mk.injEq] at hro; obtain ⟨rfl, rfl, rfl⟩ := hro; rfl
    | drop x =>
      obtain ⟨es, hst, rfl, rfl⟩ := runOp_call hro
      rw [shown_ev]
      simp only [step] at hst
      split at hst <;> simp only [reduceCtorEq, Option.some.injEq, Prod.mk.injEq] at hst
      obtain ⟨rfl, rfl⟩ := hst
      rfl
    | reply x vs g hg =>
      obtain ⟨es, hst, rfl, rfl⟩ := runOp_call hro
      rw [shown_ev]
      simp only [adds] at hg
      simp only [step, hg, Sys.enqueue] at hst
      repeat' split at hst
      all_goals simp only [reduceCtorEq, Option.some.injEq, Prod.mk.injEq] at hst
      all_goals obtain ⟨rfl, rfl⟩ := hst; rfl
  | quiet a s' es k h2 h3 h4 hs => exact keep (by rw [shown_ev]; exact quiet_requests h4) rfl
  | called w b s' e rest ops k h2 hs h3 h4 h5 h6 h7 =>
    refine keep ?_ rfl
    rw [shown_ev]
    exact requests_none fun hm => by
      simp only [List.mem_cons, reduceCtorEq, false_or] at hm
      simpa [Ev.quiet] using h4 _ hm

theorem todo_suffix {cfg : RCfg} {p : AppProg} {acts : List PAct} {t : PSys} {tr : List PEv} (h : PRuns cfg p acts t tr) :
    t.todo <:+ p.main ∨ t.todo <:+ [.call .dropClient] := by
  refine prun_induct (P := fun _ t => t.todo <:+ p.main ∨ t.todo <:+ [.call .dropClient]) (.inl (List.suffix_refl _)) ?_ h
  rintro acts t tr t' evs - ih ht
  cases ht with
  | main op rest s' _ ab h1 h2 h3 hro =>
    cases ab with
    | true => exact .inr (List.suffix_refl _)
    | false =>
      have hr : rest <:+ t.todo := by rw [h1]; exact List.suffix_cons _ _
      exact ih.imp hr.trans hr.trans
  | callback => exact ih
  | quiet => exact ih
  | called => exact ih

theorem closings_suffix {l xs : List MOp}
    (h : l <:+ xs ++ [.call .closeStart, .call .dropClient] ∨ l <:+ [.call .dropClient]) : closings l = 0 ↔ l.length ≤ 1 := by
  have key : l <:+ xs ++ [.call .closeStart, .call .dropClient] ∧ 2 ≤ l.length ∨ l.length ≤ 1 ∧ l <:+ [.call .dropClient] := by
    rcases h with h | h
    · rcases Nat.lt_or_ge l.length 2 with hl | hl
      · refine .inr ⟨by omega, ?_⟩
        refine List.suffix_of_suffix_length_le h (?_ : [MOp.call .dropClient] <:+ _) (by simp only [List.length_cons, List.length_nil]; omega)
        exact ⟨xs ++ [.call .closeStart], by simp⟩
      · exact .inl ⟨h, hl⟩
    · exact .inr ⟨by simpa using h.length_le, h⟩
  rcases key with ⟨h1, h2⟩ | ⟨h1, h2⟩
  · obtain ⟨a, ha⟩ := List.suffix_of_suffix_length_le (List.suffix_append xs [.call .closeStart, .call .dropClient]) h1 (by simpa using h2)
    have : 0 < closings l := by
      rw [← ha, closings, List.countP_append]
      simp
    constructor <;> intro <;> omega
  · have : closings l = 0 := by
      obtain ⟨a, ha⟩ := h2
      cases a with
      | nil => rw [List.nil_append] at ha; rw [ha]; rfl
      | cons x a =>
        have hl := congrArg List.length ha
        simp only [List.length_append, List.length_cons, List.length_nil] at hl
        have : l = [] := List.eq_nil_of_length_eq_zero (by omega)
        rw [this]; rfl
    exact ⟨fun _ => h1, fun _ => this⟩

/-- C68: both programs call `close` once, as the last thing before the client is dropped; they end without it only if a call
panicked or, for ws_connect.rs, the message could not be sent. -/
theorem C68_closes (cfg : RCfg) (p : AppProg) (hp : p = socketioTest ∨ ∃ ns, p = wsConnect ns) (acts : List PAct) (t : PSys)
    (tr : List PEv) (h : PRuns cfg p acts t tr) : closeRequests (shown tr) ≤ 1 ∧
    (.closeRequested ∈ shown tr → t.todo.length ≤ 1) ∧
    (t.todo.length ≤ 1 → .userPanic ∉ shown tr → (∀ g, .sendFailed .raw g ∉ shown tr) → closeRequests (shown tr) = 1) := by
  obtain ⟨xs, hxs, hx⟩ : ∃ xs, p.main = xs ++ [.call .closeStart, .call .dropClient] ∧ closings p.main = 1 := by
    rcases hp with rfl | ⟨ns, rfl⟩
    · exact ⟨socketioTest.main.take 12, rfl, rfl⟩
    · cases ns with
      | none => exact ⟨[.call (.reg (.setFallback ['/'] 0)), .wait], rfl, rfl⟩
      | some n =>
        exact ⟨[.call (.reg (.setFallback ['/'] 0)), .call (.reg (.setFallback n 1)), .call (.rawSend [.text ("40".toList ++ n ++ [','])]), .wait],
          rfl, rfl⟩
  have hinv : ∀ {acts t tr}, PRuns cfg p acts t tr → ProgInv cfg p t tr := by
    intro acts t tr h
    rcases hp with rfl | ⟨ns, rfl⟩
    · exact test_inv h
    · exact ws_inv h
  have h1 := closes_inv hx hinv h
  have h2 := todo_suffix h
  rw [hxs] at h2
  have h3 := closings_suffix h2
  refine ⟨by rcases h1 with h1 | ⟨-, h1, -⟩ <;> omega, fun hm => h3.1 ?_, fun hl hp hf => ?_⟩
  · have := (closeRequests_pos _).2 hm
    omega
  · rcases h1 with h1 | ⟨h1, -⟩
    · have h4 := h3.2 hl; rw [h4] at h1; exact h1
    · rcases h1 with h1 | ⟨g, h1⟩
      · exact absurd h1 hp
      · exact absurd h1 (hf g)

-- after the event of the program is written, the group ends and the next pong is written
example : outcomeOf exCfg socketioTest (exStart ++ List.replicate 11 .main ++
      [.env .dequeue, .env .write, .env .write, .env .endGroup, .env (.recv (.text "2x".toList) false), .env .dequeue, .env .write, .env .endGroup]) =
    some (theEvent ++ [.text ['3']], ["Callbacks registered".toList], [], 3, false) := by decide +kernel

-- the program is over, after one call of `close`
example : (pexec exCfg socketioTest socketioTest.init (exStart ++ List.replicate 13 .main ++ [.env .closeTimeout, .main])).map
    (fun x => (closeRequests (shown x.2), x.1.todo.length, x.1.sys.client)) = some (1, 0, false) := by decide +kernel

end SIO
