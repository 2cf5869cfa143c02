import Verif.Props.CallPanic
/-
C64: what a callback does with the registries, it does in the order of its code, and completely if it returns.
-/
namespace SIO.Spec

/-- The changes of registries that thread `i` makes in a schedule, in order. -/
def madeBy (beh : Behaviour) (i : Nat) : XState → List Nat → List (Nat × RegOp)
  | _, [] => []
  | s, j :: js =>
    (match j == i, s.code i with
      | true, .op c op :: _ => [(c, op)]
      | _, _ => []) ++
    match xstep beh s j with
    | none => []
    | some (s', _) => madeBy beh i s' js

/-- The change of a registry that an action is. -/
def regChange : UserAct → Option (Nat × RegOp)
  | .reg c op => some (c, op)
  | _ => none

end SIO.Spec

namespace SIO
open Spec

/-- The changes in a piece of code. -/
def codeOps : List XInstr → List (Nat × RegOp)
  | [] => []
  | .op c op :: r => (c, op) :: codeOps r
  | _ :: r => codeOps r

theorem codeOps_append (a b : List XInstr) : codeOps (a ++ b) = codeOps a ++ codeOps b := by
  induction a with
  | nil => rfl
  | cons x a ih => cases x <;> simp [codeOps, ih]

theorem codeOps_acts (as : List UserAct) : codeOps (acts as) = as.filterMap regChange := by
  induction as with
  | nil => rfl
  | cons a as ih =>
    rw [show acts (a :: as) = a.code ++ acts as from rfl, codeOps_append, ih]
    cases a <;> simp [UserAct.code, codeOps, regChange, List.filterMap_cons]

/-- Instructions that neither call nor return nor look up. -/
def simple : XInstr → Bool
  | .lock _ => true
  | .unlock _ => true
  | .op _ _ => true
  | .panic => true
  | .other => true
  | _ => false

theorem simple_acts {as : List UserAct} (h : ∀ n, .call n ∉ as) : ∀ x ∈ acts as, simple x = true := by
  intro x hx
  simp only [acts, List.mem_flatMap] at hx
  obtain ⟨a, ha, hx⟩ := hx
  cases a with
  | call n => exact absurd ha (h n)
  | _ => simp only [UserAct.code, List.mem_cons, List.not_mem_nil, or_false] at hx; rcases hx with rfl | rfl | rfl <;> rfl

/-- While a thread does simple things, what it has done and what is to be done make up the whole; unless it panics. -/
theorem madeBy_simple {beh : Behaviour} {i : Nat} {r : List XInstr} : ∀ (js : List Nat) (p : List XInstr) (s s' : XState)
    (es : List CbEv), (∀ x ∈ p, simple x = true) → s.code i = p ++ r → xrun beh s js = some (s', es) →
    (∃ q, s'.code i = q ++ r ∧ (∀ x ∈ q, simple x = true) ∧ codeOps p = madeBy beh i s js ++ codeOps q) ∨
    .panic i ∈ es ∨
    ∃ js1 js2 t es1 es2, js = js1 ++ js2 ∧ js2 ≠ [] ∧ xrun beh s js1 = some (t, es1) ∧ t.code i = r ∧
      madeBy beh i s js1 = codeOps p ∧ xrun beh t js2 = some (s', es2) ∧ es = es1 ++ es2 ∧ (∃ l, js2 = i :: l)
  | [], p, s, s', es, hp, hc, h => by
    simp only [xrun, Option.some.injEq, Prod.mk.injEq] at h
    obtain ⟨rfl, rfl⟩ := h
    exact .inl ⟨p, hc, hp, by simp [madeBy]⟩
  | j :: js, p, s, s', es, hp, hc, h => by
    have h0 := h
    simp only [xrun] at h
    cases hs : xstep beh s j with
    | none => rw [hs] at h; simp at h
    | some v =>
      obtain ⟨s1, e1⟩ := v
      rw [hs] at h
      simp only at h
      cases hr : xrun beh s1 js with
      | none => rw [hr] at h; simp at h
      | some w =>
        obtain ⟨s2, e2⟩ := w
        rw [hr] at h
        simp only [Option.some.injEq, Prod.mk.injEq] at h
        obtain ⟨rfl, rfl⟩ := h
        obtain ⟨x, y, hx, hcase⟩ := xstep_code hs
        obtain ⟨_, _, _, ho, _⟩ := xstep_frame hs
        by_cases hj : j = i
        · subst hj
          cases p with
          | nil =>
            refine .inr (.inr ⟨[], j :: js, s, [], e1 ++ e2, rfl, by simp, by simp [xrun], by simpa using hc, by simp [madeBy, codeOps],
              h0, by simp, _, rfl⟩)
          | cons z p =>
            rw [hc] at hx
            simp only [List.cons_append, List.cons.injEq] at hx
            obtain ⟨rfl, rfl⟩ := hx
            have hz := hp z (by simp)
            have hm : madeBy beh j s (j :: js) = codeOps [z] ++ madeBy beh j s1 js := by
              simp only [madeBy, beq_self_eq_true, hc, List.cons_append, hs]
              cases z <;> simp [codeOps]
            rcases hcase with ⟨rfl, _⟩ | ⟨q, hq1, _, hq3⟩
            · exact .inr (.inl (by simp))
            · have hq : q = [] := by
                rcases hq3 with ⟨h, _⟩ | ⟨_, _, _, _, rfl, _⟩ | ⟨_, _, _, _, rfl, _⟩ | ⟨_, _, rfl, _⟩
                · exact h
                all_goals simp [simple] at hz
              subst hq
              have hcp : codeOps (z :: p) = codeOps [z] ++ codeOps p := by
                rw [← codeOps_append]; rfl
              rcases madeBy_simple js p s1 s2 e2 (fun x h => hp x (List.mem_cons_of_mem _ h)) (by simpa using hq1) hr with
                ⟨q, h1, h2, h3⟩ | h1 | ⟨js1, js2, t, es1, es2, rfl, h2, h3, h4, h5, h6, rfl, h8⟩
              · exact .inl ⟨q, h1, h2, by rw [hcp, hm, h3, List.append_assoc]⟩
              · exact .inr (.inl (List.mem_append_right _ h1))
              · refine .inr (.inr ⟨j :: js1, js2, t, e1 ++ es1, es2, rfl, h2, by simp [xrun, hs, h3], h4, ?_, h6, by simp, h8⟩)
                rw [hcp, ← h5]
                simp only [madeBy, beq_self_eq_true, hc, List.cons_append, hs]
                cases z <;> simp [codeOps]
        · have hc' : s1.code i = p ++ r := by rw [(ho i (Ne.symm hj)).1]; exact hc
          have hji : (j == i) = false := by simpa using hj
          have hm : ∀ l, madeBy beh i s (j :: l) = madeBy beh i s1 l := fun l => by simp [madeBy, hji, hs]
          rcases madeBy_simple js p s1 s2 e2 hp hc' hr with
            ⟨q, h1, h2, h3⟩ | h1 | ⟨js1, js2, t, es1, es2, rfl, h2, h3, h4, h5, h6, rfl, h8⟩
          · exact .inl ⟨q, h1, h2, by rw [hm, h3]⟩
          · exact .inr (.inl (List.mem_append_right _ h1))
          · exact .inr (.inr ⟨j :: js1, js2, t, e1 ++ es1, es2, rfl, h2, by simp [xrun, hs, h3], h4, by rw [hm, h5], h6, by simp, h8⟩)

/-- C64: an event callback that calls no other callback changes the registries as its code says, in that order: between the
start and the return of a call the thread makes exactly these changes. -/
theorem C64_event_body (beh : Behaviour) (m : Cb) (i k : Nat) (s s1 s2 s3 : XState) (js : List Nat) (es : List CbEv)
    (hs : xstep beh s i = some (s1, [.start m i k])) (hn : ∀ n, .call n ∉ beh.event m k)
    (hr : xrun beh s1 js = some (s2, es)) (hd : .done m i ∉ es) (he : xstep beh s2 i = some (s3, [.done m i])) :
    madeBy beh i s1 js = (beh.event m k).filterMap regChange := by
  obtain ⟨x, r, hx, hcase⟩ := xstep_code hs
  have hc : s1.code i = acts (beh.event m k) ++ .ret m :: r := by
    rcases hcase with ⟨h, _⟩ | ⟨q, hq, _, ⟨_, _, ⟨h, _⟩ | ⟨_, _, h, _⟩⟩ | ⟨_, _, _, _, _, _, h, _⟩ | ⟨_, _, _, _, _, _, h, _⟩ |
      ⟨n, k', _, rfl, h, _⟩⟩
    · simp at h
    · simp at h
    · simp at h
    · simp at h
    · simp at h
    · simp only [List.cons.injEq, CbEv.start.injEq, and_true] at h
      obtain ⟨rfl, _, rfl⟩ := h
      rw [hq]; simp
  rw [← codeOps_acts]
  obtain ⟨y, r', hy, hcase'⟩ := xstep_code he
  have hyr : y = .ret m := by
    rcases hcase' with ⟨h, _⟩ | ⟨q, _, _, ⟨_, _, ⟨h, _⟩ | ⟨n, hn, h, _⟩⟩ | ⟨_, _, _, _, _, _, h, _⟩ | ⟨_, _, _, _, _, _, h, _⟩ |
      ⟨n, k', _, _, h, _⟩⟩
    · simp at h
    · simp at h
    · simp only [List.cons.injEq, CbEv.done.injEq, and_true] at h
      rw [hn, h]
    · simp at h
    · simp at h
    · simp at h
  subst hyr
  rcases madeBy_simple js _ s1 s2 es (simple_acts hn) hc hr with ⟨q, h1, h2, h3⟩ | h1 | ⟨js1, js2, t, es1, es2, rfl, _, h3, h4, h5, h6, rfl, l, rfl⟩
  · cases q with
    | nil => rw [h3]; simp [codeOps]
    | cons z q =>
      rw [hy] at h1
      simp only [List.cons_append, List.cons.injEq] at h1
      have := h2 z (by simp)
      rw [← h1.1] at this
      simp [simple] at this
  · have := xrun_induct (beh := beh) (P := fun t gs => .panic i ∈ gs → t.code i = [])
      (by
        intro t t' j gs e ih hst hm
        obtain ⟨z, w, hz, hc3⟩ := xstep_code hst
        obtain ⟨_, _, _, ho, _⟩ := xstep_frame hst
        by_cases hj : j = i
        · subst hj
          rcases List.mem_append.1 hm with hm | hm
          · rw [ih hm] at hz; simp at hz
          · rcases hc3 with ⟨_, h, _⟩ | ⟨q, _, _, ⟨_, _, ⟨rfl, _⟩ | ⟨_, _, rfl, _⟩⟩ | ⟨_, _, _, _, _, _, rfl, _⟩ |
              ⟨_, _, _, _, _, _, rfl, _⟩ | ⟨_, _, _, _, rfl, _⟩⟩
            · exact h
            all_goals simp at hm
        · rw [(ho i (Ne.symm hj)).1]
          refine ih ?_
          rcases List.mem_append.1 hm with hm | hm
          · exact hm
          · exfalso
            cases xstep_seen hst with
            | panic _ _ => simp [Ne.symm hj] at hm
            | _ => simp at hm) js s1 s2 [] es (by simp) hr
    rw [this (by simpa using h1)] at hy
    simp at hy
  · -- the call would have returned before
    exfalso
    simp only [xrun] at h6
    cases hst : xstep beh t i with
    | none => rw [hst] at h6; simp at h6
    | some v =>
      obtain ⟨t1, e1⟩ := v
      rw [hst] at h6
      simp only at h6
      have hd1 : e1 = [.done m i] := by
        have hst' := hst
        simp only [xstep, h4] at hst'
        split at hst'
        · simp only [Option.some.injEq, Prod.mk.injEq] at hst'
          exact hst'.2.symm
        · simp at hst'
      cases hr2 : xrun beh t1 l with
      | none => rw [hr2] at h6; simp at h6
      | some w =>
        rw [hr2] at h6
        simp only [Option.some.injEq, Prod.mk.injEq] at h6
        obtain ⟨_, rfl⟩ := h6
        exact hd (by rw [hd1]; simp)

/-- C64: the same for an ack callback: when the thread has come to what it does after the call, and has not begun with that,
it has made exactly the changes of the code of the callback. -/
theorem C64_ack_body (beh : Behaviour) (cb : Cb) (i : Nat) (s s1 s2 : XState) (x : XInstr) (r : List XInstr) (js : List Nat)
    (es : List CbEv) (hx : s.code i = x :: r) (hs : xstep beh s i = some (s1, [.ack cb i]))
    (hn : ∀ n, .call n ∉ beh.ack cb) (hr : xrun beh s1 js = some (s2, es)) (hp : .panic i ∉ es)
    (he : s2.code i = r) (hj : ∀ js1 js2 t es1, js = js1 ++ i :: js2 → xrun beh s1 js1 = some (t, es1) → t.code i ≠ r) :
    madeBy beh i s1 js = (beh.ack cb).filterMap regChange := by
  obtain ⟨x', r', hx', hcase⟩ := xstep_code hs
  rw [hx] at hx'
  cases hx'
  have hc : s1.code i = acts (beh.ack cb) ++ r := by
    rcases hcase with ⟨h, _⟩ | ⟨q, hq, _, ⟨_, _, ⟨h, _⟩ | ⟨_, _, h, _⟩⟩ | ⟨_, _, _, _, _, _, h, _⟩ | ⟨_, _, _, n, _, rfl, h, _⟩ |
      ⟨n, k', _, _, h, _⟩⟩
    · simp at h
    · simp at h
    · simp at h
    · simp at h
    · simp only [List.cons.injEq, CbEv.ack.injEq, and_true] at h
      obtain rfl := h
      exact hq
    · simp at h
  rw [← codeOps_acts]
  rcases madeBy_simple js _ s1 s2 es (simple_acts hn) hc hr with ⟨q, h1, h2, h3⟩ | h1 | ⟨js1, js2, t, es1, es2, rfl, _, h3, h4, _, _, _, l, rfl⟩
  · rw [he] at h1
    have : q = [] := by
      have := congrArg List.length h1
      simp only [List.length_append] at this
      exact List.length_eq_zero_iff.1 (by omega)
    rw [h3, this]
    simp [codeOps]
  · exact absurd h1 hp
  · exact absurd h4 (hj js1 l t es1 rfl h3)

-- non-vacuity: a callback that registers one callback and removes another
example :
    let beh : Behaviour := ⟨fun _ _ => [.reg 0 (.setEvent ['/'] ['f'] 8), .other, .reg 1 (.clearFallback ['/'])], fun _ => []⟩
    let s := XState.start (fun _ => Callbacks.new) fun i => if i = 0 then .app [.call 7] else .app []
    ((xrun beh s [0, 0, 0, 0, 0, 0, 0, 0, 0]).map (·.2)) = some [.start 7 0 0, .done 7 0] ∧
    madeBy beh 0 s [0, 0, 0, 0, 0, 0, 0, 0, 0] = [(0, .setEvent ['/'] ['f'] 8), (1, .clearFallback ['/'])] := by
  refine ⟨rfl, rfl⟩

end SIO
