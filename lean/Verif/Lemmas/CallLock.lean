import Verif.Spec.CallLock
import Verif.Lemmas.Callbacks
/-
Invariants of the mutexes around callbacks.
-/
namespace SIO
open Spec

theorem snoc_split {α : Type} {es pre post : List α} {e x : α} (h : es ++ [e] = pre ++ x :: post) :
    (post = [] ∧ es = pre ∧ e = x) ∨ ∃ post', post = post' ++ [e] ∧ es = pre ++ x :: post' := by
  rcases List.eq_nil_or_concat post with rfl | ⟨l, b, rfl⟩
  · have := List.append_inj' h rfl
    exact .inl ⟨rfl, this.1, by simpa using this.2⟩
  · have h' : es ++ [e] = (pre ++ x :: l) ++ [b] := by rw [h]; simp
    have := List.append_inj' h' rfl
    have hb : e = b := by simpa using this.2
    exact .inr ⟨l, by rw [hb]; simp, this.1⟩

/-- A step that is not to be seen. -/
structure Unseen (s s' : XState) (i : Nat) : Prop where
  code : ∀ j, j ≠ i → s'.code j = s.code j
  busy : s.code i ≠ []
  calls : s'.calls = s.calls
  poisoned : s'.poisoned = s.poisoned
  cell : ∀ m, s'.holder (.cell m) = s.holder (.cell m)

/-- What a step does to the callbacks. -/
inductive Seen (s s' : XState) (i : Nat) : List CbEv → Prop where
  | quiet : Unseen s s' i → Seen s s' i []
  | ack (cb : Cb) : Unseen s s' i → Seen s s' i [.ack cb i]
  | start (m : Cb) : (∀ j, j ≠ i → s'.code j = s.code j) → s.code i ≠ [] → s'.poisoned = s.poisoned →
      (s'.calls = fun n => if n = m then s.calls m + 1 else s.calls n) →
      s.holder (.cell m) = none → s.poisoned (.cell m) = false →
      (∀ n, s'.holder (.cell n) = if n = m then some i else s.holder (.cell n)) →
      Seen s s' i [.start m i (s.calls m)]
  | done (m : Cb) : (∀ j, j ≠ i → s'.code j = s.code j) → s.code i ≠ [] → s'.poisoned = s.poisoned →
      s'.calls = s.calls → s.holder (.cell m) = some i →
      (∀ n, s'.holder (.cell n) = if n = m then none else s.holder (.cell n)) →
      Seen s s' i [.done m i]
  | panic : s.code i ≠ [] → s' = s.unwind i → Seen s s' i [.panic i]

theorem xstep_seen {beh : Behaviour} {s s' : XState} {i : Nat} {e : List CbEv} (h : xstep beh s i = some (s', e)) :
    Seen s s' i e := by
  unfold xstep at h
  split at h
  · simp at h
  all_goals have hb : s.code i ≠ [] := by simp [*]
  · split at h
    · simp at h
    · split at h <;> (simp only [Option.some.injEq, Prod.mk.injEq] at h; obtain ⟨rfl, rfl⟩ := h)
      · exact .panic hb rfl
      · exact .quiet ⟨fun j hj => by simp [XState.hold, XState.goto, hj], hb, rfl, rfl, fun m => by simp [XState.hold, XState.goto]⟩
  · split at h
    · simp only [Option.some.injEq, Prod.mk.injEq] at h
      obtain ⟨rfl, rfl⟩ := h
      exact .quiet ⟨fun j hj => by simp [XState.hold, XState.goto, hj], hb, rfl, rfl, fun m => by simp [XState.hold, XState.goto]⟩
    · simp at h
  · split at h <;> (simp only [Option.some.injEq, Prod.mk.injEq] at h; obtain ⟨rfl, rfl⟩ := h)
    · exact .quiet ⟨fun j hj => by simp [XState.goto, hj], hb, rfl, rfl, fun m => rfl⟩
    · exact .quiet ⟨fun j hj => by simp [XState.goto, hj], hb, rfl, rfl, fun m => rfl⟩
  · split at h <;> (simp only [Option.some.injEq, Prod.mk.injEq] at h; obtain ⟨rfl, rfl⟩ := h)
    · exact .quiet ⟨fun j hj => by simp [XState.goto, XState.setReg, hj], hb, rfl, rfl, fun m => rfl⟩
    · exact .ack _ ⟨fun j hj => by simp [XState.goto, XState.setReg, hj], hb, rfl, rfl, fun m => rfl⟩
  · rename_i m rest _
    split at h
    · simp at h
    · rename_i hn
      split at h <;> (simp only [Option.some.injEq, Prod.mk.injEq] at h; obtain ⟨rfl, rfl⟩ := h)
      · exact .panic hb rfl
      · rename_i hp
        refine .start m (fun j hj => by simp [XState.hold, XState.goto, hj]) hb rfl rfl (by simpa using hn) (by simpa using hp) ?_
        intro n
        simp only [XState.hold, XState.goto, Lk.cell.injEq]
  · rename_i m rest _
    split at h
    · simp only [Option.some.injEq, Prod.mk.injEq] at h
      obtain ⟨rfl, rfl⟩ := h
      rename_i hh
      refine .done m (fun j hj => by simp [XState.hold, XState.goto, hj]) hb rfl rfl hh ?_
      intro n
      simp only [XState.hold, XState.goto, Lk.cell.injEq]
    · simp at h
  · simp only [Option.some.injEq, Prod.mk.injEq] at h
    obtain ⟨rfl, rfl⟩ := h
    exact .quiet ⟨fun j hj => by simp [XState.goto, XState.setReg, hj], hb, rfl, rfl, fun m => rfl⟩
  · simp only [Option.some.injEq, Prod.mk.injEq] at h
    obtain ⟨rfl, rfl⟩ := h
    exact .panic hb rfl
  · simp only [Option.some.injEq, Prod.mk.injEq] at h
    obtain ⟨rfl, rfl⟩ := h
    exact .quiet ⟨fun j hj => by simp [XState.goto, hj], hb, rfl, rfl, fun m => rfl⟩

/-- Properties of the state and of what was seen so far. -/
theorem xrun_induct {beh : Behaviour} {P : XState → List CbEv → Prop}
    (hs : ∀ s s' i es e, P s es → xstep beh s i = some (s', e) → P s' (es ++ e)) :
    ∀ (is : List Nat) (s s' : XState) (es es' : List CbEv), P s es → xrun beh s is = some (s', es') → P s' (es ++ es') := by
  intro is
  induction is with
  | nil =>
    intro s s' es es' h hr
    simp only [xrun, Option.some.injEq, Prod.mk.injEq] at hr
    obtain ⟨rfl, rfl⟩ := hr
    simpa using h
  | cons i is ih =>
    intro s s' es es' h hr
    simp only [xrun] at hr
    split at hr
    · simp at hr
    · rename_i s1 e1 h1
      split at hr
      · simp at hr
      · rename_i s2 e2 h2
        simp only [Option.some.injEq, Prod.mk.injEq] at hr
        obtain ⟨rfl, rfl⟩ := hr
        rw [← List.append_assoc]
        exact ih _ _ _ _ (hs _ _ _ _ _ h h1) h2

/-- How often the callback was called. -/
def starts (m : Cb) (es : List CbEv) : Nat :=
  (es.filter fun e => match e with | .start n _ _ => decide (n = m) | _ => false).length

/-- What was seen so far, and the state. -/
structure LogInv (s : XState) (es : List CbEv) : Prop where
  one : OneAtATime es
  numbered : Numbered es
  ends : PanicEnds es
  opened : ∀ pre post m i k, es = pre ++ .start m i k :: post →
    .done m i ∈ post ∨ s.holder (.cell m) = some i ∨ s.poisoned (.cell m) = true
  held : ∀ m i, s.holder (.cell m) = some i → ∃ pre mid k, es = pre ++ .start m i k :: mid ∧ .done m i ∉ mid
  poison : ∀ m, s.poisoned (.cell m) = true ↔ PanickedIn m es
  calls : ∀ m, s.calls m = starts m es
  dead : ∀ i, .panic i ∈ es → s.code i = []

theorem panickedIn_snoc {m : Cb} {es : List CbEv} {e : CbEv} (he : ∀ i, e ≠ .panic i) :
    PanickedIn m (es ++ [e]) ↔ PanickedIn m es := by
  constructor
  · rintro ⟨pre, mid, post, i, k, h, hd⟩
    have h' : es ++ [e] = (pre ++ .start m i k :: mid) ++ .panic i :: post := by rw [h]; simp
    rcases snoc_split h' with ⟨_, _, h3⟩ | ⟨post', _, h3⟩
    · exact absurd h3 (he i)
    · exact ⟨pre, mid, post', i, k, by rw [h3]; simp, hd⟩
  · rintro ⟨pre, mid, post, i, k, h, hd⟩
    exact ⟨pre, mid, post ++ [e], i, k, by rw [h]; simp, hd⟩

theorem logInv_step {s s' : XState} {i : Nat} {es e : List CbEv} (hI : LogInv s es) (h : Seen s s' i e) :
    LogInv s' (es ++ e) := by
  cases h with
  | quiet q =>
    rw [List.append_nil]
    refine ⟨hI.one, hI.numbered, hI.ends, ?_, ?_, ?_, ?_, ?_⟩
    · intro pre post m j k h; rw [q.cell, q.poisoned]; exact hI.opened pre post m j k h
    · intro m j h; rw [q.cell] at h; exact hI.held m j h
    · intro m; rw [q.poisoned]; exact hI.poison m
    · intro m; rw [q.calls]; exact hI.calls m
    · intro j hj
      have := hI.dead j hj
      by_cases hji : j = i
      · subst hji; exact absurd this q.busy
      · rw [q.code j hji]; exact this
  | ack cb q =>
    refine ⟨?_, ?_, ?_, ?_, ?_, ?_, ?_, ?_⟩
    · intro pre mid post n j j' k k' h
      have h' : es ++ [.ack cb i] = (pre ++ .start n j k :: mid) ++ .start n j' k' :: post := by rw [h]; simp
      rcases snoc_split h' with ⟨_, _, h3⟩ | ⟨post', _, h3⟩
      · simp at h3
      · exact hI.one pre mid post' n j j' k k' (by rw [h3]; simp)
    · intro pre post n j k h
      rcases snoc_split h with ⟨_, _, h3⟩ | ⟨post', _, h3⟩
      · simp at h3
      · exact hI.numbered pre post' n j k h3
    · intro pre post j h e he
      rcases snoc_split h with ⟨h1, _, _⟩ | ⟨post', h1, h3⟩
      · subst h1; simp at he
      · subst h1
        simp only [List.mem_append, List.mem_singleton] at he
        rcases he with he | rfl
        · exact hI.ends pre post' j h3 e he
        · intro hj
          simp only [CbEv.thread] at hj
          subst hj
          exact q.busy (hI.dead i (by rw [h3]; simp))
    · intro pre post n j k h
      rcases snoc_split h with ⟨_, _, h3⟩ | ⟨post', h1, h3⟩
      · simp at h3
      · rw [q.cell, q.poisoned]
        rcases hI.opened pre post' n j k h3 with h' | h'
        · left; rw [h1]; exact List.mem_append_left _ h'
        · exact .inr h'
    · intro n j h
      rw [q.cell] at h
      obtain ⟨pre, mid, k, h1, h2⟩ := hI.held n j h
      exact ⟨pre, mid ++ [.ack cb i], k, by rw [h1]; simp, by simp [h2]⟩
    · intro n
      rw [q.poisoned, hI.poison n, panickedIn_snoc (by simp)]
    · intro n
      rw [q.calls, hI.calls n]
      simp [starts]
    · intro j hj
      have hj' : CbEv.panic j ∈ es := by simpa using hj
      have := hI.dead j hj'
      by_cases hji : j = i
      · subst hji; exact absurd this q.busy
      · rw [q.code j hji]; exact this
  | start m hc hb hp hk hn hnp hh =>
    have closed : ∀ pre post j k, es = pre ++ .start m j k :: post → .done m j ∈ post := by
      intro pre post j k h
      rcases hI.opened pre post m j k h with h | h | h
      · exact h
      · rw [hn] at h; simp at h
      · rw [hnp] at h; simp at h
    refine ⟨?_, ?_, ?_, ?_, ?_, ?_, ?_, ?_⟩
    · intro pre mid post n j j' k k' h
      have h' : es ++ [.start m i (s.calls m)] = (pre ++ .start n j k :: mid) ++ .start n j' k' :: post := by rw [h]; simp
      rcases snoc_split h' with ⟨_, h2, h3⟩ | ⟨post', _, h3⟩
      · simp only [CbEv.start.injEq] at h3
        obtain ⟨rfl, _, _⟩ := h3
        exact closed pre mid j k h2
      · exact hI.one pre mid post' n j j' k k' (by rw [h3]; simp)
    · intro pre post n j k h
      rcases snoc_split h with ⟨_, h2, h3⟩ | ⟨post', _, h3⟩
      · simp only [CbEv.start.injEq] at h3
        obtain ⟨rfl, _, rfl⟩ := h3
        rw [← h2]
        exact hI.calls m
      · exact hI.numbered pre post' n j k h3
    · intro pre post j h e he
      rcases snoc_split h with ⟨h1, _, _⟩ | ⟨post', h1, h3⟩
      · subst h1; simp at he
      · subst h1
        simp only [List.mem_append, List.mem_singleton] at he
        rcases he with he | rfl
        · exact hI.ends pre post' j h3 e he
        · intro hj
          simp only [CbEv.thread] at hj
          subst hj
          exact hb (hI.dead i (by rw [h3]; simp))
    · intro pre post n j k h
      rcases snoc_split h with ⟨_, h2, h3⟩ | ⟨post', h1, h3⟩
      · simp only [CbEv.start.injEq] at h3
        obtain ⟨rfl, rfl, _⟩ := h3
        right; left; rw [hh, if_pos rfl]
      · by_cases hnm : n = m
        · subst hnm
          left; rw [h1]; exact List.mem_append_left _ (closed pre post' j k h3)
        · rcases hI.opened pre post' n j k h3 with h | h | h
          · left; rw [h1]; exact List.mem_append_left _ h
          · right; left; rw [hh, if_neg hnm]; exact h
          · right; right; rw [hp]; exact h
    · intro n j h
      rw [hh] at h
      by_cases hnm : n = m
      · subst hnm
        rw [if_pos rfl] at h
        simp only [Option.some.injEq] at h
        subst h
        exact ⟨es, [], _, rfl, by simp⟩
      · rw [if_neg hnm] at h
        obtain ⟨pre, mid, k, h1, h2⟩ := hI.held n j h
        exact ⟨pre, mid ++ [.start m i (s.calls m)], k, by rw [h1]; simp, by simp [h2]⟩
    · intro n
      rw [hp, hI.poison n, panickedIn_snoc (by simp)]
    · intro n
      rw [hk]
      have := hI.calls n
      unfold starts at this ⊢
      rw [List.filter_append, List.length_append, ← this]
      by_cases hnm : n = m
      · subst hnm; simp
      · simp [hnm, Ne.symm hnm]
    · intro j hj
      have hj' : CbEv.panic j ∈ es := by simpa using hj
      have := hI.dead j hj'
      by_cases hji : j = i
      · subst hji; exact absurd this hb
      · rw [hc j hji]; exact this
  | done m hc hb hp hk hn hh =>
    refine ⟨?_, ?_, ?_, ?_, ?_, ?_, ?_, ?_⟩
    · intro pre mid post n j j' k k' h
      have h' : es ++ [.done m i] = (pre ++ .start n j k :: mid) ++ .start n j' k' :: post := by rw [h]; simp
      rcases snoc_split h' with ⟨_, _, h3⟩ | ⟨post', _, h3⟩
      · simp at h3
      · exact hI.one pre mid post' n j j' k k' (by rw [h3]; simp)
    · intro pre post n j k h
      rcases snoc_split h with ⟨_, _, h3⟩ | ⟨post', _, h3⟩
      · simp at h3
      · exact hI.numbered pre post' n j k h3
    · intro pre post j h e he
      rcases snoc_split h with ⟨h1, _, _⟩ | ⟨post', h1, h3⟩
      · subst h1; simp at he
      · subst h1
        simp only [List.mem_append, List.mem_singleton] at he
        rcases he with he | rfl
        · exact hI.ends pre post' j h3 e he
        · intro hj
          simp only [CbEv.thread] at hj
          subst hj
          exact hb (hI.dead i (by rw [h3]; simp))
    · intro pre post n j k h
      rcases snoc_split h with ⟨_, _, h3⟩ | ⟨post', h1, h3⟩
      · simp at h3
      · rcases hI.opened pre post' n j k h3 with h' | h' | h'
        · left; rw [h1]; exact List.mem_append_left _ h'
        · by_cases hnm : n = m
          · subst hnm
            rw [hn] at h'
            simp only [Option.some.injEq] at h'
            subst h'
            left; rw [h1]; simp
          · right; left; rw [hh, if_neg hnm]; exact h'
        · right; right; rw [hp]; exact h'
    · intro n j h
      rw [hh] at h
      by_cases hnm : n = m
      · subst hnm; simp at h
      · rw [if_neg hnm] at h
        obtain ⟨pre, mid, k, h1, h2⟩ := hI.held n j h
        exact ⟨pre, mid ++ [.done m i], k, by rw [h1]; simp, by simp [h2, hnm]⟩
    · intro n
      rw [hp, hI.poison n, panickedIn_snoc (by simp)]
    · intro n
      rw [hk, hI.calls n]
      simp [starts]
    · intro j hj
      have hj' : CbEv.panic j ∈ es := by simpa using hj
      have := hI.dead j hj'
      by_cases hji : j = i
      · subst hji; exact absurd this hb
      · rw [hc j hji]; exact this
  | panic hb hs =>
    subst hs
    refine ⟨?_, ?_, ?_, ?_, ?_, ?_, ?_, ?_⟩
    · intro pre mid post n j j' k k' h
      have h' : es ++ [.panic i] = (pre ++ .start n j k :: mid) ++ .start n j' k' :: post := by rw [h]; simp
      rcases snoc_split h' with ⟨_, _, h3⟩ | ⟨post', _, h3⟩
      · simp at h3
      · exact hI.one pre mid post' n j j' k k' (by rw [h3]; simp)
    · intro pre post n j k h
      rcases snoc_split h with ⟨_, _, h3⟩ | ⟨post', _, h3⟩
      · simp at h3
      · exact hI.numbered pre post' n j k h3
    · intro pre post j h e he
      rcases snoc_split h with ⟨h1, _, _⟩ | ⟨post', h1, h3⟩
      · subst h1; simp at he
      · subst h1
        simp only [List.mem_append, List.mem_singleton] at he
        rcases he with he | rfl
        · exact hI.ends pre post' j h3 e he
        · intro hj
          simp only [CbEv.thread] at hj
          subst hj
          exact hb (hI.dead i (by rw [h3]; simp))
    · intro pre post n j k h
      rcases snoc_split h with ⟨_, _, h3⟩ | ⟨post', h1, h3⟩
      · simp at h3
      · rcases hI.opened pre post' n j k h3 with h' | h' | h'
        · left; rw [h1]; exact List.mem_append_left _ h'
        · by_cases hj : j = i
          · subst hj; right; right; simp [XState.unwind, h']
          · right; left; simp [XState.unwind, h', hj]
        · right; right; simp [XState.unwind, h']
    · intro n j h
      simp only [XState.unwind] at h
      split at h
      · simp at h
      · obtain ⟨pre, mid, k, h1, h2⟩ := hI.held n j h
        exact ⟨pre, mid ++ [.panic i], k, by rw [h1]; simp, by simp [h2]⟩
    · intro n
      simp only [XState.unwind, Bool.or_eq_true, decide_eq_true_eq]
      constructor
      · rintro (h | h)
        · obtain ⟨pre, mid, post, j, k, h1, h2⟩ := (hI.poison n).1 h
          exact ⟨pre, mid, post ++ [.panic i], j, k, by rw [h1]; simp, h2⟩
        · obtain ⟨pre, mid, k, h1, h2⟩ := hI.held n i h
          exact ⟨pre, mid, [], i, k, by rw [h1]; simp, h2⟩
      · rintro ⟨pre, mid, post, j, k, h, hd⟩
        have h' : es ++ [.panic i] = (pre ++ .start n j k :: mid) ++ .panic j :: post := by rw [h]; simp
        rcases snoc_split h' with ⟨_, h2, h3⟩ | ⟨post', _, h3⟩
        · simp only [CbEv.panic.injEq] at h3
          subst h3
          rcases hI.opened pre mid n i k h2 with h | h | h
          · exact absurd h hd
          · exact .inr h
          · exact .inl h
        · exact .inl ((hI.poison n).2 ⟨pre, mid, post', j, k, by rw [h3]; simp, hd⟩)
    · intro n
      simp only [XState.unwind]
      rw [hI.calls n]
      simp [starts]
    · intro j hj
      simp only [XState.unwind]
      by_cases hji : j = i
      · simp [hji]
      · rw [if_neg hji]; exact hI.dead j (by simpa [hji] using hj)

theorem logInv_start (reg : Nat → Callbacks) (progs : Nat → Prog) : LogInv (XState.start reg progs) [] := by
  refine ⟨?_, ?_, ?_, ?_, ?_, ?_, ?_, ?_⟩
  · intro pre mid post m i j k k' h; simp at h
  · intro pre post m i k h; simp at h
  · intro pre post i h; simp at h
  · intro pre post m i k h; simp at h
  · intro m i h; simp [XState.start] at h
  · intro m
    simp only [XState.start]
    constructor
    · intro h; simp at h
    · rintro ⟨pre, mid, post, i, k, h, _⟩; simp at h
  · intro m; rfl
  · intro i h; simp at h

end SIO
