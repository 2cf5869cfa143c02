import Verif.Lemmas.CallFinish
/-
C62: one call of a callback at a time, and poisoning.  C63: deadlocks.
-/
namespace SIO
open Spec

theorem logInv_run {beh : Behaviour} {reg : Nat → Callbacks} {progs : Nat → Prog} {is : List Nat} {s : XState} {es : List CbEv}
    (h : xrun beh (XState.start reg progs) is = some (s, es)) : LogInv s es := by
  have := xrun_induct (beh := beh) (P := LogInv) (fun s s' i es e hI hs => logInv_step hI (xstep_seen hs)) is _ _ [] es
    (logInv_start reg progs) h
  simpa using this

/-- Nothing is asked of the code but that it fits the guards. -/
def okT (_ : List Lk) (_ : XInstr) : Prop := True

theorem xinvT_run {beh : Behaviour} {reg : Nat → Callbacks} {progs : Nat → Prog} {is : List Nat} {s : XState} {es : List CbEv}
    (h : xrun beh (XState.start reg progs) is = some (s, es)) : GuardInv okT s := by
  have hd : ∀ hs as, Doable okT hs as := fun hs as => doable_of (fun _ _ _ => ⟨trivial, trivial⟩) (fun _ _ => trivial)
  exact xrun_induct (beh := beh) (P := fun s _ => GuardInv okT s)
    (fun s s' i es e hI hs => xinv_step hI (fun _ _ _ _ _ _ _ _ => trivial) (fun _ _ _ _ _ _ _ _ => hd _ _) (fun _ _ _ => hd _ _) hs)
    is _ _ [] es (xinv_start (fun _ => trivial) (fun _ _ _ => trivial) (fun _ _ _ => trivial) (fun _ _ _ => hd _ _)) h

/-- C62: however many clients and threads share a callback, its calls never overlap, every call finds
the closure in the state that exactly the calls before have left, and a thread that panicked is gone. -/
theorem C62_calls (beh : Behaviour) (reg : Nat → Callbacks) (progs : Nat → Prog) (is : List Nat) (s : XState) (es : List CbEv)
    (h : xrun beh (XState.start reg progs) is = some (s, es)) : OneAtATime es ∧ Numbered es ∧ PanicEnds es :=
  have hI := logInv_run h
  ⟨hI.one, hI.numbered, hI.ends⟩

/-- C62: after a panic in a callback nobody gets into it again: whoever calls it panics at once, and at no
time is there another call of it. -/
theorem C62_poisoned (beh : Behaviour) (reg : Nat → Callbacks) (progs : Nat → Prog) (is : List Nat) (s : XState) (es : List CbEv)
    (h : xrun beh (XState.start reg progs) is = some (s, es)) (m : Cb) (hm : PanickedIn m es) :
    (∀ i rest, s.code i = .call m :: rest → ∃ s', xstep beh s i = some (s', [.panic i]) ∧ s'.code i = []) ∧
    ∀ js s' fs, xrun beh s js = some (s', fs) → ∀ i k, .start m i k ∉ fs := by
  have hI := logInv_run h
  have hp := (hI.poison m).2 hm
  constructor
  · intro i rest hc
    have hn : s.holder (.cell m) = none := by
      cases hh : s.holder (.cell m) with
      | none => rfl
      | some j => have := (xinvT_run h).clean _ _ hh; rw [hp] at this; simp at this
    exact ⟨s.unwind i, by simp [xstep, hc, hn, hp], by simp [XState.unwind]⟩
  · intro js s' fs h2 i k hi
    have hI2 := logInv_run (xrun_append h h2)
    obtain ⟨pre, mid, post, j, k', rfl, hd⟩ := hm
    obtain ⟨a, b, rfl⟩ := List.append_of_mem hi
    have := hI2.one pre (mid ++ .panic j :: (post ++ a)) b m j i k' k (by simp)
    simp only [List.mem_append, List.mem_cons] at this
    have he := hI2.ends (pre ++ .start m j k' :: mid) (post ++ a ++ .start m i k :: b) j (by simp)
    rcases this with h | h | h
    · exact hd h
    · simp at h
    · exact he (.done m j) (by simp only [List.mem_append]; exact .inl h) rfl

/-- C62: otherwise a callback can be called as soon as all calls of it have returned. -/
theorem C62_open (beh : Behaviour) (reg : Nat → Callbacks) (progs : Nat → Prog) (is : List Nat) (s : XState) (es : List CbEv)
    (h : xrun beh (XState.start reg progs) is = some (s, es)) (m : Cb) (hm : ¬ PanickedIn m es)
    (hr : ∀ pre post j k, es = pre ++ .start m j k :: post → .done m j ∈ post)
    (i : Nat) (rest : List XInstr) (hc : s.code i = .call m :: rest) :
    ∃ s' k, xstep beh s i = some (s', [.start m i k]) ∧ s'.code i = acts (beh.event m k) ++ .ret m :: rest := by
  have hI := logInv_run h
  have hp : s.poisoned (.cell m) = false := by
    cases hp : s.poisoned (.cell m) with
    | false => rfl
    | true => exact absurd ((hI.poison m).1 hp) hm
  have hn : s.holder (.cell m) = none := by
    cases hh : s.holder (.cell m) with
    | none => rfl
    | some j =>
      obtain ⟨pre, mid, k, h1, h2⟩ := hI.held m j hh
      exact absurd (hr pre mid j k h1) h2
  exact ⟨_, s.calls m, by simp only [xstep, hc, hn, hp, ne_eq, not_true_eq_false, if_false]; rfl,
    by simp [XState.hold, XState.goto]⟩

/-- C62: a callback that comes to call itself, directly or through others, never returns, and keeps
everybody else out. -/
theorem C62_reentrant (beh : Behaviour) (reg : Nat → Callbacks) (progs : Nat → Prog) (is : List Nat) (s : XState) (es : List CbEv)
    (h : xrun beh (XState.start reg progs) is = some (s, es)) (m : Cb) (i k : Nat) (pre mid : List CbEv)
    (he : es = pre ++ .start m i k :: mid) (hd : .done m i ∉ mid) (rest : List XInstr) (hc : s.code i = .call m :: rest) :
    ∀ js s' fs, xrun beh s js = some (s', fs) →
      s'.code i = .call m :: rest ∧ xstep beh s' i = none ∧ ∀ j k', .start m j k' ∉ fs := by
  have hI := logInv_run h
  have h0 : s.holder (.cell m) = some i ∨ s.poisoned (.cell m) = true := by
    rcases hI.opened pre mid m i k he with h | h
    · exact absurd h hd
    · exact h
  by_cases hh : s.holder (.cell m) = some i
  · intro js s' fs h2
    have := xrun_induct (beh := beh)
      (P := fun t gs => t.code i = .call m :: rest ∧ t.holder (.cell m) = some i ∧ ∀ j k', .start m j k' ∉ gs)
      (by
        rintro t t' j gs e ⟨h1, h2, h3⟩ hs
        have hji : j ≠ i := by
          rintro rfl
          simp [xstep, h1, h2] at hs
        obtain ⟨x, r, _, ho, _⟩ := xstep_frame hs
        refine ⟨by rw [(ho i hji.symm).1]; exact h1, ((ho i hji.symm).2 _).2 h2, ?_⟩
        intro j' k' hm
        simp only [List.mem_append] at hm
        rcases hm with hm | hm
        · exact h3 j' k' hm
        · have hseen := xstep_seen hs
          cases hseen with
          | quiet _ => simp at hm
          | ack _ _ => simp at hm
          | start n _ _ _ _ hn _ _ =>
            simp only [List.mem_singleton, CbEv.start.injEq] at hm
            obtain ⟨rfl, _, _⟩ := hm
            rw [h2] at hn; simp at hn
          | done n _ _ _ _ _ _ => simp at hm
          | panic _ _ => simp at hm) js s s' [] fs ⟨hc, hh, by simp⟩ h2
    simp only [List.nil_append] at this
    obtain ⟨h1, h3, h4⟩ := this
    exact ⟨h1, by simp [xstep, h1, h3], h4⟩
  · -- the thread panicked in the call, so it is not there any more
    have hp : s.poisoned (.cell m) = true := h0.resolve_left hh
    exfalso
    obtain ⟨pre', mid', post', j, k', h1, h2⟩ := (hI.poison m).1 hp
    -- the calls of `m` do not overlap, so that call is this one
    have hdead : .panic j ∈ es := by rw [h1]; simp
    have hji : j ≠ i := by
      rintro rfl
      rw [hI.dead j hdead] at hc; simp at hc
    have key : ∀ (a b a' b' : List CbEv) (x y : CbEv), a ++ x :: b = a' ++ y :: b' → x ≠ y →
        (∃ c, b = c ++ y :: b' ∧ a' = a ++ x :: c) ∨ ∃ c, b' = c ++ x :: b ∧ a = a' ++ y :: c := by
      intro a
      induction a with
      | nil =>
        intro b a' b' x y hab hxy
        cases a' with
        | nil => simp only [List.nil_append, List.cons.injEq] at hab; exact absurd hab.1 hxy
        | cons z a' =>
          simp only [List.nil_append, List.cons_append, List.cons.injEq] at hab
          exact .inl ⟨a', hab.2, by rw [hab.1]; rfl⟩
      | cons z a ih =>
        intro b a' b' x y hab hxy
        cases a' with
        | nil =>
          simp only [List.nil_append, List.cons_append, List.cons.injEq] at hab
          exact .inr ⟨a, hab.2.symm, by rw [← hab.1]; rfl⟩
        | cons w a' =>
          simp only [List.cons_append, List.cons.injEq] at hab
          obtain ⟨rfl, hab⟩ := hab
          rcases ih b a' b' x y hab hxy with ⟨c, hc1, hc2⟩ | ⟨c, hc1, hc2⟩
          · exact .inl ⟨c, hc1, by rw [hc2]; rfl⟩
          · exact .inr ⟨c, hc1, by rw [hc2]; rfl⟩
    have hne : CbEv.start m i k ≠ .start m j k' := by
      intro hcon
      simp only [CbEv.start.injEq] at hcon
      exact hji hcon.2.1.symm
    rcases key pre mid pre' (mid' ++ .panic j :: post') _ _ (he.symm.trans h1) hne with ⟨c, hc1, hc2⟩ | ⟨c, hc1, hc2⟩
    · have := hI.one pre c (mid' ++ .panic j :: post') m i j k k' (by rw [he, hc1])
      exact hd (by rw [hc1]; simp [this])
    · have h5 := hI.one pre' c mid m j i k' k (by rw [h1, hc1])
      -- `done m j` comes after the panic of `j`
      have h6 : CbEv.panic j ≠ .start m i k := by simp
      rcases key mid' post' c mid _ _ hc1 h6 with ⟨d, hd1, hd2⟩ | ⟨d, hd1, hd2⟩
      · rw [hd2] at h5
        simp only [List.mem_append, List.mem_cons] at h5
        rcases h5 with h5 | h5 | h5
        · exact h2 h5
        · simp at h5
        · refine hI.ends (pre' ++ .start m j k' :: mid') post' j (by rw [h1]; simp) (.done m j) ?_ rfl
          rw [hd1]; simp [h5]
      · exact h2 (by rw [hd2]; simp [h5])

/-- C62: the registry of every client is used by one thread at a time. -/
theorem C62_registry (beh : Behaviour) (reg : Nat → Callbacks) (progs : Nat → Prog) (is : List Nat) (s : XState) (es : List CbEv)
    (h : xrun beh (XState.start reg progs) is = some (s, es)) (c i j : Nat) (hij : i ≠ j) (x y : XInstr) (r r' : List XInstr)
    (hx : s.code i = x :: r) (hy : s.code j = y :: r')
    (hxc : (∃ ns name, x = .event c ns name) ∨ (∃ ns id, x = .ack c ns id) ∨ ∃ op, x = .op c op)
    (hyc : (∃ ns name, y = .event c ns name) ∨ (∃ ns id, y = .ack c ns id) ∨ ∃ op, y = .op c op) : False := by
  have hI := xinvT_run h
  have key : ∀ t z r, s.code t = z :: r →
      ((∃ ns name, z = .event c ns name) ∨ (∃ ns id, z = .ack c ns id) ∨ ∃ op, z = .op c op) → s.holder (.reg c) = some t := by
    intro t z r hz hzc
    obtain ⟨hs, h1, _, h3⟩ := hI.fits t
    rw [hz] at h3
    rcases hzc with ⟨ns, name, rfl⟩ | ⟨ns, id, rfl⟩ | ⟨op, rfl⟩ <;> exact (h1 _).1 h3.2.1
  have h1 := key i x r hx hxc
  have h2 := key j y r' hy hyc
  rw [h1] at h2
  simp only [Option.some.injEq] at h2
  exact hij h2

/-- Releases of the registry of `c` in this code come after a `lock` of it. -/
def Shut (c : Nat) (p : List XInstr) : Prop := ∀ q r, p = q ++ .unlock c :: r → .lock c ∈ q

theorem shut_cons {c : Nat} {x : XInstr} {p : List XInstr} (hp : Shut c p) (hx : x ≠ .unlock c) : Shut c (x :: p) := by
  intro q r h
  cases q with
  | nil => simp only [List.nil_append, List.cons.injEq] at h; exact absurd h.1 hx
  | cons y q =>
    simp only [List.cons_append, List.cons.injEq] at h
    exact List.mem_cons_of_mem _ (hp q r h.2)

theorem shut_tail {c : Nat} {x : XInstr} {p : List XInstr} (hp : Shut c (x :: p)) (hx : x ≠ .lock c) : Shut c p := by
  intro q r h
  have := hp (x :: q) r (by rw [h]; rfl)
  simp only [List.mem_cons] at this
  rcases this with h | h
  · exact absurd h.symm hx
  · exact h

theorem shut_acts {c : Nat} {p : List XInstr} (hp : Shut c p) (as : List UserAct) : Shut c (acts as ++ p) := by
  induction as with
  | nil => exact hp
  | cons a as ih =>
    cases a with
    | reg d op =>
      intro q r h
      simp only [acts, List.flatMap_cons, UserAct.code, List.cons_append, List.nil_append] at h
      cases q with
      | nil => simp at h
      | cons y q =>
        simp only [List.cons_append, List.cons.injEq] at h
        obtain ⟨rfl, h⟩ := h
        cases q with
        | nil => simp at h
        | cons y q =>
          simp only [List.cons_append, List.cons.injEq] at h
          obtain ⟨rfl, h⟩ := h
          cases q with
          | nil =>
            simp only [List.nil_append, List.cons.injEq, XInstr.unlock.injEq] at h
            simp [h.1]
          | cons y q =>
            simp only [List.cons_append, List.cons.injEq] at h
            have := ih q r h.2
            simp [this]
    | call m => exact shut_cons ih (by simp)
    | panic => exact shut_cons ih (by simp)
    | other => exact shut_cons ih (by simp)

/-- Where the task of client `c` is: between two messages, in the dispatch of one, or gone. -/
def TaskAt (c i : Nat) (s : XState) (es : List CbEv) : Prop :=
  ((∃ ms : List CbMsg, s.code i = ms.flatMap (CbMsg.code c)) ∧ .panic i ∉ es) ∨
  (s.holder (.reg c) = some i ∧ .panic i ∉ es ∧
    ∃ (p : List XInstr) (ms : List CbMsg), s.code i = p ++ .unlock c :: ms.flatMap (CbMsg.code c) ∧ Shut c p) ∨
  (s.poisoned (.reg c) = true ∧ s.code i = [])

theorem poisoned_step {beh : Behaviour} {s s' : XState} {i : Nat} {e : List CbEv} {l : Lk} (h : xstep beh s i = some (s', e))
    (hp : s.poisoned l = true) : s'.poisoned l = true := by
  have hs := xstep_seen h
  cases hs with
  | quiet q => rw [q.poisoned]; exact hp
  | ack _ q => rw [q.poisoned]; exact hp
  | start m _ _ hq _ _ _ _ => rw [hq]; exact hp
  | done m _ _ hq _ _ _ => rw [hq]; exact hp
  | panic _ hu => subst hu; simp [XState.unwind, hp]

theorem taskAt_step {beh : Behaviour} {s s' : XState} {c i j : Nat} {es e : List CbEv} (hT : TaskAt c i s es)
    (h : xstep beh s j = some (s', e)) : TaskAt c i s' (es ++ e) := by
  by_cases hj : j = i
  · subst hj
    rcases hT with ⟨⟨ms, hc⟩, hp⟩ | ⟨hh, hp, p, ms, hc, hs⟩ | ⟨_, hc⟩
    · cases ms with
      | nil => simp [xstep, hc] at h
      | cons m ms =>
        have hl : ∃ x, s.code j = .lock c :: x :: .unlock c :: ms.flatMap (CbMsg.code c) ∧ x ≠ .unlock c := by
          cases m with
          | event ns name => exact ⟨_, hc, by simp⟩
          | ack ns id => exact ⟨_, hc, by simp⟩
        obtain ⟨x, hl, hx⟩ := hl
        simp only [xstep, hl] at h
        split at h
        · simp at h
        · split at h <;> (simp only [Option.some.injEq, Prod.mk.injEq] at h; obtain ⟨rfl, rfl⟩ := h)
          · rename_i hq
            exact .inr (.inr ⟨by simp [XState.unwind, hq], by simp [XState.unwind]⟩)
          · refine .inr (.inl ⟨by simp [XState.hold], by simpa using hp, [x], ms, by simp [XState.hold, XState.goto], ?_⟩)
            exact shut_cons (fun q r h => by simp at h) hx
    · have gone : (s.unwind j).poisoned (.reg c) = true ∧ (s.unwind j).code j = [] := by simp [XState.unwind, hh]
      cases p with
      | nil =>
        simp only [List.nil_append] at hc
        simp only [xstep, hc, hh, if_true, Option.some.injEq, Prod.mk.injEq] at h
        obtain ⟨rfl, rfl⟩ := h
        exact .inl ⟨⟨ms, by simp [XState.hold, XState.goto]⟩, by simpa using hp⟩
      | cons x p =>
        simp only [List.cons_append] at hc
        cases x with
        | lock d =>
          simp only [xstep, hc] at h
          split at h
          · simp at h
          · rename_i hn
            have hd : d ≠ c := by rintro rfl; rw [hh] at hn; simp at hn
            split at h <;> (simp only [Option.some.injEq, Prod.mk.injEq] at h; obtain ⟨rfl, rfl⟩ := h)
            · exact .inr (.inr gone)
            · exact .inr (.inl ⟨by simp [XState.hold, XState.goto, hh, Ne.symm hd], by simpa using hp, p, ms,
                by simp [XState.hold, XState.goto], shut_tail hs (by simp [hd])⟩)
        | unlock d =>
          have hd : d ≠ c := by
            rintro rfl
            have := hs [] p rfl
            simp at this
          simp only [xstep, hc] at h
          split at h
          · simp only [Option.some.injEq, Prod.mk.injEq] at h
            obtain ⟨rfl, rfl⟩ := h
            exact .inr (.inl ⟨by simp [XState.hold, XState.goto, hh, Ne.symm hd], by simpa using hp, p, ms,
                by simp [XState.hold, XState.goto], shut_tail hs (by simp)⟩)
          · simp at h
        | event d ns name =>
          simp only [xstep, hc] at h
          split at h <;> (simp only [Option.some.injEq, Prod.mk.injEq] at h; obtain ⟨rfl, rfl⟩ := h)
          · exact .inr (.inl ⟨hh, by simpa using hp, p, ms, by simp [XState.goto], shut_tail hs (by simp)⟩)
          · rename_i m _
            exact .inr (.inl ⟨hh, by simpa using hp, .call m :: p, ms, by simp [XState.goto],
              shut_cons (shut_tail hs (by simp)) (by simp)⟩)
        | ack d ns id =>
          simp only [xstep, hc] at h
          split at h <;> (simp only [Option.some.injEq, Prod.mk.injEq] at h; obtain ⟨rfl, rfl⟩ := h)
          · exact .inr (.inl ⟨hh, by simpa using hp, p, ms, by simp [XState.goto, XState.setReg], shut_tail hs (by simp)⟩)
          · rename_i cb _ _
            exact .inr (.inl ⟨hh, by simpa using hp, acts (beh.ack cb) ++ p, ms, by simp [XState.goto, XState.setReg],
              shut_acts (shut_tail hs (by simp)) _⟩)
        | call m =>
          simp only [xstep, hc] at h
          split at h
          · simp at h
          · split at h <;> (simp only [Option.some.injEq, Prod.mk.injEq] at h; obtain ⟨rfl, rfl⟩ := h)
            · exact .inr (.inr gone)
            · exact .inr (.inl ⟨by simp [XState.hold, XState.goto, hh], by simpa using hp,
                acts (beh.event m (s.calls m)) ++ .ret m :: p, ms, by simp [XState.hold, XState.goto],
                shut_acts (shut_cons (shut_tail hs (by simp)) (by simp)) _⟩)
        | ret m =>
          simp only [xstep, hc] at h
          split at h
          · simp only [Option.some.injEq, Prod.mk.injEq] at h
            obtain ⟨rfl, rfl⟩ := h
            exact .inr (.inl ⟨by simp [XState.hold, XState.goto, hh], by simpa using hp, p, ms,
                by simp [XState.hold, XState.goto], shut_tail hs (by simp)⟩)
          · simp at h
        | op d o =>
          simp only [xstep, hc, Option.some.injEq, Prod.mk.injEq] at h
          obtain ⟨rfl, rfl⟩ := h
          exact .inr (.inl ⟨hh, by simpa using hp, p, ms, by simp [XState.goto, XState.setReg], shut_tail hs (by simp)⟩)
        | panic =>
          simp only [xstep, hc, Option.some.injEq, Prod.mk.injEq] at h
          obtain ⟨rfl, rfl⟩ := h
          exact .inr (.inr gone)
        | other =>
          simp only [xstep, hc, Option.some.injEq, Prod.mk.injEq] at h
          obtain ⟨rfl, rfl⟩ := h
          exact .inr (.inl ⟨hh, by simpa using hp, p, ms, by simp [XState.goto], shut_tail hs (by simp)⟩)
    · simp [xstep, hc] at h
  · obtain ⟨_, _, _, ho, _⟩ := xstep_frame h
    have hi := ho i (Ne.symm hj)
    have hpe : .panic i ∉ es → .panic i ∉ es ++ e := by
      intro hp hm
      simp only [List.mem_append] at hm
      rcases hm with hm | hm
      · exact hp hm
      · cases xstep_seen h with
        | quiet _ => simp at hm
        | ack _ _ => simp at hm
        | start _ _ _ _ _ _ _ _ => simp at hm
        | done _ _ _ _ _ _ _ => simp at hm
        | panic _ _ => simp only [List.mem_singleton, CbEv.panic.injEq] at hm; exact hj hm.symm
    rcases hT with ⟨⟨ms, hc⟩, hp⟩ | ⟨hh, hp, p, ms, hc, hs⟩ | ⟨hp, hc⟩
    · exact .inl ⟨⟨ms, by rw [hi.1]; exact hc⟩, hpe hp⟩
    · exact .inr (.inl ⟨(hi.2 _).2 hh, hpe hp, p, ms, by rw [hi.1]; exact hc, hs⟩)
    · exact .inr (.inr ⟨poisoned_step h hp, by rw [hi.1]; exact hc⟩)

/-- C62: once the connection task of a client has panicked, every use of the registry of this client panics. -/
theorem C62_task (beh : Behaviour) (reg : Nat → Callbacks) (progs : Nat → Prog) (is : List Nat) (s : XState) (es : List CbEv)
    (h : xrun beh (XState.start reg progs) is = some (s, es)) (c i : Nat) (msgs : List CbMsg) (hi : progs i = .task c msgs)
    (hp : .panic i ∈ es) (j : Nat) (rest : List XInstr) (hj : s.code j = .lock c :: rest) :
    ∃ s', xstep beh s j = some (s', [.panic j]) ∧ s'.code j = [] ∧ s'.reg = s.reg := by
  have hT := xrun_induct (beh := beh) (P := TaskAt c i) (fun s s' j es e hT hs => taskAt_step hT hs) is _ _ [] es
    (Or.inl ⟨⟨msgs, by simp [XState.start, hi, Prog.code]⟩, by simp⟩) h
  rcases hT with ⟨_, hn⟩ | ⟨_, hn, _⟩ | ⟨hq, _⟩
  · exact absurd hp (by simpa using hn)
  · exact absurd hp (by simpa using hn)
  · have hn : s.holder (.reg c) = none := by
      cases hh : s.holder (.reg c) with
      | none => rfl
      | some k => have := (xinvT_run h).clean _ _ hh; rw [hq] at this; simp at this
    exact ⟨s.unwind j, by simp [xstep, hj, hn, hq], by simp [XState.unwind], rfl⟩

/-- C62: as long as nobody has panicked, no `lock` does: a thread panics only if the application does. -/
theorem C62_first (beh : Behaviour) (reg : Nat → Callbacks) (progs : Nat → Prog) (is : List Nat) (s : XState) (es : List CbEv)
    (h : xrun beh (XState.start reg progs) is = some (s, es)) (hn : ∀ i, .panic i ∉ es) (j : Nat) (s' : XState)
    (hj : xstep beh s j = some (s', [.panic j])) : ∃ rest, s.code j = .panic :: rest := by
  have hP := xrun_induct (beh := beh) (P := fun t gs => (∀ i, .panic i ∉ gs) → ∀ l, t.poisoned l = false)
    (by
      intro t t' i gs e ih hs hq l
      have h0 := ih (fun k hk => hq k (List.mem_append_left _ hk)) l
      cases xstep_seen hs with
      | quiet q => rw [q.poisoned]; exact h0
      | ack _ q => rw [q.poisoned]; exact h0
      | start m _ _ hp _ _ _ _ => rw [hp]; exact h0
      | done m _ _ hp _ _ _ => rw [hp]; exact h0
      | panic _ _ => exact absurd (List.mem_append_right _ (List.mem_singleton.2 rfl)) (hq i)) is _ _ [] es
    (fun _ l => rfl) h
  have hp := hP (by simpa using hn)
  unfold xstep at hj
  split at hj
  · simp at hj
  · split at hj
    · simp at hj
    · simp [hp] at hj
  · split at hj <;> simp at hj
  · split at hj <;> simp at hj
  · split at hj <;> simp at hj
  · split at hj
    · simp at hj
    · simp [hp] at hj
  · split at hj <;> simp at hj
  · simp at hj
  · exact ⟨_, ‹_›⟩
  · simp at hj

/-- C63: if the mutexes can be ranked so that callbacks take them upwards, every thread can be brought
to its end (a return, or a panic) from every state: nobody is ever blocked for good. -/
theorem C63_finish (beh : Behaviour) (rank : Lk → Nat) (may mayAck : Nat → Cb → Prop) (ho : Ordered beh rank may mayAck)
    (reg : Nat → Callbacks) (progs : Nat → Prog) (hf : Fair may mayAck reg progs) (is : List Nat) (s : XState) (es : List CbEv)
    (h : xrun beh (XState.start reg progs) is = some (s, es)) (i : Nat) :
    ∃ js s' fs, xrun beh s js = some (s', fs) ∧ s'.code i = [] := by
  have hI := xrun_induct (beh := beh) (P := fun s _ => OrderInv rank may mayAck s)
    (fun s s' i es e hI hs => orderInv_step ho hI hs) is _ _ [] es (orderInv_start hf) h
  obtain ⟨b, hb⟩ := ho.bounded
  have := canRun_all ho hb (b + 1) 0 (by omega) (s.code i) (fun x _ => by cases x <;> simp [Up]) s i [] hI (by simp)
  obtain ⟨s', _, ⟨⟨js, fs, hr⟩, _, _⟩, hc⟩ := this
  exact ⟨js, s', fs, hr, hc.elim id id⟩

/-- C63: in particular if callbacks use no registry and call no callback. -/
theorem C63_plain (beh : Behaviour) (he : ∀ m k, ∀ a ∈ beh.event m k, a = .panic ∨ a = .other)
    (ha : ∀ cb, ∀ a ∈ beh.ack cb, a = .panic ∨ a = .other) (reg : Nat → Callbacks) (progs : Nat → Prog)
    (is : List Nat) (s : XState) (es : List CbEv) (h : xrun beh (XState.start reg progs) is = some (s, es)) (i : Nat) :
    ∃ js s' fs, xrun beh s js = some (s', fs) ∧ s'.code i = [] := by
  refine C63_finish beh (fun l => match l with | .reg _ => 0 | .cell _ => 1) (fun _ _ => True) (fun _ _ => True) ?_ reg progs ?_ is s es h i
  · refine ⟨⟨1, fun l => by cases l <;> simp⟩, fun _ _ _ => by simp, ?_, ?_⟩
    · intro m k
      refine ⟨fun a h l hl => ?_, fun c op h => ?_⟩
      · rcases he m k a h with rfl | rfl <;> simp [takes] at hl
      · rcases he m k _ h with h | h <;> simp at h
    · intro c cb _
      refine ⟨fun a h l hl => ?_, fun c op h => ?_⟩
      · rcases ha cb a h with rfl | rfl <;> simp [takes] at hl
      · rcases ha cb _ h with h | h <;> simp at h
  · refine ⟨fun c ns n _ => ⟨fun _ _ _ => trivial, fun _ _ => trivial, fun _ _ _ => trivial⟩, ?_⟩
    intro i as _ c op _
    cases op <;> trivial

/-- Client `c` has the callback `c` for the event `e`. -/
def oneEach (c : Nat) : Callbacks := Callbacks.new.setEvent ['/'] ['e'] c

/-- Two connection tasks with one event each. -/
def twoTasks : Nat → Prog
  | 0 => .task 0 [.event ['/'] ['e']]
  | 1 => .task 1 [.event ['/'] ['e']]
  | _ => .app []

/-- C63: without such an order, two clients block each other for good, though no callback uses the client
it is registered with: that of each client clears an event of the other. -/
theorem C63_clients : ∃ (beh : Behaviour) (is : List Nat) (s : XState) (es : List CbEv),
    (∀ m k, beh.event m k = [.reg (1 - m) (.clearEvent ['/'] ['x'])]) ∧
    xrun beh (XState.start oneEach twoTasks) is = some (s, es) ∧ s.code 0 ≠ [] ∧ s.code 1 ≠ [] ∧ ∀ i, xstep beh s i = none := by
  refine ⟨⟨fun m _ => [.reg (1 - m) (.clearEvent ['/'] ['x'])], fun _ => []⟩, [0, 0, 0, 1, 1, 1], _, _, fun _ _ => rfl, rfl, ?_, ?_, ?_⟩
  · exact List.cons_ne_nil _ _
  · exact List.cons_ne_nil _ _
  · intro i
    match i with
    | 0 => rfl
    | 1 => rfl
    | n + 2 => rfl

/-- C63: the same with two callbacks that call each other, and no use of a registry in them. -/
theorem C63_callbacks : ∃ (beh : Behaviour) (is : List Nat) (s : XState) (es : List CbEv),
    (∀ m k, beh.event m k = [.call (1 - m)]) ∧
    xrun beh (XState.start oneEach twoTasks) is = some (s, es) ∧ s.code 0 ≠ [] ∧ s.code 1 ≠ [] ∧ ∀ i, xstep beh s i = none := by
  refine ⟨⟨fun m _ => [.call (1 - m)], fun _ => []⟩, [0, 0, 0, 1, 1, 1], _, _, fun _ _ => rfl, rfl, ?_, ?_, ?_⟩
  · exact List.cons_ne_nil _ _
  · exact List.cons_ne_nil _ _
  · intro i
    match i with
    | 0 => rfl
    | 1 => rfl
    | n + 2 => rfl

-- One callback shared by two clients: the second task waits, then gets the call with number 1.
example :
    (xrun ⟨fun _ _ => [.other], fun _ => []⟩ (XState.start (fun _ => oneEach 7) twoTasks)
      [0, 0, 0, 1, 1, 0, 0, 1]).map (·.2) = some [.start 7 0 0, .done 7 0, .start 7 1 1] := by rfl
example :
    xrun ⟨fun _ _ => [.other], fun _ => []⟩ (XState.start (fun _ => oneEach 7) twoTasks) [0, 0, 0, 1, 1, 1] = none := by rfl
-- If the first call panics, the second task panics too, and both registries are dead.
example :
    (xrun ⟨fun _ _ => [.panic], fun _ => []⟩ (XState.start (fun _ => oneEach 7) twoTasks)
      [0, 0, 0, 0, 1, 1, 1]).map (fun r => (r.2, r.1.poisoned (.reg 0), r.1.poisoned (.reg 1), r.1.poisoned (.cell 7))) =
      some ([.start 7 0 0, .panic 0, .panic 1], true, true, true) := by rfl
-- A callback of client 0 may use the registry of client 1, if no callback of client 1 uses that of client 0.
example : Ordered ⟨fun m _ => if m = 0 then [.reg 1 (.clearEvent ['/'] ['x'])] else [.other], fun _ => []⟩
    (fun l => match l with | .reg 0 => 0 | .cell 0 => 1 | .reg _ => 2 | .cell _ => 3)
    (fun c m => c = m) (fun _ _ => False) := by
  refine ⟨⟨3, ?_⟩, ?_, ?_, ?_⟩
  · intro l; split <;> omega
  · rintro c m rfl
    cases c with
    | zero => decide
    | succ n => simp
  · intro m k
    cases m with
    | zero =>
      refine ⟨?_, ?_⟩
      · intro a ha l hl
        simp only [if_true, List.mem_singleton] at ha
        subst ha
        simp only [takes, Option.some.injEq] at hl
        subst hl
        decide
      · intro c op h
        simp only [if_true, List.mem_singleton, UserAct.reg.injEq] at h
        obtain ⟨_, rfl⟩ := h
        trivial
    | succ n =>
      refine ⟨?_, ?_⟩
      · intro a ha l hl
        simp at ha
        subst ha
        simp [takes] at hl
      · intro c op h; simp at h
  · intro c cb h; exact h.elim
example : Fair (fun c m => c = m) (fun _ _ => False) oneEach twoTasks := by
  refine ⟨?_, ?_⟩
  · intro c ns n h
    simp only [oneEach, Callbacks.setEvent, Callbacks.update, Callbacks.new, KMap.get, KMap.insert, KMap.remove, Option.getD_none,
      Namespace.new] at h
    split at h
    · simp only [Option.some.injEq] at h
      subst h
      refine ⟨?_, by simp, by simp [KMap.get]⟩
      intro ev m hm
      simp only [KMap.get] at hm
      split at hm
      · simpa using hm
      · simp at hm
    · simp at h
  · intro i as h c op hm
    match i with
    | 0 => simp [twoTasks] at h
    | 1 => simp [twoTasks] at h
    | n + 2 => simp only [twoTasks, Prog.app.injEq] at h; subst h; simp at hm

end SIO
