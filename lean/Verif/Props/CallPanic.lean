import Verif.Props.CallLock
/-
C62: panics come from the application only, and a call that panics does not return.
-/
namespace SIO
open Spec

theorem panic_acts {as : List UserAct} : .panic ∈ acts as ↔ .panic ∈ as := by
  simp only [acts, List.mem_flatMap]
  constructor
  · rintro ⟨a, ha, h⟩
    cases a with
    | panic => exact ha
    | _ => simp [UserAct.code] at h
  · exact fun h => ⟨.panic, h, by simp [UserAct.code]⟩

theorem ret_acts {as : List UserAct} {m : Cb} : .ret m ∉ acts as := by
  simp only [acts, List.mem_flatMap]
  rintro ⟨a, _, h⟩
  cases a <;> simp [UserAct.code] at h

/-- The code of a thread after one of its steps: it has panicked, or what it did is replaced by `q`. -/
theorem xstep_code {beh : Behaviour} {s s' : XState} {i : Nat} {e : List CbEv} (h : xstep beh s i = some (s', e)) :
    ∃ x r, s.code i = x :: r ∧
      ((e = [.panic i] ∧ s'.code i = [] ∧ (x = .panic ∨ ∃ l, s.poisoned l = true)) ∨
       ∃ q, s'.code i = q ++ r ∧ s'.poisoned = s.poisoned ∧
         ((q = [] ∧ x ≠ .panic ∧ ((e = [] ∧ (∀ m, x ≠ .ret m) ∧ ∀ m, s'.holder (.cell m) = s.holder (.cell m)) ∨
            ∃ m, x = .ret m ∧ e = [.done m i] ∧ ∀ n, n ≠ m → s'.holder (.cell n) = s.holder (.cell n))) ∨
          (∃ c ns name m, x = .event c ns name ∧ q = [.call m] ∧ e = [] ∧ ∀ m, s'.holder (.cell m) = s.holder (.cell m)) ∨
          (∃ c ns id cb, x = .ack c ns id ∧ q = acts (beh.ack cb) ∧ e = [.ack cb i] ∧
            ∀ m, s'.holder (.cell m) = s.holder (.cell m)) ∨
          ∃ m k, x = .call m ∧ q = acts (beh.event m k) ++ [.ret m] ∧ e = [.start m i k] ∧ s.holder (.cell m) = none ∧
            ∀ n, s'.holder (.cell n) = if n = m then some i else s.holder (.cell n))) := by
  unfold xstep at h
  split at h
  · simp at h
  · rename_i c rest hc
    refine ⟨_, _, hc, ?_⟩
    split at h
    · simp at h
    · split at h <;> (simp only [Option.some.injEq, Prod.mk.injEq] at h; obtain ⟨rfl, rfl⟩ := h)
      · exact .inl ⟨rfl, by simp [XState.unwind], .inr ⟨_, ‹_›⟩⟩
      · exact .inr ⟨[], by simp [XState.hold, XState.goto], rfl, .inl ⟨rfl, by simp, .inl ⟨rfl, by simp,
          fun m => by simp [XState.hold, XState.goto]⟩⟩⟩
  · rename_i c rest hc
    refine ⟨_, _, hc, ?_⟩
    split at h
    · simp only [Option.some.injEq, Prod.mk.injEq] at h
      obtain ⟨rfl, rfl⟩ := h
      exact .inr ⟨[], by simp [XState.hold, XState.goto], rfl, .inl ⟨rfl, by simp, .inl ⟨rfl, by simp,
        fun m => by simp [XState.hold, XState.goto]⟩⟩⟩
    · simp at h
  · rename_i c ns name rest hc
    refine ⟨_, _, hc, .inr ?_⟩
    split at h <;> (simp only [Option.some.injEq, Prod.mk.injEq] at h; obtain ⟨rfl, rfl⟩ := h)
    · exact ⟨[], by simp [XState.goto], rfl, .inl ⟨rfl, by simp, .inl ⟨rfl, by simp, fun m => rfl⟩⟩⟩
    · rename_i m _
      exact ⟨[.call m], by simp [XState.goto], rfl, .inr (.inl ⟨_, _, _, _, rfl, rfl, rfl, fun m => rfl⟩)⟩
  · rename_i c ns id rest hc
    refine ⟨_, _, hc, .inr ?_⟩
    split at h <;> (simp only [Option.some.injEq, Prod.mk.injEq] at h; obtain ⟨rfl, rfl⟩ := h)
    · exact ⟨[], by simp [XState.goto, XState.setReg], rfl, .inl ⟨rfl, by simp, .inl ⟨rfl, by simp, fun m => rfl⟩⟩⟩
    · exact ⟨acts (beh.ack _), by simp [XState.goto, XState.setReg], rfl,
        .inr (.inr (.inl ⟨_, _, _, _, rfl, rfl, rfl, fun m => rfl⟩))⟩
  · rename_i m rest hc
    refine ⟨_, _, hc, ?_⟩
    split at h
    · simp at h
    · rename_i hn
      split at h <;> (simp only [Option.some.injEq, Prod.mk.injEq] at h; obtain ⟨rfl, rfl⟩ := h)
      · exact .inl ⟨rfl, by simp [XState.unwind], .inr ⟨_, ‹_›⟩⟩
      · refine .inr ⟨acts (beh.event m (s.calls m)) ++ [.ret m], by simp [XState.hold, XState.goto], rfl,
          .inr (.inr (.inr ⟨m, _, rfl, rfl, rfl, by simpa using hn, fun n => ?_⟩))⟩
        simp only [XState.hold, XState.goto, Lk.cell.injEq]
  · rename_i m rest hc
    refine ⟨_, _, hc, ?_⟩
    split at h
    · simp only [Option.some.injEq, Prod.mk.injEq] at h
      obtain ⟨rfl, rfl⟩ := h
      refine .inr ⟨[], by simp [XState.hold, XState.goto], rfl, .inl ⟨rfl, by simp, .inr ⟨m, rfl, rfl, fun n hn => ?_⟩⟩⟩
      simp [XState.hold, XState.goto, hn]
    · simp at h
  · rename_i c op rest hc
    refine ⟨_, _, hc, .inr ?_⟩
    simp only [Option.some.injEq, Prod.mk.injEq] at h
    obtain ⟨rfl, rfl⟩ := h
    exact ⟨[], by simp [XState.goto, XState.setReg], rfl, .inl ⟨rfl, by simp, .inl ⟨rfl, by simp, fun m => rfl⟩⟩⟩
  · rename_i rest hc
    simp only [Option.some.injEq, Prod.mk.injEq] at h
    obtain ⟨rfl, rfl⟩ := h
    exact ⟨_, _, hc, .inl ⟨rfl, by simp [XState.unwind], .inl rfl⟩⟩
  · rename_i rest hc
    simp only [Option.some.injEq, Prod.mk.injEq] at h
    obtain ⟨rfl, rfl⟩ := h
    exact ⟨_, _, hc, .inr ⟨[], by simp [XState.goto], rfl, .inl ⟨rfl, by simp, .inl ⟨rfl, by simp, fun m => rfl⟩⟩⟩⟩

/-- C62: if no callback and no other code of the application panics, nobody does. -/
theorem C62_quiet (beh : Behaviour) (he : ∀ m k, .panic ∉ beh.event m k) (ha : ∀ cb, .panic ∉ beh.ack cb)
    (reg : Nat → Callbacks) (progs : Nat → Prog) (hq : ∀ i as, progs i = .app as → .panic ∉ as)
    (is : List Nat) (s : XState) (es : List CbEv) (h : xrun beh (XState.start reg progs) is = some (s, es)) (i : Nat) :
    .panic i ∉ es := by
  have key := xrun_induct (beh := beh) (P := fun t gs => (∀ j, .panic ∉ t.code j) ∧ (∀ l, t.poisoned l = false) ∧ .panic i ∉ gs)
    (by
      rintro t t' j gs e ⟨h1, h2, h3⟩ hs
      obtain ⟨x, r, hc, hcase⟩ := xstep_code hs
      obtain ⟨_, _, _, ho, _⟩ := xstep_frame hs
      have hx := h1 j
      rw [hc] at hx
      simp only [List.mem_cons, not_or] at hx
      rcases hcase with ⟨_, _, hb | ⟨l, hb⟩⟩ | ⟨q, hq1, hq2, hq3⟩
      · exact absurd hb.symm hx.1
      · rw [h2] at hb; simp at hb
      · have hqp : .panic ∉ q ∧ .panic i ∉ e := by
          rcases hq3 with ⟨rfl, _, ⟨rfl, _⟩ | ⟨m, _, rfl, _⟩⟩ | ⟨_, _, _, m, _, rfl, rfl, _⟩ | ⟨_, _, _, cb, _, rfl, rfl, _⟩ |
            ⟨m, k, _, rfl, rfl, _⟩
          · simp
          · simp
          · simp
          · simp [panic_acts, ha]
          · simp [panic_acts, he]
        refine ⟨fun j' => ?_, fun l => by rw [hq2]; exact h2 l, ?_⟩
        · by_cases hj : j' = j
          · subst hj
            rw [hq1]
            simp only [List.mem_append, not_or]
            exact ⟨hqp.1, hx.2⟩
          · rw [(ho j' hj).1]; exact h1 j'
        · simp only [List.mem_append, not_or]
          exact ⟨h3, hqp.2⟩) is _ _ [] es ⟨fun j => ?_, fun _ => rfl, by simp⟩ h
  · simpa using key.2.2
  · show .panic ∉ (progs j).code
    cases hp : progs j with
    | task c ms =>
      simp only [Prog.code, List.mem_flatMap]
      rintro ⟨m, _, hm⟩
      cases m <;> simp [CbMsg.code] at hm
    | app as => simp only [Prog.code, panic_acts]; exact hq j as hp

/-- C62: a call in which the callback panics does not return. -/
theorem C62_abandoned (beh : Behaviour) (reg : Nat → Callbacks) (progs : Nat → Prog) (is : List Nat) (s : XState)
    (es : List CbEv) (h : xrun beh (XState.start reg progs) is = some (s, es)) (m : Cb) (i k : Nat)
    (hp : .panic ∈ beh.event m k) (pre post : List CbEv) (hes : es = pre ++ .start m i k :: post) : .done m i ∉ post := by
  have key := xrun_induct (beh := beh) (P := fun t gs => ∀ pre post, gs = pre ++ .start m i k :: post → .done m i ∉ post ∧
      (t.code i = [] ∨ ∃ p r, t.code i = p ++ .panic :: r ∧ .ret m ∉ p ∧ t.holder (.cell m) = some i))
    (by
      intro t t' j gs e ih hs pre post hg
      obtain ⟨x, r, hc, hcase⟩ := xstep_code hs
      obtain ⟨_, _, _, ho, _⟩ := xstep_frame hs
      -- what was started before
      have old : ∀ post, gs = pre ++ .start m i k :: post → .done m i ∉ e ∧
          (t'.code i = [] ∨ ∃ p r, t'.code i = p ++ .panic :: r ∧ .ret m ∉ p ∧ t'.holder (.cell m) = some i) := by
        intro post hg
        obtain ⟨_, hI⟩ := ih pre post hg
        by_cases hj : j = i
        · subst hj
          rcases hI with hI | ⟨p, r', hI, hr, hh⟩
          · rw [hI] at hc; simp at hc
          · rcases hcase with ⟨rfl, hz, _⟩ | ⟨q, hq1, _, hq3⟩
            · exact ⟨by simp, .inl hz⟩
            · cases p with
              | nil =>
                rw [hI] at hc
                simp only [List.nil_append, List.cons.injEq] at hc
                rcases hq3 with ⟨_, hx, _⟩ | ⟨_, _, _, _, hx, _⟩ | ⟨_, _, _, _, hx, _⟩ | ⟨_, _, hx, _⟩
                · exact absurd hc.1.symm hx
                all_goals rw [← hc.1] at hx; simp at hx
              | cons y p =>
                rw [hI] at hc
                simp only [List.cons_append, List.cons.injEq] at hc
                obtain ⟨rfl, rfl⟩ := hc
                simp only [List.mem_cons, not_or] at hr
                rcases hq3 with ⟨rfl, _, ⟨rfl, _, h2⟩ | ⟨n, rfl, rfl, h2⟩⟩ | ⟨_, _, _, n, _, rfl, rfl, h2⟩ |
                  ⟨_, _, _, cb, _, rfl, rfl, h2⟩ | ⟨n, k', rfl, rfl, rfl, h1, h2⟩
                · exact ⟨by simp, .inr ⟨p, r', hq1, hr.2, by rw [h2]; exact hh⟩⟩
                · have hn : n ≠ m := fun e => hr.1 (by rw [e])
                  exact ⟨by simpa using hn.symm, .inr ⟨p, r', hq1, hr.2, by rw [h2 m hn.symm]; exact hh⟩⟩
                · exact ⟨by simp, .inr ⟨.call n :: p, r', by rw [hq1]; simp, by simp [hr.2], by rw [h2]; exact hh⟩⟩
                · exact ⟨by simp, .inr ⟨acts (beh.ack cb) ++ p, r', by rw [hq1]; simp,
                    by simp [hr.2, ret_acts], by rw [h2]; exact hh⟩⟩
                · have hn : n ≠ m := by
                    rintro rfl
                    rw [h1] at hh; simp at hh
                  exact ⟨by simp, .inr ⟨acts (beh.event n k') ++ .ret n :: p, r', by rw [hq1]; simp,
                    by simp [hr.2, ret_acts, hn.symm], by rw [h2 m, if_neg hn.symm]; exact hh⟩⟩
        · have hc' := (ho i (Ne.symm hj)).1
          have hd : .done m i ∉ e := by
            cases xstep_seen hs with
            | quiet _ => simp
            | ack _ _ => simp
            | start n _ _ _ _ _ _ _ => simp
            | done n _ _ _ _ _ _ => simp [Ne.symm hj]
            | panic _ _ => simp
          refine ⟨hd, ?_⟩
          rcases hI with hI | ⟨p, r', hI, hr, hh⟩
          · exact .inl (by rw [hc']; exact hI)
          · exact .inr ⟨p, r', by rw [hc']; exact hI, hr, ((ho i (Ne.symm hj)).2 _).2 hh⟩
      have he : e = [] ∨ ∃ a, e = [a] := by
        cases xstep_seen hs with
        | quiet _ => exact .inl rfl
        | _ => exact .inr ⟨_, rfl⟩
      rcases he with rfl | ⟨a, rfl⟩
      · rw [List.append_nil] at hg
        exact ⟨(ih pre post hg).1, (old post hg).2⟩
      · rcases snoc_split hg with ⟨rfl, rfl, rfl⟩ | ⟨post', rfl, hg'⟩
        · -- the call starts now
          refine ⟨by simp, .inr ?_⟩
          rcases hcase with ⟨hz, _⟩ | ⟨q, hq1, _, hq3⟩
          · simp at hz
          · rcases hq3 with ⟨_, _, ⟨hz, _⟩ | ⟨_, _, hz, _⟩⟩ | ⟨_, _, _, _, _, _, hz, _⟩ | ⟨_, _, _, _, _, _, hz, _⟩ |
              ⟨n, k', _, rfl, hz, _, h2⟩
            · simp at hz
            · simp at hz
            · simp at hz
            · simp at hz
            · simp only [List.cons.injEq, CbEv.start.injEq, and_true] at hz
              obtain ⟨rfl, rfl, rfl⟩ := hz
              obtain ⟨a, b, hab⟩ := List.append_of_mem (panic_acts.2 hp)
              refine ⟨a, b ++ .ret m :: r, by rw [hq1, hab]; simp, ?_, by rw [h2]; simp⟩
              intro ha
              exact ret_acts (as := beh.event m k) (m := m) (by rw [hab]; simp [ha])
        · have h3 := old post' hg'
          refine ⟨?_, h3.2⟩
          simp only [List.mem_append, not_or]
          exact ⟨(ih pre post' hg').1, h3.1⟩) is _ _ [] es (by intro pre post hg; simp at hg) h
  exact (key pre post (by simpa using hes)).1

-- non-vacuity: the first call returns, the second one panics
example :
    (xrun ⟨fun _ k => if k = 0 then [.other] else [.panic], fun _ => []⟩ (XState.start (fun _ => Callbacks.new.setEvent ['/'] ['e'] 7)
      fun i => if i = 0 then .app [.call 7, .call 7] else .app []) [0, 0, 0, 0, 0]).map (·.2) =
      some [.start 7 0 0, .done 7 0, .start 7 0 1, .panic 0] := by rfl

end SIO
