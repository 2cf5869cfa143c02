import Verif.Spec.Callbacks
/-
The registry seen through its lookups.
-/
namespace SIO
open Spec

section
variable {K V : Type} [DecidableEq K]

theorem kget_remove (m : KMap K V) (k j : K) :
    KMap.get (KMap.remove m k) j = if j = k then none else KMap.get m j := by
  induction m with
  | nil => simp [KMap.remove, KMap.get]
  | cons p m ih =>
    obtain ⟨k', v⟩ := p
    by_cases h : k' = k
    · subst h
      have : KMap.remove ((k', v) :: m) k' = KMap.remove m k' := by simp [KMap.remove]
      rw [this, ih]
      by_cases hj : j = k'
      · simp [hj]
      · simp [hj, KMap.get, Ne.symm hj]
    · simp only [KMap.remove, if_neg h, KMap.get, ih]
      by_cases hj : j = k
      · subst hj; simp [h]
      · simp [hj]

theorem kget_insert (m : KMap K V) (k j : K) (v : V) :
    KMap.get (KMap.insert m k v) j = if j = k then some v else KMap.get m j := by
  simp only [KMap.insert, KMap.get, kget_remove]
  by_cases h : j = k
  · simp [h]
  · simp [h, Ne.symm h]

end

namespace Callbacks

/-- The callback set for exactly this event. -/
def ev (c : Callbacks) (ns e : Str) : Option Cb := (c.namespaces.get ns).bind (·.events.get e)
/-- The fallback of the namespace. -/
def fb (c : Callbacks) (ns : Str) : Option Cb := (c.namespaces.get ns).bind (·.fallback)
/-- The pending ack callback. -/
def ak (c : Callbacks) (ns : Str) (id : Nat) : Option Cb := (c.namespaces.get ns).bind (·.acks.get id)

theorem getEvent_eq (c : Callbacks) (ns e : Str) : c.getEvent ns e = (c.ev ns e).or (c.fb ns) := by
  unfold getEvent ev fb
  cases c.namespaces.get ns with
  | none => rfl
  | some n => simp only [Option.bind_some]; cases n.events.get e <;> rfl

theorem getAck_eq (c : Callbacks) (ns : Str) (id : Nat) : (c.getAndClearAck ns id).1 = c.ak ns id := by
  unfold getAndClearAck ak
  cases c.namespaces.get ns <;> rfl

theorem get_update (c : Callbacks) (ns ns' : Str) (f : Namespace → Namespace) :
    (c.update ns f).namespaces.get ns' =
      if ns' = ns then some (f ((c.namespaces.get ns).getD Namespace.new)) else c.namespaces.get ns' := by
  simp [update, kget_insert]

theorem get_updateIf (c : Callbacks) (ns ns' : Str) (f : Namespace → Namespace) :
    (c.updateIf ns f).namespaces.get ns' =
      if ns' = ns then (c.namespaces.get ns).map f else c.namespaces.get ns' := by
  unfold updateIf
  cases h : c.namespaces.get ns with
  | none => by_cases hn : ns' = ns <;> simp [hn, h]
  | some n => simp [kget_insert]

theorem ev_new (ns e : Str) : new.ev ns e = none := rfl
theorem fb_new (ns : Str) : new.fb ns = none := rfl
theorem ak_new (ns : Str) (id : Nat) : new.ak ns id = none := rfl

/-- The effect of each call on each lookup. -/
theorem ev_run (c : Callbacks) (op : RegOp) (ns e : Str) :
    (op.run c).ev ns e =
      match op with
      | .setEvent ns' e' cb => if ns = ns' ∧ e = e' then some cb else c.ev ns e
      | .clearEvent ns' e' => if ns = ns' ∧ e = e' then none else c.ev ns e
      | _ => c.ev ns e := by
  cases op with
  | setEvent ns' e' cb =>
    simp only [RegOp.run, setEvent, ev, get_update]
    by_cases h : ns = ns'
    · subst h
      simp only [if_pos, true_and, Option.bind_some, kget_insert]
      cases c.namespaces.get ns <;> simp [Namespace.new, KMap.get]
    · simp [h]
  | clearEvent ns' e' =>
    simp only [RegOp.run, clearEvent, ev, get_updateIf]
    by_cases h : ns = ns'
    · subst h
      simp only [if_pos, true_and]
      cases c.namespaces.get ns <;> simp [kget_remove]
    · simp [h]
  | setFallback ns' cb =>
    simp only [RegOp.run, setFallback, ev, get_update]
    by_cases h : ns = ns'
    · subst h
      cases c.namespaces.get ns <;> simp [Namespace.new, KMap.get]
    · simp [h]
  | clearFallback ns' =>
    simp only [RegOp.run, clearFallback, ev, get_updateIf]
    by_cases h : ns = ns'
    · subst h
      cases c.namespaces.get ns <;> simp
    · simp [h]
  | setAck ns' id cb =>
    simp only [RegOp.run, setAck, ev, get_update]
    by_cases h : ns = ns'
    · subst h
      cases c.namespaces.get ns <;> simp [Namespace.new, KMap.get]
    · simp [h]
  | takeAck ns' id =>
    simp only [RegOp.run, getAndClearAck, ev]
    cases h : c.namespaces.get ns' with
    | none => rfl
    | some n =>
      simp only [kget_insert]
      by_cases hn : ns = ns'
      · subst hn; simp [h]
      · simp [hn]

theorem fb_run (c : Callbacks) (op : RegOp) (ns : Str) :
    (op.run c).fb ns =
      match op with
      | .setFallback ns' cb => if ns = ns' then some cb else c.fb ns
      | .clearFallback ns' => if ns = ns' then none else c.fb ns
      | _ => c.fb ns := by
  cases op with
  | setEvent ns' e' cb =>
    simp only [RegOp.run, setEvent, fb, get_update]
    by_cases h : ns = ns'
    · subst h
      cases c.namespaces.get ns <;> simp [Namespace.new]
    · simp [h]
  | clearEvent ns' e' =>
    simp only [RegOp.run, clearEvent, fb, get_updateIf]
    by_cases h : ns = ns'
    · subst h
      cases c.namespaces.get ns <;> simp
    · simp [h]
  | setFallback ns' cb =>
    simp only [RegOp.run, setFallback, fb, get_update]
    by_cases h : ns = ns'
    · subst h; simp
    · simp [h]
  | clearFallback ns' =>
    simp only [RegOp.run, clearFallback, fb, get_updateIf]
    by_cases h : ns = ns'
    · subst h
      cases c.namespaces.get ns <;> simp
    · simp [h]
  | setAck ns' id cb =>
    simp only [RegOp.run, setAck, fb, get_update]
    by_cases h : ns = ns'
    · subst h
      cases c.namespaces.get ns <;> simp [Namespace.new]
    · simp [h]
  | takeAck ns' id =>
    simp only [RegOp.run, getAndClearAck, fb]
    cases h : c.namespaces.get ns' with
    | none => rfl
    | some n =>
      simp only [kget_insert]
      by_cases hn : ns = ns'
      · subst hn; simp [h]
      · simp [hn]

theorem ak_run (c : Callbacks) (op : RegOp) (ns : Str) (id : Nat) :
    (op.run c).ak ns id =
      match op with
      | .setAck ns' id' cb => if ns = ns' ∧ id = id' then some cb else c.ak ns id
      | .takeAck ns' id' => if ns = ns' ∧ id = id' then none else c.ak ns id
      | _ => c.ak ns id := by
  cases op with
  | setEvent ns' e' cb =>
    simp only [RegOp.run, setEvent, ak, get_update]
    by_cases h : ns = ns'
    · subst h
      cases c.namespaces.get ns <;> simp [Namespace.new, KMap.get]
    · simp [h]
  | clearEvent ns' e' =>
    simp only [RegOp.run, clearEvent, ak, get_updateIf]
    by_cases h : ns = ns'
    · subst h
      cases c.namespaces.get ns <;> simp
    · simp [h]
  | setFallback ns' cb =>
    simp only [RegOp.run, setFallback, ak, get_update]
    by_cases h : ns = ns'
    · subst h
      cases c.namespaces.get ns <;> simp [Namespace.new, KMap.get]
    · simp [h]
  | clearFallback ns' =>
    simp only [RegOp.run, clearFallback, ak, get_updateIf]
    by_cases h : ns = ns'
    · subst h
      cases c.namespaces.get ns <;> simp
    · simp [h]
  | setAck ns' id' cb =>
    simp only [RegOp.run, setAck, ak, get_update]
    by_cases h : ns = ns'
    · subst h
      simp only [if_pos, true_and, Option.bind_some, kget_insert]
      cases c.namespaces.get ns <;> simp [Namespace.new, KMap.get]
    · simp [h]
  | takeAck ns' id' =>
    simp only [RegOp.run, getAndClearAck, ak]
    cases h : c.namespaces.get ns' with
    | none =>
      by_cases hn : ns = ns'
      · subst hn; simp [h]
      · simp [hn]
    | some n =>
      simp only [kget_insert]
      by_cases hn : ns = ns'
      · subst hn; simp [h, kget_remove]
      · simp [hn]

end Callbacks

theorem registry_snoc (h : List RegOp) (op : RegOp) : registry (h ++ [op]) = op.run (registry h) := by
  simp [registry]

/-- Adding a call at the end of a history. -/
theorem last_snoc {α : Type} {P : α → Prop} {h : List α} {a x : α} :
    (∃ pre post, h ++ [x] = pre ++ a :: post ∧ ∀ y ∈ post, P y) ↔
      (x = a ∨ (P x ∧ ∃ pre post, h = pre ++ a :: post ∧ ∀ y ∈ post, P y)) := by
  constructor
  · rintro ⟨pre, post, he, hp⟩
    rcases List.eq_nil_or_concat post with rfl | ⟨post', y, rfl⟩
    · have := List.append_inj' (s₁ := h) (s₂ := pre) (t₁ := [x]) (t₂ := [a]) (by simpa using he) rfl
      exact Or.inl (by simpa using this.2)
    · have := List.append_inj' (s₁ := h) (s₂ := pre ++ a :: post') (t₁ := [x]) (t₂ := [y])
        (by simpa using he) rfl
      have hy : x = y := by simpa using this.2
      subst hy
      exact Or.inr ⟨hp x (by simp), pre, post', this.1, fun z hz => hp z (by simp [hz])⟩
  · rintro (rfl | ⟨hx, pre, post, rfl, hp⟩)
    · exact ⟨h, [], rfl, by simp⟩
    · refine ⟨pre, post ++ [x], by simp, ?_⟩
      intro y hy
      rcases List.mem_append.1 hy with hy | hy
      · exact hp y hy
      · simp at hy; subst hy; exact hx

theorem list_snoc_induction {α : Type} {P : List α → Prop} (h0 : P []) (h1 : ∀ l a, P l → P (l ++ [a])) : ∀ l, P l := by
  intro l
  have : P l.reverse.reverse := by
    induction l.reverse with
    | nil => exact h0
    | cons a l ih => simpa using h1 _ a ih
  simpa using this

theorem lastEvent_iff (h : List RegOp) (ns ev : Str) (cb : Cb) :
    LastEvent h ns ev cb ↔ (registry h).ev ns ev = some cb := by
  revert cb
  refine list_snoc_induction (P := fun h => ∀ cb, LastEvent h ns ev cb ↔ (registry h).ev ns ev = some cb) ?_ ?_ h
  · intro cb
    simp [LastEvent, registry, Callbacks.ev_new]
  · intro h op ih cb
    unfold LastEvent at ih ⊢
    rw [last_snoc, ih, registry_snoc, Callbacks.ev_run]
    cases op with
    | setEvent ns' e' cb' =>
      simp only [RegOp.setEvent.injEq]
      by_cases hh : ns = ns' ∧ ev = e'
      · obtain ⟨rfl, rfl⟩ := hh
        simp
      · rw [if_neg hh]
        have h1 : ¬ (ns' = ns ∧ e' = ev) := fun h => hh ⟨h.1.symm, h.2.symm⟩
        constructor
        · rintro (⟨h2, h3, _⟩ | ⟨_, h⟩)
          · exact absurd ⟨h2, h3⟩ h1
          · exact h
        · intro h
          exact Or.inr ⟨⟨fun cb'' h => h1 (by simp at h; exact ⟨h.1, h.2.1⟩), by simp⟩, h⟩
    | clearEvent ns' e' =>
      by_cases hh : ns = ns' ∧ ev = e'
      · obtain ⟨rfl, rfl⟩ := hh
        simp
      · have h1 : ¬ (ns' = ns ∧ e' = ev) := fun h => hh ⟨h.1.symm, h.2.symm⟩
        simp only [if_neg hh]
        constructor
        · rintro (h | ⟨_, h⟩)
          · simp at h
          · exact h
        · intro h
          exact Or.inr ⟨⟨by simp, fun h => h1 (by simpa using h)⟩, h⟩
    | _ => simp

theorem lastFallback_iff (h : List RegOp) (ns : Str) (cb : Cb) :
    LastFallback h ns cb ↔ (registry h).fb ns = some cb := by
  revert cb
  refine list_snoc_induction (P := fun h => ∀ cb, LastFallback h ns cb ↔ (registry h).fb ns = some cb) ?_ ?_ h
  · intro cb
    simp [LastFallback, registry, Callbacks.fb_new]
  · intro h op ih cb
    unfold LastFallback at ih ⊢
    rw [last_snoc, ih, registry_snoc, Callbacks.fb_run]
    cases op with
    | setFallback ns' cb' =>
      by_cases hh : ns = ns'
      · subst hh; simp
      · simp [hh, Ne.symm hh]
    | clearFallback ns' =>
      by_cases hh : ns = ns'
      · subst hh; simp
      · simp [hh, Ne.symm hh]
    | _ => simp

theorem lastAck_iff (h : List RegOp) (ns : Str) (id : Nat) (cb : Cb) :
    LastAck h ns id cb ↔ (registry h).ak ns id = some cb := by
  revert cb
  refine list_snoc_induction (P := fun h => ∀ cb, LastAck h ns id cb ↔ (registry h).ak ns id = some cb) ?_ ?_ h
  · intro cb
    simp [LastAck, registry, Callbacks.ak_new]
  · intro h op ih cb
    unfold LastAck at ih ⊢
    rw [last_snoc, ih, registry_snoc, Callbacks.ak_run]
    cases op with
    | setAck ns' e' cb' =>
      simp only [RegOp.setAck.injEq]
      by_cases hh : ns = ns' ∧ id = e'
      · obtain ⟨rfl, rfl⟩ := hh
        simp
      · rw [if_neg hh]
        have h1 : ¬ (ns' = ns ∧ e' = id) := fun h => hh ⟨h.1.symm, h.2.symm⟩
        constructor
        · rintro (⟨h2, h3, _⟩ | ⟨_, h⟩)
          · exact absurd ⟨h2, h3⟩ h1
          · exact h
        · intro h
          exact Or.inr ⟨⟨fun cb'' h => h1 (by simp at h; exact ⟨h.1, h.2.1⟩), by simp⟩, h⟩
    | takeAck ns' e' =>
      by_cases hh : ns = ns' ∧ id = e'
      · obtain ⟨rfl, rfl⟩ := hh
        simp
      · have h1 : ¬ (ns' = ns ∧ e' = id) := fun h => hh ⟨h.1.symm, h.2.symm⟩
        simp only [if_neg hh]
        constructor
        · rintro (h | ⟨_, h⟩)
          · simp at h
          · exact h
        · intro h
          exact Or.inr ⟨⟨by simp, fun h => h1 (by simpa using h)⟩, h⟩
    | _ => simp

end SIO
