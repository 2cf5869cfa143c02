import Verif.Lemmas.Callbacks
/-
C26 (registry part) and C27.
-/
namespace SIO
open Spec

/-- C26, registry part: the callback found for an event is the one in charge by the history of
calls.  (`C26_dispatch` is the same for delivered events.) -/
theorem C26_lookup (h : List RegOp) (ns ev : Str) (r : Option Cb) :
    (registry h).getEvent ns ev = r ↔ InCharge h ns ev r := by
  rw [Callbacks.getEvent_eq]
  have key : ∀ r', InCharge h ns ev r' → ((registry h).ev ns ev).or ((registry h).fb ns) = r' := by
    intro r' hr
    cases hr with
    | event cb hcb => rw [(lastEvent_iff h ns ev cb).1 hcb]; rfl
    | fallback cb hn hcb =>
      rw [(lastFallback_iff h ns cb).1 hcb]
      cases he : (registry h).ev ns ev with
      | none => rfl
      | some c => exact absurd ((lastEvent_iff h ns ev c).2 he) (hn c)
    | nobody hn hf =>
      cases he : (registry h).ev ns ev with
      | some c => exact absurd ((lastEvent_iff h ns ev c).2 he) (hn c)
      | none =>
        cases hb : (registry h).fb ns with
        | some c => exact absurd ((lastFallback_iff h ns c).2 hb) (hf c)
        | none => rfl
  constructor
  · rintro rfl
    cases he : (registry h).ev ns ev with
    | some c => exact .event c ((lastEvent_iff h ns ev c).2 he)
    | none =>
      have hn : ∀ cb', ¬ LastEvent h ns ev cb' := fun c hc => by
        rw [(lastEvent_iff h ns ev c).1 hc] at he; simp at he
      cases hb : (registry h).fb ns with
      | some c => exact .fallback c hn ((lastFallback_iff h ns c).2 hb)
      | none =>
        exact .nobody hn fun c hc => by rw [(lastFallback_iff h ns c).1 hc] at hb; simp at hb
  · exact key r

/-- The ack callback found for an id is the one registered last and not taken since. -/
theorem C26_ack_lookup (h : List RegOp) (ns : Str) (id : Nat) (cb : Cb) :
    ((registry h).getAndClearAck ns id).1 = some cb ↔ LastAck h ns id cb := by
  rw [Callbacks.getAck_eq, lastAck_iff]

-- non-vacuity: set, overwritten, other namespace, cleared, fallback set
example :
    let h : List RegOp := [.setEvent ['/'] ['a'] 1, .setEvent ['/'] ['a'] 2, .setFallback ['/'] 3,
      .setEvent ['/', 'x'] ['a'] 4, .setAck ['/'] 0 5, .setEvent ['/'] ['b'] 6, .clearEvent ['/'] ['b']]
    InCharge h ['/'] ['a'] (some 2) ∧ InCharge h ['/'] ['b'] (some 3) ∧ InCharge h ['/', 'x'] ['a'] (some 4) ∧
      InCharge h ['/', 'x'] ['b'] none ∧ InCharge h ['/', 'y'] ['a'] none ∧ LastAck h ['/'] 0 5 := by
  refine ⟨?_, ?_, ?_, ?_, ?_, ?_⟩
  case refine_6 => rw [← C26_ack_lookup]; decide
  all_goals rw [← C26_lookup]; decide

/-- C27: a call on one namespace changes neither the callback an event nor the one an ack of
another namespace is delivered to, whatever the registry. -/
theorem C27_namespaces (c : Callbacks) (op : RegOp) (ns : Str) (hn : RegOp.ns op ≠ ns) :
    (∀ ev, (op.run c).getEvent ns ev = c.getEvent ns ev) ∧
    (∀ id, ((op.run c).getAndClearAck ns id).1 = (c.getAndClearAck ns id).1) := by
  constructor
  · intro ev
    rw [Callbacks.getEvent_eq, Callbacks.getEvent_eq, Callbacks.ev_run, Callbacks.fb_run]
    cases op <;> simp [RegOp.ns] at hn <;> simp [Ne.symm hn]
  · intro id
    rw [Callbacks.getAck_eq, Callbacks.getAck_eq, Callbacks.ak_run]
    cases op <;> simp [RegOp.ns] at hn <;> simp [Ne.symm hn]

/-- C27, several calls at once: only the calls on the namespace itself matter. -/
theorem C27_history (h : List RegOp) (ns : Str) :
    (∀ ev, (registry h).getEvent ns ev = (registry (h.filter fun op => RegOp.ns op = ns)).getEvent ns ev) ∧
    (∀ id, ((registry h).getAndClearAck ns id).1 =
      ((registry (h.filter fun op => RegOp.ns op = ns)).getAndClearAck ns id).1) := by
  have key : ∀ h : List RegOp,
      (∀ ev, (registry h).ev ns ev = (registry (h.filter fun op => RegOp.ns op = ns)).ev ns ev) ∧
      (registry h).fb ns = (registry (h.filter fun op => RegOp.ns op = ns)).fb ns ∧
      (∀ id, (registry h).ak ns id = (registry (h.filter fun op => RegOp.ns op = ns)).ak ns id) := by
    refine list_snoc_induction (by simp) ?_
    intro h op ⟨h1, h2, h3⟩
    rw [List.filter_append, registry_snoc]
    by_cases hop : RegOp.ns op = ns
    · rw [show [op].filter (fun op => decide (RegOp.ns op = ns)) = [op] by simp [hop], registry_snoc]
      refine ⟨fun ev => ?_, ?_, fun id => ?_⟩
      · rw [Callbacks.ev_run, Callbacks.ev_run]
        cases op <;> simp only [h1]
      · rw [Callbacks.fb_run, Callbacks.fb_run]
        cases op <;> simp only [h2]
      · rw [Callbacks.ak_run, Callbacks.ak_run]
        cases op <;> simp only [h3]
    · rw [show [op].filter (fun op => decide (RegOp.ns op = ns)) = [] by simp [hop], List.append_nil]
      refine ⟨fun ev => ?_, ?_, fun id => ?_⟩
      · rw [← h1, Callbacks.ev_run]
        cases op <;> simp [RegOp.ns] at hop <;> simp [Ne.symm hop]
      · rw [← h2, Callbacks.fb_run]
        cases op <;> simp [RegOp.ns] at hop <;> simp [Ne.symm hop]
      · rw [← h3, Callbacks.ak_run]
        cases op <;> simp [RegOp.ns] at hop <;> simp [Ne.symm hop]
  obtain ⟨h1, h2, h3⟩ := key h
  refine ⟨fun ev => ?_, fun id => ?_⟩
  · rw [Callbacks.getEvent_eq, Callbacks.getEvent_eq, h1, h2]
  · rw [Callbacks.getAck_eq, Callbacks.getAck_eq, h3]

/-- C27 within a namespace: event callbacks, fallback and ack callbacks do not affect each
other, except that the fallback serves events without a callback of their own. -/
theorem C27_within (c : Callbacks) (ns ev : Str) (id : Nat) (cb : Cb) :
    -- other events and acks do not change where an event goes
    (∀ ev', ev' ≠ ev → (c.setEvent ns ev' cb).getEvent ns ev = c.getEvent ns ev ∧
      (c.clearEvent ns ev').getEvent ns ev = c.getEvent ns ev) ∧
    (c.setAck ns id cb).getEvent ns ev = c.getEvent ns ev ∧
    (c.getAndClearAck ns id).2.getEvent ns ev = c.getEvent ns ev ∧
    -- event callbacks and fallbacks do not change where an ack goes
    (∀ i, ((c.setEvent ns ev cb).getAndClearAck ns i).1 = (c.getAndClearAck ns i).1 ∧
      ((c.clearEvent ns ev).getAndClearAck ns i).1 = (c.getAndClearAck ns i).1 ∧
      ((c.setFallback ns cb).getAndClearAck ns i).1 = (c.getAndClearAck ns i).1 ∧
      ((c.clearFallback ns).getAndClearAck ns i).1 = (c.getAndClearAck ns i).1) ∧
    -- other acks do not change where an ack goes
    (∀ i, i ≠ id → ((c.setAck ns i cb).getAndClearAck ns id).1 = (c.getAndClearAck ns id).1 ∧
      ((c.getAndClearAck ns i).2.getAndClearAck ns id).1 = (c.getAndClearAck ns id).1) ∧
    -- an event with its own callback does not notice the fallback
    (∀ cb', ((c.setEvent ns ev cb).setFallback ns cb').getEvent ns ev = some cb ∧
      ((c.setEvent ns ev cb).clearFallback ns).getEvent ns ev = some cb) ∧
    -- an event without is served by the fallback
    (∀ cb', ((c.clearEvent ns ev).setFallback ns cb').getEvent ns ev = some cb' ∧
      ((c.clearEvent ns ev).clearFallback ns).getEvent ns ev = none ∧
      ((c.setFallback ns cb').clearEvent ns ev).getEvent ns ev = some cb') := by
  have e1 := fun c ns e cb ns' ev => Callbacks.ev_run c (.setEvent ns e cb) ns' ev
  have e2 := fun c ns e ns' ev => Callbacks.ev_run c (.clearEvent ns e) ns' ev
  have e3 := fun c ns cb ns' ev => Callbacks.ev_run c (.setFallback ns cb) ns' ev
  have e4 := fun c ns ns' ev => Callbacks.ev_run c (.clearFallback ns) ns' ev
  have e5 := fun c ns i cb ns' ev => Callbacks.ev_run c (.setAck ns i cb) ns' ev
  have e6 := fun c ns i ns' ev => Callbacks.ev_run c (.takeAck ns i) ns' ev
  have f1 := fun c ns e cb ns' => Callbacks.fb_run c (.setEvent ns e cb) ns'
  have f2 := fun c ns e ns' => Callbacks.fb_run c (.clearEvent ns e) ns'
  have f3 := fun c ns cb ns' => Callbacks.fb_run c (.setFallback ns cb) ns'
  have f4 := fun c ns ns' => Callbacks.fb_run c (.clearFallback ns) ns'
  have f5 := fun c ns i cb ns' => Callbacks.fb_run c (.setAck ns i cb) ns'
  have f6 := fun c ns i ns' => Callbacks.fb_run c (.takeAck ns i) ns'
  have a1 := fun c ns e cb ns' i => Callbacks.ak_run c (.setEvent ns e cb) ns' i
  have a2 := fun c ns e ns' i => Callbacks.ak_run c (.clearEvent ns e) ns' i
  have a3 := fun c ns cb ns' i => Callbacks.ak_run c (.setFallback ns cb) ns' i
  have a4 := fun c ns ns' i => Callbacks.ak_run c (.clearFallback ns) ns' i
  have a5 := fun c ns i' cb ns' i => Callbacks.ak_run c (.setAck ns i' cb) ns' i
  have a6 := fun c ns i' ns' i => Callbacks.ak_run c (.takeAck ns i') ns' i
  simp only [RegOp.run] at e1 e2 e3 e4 e5 e6 f1 f2 f3 f4 f5 f6 a1 a2 a3 a4 a5 a6
  refine ⟨?_, ?_, ?_, ?_, ?_, ?_, ?_⟩
  · intro ev' he
    simp [Callbacks.getEvent_eq, e1, e2, f1, f2, Ne.symm he]
  · simp [Callbacks.getEvent_eq, e5, f5]
  · simp [Callbacks.getEvent_eq, e6, f6]
  · intro i
    simp [Callbacks.getAck_eq, a1, a2, a3, a4]
  · intro i hi
    simp [Callbacks.getAck_eq, a5, a6, Ne.symm hi]
  · intro cb'
    simp [Callbacks.getEvent_eq, e1, e3, e4]
  · intro cb'
    simp [Callbacks.getEvent_eq, e2, e3, e4, f2, f3, f4]

-- non-vacuity: the lookups are not all the same
example :
    let c := registry [.setEvent ['/'] ['a'] 1, .setFallback ['/'] 2, .setAck ['/'] 7 3]
    c.getEvent ['/'] ['a'] = some 1 ∧ c.getEvent ['/'] ['b'] = some 2 ∧ c.getEvent ['/', 'x'] ['a'] = none ∧
      (c.getAndClearAck ['/'] 7).1 = some 3 ∧ (c.getAndClearAck ['/'] 8).1 = none ∧
      ((c.getAndClearAck ['/'] 7).2.getAndClearAck ['/'] 7).1 = none := by decide

end SIO
