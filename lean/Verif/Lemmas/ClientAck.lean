import Verif.Lemmas.ClientInv
/-
Invariants of the client machine: the callback registry, ack ids and ack callbacks.
-/
namespace SIO
open Spec

/-- What a transition does to the registry. -/
theorem trans_reg {cfg : RCfg} {s s' : Sys} {evs : List Ev} (ht : Trans cfg s s' evs) :
    (∃ op, history evs = [op] ∧ s'.reg = op.run s.reg) ∨ (history evs = [] ∧ s'.reg = s.reg) ∨
    (history evs = [] ∧ ∃ ns id, s.reg.ak ns id = none ∧ s'.reg = (RegOp.takeAck ns id).run s.reg) := by
  cases ht with
  | sendOk src g s0 evs hs hl' hc => cases hs <;> exact Or.inr (Or.inl ⟨rfl, rfl⟩)
  | sendFail src g s0 evs hs hc => cases hs <;> exact Or.inr (Or.inl ⟨rfl, rfl⟩)
  | recvEvent w st ns name cb A ack _ _ _ => cases ack <;> exact Or.inr (Or.inl ⟨rfl, rfl⟩)
  | recvEventPanic w st ns name cb A ack _ _ _ => cases ack <;> exact Or.inr (Or.inl ⟨rfl, rfl⟩)
  | recvNoAck w st ns id pk _ h _ => exact Or.inr (Or.inr ⟨rfl, ns, id, h, rfl⟩)
  | recvAck w st ns id cb A _ h _ => exact Or.inl ⟨.takeAck ns id, rfl, rfl⟩
  | recvAckPanic w st ns id cb A _ h _ => exact Or.inl ⟨.takeAck ns id, rfl, rfl⟩
  | reg op _ _ _ => exact Or.inl ⟨op, rfl, rfl⟩
  | emitRegister ns id cb bld g _ _ _ => exact Or.inl ⟨.setAck ns id cb, rfl, rfl⟩
  | _ => exact Or.inr (Or.inl ⟨rfl, rfl⟩)

/-- The registry is the one of the history. -/
structure GInv (tr : List Ev) (s : Sys) : Prop where
  ev : ∀ ns e, s.reg.ev ns e = (registry (history tr)).ev ns e
  fb : ∀ ns, s.reg.fb ns = (registry (history tr)).fb ns
  ak : ∀ ns id, s.reg.ak ns id = (registry (history tr)).ak ns id

theorem ginv_trans {cfg : RCfg} {tr : List Ev} {s s' : Sys} {evs : List Ev} (hi : GInv tr s) (ht : Trans cfg s s' evs) :
    GInv (tr ++ evs) s' := by
  obtain ⟨h1, h2, h3⟩ := hi
  rcases trans_reg ht with ⟨op, k1, k2⟩ | ⟨k1, k2⟩ | ⟨k1, ns, id, k2, k3⟩
  · constructor
    · intro ns e
      rw [history_append, k1, registry_snoc, k2, Callbacks.ev_run, Callbacks.ev_run, h1]
    · intro ns
      rw [history_append, k1, registry_snoc, k2, Callbacks.fb_run, Callbacks.fb_run, h2]
    · intro ns id
      rw [history_append, k1, registry_snoc, k2, Callbacks.ak_run, Callbacks.ak_run, h3]
  · rw [← k2] at h1 h2 h3
    exact ⟨by simpa [k1] using h1, by simpa [k1] using h2, by simpa [k1] using h3⟩
  · constructor
    · intro ns' e
      rw [history_append, k1, List.append_nil, k3, Callbacks.ev_run, ← h1]
    · intro ns'
      rw [history_append, k1, List.append_nil, k3, Callbacks.fb_run, ← h2]
    · intro ns' id'
      rw [history_append, k1, List.append_nil, k3, Callbacks.ak_run, ← h3]
      simp only
      split
      · rename_i h; rw [h.1, h.2, k2]
      · rfl

theorem ginv_init : GInv [] Sys.init := ⟨fun _ _ => rfl, fun _ => rfl, fun _ _ => rfl⟩

theorem ginv {cfg : RCfg} {acts : List Act} {s : Sys} {tr : List Ev} (h : Runs cfg acts s tr) : GInv tr s :=
  exec_induct (P := GInv) ginv_init (fun _ _ _ _ hi ht => ginv_trans hi ht) acts s tr h

theorem GInv.getEvent {tr : List Ev} {s : Sys} (h : GInv tr s) (ns e : Str) :
    s.reg.getEvent ns e = (registry (history tr)).getEvent ns e := by
  rw [Callbacks.getEvent_eq, Callbacks.getEvent_eq, h.ev, h.fb]

/-- The callback of an event that is being built. -/
def pendingCb : Option Emit → Option (Nat × Cb)
  | some (.building _ _ _ cb) => cb
  | some (.args _ cb _) => cb
  | _ => none

/-- The callback of an event that is being sent. -/
def sendingCb : Option Emit → Option (Str × Nat × Cb)
  | some (.sending ns (some (id, c)) _) => some (ns, id, c)
  | _ => none

structure AInv (tr : List Ev) (s : Sys) : Prop where
  ids : ackIds tr = (List.range s.allocs).map (· % 2 ^ 64)
  next : s.nextId = s.allocs % 2 ^ 64
  alloc : ∀ id c, .allocated id c ∈ tr ↔ c < s.allocs ∧ id = c % 2 ^ 64
  fresh : ∀ id c, pendingCb s.emit = some (id, c) → c < s.allocs ∧ id = c % 2 ^ 64 ∧ ∀ ns' id', .registered ns' id' c ∉ tr
  sending : ∀ ns id c, sendingCb s.emit = some (ns, id, c) → .registered ns id c ∈ tr
  regd : ∀ ns id c, .registered ns id c ∈ tr → c < s.allocs ∧ id = c % 2 ^ 64
  uniq : ∀ ns id c ns' id', .registered ns id c ∈ tr → .registered ns' id' c ∈ tr → ns = ns' ∧ id = id'
  ak : ∀ ns id c, s.reg.ak ns id = some c → .registered ns id c ∈ tr ∧ c ∉ ackRuns tr
  runs : ∀ c, c ∈ ackRuns tr → ∃ ns id, .registered ns id c ∈ tr
  nodup : (ackRuns tr).Nodup
  pend : s.allocs ≤ 2 ^ 64 → ∀ ns id c, .registered ns id c ∈ tr → s.reg.ak ns id = some c ∨ c ∈ ackRuns tr

theorem ainv_congr {tr evs : List Ev} {s s' : Sys} (hi : AInv tr s) (h1 : ackIds evs = []) (h2 : ackRuns evs = [])
    (h3 : ∀ id c, .allocated id c ∉ evs) (h4 : ∀ ns id c, .registered ns id c ∉ evs)
    (h5 : s'.allocs = s.allocs) (h6 : s'.nextId = s.nextId) (h7 : ∀ ns id, s'.reg.ak ns id = s.reg.ak ns id)
    (h8 : ∀ x, pendingCb s'.emit = some x → pendingCb s.emit = some x)
    (h9 : ∀ x, sendingCb s'.emit = some x → sendingCb s.emit = some x) : AInv (tr ++ evs) s' := by
  obtain ⟨k1, k2, k3, k4, k5, k6, k7, k8, k9, k10, k11⟩ := hi
  have hm : ∀ ns id c, Ev.registered ns id c ∈ tr ++ evs ↔ Ev.registered ns id c ∈ tr := by
    intro ns id c
    simp [h4]
  have hr : ackRuns (tr ++ evs) = ackRuns tr := by simp [h2]
  constructor
  · rw [ackIds_append, h1, List.append_nil, k1, h5]
  · rw [h6, k2, h5]
  · intro id c
    rw [h5, ← k3]
    simp [h3]
  · intro id c h
    obtain ⟨g1, g2, g3⟩ := k4 id c (h8 _ h)
    refine ⟨by rw [h5]; exact g1, g2, ?_⟩
    intro ns' id'
    rw [hm]; exact g3 ns' id'
  · intro ns id c h
    rw [hm]; exact k5 ns id c (h9 _ h)
  · intro ns id c h
    rw [h5]; exact k6 ns id c ((hm _ _ _).1 h)
  · intro ns id c ns' id' g1 g2
    exact k7 ns id c ns' id' ((hm _ _ _).1 g1) ((hm _ _ _).1 g2)
  · intro ns id c h
    rw [h7] at h
    rw [hm, hr]
    exact k8 ns id c h
  · intro c h
    rw [hr] at h
    obtain ⟨ns, id, g⟩ := k9 c h
    exact ⟨ns, id, (hm _ _ _).2 g⟩
  · rw [hr]; exact k10
  · intro ha ns id c h
    rw [hr, h7]
    exact k11 (by rw [← h5]; exact ha) ns id c ((hm _ _ _).1 h)

/-- The ack callback is taken out and run. -/
theorem ainv_run {tr evs : List Ev} {s s' : Sys} (hi : AInv tr s) {ns : Str} {id : Nat} {cb : Cb}
    (hcb : s.reg.ak ns id = some cb) (h1 : ackIds evs = []) (h2 : ackRuns evs = [cb])
    (h3 : ∀ id c, .allocated id c ∉ evs) (h4 : ∀ ns id c, .registered ns id c ∉ evs)
    (h5 : s'.allocs = s.allocs) (h6 : s'.nextId = s.nextId) (h7 : s'.reg = (RegOp.takeAck ns id).run s.reg)
    (h8 : s'.emit = s.emit) : AInv (tr ++ evs) s' := by
  obtain ⟨k1, k2, k3, k4, k5, k6, k7, k8, k9, k10, k11⟩ := hi
  have hm : ∀ ns id c, Ev.registered ns id c ∈ tr ++ evs ↔ Ev.registered ns id c ∈ tr := by
    intro ns id c
    simp [h4]
  have hr : ackRuns (tr ++ evs) = ackRuns tr ++ [cb] := by rw [ackRuns_append, h2]
  have hak : ∀ ns' id', s'.reg.ak ns' id' = if ns' = ns ∧ id' = id then none else s.reg.ak ns' id' := by
    intro ns' id'
    rw [h7, Callbacks.ak_run]
  obtain ⟨c1, c2⟩ := k8 ns id cb hcb
  constructor
  · rw [ackIds_append, h1, List.append_nil, k1, h5]
  · rw [h6, k2, h5]
  · intro id c
    rw [h5, ← k3]
    simp [h3]
  · intro id c h
    rw [h8] at h
    obtain ⟨g1, g2, g3⟩ := k4 id c h
    refine ⟨by rw [h5]; exact g1, g2, ?_⟩
    intro ns' id'
    rw [hm]; exact g3 ns' id'
  · intro ns id c h
    rw [h8] at h
    rw [hm]; exact k5 ns id c h
  · intro ns id c h
    rw [h5]; exact k6 ns id c ((hm _ _ _).1 h)
  · intro ns id c ns' id' g1 g2
    exact k7 ns id c ns' id' ((hm _ _ _).1 g1) ((hm _ _ _).1 g2)
  · intro ns' id' c h
    rw [hak] at h
    split at h
    · simp at h
    · rename_i hn
      rw [hm, hr]
      obtain ⟨g1, g2⟩ := k8 ns' id' c h
      refine ⟨g1, ?_⟩
      simp only [List.mem_append, List.mem_singleton, not_or]
      refine ⟨g2, ?_⟩
      rintro rfl
      exact hn (k7 _ _ _ _ _ g1 c1)
  · intro c h
    rw [hr] at h
    rcases List.mem_append.1 h with h | h
    · obtain ⟨ns, id, g⟩ := k9 c h
      exact ⟨ns, id, (hm _ _ _).2 g⟩
    · rw [List.mem_singleton] at h
      subst h
      exact ⟨ns, id, (hm _ _ _).2 c1⟩
  · rw [hr, List.nodup_append]
    refine ⟨k10, by simp, ?_⟩
    intro a ha b hb
    rw [List.mem_singleton] at hb
    subst hb
    rintro rfl
    exact c2 ha
  · intro ha ns' id' c h
    rw [hr, hak]
    rw [hm] at h
    split
    · rename_i he
      obtain ⟨rfl, rfl⟩ := he
      rcases k11 (by rw [← h5]; exact ha) ns' id' c h with g | g
      · rw [hcb] at g
        simp only [Option.some.injEq] at g
        subst g
        simp
      · simp [g]
    · rcases k11 (by rw [← h5]; exact ha) ns' id' c h with g | g
      · exact Or.inl g
      · simp [g]

theorem ainv_alloc {tr : List Ev} {s s' : Sys} (hi : AInv tr s)
    (h5 : s'.allocs = s.allocs + 1) (h6 : s'.nextId = (s.nextId + 1) % u64Bound) (h7 : s'.reg = s.reg)
    (h8 : pendingCb s'.emit = some (s.nextId, s.allocs)) (h9 : sendingCb s'.emit = none) :
    AInv (tr ++ [.allocated s.nextId s.allocs]) s' := by
  obtain ⟨k1, k2, k3, k4, k5, k6, k7, k8, k9, k10, k11⟩ := hi
  have hm : ∀ ns id c, Ev.registered ns id c ∈ tr ++ [.allocated s.nextId s.allocs] ↔ Ev.registered ns id c ∈ tr := by
    intro ns id c
    simp
  have hr : ackRuns (tr ++ [.allocated s.nextId s.allocs]) = ackRuns tr := by
    rw [ackRuns_append]; show ackRuns tr ++ [] = _; simp
  constructor
  · rw [ackIds_append, k1, h5, List.range_succ, List.map_append]
    show _ ++ [s.nextId] = _
    rw [k2]; rfl
  · rw [h6, k2, h5]
    simp only [u64Bound]
    omega
  · intro id c
    rw [List.mem_append, k3, h5]
    simp only [List.mem_singleton, Ev.allocated.injEq, k2]
    constructor
    · rintro (⟨g1, g2⟩ | ⟨g1, g2⟩)
      · exact ⟨by omega, g2⟩
      · subst g2; exact ⟨by omega, g1⟩
    · rintro ⟨g1, g2⟩
      by_cases hc : c = s.allocs
      · subst hc; exact Or.inr ⟨g2, rfl⟩
      · exact Or.inl ⟨by omega, g2⟩
  · intro id c h
    rw [h8] at h
    simp only [Option.some.injEq, Prod.mk.injEq] at h
    obtain ⟨rfl, rfl⟩ := h
    refine ⟨by rw [h5]; exact Nat.lt_succ_self _, k2, ?_⟩
    intro ns' id'
    rw [hm]
    intro g
    have := (k6 _ _ _ g).1
    omega
  · intro ns id c h
    rw [h9] at h; simp at h
  · intro ns id c h
    obtain ⟨g1, g2⟩ := k6 ns id c ((hm _ _ _).1 h)
    exact ⟨by omega, g2⟩
  · intro ns id c ns' id' g1 g2
    exact k7 ns id c ns' id' ((hm _ _ _).1 g1) ((hm _ _ _).1 g2)
  · intro ns id c h
    rw [h7] at h
    rw [hm, hr]
    exact k8 ns id c h
  · intro c h
    rw [hr] at h
    obtain ⟨ns, id, g⟩ := k9 c h
    exact ⟨ns, id, (hm _ _ _).2 g⟩
  · rw [hr]; exact k10
  · intro ha ns id c h
    rw [hr, h7]
    exact k11 (by omega) ns id c ((hm _ _ _).1 h)

theorem ainv_register {tr : List Ev} {s s' : Sys} (hi : AInv tr s) {ns : Str} {id : Nat} {cb : Cb}
    (hp : pendingCb s.emit = some (id, cb)) (h5 : s'.allocs = s.allocs) (h6 : s'.nextId = s.nextId)
    (h7 : s'.reg = (RegOp.setAck ns id cb).run s.reg)
    (h8 : pendingCb s'.emit = none) (h9 : sendingCb s'.emit = some (ns, id, cb)) :
    AInv (tr ++ [.registered ns id cb]) s' := by
  obtain ⟨k1, k2, k3, k4, k5, k6, k7, k8, k9, k10, k11⟩ := hi
  obtain ⟨c1, c2, c3⟩ := k4 id cb hp
  have hm : ∀ ns' id' c', Ev.registered ns' id' c' ∈ tr ++ [.registered ns id cb] ↔
      Ev.registered ns' id' c' ∈ tr ∨ (ns' = ns ∧ id' = id ∧ c' = cb) := by
    intro ns id c
    simp
  have hr : ackRuns (tr ++ [.registered ns id cb]) = ackRuns tr := by
    rw [ackRuns_append]; show ackRuns tr ++ [] = _; simp
  have hak : ∀ ns' id', s'.reg.ak ns' id' = if ns' = ns ∧ id' = id then some cb else s.reg.ak ns' id' := by
    intro ns' id'
    rw [h7, Callbacks.ak_run]
  have hnr : cb ∉ ackRuns tr := fun h => by
    obtain ⟨ns', id', g⟩ := k9 cb h
    exact c3 _ _ g
  constructor
  · rw [ackIds_append, k1, h5]
    show _ ++ [] = _
    simp
  · rw [h6, k2, h5]
  · intro id c
    rw [h5, ← k3]
    simp
  · intro id c h
    rw [h8] at h; simp at h
  · intro ns' id' c h
    rw [h9] at h
    simp only [Option.some.injEq, Prod.mk.injEq] at h
    obtain ⟨rfl, rfl, rfl⟩ := h
    simp
  · intro ns' id' c h
    rw [h5]
    rcases (hm _ _ _).1 h with h | ⟨rfl, rfl, rfl⟩
    · exact k6 _ _ _ h
    · exact ⟨c1, c2⟩
  · intro ns1 id1 c ns2 id2 g1 g2
    rw [hm] at g1 g2
    rcases g1 with g1 | ⟨e1, e2, e3⟩
    · rcases g2 with g2 | ⟨e1, e2, e3⟩
      · exact k7 _ _ _ _ _ g1 g2
      · rw [e3] at g1; exact absurd g1 (c3 _ _)
    · rcases g2 with g2 | ⟨f1, f2, f3⟩
      · rw [e3] at g2; exact absurd g2 (c3 _ _)
      · rw [e1, e2, f1, f2]; exact ⟨rfl, rfl⟩
  · intro ns' id' c h
    rw [hak] at h
    rw [hm, hr]
    split at h
    · rename_i he
      simp only [Option.some.injEq] at h
      subst h
      exact ⟨Or.inr ⟨he.1, he.2, rfl⟩, hnr⟩
    · obtain ⟨g1, g2⟩ := k8 _ _ _ h
      exact ⟨Or.inl g1, g2⟩
  · intro c h
    rw [hr] at h
    obtain ⟨ns, id, g⟩ := k9 c h
    exact ⟨ns, id, (hm _ _ _).2 (Or.inl g)⟩
  · rw [hr]; exact k10
  · intro ha ns' id' c h
    rw [hr, hak]
    rw [hm] at h
    rcases h with h | ⟨e1, e2, e3⟩
    · split
      · rename_i he
        obtain ⟨e3, e4⟩ := he
        obtain ⟨g1, g2⟩ := k6 _ _ _ h
        rw [h5] at ha
        have e1 : c % 2 ^ 64 = c := Nat.mod_eq_of_lt (Nat.lt_of_lt_of_le g1 ha)
        have e2 : cb % 2 ^ 64 = cb := Nat.mod_eq_of_lt (Nat.lt_of_lt_of_le c1 ha)
        have : c = cb := by rw [← e1, ← e2, ← g2, ← c2, e4]
        subst this
        exact absurd h (c3 _ _)
      · exact k11 (by omega) _ _ _ h
    · simp [e1, e2, e3]

theorem ainv_trans {cfg : RCfg} {tr : List Ev} {s s' : Sys} {evs : List Ev} (hi : AInv tr s) (ht : Trans cfg s s' evs) :
    AInv (tr ++ evs) s' := by
  have id1 : ∀ {α β : Type} {f : α → Option β} {a : α} (x : β), f a = some x → f a = some x := fun _ h => h
  cases ht with
  | sendOk src g s0 evs hs hl' hc =>
    cases hs with
    | emit => exact ainv_congr hi rfl rfl (by simp) (by simp) rfl rfl (fun _ _ => rfl) (by simp [pendingCb]) (by simp [sendingCb])
    | _ => exact ainv_congr hi rfl rfl (by simp) (by simp) rfl rfl (fun _ _ => rfl) id1 id1
  | sendFail src g s0 evs hs hc =>
    cases hs with
    | emit => exact ainv_congr hi rfl rfl (by simp) (by simp) rfl rfl (fun _ _ => rfl) (by simp [pendingCb]) (by simp [sendingCb])
    | _ => exact ainv_congr hi rfl rfl (by simp) (by simp) rfl rfl (fun _ _ => rfl) id1 id1
  | recvEvent w st ns name cb A ack _ _ _ =>
    cases ack <;> exact ainv_congr hi rfl rfl (by simp) (by simp) rfl rfl (fun _ _ => rfl) id1 id1
  | recvEventPanic w st ns name cb A ack _ _ _ =>
    cases ack <;> exact ainv_congr hi rfl rfl (by simp) (by simp) rfl rfl (fun _ _ => rfl) id1 id1
  | recvNoAck w st ns id pk _ h _ =>
    refine ainv_congr hi rfl rfl (by simp) (by simp) rfl rfl ?_ id1 id1
    intro ns' id'
    show ((RegOp.takeAck ns id).run s.reg).ak ns' id' = _
    rw [Callbacks.ak_run]
    simp only
    split
    · rename_i he; rw [he.1, he.2, h]
    · rfl
  | recvAck w st ns id cb A _ h _ => exact ainv_run hi h rfl rfl (by simp) (by simp) rfl rfl rfl rfl
  | recvAckPanic w st ns id cb A _ h _ => exact ainv_run hi h rfl rfl (by simp) (by simp) rfl rfl rfl rfl
  | reg op _ hpub _ =>
    refine ainv_congr hi rfl rfl (by simp) (by simp) rfl rfl ?_ id1 id1
    intro ns' id'
    show (op.run s.reg).ak ns' id' = _
    rw [Callbacks.ak_run]
    cases op <;> simp [RegOp.public] at hpub <;> rfl
  | emitCallback ns ev b cb h => exact ainv_alloc hi rfl rfl rfl rfl rfl
  | emitRegister ns id cb bld g h _ _ =>
    exact ainv_register hi (by rw [h]; rfl) rfl rfl rfl rfl rfl
  | emitStart ns ev _ h =>
    exact ainv_congr hi rfl rfl (by simp) (by simp) rfl rfl (fun _ _ => rfl) (by simp [pendingCb]) (by simp [sendingCb])
  | emitBinary ns ev b b' cb h =>
    exact ainv_congr hi rfl rfl (by simp) (by simp) rfl rfl (fun _ _ => rfl) (by simp [pendingCb, h]) (by simp [sendingCb])
  | emitArgs ns ev b cb bld h _ =>
    exact ainv_congr hi rfl rfl (by simp) (by simp) rfl rfl (fun _ _ => rfl) (by simp [pendingCb, h]) (by simp [sendingCb])
  | emitArg ns cb bld v h =>
    exact ainv_congr hi rfl rfl (by simp) (by simp) rfl rfl (fun _ _ => rfl) (by simp [pendingCb, h]) (by simp [sendingCb])
  | emitPanic _ =>
    exact ainv_congr hi rfl rfl (by simp) (by simp) rfl rfl (fun _ _ => rfl) (by simp [pendingCb]) (by simp [sendingCb])
  | emitDrop _ =>
    exact ainv_congr hi rfl rfl (by simp) (by simp) rfl rfl (fun _ _ => rfl) (by simp [pendingCb]) (by simp [sendingCb])
  | emitElsewhere ns cb g _ _ =>
    exact ainv_congr hi rfl rfl (by simp) (by simp) rfl rfl (fun _ _ => rfl) (by simp [pendingCb]) (by simp [sendingCb])
  | emitSend ns bld g _ _ =>
    exact ainv_congr hi rfl rfl (by simp) (by simp) rfl rfl (fun _ _ => rfl) (by simp [pendingCb]) (by simp [sendingCb])
  | _ => exact ainv_congr hi rfl rfl (by simp) (by simp) rfl rfl (fun _ _ => rfl) id1 id1

theorem ainv_init : AInv [] Sys.init := by
  constructor <;> simp [Sys.init, ackIds, ackRuns, pendingCb, sendingCb, Callbacks.ak_new]

theorem ainv {cfg : RCfg} {acts : List Act} {s : Sys} {tr : List Ev} (h : Runs cfg acts s tr) : AInv tr s :=
  exec_induct (P := AInv) ainv_init (fun _ _ _ _ hi ht => ainv_trans hi ht) acts s tr h

end SIO
