import Verif.Lemmas.ClientData
/-
Connecting: the open packet, the result of `connect`, and the causes of a close.
-/
namespace SIO
open Spec

/-- The state of `connect` and what was seen of it. -/
structure ConnInv (tr : List Ev) (s : Sys) : Prop where
  slot : ∀ o, s.openSlot = some o → .eff (.opened o) ∈ tr
  empty : s.openSlot = none → ∀ o, .eff (.opened o) ∉ tr
  wait : s.phase = .handshake ∨ s.phase = .waitOpen →
    connectResults tr = [] ∧ s.handleDropped = false ∧ s.closeSig = false
  conn : ∀ sid, s.phase = .connected sid → connectResults tr = [.ok sid]
  fail : ∀ e, s.phase = .failed e → connectResults tr = [.err e]
  panicked : s.phase = .panicked → connectResults tr = [.panic]
  cancelled : s.phase = .cancelled → connectResults tr = []
  dropped : s.task = .dropped → s.handleDropped = true
  sig : s.client = true → s.closeSig = true → .closeRequested ∈ tr
  told : .closeRequested ∈ tr → s.closeSig = true

theorem conninv_congr {tr evs : List Ev} {s s' : Sys} (hi : ConnInv tr s) (h1 : s'.phase = s.phase) (h2 : s'.openSlot = s.openSlot)
    (h3 : s'.handleDropped = s.handleDropped) (h4 : s'.closeSig = s.closeSig) (h5 : s'.client = s.client)
    (h6 : s'.task = .dropped → s.task = .dropped)
    (k1 : connectResults evs = []) (k2 : ∀ o, .eff (.opened o) ∉ evs) (k3 : .closeRequested ∉ evs) : ConnInv (tr ++ evs) s' := by
  obtain ⟨j1, j2, j3, j4, j5, j6, j7, j8, j9, j10⟩ := hi
  constructor
  · intro o h; rw [h2] at h; exact List.mem_append_left _ (j1 o h)
  · intro h o; rw [h2] at h; simp [j2 h o, k2]
  · rw [h1, h3, h4]; simpa [k1] using j3
  · rw [h1]; simpa [k1] using j4
  · rw [h1]; simpa [k1] using j5
  · rw [h1]; simpa [k1] using j6
  · rw [h1]; simpa [k1] using j7
  · rw [h3]; exact fun h => j8 (h6 h)
  · rw [h5, h4]; exact fun a b => List.mem_append_left _ (j9 a b)
  · rw [h4]; intro h; simp only [List.mem_append, k3, or_false] at h; exact j10 h

set_option maxHeartbeats 2000000 in
theorem conninv_trans {cfg : RCfg} {tr : List Ev} {s s' : Sys} {evs : List Ev} (hp : PInv s) (hi : ConnInv tr s)
    (ht : Trans cfg s s' evs) : ConnInv (tr ++ evs) s' := by
  cases ht with
  | sendOk src g s0 evs hs hl hc =>
    cases hs <;> exact conninv_congr hi rfl rfl rfl rfl rfl (fun h => h) rfl (by simp) (by simp)
  | sendFail src g s0 evs hs hc =>
    cases hs <;> exact conninv_congr hi rfl rfl rfl rfl rfl (fun h => h) rfl (by simp) (by simp)
  | recvEvent w st ns name cb A ack _ _ _ =>
    cases ack <;> exact conninv_congr hi rfl rfl rfl rfl rfl (fun h => h) rfl (by simp) (by simp)
  | recvEventPanic w st ns name cb A ack _ _ _ =>
    cases ack <;> exact conninv_congr hi rfl rfl rfl rfl rfl (by simp [Sys.endTask]) rfl (by simp) (by simp)
  | handshakeOk h =>
    obtain ⟨j1, j2, j3, j4, j5, j6, j7, j8, j9, j10⟩ := hi
    obtain ⟨p1, p2, p3, p4, p5, p6, p7, p8⟩ := hp
    constructor <;> simp only [List.append_nil] <;> grind
  | connectFail e h _ =>
    obtain ⟨j1, j2, j3, j4, j5, j6, j7, j8, j9, j10⟩ := hi
    obtain ⟨p1, p2, p3, p4, p5, p6, p7, p8⟩ := hp
    have hc : connectResults [Ev.connectReturned (.err e)] = [.err e] := rfl
    constructor <;> simp only [connectResults_append, hc] <;> grind
  | openOk o h1 h2 =>
    obtain ⟨j1, j2, j3, j4, j5, j6, j7, j8, j9, j10⟩ := hi
    have hc : connectResults [Ev.connectReturned (.ok o.sid)] = [.ok o.sid] := rfl
    constructor <;> simp only [connectResults_append, hc] <;> grind
  | openPanic h1 h2 h3 =>
    obtain ⟨j1, j2, j3, j4, j5, j6, j7, j8, j9, j10⟩ := hi
    obtain ⟨p1, p2, p3, p4, p5, p6, p7, p8⟩ := hp
    have hc : connectResults [Ev.connectReturned .panic] = [.panic] := rfl
    constructor <;> simp only [connectResults_append, hc] <;> grind
  | openTimeout h1 =>
    obtain ⟨j1, j2, j3, j4, j5, j6, j7, j8, j9, j10⟩ := hi
    obtain ⟨p1, p2, p3, p4, p5, p6, p7, p8⟩ := hp
    have hc : connectResults [Ev.connectReturned (.err (.timeout .openPacket))] = [.err (.timeout .openPacket)] := rfl
    constructor <;> simp only [connectResults_append, hc] <;> grind
  | cancelEarly h =>
    obtain ⟨j1, j2, j3, j4, j5, j6, j7, j8, j9, j10⟩ := hi
    obtain ⟨p1, p2, p3, p4, p5, p6, p7, p8⟩ := hp
    constructor <;> simp only [List.append_nil] <;> grind
  | cancel h =>
    obtain ⟨j1, j2, j3, j4, j5, j6, j7, j8, j9, j10⟩ := hi
    obtain ⟨p1, p2, p3, p4, p5, p6, p7, p8⟩ := hp
    constructor <;> simp only [List.append_nil] <;> grind
  | recvOpened w st o hr _ =>
    obtain ⟨j1, j2, j3, j4, j5, j6, j7, j8, j9, j10⟩ := hi
    have hc : connectResults [Ev.received w, .eff (.opened o)] = [] := rfl
    constructor <;> simp only [connectResults_append, hc] <;> grind
  | dropTask h1 h2 =>
    obtain ⟨j1, j2, j3, j4, j5, j6, j7, j8, j9, j10⟩ := hi
    have hc : connectResults [Ev.taskDropped] = [] := rfl
    constructor <;> (try simp only [connectResults_append, hc]) <;> grind [Sys.endTask]
  | closeStart h1 h2 h3 =>
    obtain ⟨j1, j2, j3, j4, j5, j6, j7, j8, j9, j10⟩ := hi
    obtain ⟨p1, p2, p3, p4, p5, p6, p7, p8⟩ := hp
    have hc : connectResults [Ev.closeRequested] = [] := rfl
    constructor <;> simp only [connectResults_append, hc] <;> grind
  | closeReady r h1 h2 =>
    obtain ⟨j1, j2, j3, j4, j5, j6, j7, j8, j9, j10⟩ := hi
    obtain ⟨p1, p2, p3, p4, p5, p6, p7, p8⟩ := hp
    have hc : connectResults [Ev.closeReturned r] = [] := rfl
    constructor <;> simp only [connectResults_append, hc] <;> grind
  | closeTimeout h1 =>
    obtain ⟨j1, j2, j3, j4, j5, j6, j7, j8, j9, j10⟩ := hi
    obtain ⟨p1, p2, p3, p4, p5, p6, p7, p8⟩ := hp
    have hc : connectResults [Ev.closeReturned (.err (.timeout .close))] = [] := rfl
    constructor <;> simp only [connectResults_append, hc] <;> grind
  | closeCancel h1 =>
    obtain ⟨j1, j2, j3, j4, j5, j6, j7, j8, j9, j10⟩ := hi
    obtain ⟨p1, p2, p3, p4, p5, p6, p7, p8⟩ := hp
    constructor <;> simp only [List.append_nil] <;> grind
  | dropClient h1 h2 h3 =>
    obtain ⟨j1, j2, j3, j4, j5, j6, j7, j8, j9, j10⟩ := hi
    obtain ⟨p1, p2, p3, p4, p5, p6, p7, p8⟩ := hp
    constructor <;> simp only [List.append_nil] <;> grind
  | _ =>
    first
      | exact conninv_congr hi rfl rfl rfl rfl rfl (fun h => h) rfl (by simp) (by simp)
      | exact conninv_congr hi rfl rfl rfl rfl rfl (by simp [Sys.endTask]) rfl (by simp) (by simp)
      | exact conninv_congr hi rfl rfl rfl rfl rfl (by grind) rfl (by simp) (by simp)

theorem conninv_init : ConnInv [] Sys.init := by
  constructor <;> simp [Sys.init, connectResults]

theorem conninv {cfg : RCfg} {acts : List Act} {s : Sys} {tr : List Ev} (h : Runs cfg acts s tr) : ConnInv tr s :=
  (exec_induct (P := fun tr s => PInv s ∧ ConnInv tr s) ⟨pinv_init, conninv_init⟩
    (fun _ _ _ _ hi ht => ⟨pinv_trans hi.1 ht, conninv_trans hi.1 hi.2 ht⟩) acts s tr h).2

/-- After an open packet was received the open channel has its value. -/
def OpenInv (tr : List Ev) (s : Sys) : Prop := (∃ w ∈ inbox tr, IsOpen w) → s.openSlot ≠ none

theorem openinv_trans {cfg : RCfg} {tr : List Ev} {s s' : Sys} {evs : List Ev} (hx : XInv cfg tr s) (hi : OpenInv tr s)
    (ht : Trans cfg s s' evs) : OpenInv (tr ++ evs) s' := by
  have quiet : ∀ {evs : List Ev} {s' : Sys}, inbox evs = [] → s'.openSlot = s.openSlot → OpenInv (tr ++ evs) s' := by
    intro evs s' h1 h2
    rw [OpenInv, inbox_append, h1, List.append_nil, h2]
    exact hi
  have key : ∀ {evs : List Ev} {s' : Sys} {w : Ws} {o : ROut}, s.task.reads → processWs cfg s.rx s.reg w = o →
      (∀ x, .opened x ∉ o.effs) → inbox evs = [w] → s'.openSlot = s.openSlot → OpenInv (tr ++ evs) s' := by
    rintro evs s' w o hr rfl hn h1 h2 ⟨x, hx1, hx2⟩
    rw [inbox_append, h1] at hx1
    rw [h2]
    rcases List.mem_append.1 hx1 with hx1 | hx1
    · exact hi ⟨x, hx1, hx2⟩
    · simp only [List.mem_singleton] at hx1
      subst hx1
      obtain ⟨l, k1, k2, k3⟩ := hx (Or.inl hr.live)
      refine Classical.byContradiction fun hnone => ?_
      have hno : ∀ r ∈ l, ¬ IsOpen r.2 := by
        intro r hr ho
        refine absurd (hi ⟨r.2, ?_, ho⟩) hnone
        rw [← k2]
        exact List.mem_map_of_mem hr
      obtain ⟨t, o, h3, h4⟩ := hx2
      have := (C42_open cfg l s.reg x o).2 ⟨⟨t, h3, h4⟩, hno⟩
      rw [← k1] at this
      exact hn o this
  cases ht with
  | sendOk src g s0 evs hs hl hc =>
    cases hs with
    | pong w st hr _ h => exact key hr h (by simp) rfl rfl
    | _ => exact quiet rfl rfl
  | sendFail src g s0 evs hs hc =>
    cases hs with
    | pong w st hr _ h => exact key hr h (by simp) rfl rfl
    | _ => exact quiet rfl rfl
  | recvQuiet w st hr h => exact key hr h (by simp) rfl rfl
  | recvErr w st e hr h => exact key hr h (by simp) rfl rfl
  | recvPanic w st hr h => exact key hr h (by simp) rfl rfl
  | recvNoAck w st ns id pk hr _ h => exact key hr h (by simp) rfl rfl
  | recvOpened w st o hr h => intro _; simp
  | recvSecond w st o hr h => exact key hr h (by simp) rfl rfl
  | recvEvent w st ns name cb A ack hr _ h => cases ack <;> exact key hr h (by simp) rfl rfl
  | recvEventPanic w st ns name cb A ack hr _ h => cases ack <;> exact key hr h (by simp) rfl rfl
  | recvAck w st ns id cb A hr _ h => exact key hr h (by simp) rfl rfl
  | recvAckPanic w st ns id cb A hr _ h => exact key hr h (by simp) rfl rfl
  | _ => exact quiet rfl rfl

theorem openinv {cfg : RCfg} {acts : List Act} {s : Sys} {tr : List Ev} (h : Runs cfg acts s tr) : OpenInv tr s :=
  (exec_induct (P := fun tr s => PInv s ∧ XInv cfg tr s ∧ OpenInv tr s)
    ⟨pinv_init, xinv_init cfg, by rintro ⟨w, hw, _⟩; simp [inbox] at hw⟩
    (fun _ _ _ _ hi ht => ⟨pinv_trans hi.1 ht, xinv_trans hi.1 hi.2.1 ht, openinv_trans hi.2.1 hi.2.2 ht⟩) acts s tr h).2.2

/-- Induction over schedules without some actions. -/
theorem exec_induct_acts {cfg : RCfg} {P : List Ev → Sys → Prop} {ok : Act → Prop} (h0 : P [] Sys.init)
    (hs : ∀ tr s s' evs a, ok a → P tr s → step cfg s a = some (s', evs) → P (tr ++ evs) s')
    {acts : List Act} {s : Sys} {tr : List Ev} (h : Runs cfg acts s tr) (hok : ∀ a ∈ acts, ok a) : P tr s := by
  have key : ∀ (acts : List Act) (s0 s : Sys) (tr0 tr : List Ev), (∀ a ∈ acts, ok a) → P tr0 s0 →
      exec cfg s0 acts = some (s, tr) → P (tr0 ++ tr) s := by
    intro acts
    induction acts with
    | nil =>
      intro s0 s tr0 tr _ hp he
      simp only [exec, Option.some.injEq, Prod.mk.injEq] at he
      obtain ⟨rfl, rfl⟩ := he
      simpa using hp
    | cons a acts ih =>
      intro s0 s tr0 tr hok hp he
      simp only [exec] at he
      cases h1 : step cfg s0 a with
      | none => rw [h1] at he; simp at he
      | some r =>
        obtain ⟨s1, e1⟩ := r
        rw [h1] at he
        simp only at he
        cases h2 : exec cfg s1 acts with
        | none => rw [h2] at he; simp at he
        | some r2 =>
          obtain ⟨s2, e2⟩ := r2
          rw [h2] at he
          simp only [Option.some.injEq, Prod.mk.injEq] at he
          obtain ⟨rfl, rfl⟩ := he
          have := ih s1 s2 (tr0 ++ e1) e2 (fun x hx => hok x (by simp [hx])) (hs _ _ _ _ a (hok a (by simp)) hp h1) h2
          rwa [List.append_assoc] at this
  have := key acts Sys.init s [] tr hok h0 h
  simpa using this

theorem exec_snoc {cfg : RCfg} {a : Act} {s1 : Sys} {e1 : List Ev} : ∀ {acts : List Act} {s0 s : Sys} {tr : List Ev},
    exec cfg s0 acts = some (s, tr) → step cfg s a = some (s1, e1) → exec cfg s0 (acts ++ [a]) = some (s1, tr ++ e1) := by
  intro acts
  induction acts with
  | nil =>
    intro s0 s tr he hs
    simp only [exec, Option.some.injEq, Prod.mk.injEq] at he
    obtain ⟨rfl, rfl⟩ := he
    simp [exec, hs]
  | cons b acts ih =>
    intro s0 s tr he hs
    simp only [exec, List.cons_append] at he ⊢
    cases h1 : step cfg s0 b with
    | none => rw [h1] at he; simp at he
    | some r =>
      obtain ⟨s', e'⟩ := r
      rw [h1] at he
      simp only at he ⊢
      cases h2 : exec cfg s' acts with
      | none => rw [h2] at he; simp at he
      | some r2 =>
        obtain ⟨s2, e2⟩ := r2
        rw [h2] at he
        simp only [Option.some.injEq, Prod.mk.injEq] at he
        obtain ⟨rfl, rfl⟩ := he
        rw [ih h2 hs]
        simp

/-- The action an observation belongs to, and the execution before it. -/
theorem run_split {cfg : RCfg} {acts : List Act} {s : Sys} {tr : List Ev} (h : Runs cfg acts s tr)
    {t1 t2 : List Ev} {e : Ev} (he : tr = t1 ++ e :: t2) :
    ∃ (acts0 : List Act) (s0 : Sys) (tr0 : List Ev) (a : Act) (s1 : Sys) (x y : List Ev), Runs cfg acts0 s0 tr0 ∧
      step cfg s0 a = some (s1, x ++ e :: y) ∧ t1 = tr0 ++ x := by
  have := exec_induct_acts (cfg := cfg) (ok := fun _ => True)
    (P := fun tr s => (∃ acts, Runs cfg acts s tr) ∧ ∀ t1 e t2, tr = t1 ++ e :: t2 →
      ∃ (acts0 : List Act) (s0 : Sys) (tr0 : List Ev) (a : Act) (s1 : Sys) (x y : List Ev), Runs cfg acts0 s0 tr0 ∧
        step cfg s0 a = some (s1, x ++ e :: y) ∧ t1 = tr0 ++ x) ⟨⟨[], rfl⟩, by simp⟩ ?_ h (fun _ _ => trivial)
  · exact this.2 _ _ _ he
  intro tr s s' evs a _ ⟨⟨acts, hr⟩, hi⟩ hs
  refine ⟨⟨acts ++ [a], exec_snoc hr hs⟩, ?_⟩
  intro t1 e t2 heq
  rcases split_append heq with ⟨t, h1, _⟩ | ⟨t, h1, h2⟩
  · exact hi _ _ _ h1
  · subst h2
    exact ⟨acts, s, tr, a, s', t, t2, hr, hs, h1⟩

end SIO
