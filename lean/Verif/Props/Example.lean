import Verif.Lemmas.Example
import Verif.Props.ClientEmit
import Verif.Props.ClientSend
import Verif.Props.ClientAck
/-
C68: the example programs.
-/
namespace SIO
open SIO.Spec

/-! ### The event and the reply of socketio_test.rs -/

/-- The builder of the event after `n` arguments. -/
def exB (n : Nat) : Builder :=
  match Builder.newEvent "event".toList ['/'] (some 0) true with
  | .ok b => adds b ([SVal.seq [.u8 0xde, .u8 0xad, .u8 0xbe, .u8 0xef], .str "hello".toList].take n)
  | _ => Builder.newAck [] 0 false

theorem exB_new : Builder.newEvent "event".toList ['/'] (some 0) true = .ok (exB 0) := by decide +kernel
theorem exB_first : (exB 0).serializeArg (.seq [.u8 0xde, .u8 0xad, .u8 0xbe, .u8 0xef]) = (exB 1, .ok ()) := by decide +kernel
theorem exB_second : (exB 1).serializeArg (.str "hello".toList) = (exB 2, .ok ()) := by decide +kernel
theorem exB_finish : (exB 2).finish = .ok theEvent := by decide +kernel

theorem exReply (ns : Str) (id : Nat) : (adds (Builder.newAck ns id false) [.str "message received".toList]).finish =
    .ok [.text ("43".toList ++ (if ns = ['/'] then [] else ns ++ [',']) ++ natDec id ++
      "[\"message received\"]".toList)] := by
  have hser : serJ (SVal.str ['m', 'e', 's', 's', 'a', 'g', 'e', ' ', 'r', 'e', 'c', 'e', 'i', 'v', 'e', 'd']) =
      ("\"message received\"".toList, true) := by decide +kernel
  by_cases hns : ns = ['/']
  · subst hns
    simp [adds, Builder.newAck, Builder.new, Builder.serializeArg, Builder.finish, hser, serializeHeader, packageMessage, Res.map]
    rfl
  · simp [adds, Builder.newAck, Builder.new, Builder.serializeArg, Builder.finish, hser, serializeHeader, packageMessage,
      Res.map, hns]
    rfl

theorem test_inv {cfg : RCfg} {acts : List PAct} {t : PSys} {tr : List PEv} (h : PRuns cfg socketioTest acts t tr) :
    ProgInv cfg socketioTest t tr := by
  refine pinv_prog (List.all_eq_true.1 (show socketioTest.main.all MOp.ofMain = true from rfl)) ?_ h
  intro cb vs hv x
  simp only [socketioTest] at hv
  split at hv <;> simp only [Option.some.injEq, reduceCtorEq] at hv
  subst hv
  exact ⟨_, exReply x.ns x.id⟩

theorem ws_inv {cfg : RCfg} {ns : Option Str} {acts : List PAct} {t : PSys} {tr : List PEv}
    (h : PRuns cfg (wsConnect ns) acts t tr) : ProgInv cfg (wsConnect ns) t tr := by
  refine pinv_prog (by cases ns <;> simp [wsConnect, MOp.ofMain, Act.ofMain]) ?_ h
  intro cb vs hv x
  simp [wsConnect] at hv

/-! ### How far the main function is -/

/-- The calls of the registry by a program. -/
def regCalls (tr : List Ev) : List RegOp :=
  tr.filterMap fun
    | .regOp op => some op
    | _ => none

/-- The ack callbacks it registered. -/
def ackCalls (tr : List Ev) : List (Str × Nat × Cb) :=
  tr.filterMap fun
    | .registered ns id cb => some (ns, id, cb)
    | _ => none

/-- A call panicked. -/
def anyPanic (tr : List Ev) : Bool :=
  tr.any fun
    | .userPanic => true
    | _ => false

/-- Observations of which the main function is not the cause. -/
def Foreign (evs : List Ev) : Prop :=
  regCalls evs = [] ∧ emitted evs = [] ∧ rawSent evs = [] ∧ anyPanic evs = false ∧ ackCalls evs = []

theorem regCalls_append (a b : List Ev) : regCalls (a ++ b) = regCalls a ++ regCalls b := List.filterMap_append
theorem ackCalls_append (a b : List Ev) : ackCalls (a ++ b) = ackCalls a ++ ackCalls b := List.filterMap_append
theorem anyPanic_append (a b : List Ev) : anyPanic (a ++ b) = (anyPanic a || anyPanic b) := List.any_append

theorem foreign_append {a b : List Ev} (ha : Foreign a) (hb : Foreign b) : Foreign (a ++ b) := by
  obtain ⟨a1, a2, a3, a4, a5⟩ := ha
  obtain ⟨b1, b2, b3, b4, b5⟩ := hb
  exact ⟨by rw [regCalls_append, a1, b1]; rfl, by rw [emitted_append, a2, b2]; rfl, by rw [rawSent_append, a3, b3]; rfl,
    by rw [anyPanic_append, a4, b4]; rfl,
    by rw [ackCalls_append, a5, b5]; rfl⟩

theorem foreign_quiet {evs : List Ev} (h : Quiet evs) : Foreign evs := by
  induction evs with
  | nil => exact ⟨rfl, rfl, rfl, rfl, rfl⟩
  | cons e es ih =>
    refine foreign_append (a := [e]) ?_ (ih fun x hx => h x (List.mem_cons_of_mem _ hx))
    have h1 := h e (List.mem_cons_self ..)
    cases e with
    | enqueued src g => cases src <;> first | exact ⟨rfl, rfl, rfl, rfl, rfl⟩ | cases h1
    | sendFailed src g => cases src <;> first | exact ⟨rfl, rfl, rfl, rfl, rfl⟩ | cases h1
    | sentElsewhere src g => cases h1
    | regOp op => cases h1
    | registered ns id cb => cases h1
    | userPanic => cases h1
    | _ => exact ⟨rfl, rfl, rfl, rfl, rfl⟩

/-- What the main function sees of a step it does not make itself. -/
theorem other_step {cfg : RCfg} {p : AppProg} {t t' : PSys} {tr evs : List PEv} (hi : ProgInv cfg p t tr)
    (ht : PTrans cfg p t t' evs) :
    (∃ op rest s' ab, t.todo = op :: rest ∧ t.sys.client = true ∧ (op.locks = true → t.callback = []) ∧
      runOp cfg true t.sys op = some (s', evs, ab) ∧ t' = ⟨s', if ab then [.call .dropClient] else rest, t.callback⟩) ∨
    (t'.todo = t.todo ∧ t'.sys.emit = t.sys.emit ∧ t'.sys.nextId = t.sys.nextId ∧ t'.sys.allocs = t.sys.allocs ∧
      (t.sys.poisoned = true → t'.sys.poisoned = true) ∧ (t.sys.client = true → t'.sys.client = true) ∧
      (t'.sys.closeCall = true → t.sys.closeCall = true) ∧
      (∀ sid, t.sys.phase = .connected sid → t'.sys.phase = .connected sid ∧ t'.sys.client = t.sys.client) ∧
      Foreign (shown evs) ∧ output true evs = []) := by
  cases ht with
  | main op rest s' _ ab h1 h2 h3 hr => exact Or.inl ⟨op, rest, s', ab, h1, h2, h3, hr, rfl⟩
  | callback op rest s' _ ab h1 hr =>
    right
    obtain ⟨ls, gs, hrest, -, -⟩ := hi.rest
    rw [h1] at hrest
    generalize t.sys.handles = hs at hrest
    cases hrest with
    | print l _ =>
      simp only [runOp, Option.some.injEq, Prod.mk.injEq] at hr
      obtain ⟨rfl, rfl, rfl⟩ := hr
      exact ⟨rfl, rfl, rfl, rfl, id, id, id, fun _ h => ⟨h, rfl⟩, ⟨rfl, rfl, rfl, rfl, rfl⟩, rfl⟩
    | drop x =>
      obtain ⟨es, hs, rfl, rfl⟩ := runOp_call hr
      simp only [step] at hs
      split at hs
      · simp only [Option.some.injEq, Prod.mk.injEq] at hs
        obtain ⟨rfl, rfl⟩ := hs
        exact ⟨rfl, rfl, rfl, rfl, id, id, id, fun _ h => ⟨h, rfl⟩, ⟨rfl, rfl, rfl, rfl, rfl⟩, rfl⟩
      · simp at hs
    | reply x vs g hg =>
      obtain ⟨es, hs, rfl, rfl⟩ := runOp_call hr
      simp only [adds] at hg
      simp only [step, hg, Sys.enqueue] at hs
      split at hs
      · split at hs
        · simp only [Option.some.injEq, Prod.mk.injEq] at hs
          obtain ⟨rfl, rfl⟩ := hs
          exact ⟨rfl, rfl, rfl, rfl, id, id, id, fun _ h => ⟨h, rfl⟩, ⟨rfl, rfl, rfl, rfl, rfl⟩, rfl⟩
        · simp only [Option.some.injEq, Prod.mk.injEq] at hs
          obtain ⟨rfl, rfl⟩ := hs
          exact ⟨rfl, rfl, rfl, rfl, id, id, id, fun _ h => ⟨h, rfl⟩, ⟨rfl, rfl, rfl, rfl, rfl⟩, rfl⟩
      · simp at hs
  | quiet a s' es k h2 h3 h4 hs =>
    exact Or.inr ⟨rfl, k.emit, k.nextId, k.allocs, fun h => by rw [h3]; exact h, k.client, k.closeCall, k.phase,
      by rw [shown_ev]; exact foreign_quiet h4, output_ev _ _⟩
  | called w b s' e rest ops k h2 hs h3 h4 h5 h6 h7 =>
    refine Or.inr ⟨rfl, k.emit, k.nextId, k.allocs, fun h => by simp [h6, h], k.client, k.closeCall, k.phase, ?_, output_ev _ _⟩
    rw [shown_ev]
    exact foreign_append (a := [.received w, .eff e]) ⟨rfl, rfl, rfl, rfl, rfl⟩ (foreign_quiet h4)

/-- The two registrations of socketio_test.rs. -/
def testRegs : List RegOp := [.setFallback ['/'] 0, .setEvent ['/'] "types".toList 1]

def testLine : List Str := ["Callbacks registered".toList]

/-- How far the main function of socketio_test.rs is: what is left, the builder, the number of ids given out, the
registrations, the lines and the messages so far, whether it panicked, and the ack callbacks registered. -/
inductive TestAt : List MOp → Option Emit → Nat → List RegOp → List Str → List (List Ws) → Bool → List (Str × Nat × Cb) →
    Prop where
  | a0 : TestAt (socketioTest.main.drop 0) none 0 [] [] [] false []
  | a1 : TestAt (socketioTest.main.drop 1) none 0 (testRegs.take 1) [] [] false []
  | a2 : TestAt (socketioTest.main.drop 2) none 0 testRegs [] [] false []
  | a3 : TestAt (socketioTest.main.drop 3) none 0 testRegs testLine [] false []
  | a4 : TestAt (socketioTest.main.drop 4) (some (.building ['/'] "event".toList false none)) 0 testRegs testLine [] false []
  | a5 : TestAt (socketioTest.main.drop 5) (some (.building ['/'] "event".toList true none)) 0 testRegs testLine [] false []
  | a6 : TestAt (socketioTest.main.drop 6) (some (.building ['/'] "event".toList true (some (0, 0)))) 1 testRegs testLine [] false []
  | a7 : TestAt (socketioTest.main.drop 7) (some (.args ['/'] (some (0, 0)) (exB 0))) 1 testRegs testLine [] false []
  | a8 : TestAt (socketioTest.main.drop 8) (some (.args ['/'] (some (0, 0)) (exB 1))) 1 testRegs testLine [] false []
  | a9 : TestAt (socketioTest.main.drop 9) (some (.args ['/'] (some (0, 0)) (exB 2))) 1 testRegs testLine [] false []
  | a10 : TestAt (socketioTest.main.drop 10) (some (.sending ['/'] (some (0, 0)) theEvent)) 1 testRegs testLine [] false [(['/'], 0, 0)]
  | a11 : TestAt (socketioTest.main.drop 11) none 1 testRegs testLine [theEvent] false [(['/'], 0, 0)]
  | a12 : TestAt (socketioTest.main.drop 12) none 1 testRegs testLine [theEvent] false [(['/'], 0, 0)]
  | a13 : TestAt (socketioTest.main.drop 13) none 1 testRegs testLine [theEvent] false [(['/'], 0, 0)]
  | a14 : TestAt [] none 1 testRegs testLine [theEvent] false [(['/'], 0, 0)]
  | aborted (n : Nat) (ops : List RegOp) (ls : List Str) : ops <+: testRegs → ls <+: testLine →
      TestAt [.call .dropClient] none n ops ls [] true []
  | ended (n : Nat) (ops : List RegOp) (ls : List Str) : ops <+: testRegs → ls <+: testLine → TestAt [] none n ops ls [] true []

structure TestInv (t : PSys) (tr : List PEv) : Prop where
  at' : TestAt t.todo t.sys.emit t.sys.nextId (regCalls (shown tr)) (output true tr) (emitted (shown tr)) (anyPanic (shown tr))
    (ackCalls (shown tr))
  allocs : t.sys.allocs = t.sys.nextId
  raw : rawSent (shown tr) = []
  panic : anyPanic (shown tr) = true → t.sys.poisoned = true
  closing : t.sys.closeCall = true → t.todo = [.call .dropClient]
  gone : t.todo = [] → t.sys.client = false ∧ ∃ sid, t.sys.phase = .connected sid

theorem test_at {cfg : RCfg} {acts : List PAct} {t : PSys} {tr : List PEv} (h : PRuns cfg socketioTest acts t tr) :
    TestInv t tr := by
  refine prun_induct (p := socketioTest) (P := fun tr t => TestInv t tr) ⟨.a0, rfl, rfl, by simp [shown, anyPanic],
    fun h => (by cases h), fun h => (by cases h)⟩ ?_ h
  rintro acts t tr t' evs hrun ih ht
  have hinv := test_inv hrun
  rcases other_step hinv ht with ⟨op, rest, s', ab, h1, h2, h3, hr, rfl⟩ | ⟨h1, h2, h3, h4, h5, -, h8, h9, ⟨f1, f2, f3, f4, f5⟩, h7⟩
  · have hat := ih.at'
    have hal := ih.allocs
    have hraw := ih.raw
    have hpan := ih.panic
    have hown : t.sys.ownSend = true := by rw [hinv.own, h2]
    have hcl := ih.closing
    obtain ⟨as, hruns⟩ := prun_exec hrun
    obtain ⟨sid, hph⟩ := (pinv hruns).client h2
    clear hruns
    generalize hak : ackCalls (shown tr) = ak at hat
    generalize hrc : regCalls (shown tr) = rc at hat
    generalize hou : output true tr = ou at hat
    generalize hem : emitted (shown tr) = em at hat
    generalize hpn : anyPanic (shown tr) = pn at hat hpan
    generalize htd : t.todo = td at hat h1
    generalize hemit : t.sys.emit = emit at hat
    generalize hnext : t.sys.nextId = next at hat hal
    have fin : ∀ {x s' : Sys} {y es : List Ev}, some (x, y) = some (s', es) → x = s' ∧ y = es := by
      intro x s' y es h
      exact ⟨congrArg Prod.fst (Option.some.inj h), congrArg Prod.snd (Option.some.inj h)⟩
    have mk : ∀ {s' : Sys} {es : List Ev} {todo' : List MOp} {e' : Option Emit} {n' : Nat},
        TestAt todo' e' n' (rc ++ regCalls es) ou (em ++ emitted es) (pn || anyPanic es) (ak ++ ackCalls es) → s'.emit = e' →
        s'.nextId = n' → s'.allocs = n' → rawSent es = [] → ((pn || anyPanic es) = true → s'.poisoned = true) →
        (s'.closeCall = true → todo' = [.call .dropClient]) →
        (todo' = [] → s'.client = false ∧ s'.phase = t.sys.phase) →
        TestInv ⟨s', todo', t.callback⟩ (tr ++ es.map .ev) := by
      intro s' es todo' e' n' g1 g2 g3 g4 g5 g6 g7 g8
      refine ⟨?_, by rw [g4, g3], by rw [shown_append, shown_ev, rawSent_append, hraw, g5]; rfl, ?_, g7,
        fun h => ⟨(g8 h).1, sid, by rw [(g8 h).2, hph]⟩⟩
      · rw [shown_append, shown_ev, regCalls_append, emitted_append, anyPanic_append, output_append, output_ev, hrc, hou, hem, hpn,
          List.append_nil, g2, g3, ackCalls_append, hak]
        exact g1
      · rw [shown_append, shown_ev, anyPanic_append, hpn]
        exact g6
    clear hinv ih hrun ht
    cases hat with
    | a0 =>
      obtain ⟨rfl, rfl⟩ := List.cons.inj (show MOp.call (.reg (.setFallback ['/'] 0)) :: socketioTest.main.drop 1 = op :: rest from h1)
      obtain ⟨es, hs, rfl, rfl⟩ := runOp_call hr
      simp only [step, h2, RegOp.public, and_self, if_true] at hs
      split at hs
      · obtain ⟨rfl, rfl⟩ := fin hs
        exact mk (.aborted 0 [] [] (by decide) (by decide)) hemit hnext hal rfl (fun _ => ‹_›) (fun h => absurd (congrArg List.length (htd.symm.trans (hcl h))) (by decide)) (fun h => by cases h)
      · obtain ⟨rfl, rfl⟩ := fin hs
        exact mk .a1 hemit hnext hal rfl (by simp [anyPanic]) (fun h => absurd (congrArg List.length (htd.symm.trans (hcl h))) (by decide)) (fun h => by cases h)
    | a1 =>
      obtain ⟨rfl, rfl⟩ := List.cons.inj (show MOp.call (.reg (.setEvent ['/'] "types".toList 1)) :: socketioTest.main.drop 2 = op :: rest from h1)
      obtain ⟨es, hs, rfl, rfl⟩ := runOp_call hr
      simp only [step, h2, RegOp.public, and_self, if_true] at hs
      split at hs
      · obtain ⟨rfl, rfl⟩ := fin hs
        exact mk (.aborted 0 (testRegs.take 1) [] (by decide) (by decide)) hemit hnext hal rfl (fun _ => ‹_›) (fun h => absurd (congrArg List.length (htd.symm.trans (hcl h))) (by decide)) (fun h => by cases h)
      · obtain ⟨rfl, rfl⟩ := fin hs
        exact mk .a2 hemit hnext hal rfl (by simp [anyPanic]) (fun h => absurd (congrArg List.length (htd.symm.trans (hcl h))) (by decide)) (fun h => by cases h)
    | a2 =>
      obtain ⟨rfl, rfl⟩ := List.cons.inj (show MOp.print "Callbacks registered".toList :: socketioTest.main.drop 3 = op :: rest from h1)
      simp only [runOp, Option.some.injEq, Prod.mk.injEq] at hr
      obtain ⟨rfl, rfl, rfl⟩ := hr
      refine ⟨?_, by rw [hal, hnext], by simpa [shown] using hraw, ?_, fun h => absurd (congrArg List.length (htd.symm.trans (hcl h))) (by decide),
        fun h => by cases h⟩
      · simp only [shown_append, output_append]
        simp only [shown, output, List.filterMap_cons, List.filterMap_nil, if_true, List.append_nil] at hrc hou hem hpn hak ⊢
        rw [hrc, hou, hem, hpn, hak, hemit, hnext]
        exact .a3
      · simp only [shown_append]
        simp only [shown, List.filterMap_cons, List.filterMap_nil, List.append_nil] at hpn ⊢
        rw [hpn]
        simp
    | a3 =>
      obtain ⟨rfl, rfl⟩ := List.cons.inj (show MOp.call (.emitStart ['/'] "event".toList) :: socketioTest.main.drop 4 = op :: rest from h1)
      obtain ⟨es, hs, rfl, rfl⟩ := runOp_call hr
      simp only [step, hemit, h2, and_self, if_true] at hs
      obtain ⟨rfl, rfl⟩ := fin hs
      exact mk .a4 rfl hnext hal rfl (by simp [anyPanic]) (fun h => absurd (congrArg List.length (htd.symm.trans (hcl h))) (by decide)) (fun h => by cases h)
    | a4 =>
      obtain ⟨rfl, rfl⟩ := List.cons.inj (show MOp.call (.emitBinary true) :: socketioTest.main.drop 5 = op :: rest from h1)
      obtain ⟨es, hs, rfl, rfl⟩ := runOp_call hr
      simp only [step, hemit, ] at hs
      obtain ⟨rfl, rfl⟩ := fin hs
      exact mk .a5 rfl hnext hal rfl (by simp [anyPanic]) (fun h => absurd (congrArg List.length (htd.symm.trans (hcl h))) (by decide)) (fun h => by cases h)
    | a5 =>
      obtain ⟨rfl, rfl⟩ := List.cons.inj (show MOp.call .emitCallback :: socketioTest.main.drop 6 = op :: rest from h1)
      obtain ⟨es, hs, rfl, rfl⟩ := runOp_call hr
      simp only [step, hemit, ] at hs
      obtain ⟨rfl, rfl⟩ := fin hs
      exact mk .a6 (by simp [hal, hnext]) (by simp [hnext, u64Bound]) (by simp [hal]) rfl (by simp [anyPanic]) (fun h => absurd (congrArg List.length (htd.symm.trans (hcl h))) (by decide)) (fun h => by cases h)
    | a6 =>
      obtain ⟨rfl, rfl⟩ := List.cons.inj (show MOp.call .emitArgs :: socketioTest.main.drop 7 = op :: rest from h1)
      obtain ⟨es, hs, rfl, rfl⟩ := runOp_call hr
      simp only [step, hemit, Option.map, exB_new] at hs
      obtain ⟨rfl, rfl⟩ := fin hs
      exact mk .a7 rfl hnext hal rfl (by simp [anyPanic]) (fun h => absurd (congrArg List.length (htd.symm.trans (hcl h))) (by decide)) (fun h => by cases h)
    | a7 =>
      obtain ⟨rfl, rfl⟩ := List.cons.inj (show MOp.call (.emitArg (.seq [.u8 0xde, .u8 0xad, .u8 0xbe, .u8 0xef])) :: socketioTest.main.drop 8 = op :: rest from h1)
      obtain ⟨es, hs, rfl, rfl⟩ := runOp_call hr
      simp only [step, hemit, exB_first] at hs
      obtain ⟨rfl, rfl⟩ := fin hs
      exact mk .a8 rfl hnext hal rfl (by simp [anyPanic]) (fun h => absurd (congrArg List.length (htd.symm.trans (hcl h))) (by decide)) (fun h => by cases h)
    | a8 =>
      obtain ⟨rfl, rfl⟩ := List.cons.inj (show MOp.call (.emitArg (.str "hello".toList)) :: socketioTest.main.drop 9 = op :: rest from h1)
      obtain ⟨es, hs, rfl, rfl⟩ := runOp_call hr
      simp only [step, hemit, exB_second] at hs
      obtain ⟨rfl, rfl⟩ := fin hs
      exact mk .a9 rfl hnext hal rfl (by simp [anyPanic]) (fun h => absurd (congrArg List.length (htd.symm.trans (hcl h))) (by decide)) (fun h => by cases h)
    | a9 =>
      obtain ⟨rfl, rfl⟩ := List.cons.inj (show MOp.call .emitSend :: socketioTest.main.drop 10 = op :: rest from h1)
      obtain ⟨es, hs, rfl, rfl⟩ := runOp_call hr
      simp only [step, hemit, exB_finish] at hs
      split at hs
      · obtain ⟨rfl, rfl⟩ := fin hs
        exact mk (.aborted 1 testRegs testLine (by decide) (by decide)) rfl hnext hal rfl (fun _ => ‹_›) (fun h => absurd (congrArg List.length (htd.symm.trans (hcl h))) (by decide)) (fun h => by cases h)
      · obtain ⟨rfl, rfl⟩ := fin hs
        exact mk .a10 rfl hnext hal rfl (by simp [anyPanic]) (fun h => absurd (congrArg List.length (htd.symm.trans (hcl h))) (by decide)) (fun h => by cases h)
    | a10 =>
      obtain ⟨rfl, rfl⟩ := List.cons.inj (show MOp.call .emitEnqueue :: socketioTest.main.drop 11 = op :: rest from h1)
      obtain ⟨es, hs, rfl, rfl⟩ := runOp_call hr
      simp only [step, hemit, hown, if_true, Sys.enqueue] at hs
      split at hs
      · obtain ⟨rfl, rfl⟩ := fin hs
        exact mk .a11 rfl hnext hal rfl (by simp [anyPanic]) (fun h => absurd (congrArg List.length (htd.symm.trans (hcl h))) (by decide)) (fun h => by cases h)
      · obtain ⟨rfl, rfl⟩ := fin hs
        exact mk .a11 rfl hnext hal rfl (by simp [anyPanic]) (fun h => absurd (congrArg List.length (htd.symm.trans (hcl h))) (by decide)) (fun h => by cases h)
    | a11 =>
      obtain ⟨rfl, rfl⟩ := List.cons.inj (show MOp.wait :: socketioTest.main.drop 12 = op :: rest from h1)
      simp only [runOp, Option.some.injEq, Prod.mk.injEq] at hr
      obtain ⟨rfl, rfl, rfl⟩ := hr
      exact mk (es := []) .a12 hemit hnext hal rfl (by simp [anyPanic]) (fun h => absurd (congrArg List.length (htd.symm.trans (hcl h))) (by decide)) (fun h => by cases h)
    | a12 =>
      obtain ⟨rfl, rfl⟩ := List.cons.inj (show MOp.call .closeStart :: socketioTest.main.drop 13 = op :: rest from h1)
      obtain ⟨es, hs, rfl, rfl⟩ := runOp_call hr
      simp only [step] at hs
      split at hs
      · split at hs
        · obtain ⟨rfl, rfl⟩ := fin hs
          exact mk .a13 hemit hnext hal rfl (by simp [anyPanic]) (fun _ => rfl) (fun h => by cases h)
        · obtain ⟨rfl, rfl⟩ := fin hs
          exact mk .a13 hemit hnext hal rfl (by simp [anyPanic]) (fun _ => rfl) (fun h => by cases h)
      · simp at hs
    | a13 =>
      obtain ⟨rfl, rfl⟩ := List.cons.inj (show MOp.call .dropClient :: [] = op :: rest from h1)
      obtain ⟨es, hs, rfl, rfl⟩ := runOp_call hr
      simp only [step] at hs
      split at hs
      · obtain ⟨rfl, rfl⟩ := fin hs
        exact mk .a14 hemit hnext hal rfl (by simp [anyPanic]) (fun h => absurd h (by simp_all)) (fun _ => ⟨rfl, rfl⟩)
      · simp at hs
    | a14 => simp at h1
    | aborted n ops ls hp hl =>
      obtain ⟨rfl, rfl⟩ := List.cons.inj (show MOp.call .dropClient :: [] = op :: rest from h1)
      obtain ⟨es, hs, rfl, rfl⟩ := runOp_call hr
      simp only [step] at hs
      split at hs
      · obtain ⟨rfl, rfl⟩ := fin hs
        exact mk (.ended _ _ _ (by simpa [regCalls] using hp) hl) hemit hnext hal rfl (fun _ => hpan rfl) (fun h => absurd h (by simp_all)) (fun _ => ⟨rfl, rfl⟩)
      · simp at hs
    | ended n ops ls hp hl => simp at h1
  · refine ⟨?_, by rw [h3, h4, ih.allocs], by rw [shown_append, rawSent_append, ih.raw, f3]; rfl, ?_, ?_, ?_⟩
    · rw [h1, h2, h3, shown_append, regCalls_append, emitted_append, anyPanic_append, output_append, ackCalls_append, f1, f2, f4, f5, h7]
      simpa using ih.at'
    · rw [shown_append, anyPanic_append, f4, Bool.or_false]
      exact fun h => h5 (ih.panic h)
    · intro h
      rw [h1]
      exact ih.closing (h8 h)
    · intro h
      rw [h1] at h
      obtain ⟨k1, sid, k2⟩ := ih.gone h
      obtain ⟨k3, k4⟩ := h9 sid k2
      exact ⟨by rw [k4, k1], sid, k3⟩

theorem flatMap_congr' {α β : Type} {f g : α → List β} {l : List α} (h : ∀ e ∈ l, f e = g e) : l.flatMap f = l.flatMap g := by
  induction l with
  | nil => rfl
  | cons a l ih =>
    rw [List.flatMap_cons, List.flatMap_cons, h a (List.mem_cons_self ..), ih fun e he => h e (List.mem_cons_of_mem _ he)]

theorem flatMap_toList {α β : Type} {f : α → List β} {g : α → Option β} {l : List α} (h : ∀ e ∈ l, f e = (g e).toList) :
    l.flatMap f = l.filterMap g := by
  induction l with
  | nil => rfl
  | cons a l ih =>
    rw [List.flatMap_cons, List.filterMap_cons, h a (List.mem_cons_self ..), ih fun e he => h e (List.mem_cons_of_mem _ he)]
    cases g a <;> rfl

theorem at_facts {td : List MOp} {e : Option Emit} {n : Nat} {rc : List RegOp} {ou : List Str} {em : List (List Ws)} {pn : Bool}
    {ak : List (Str × Nat × Cb)} (h : TestAt td e n rc ou em pn ak) :
    (em = [] ∨ em = [theEvent]) ∧ rc <+: testRegs ∧ ou <+: testLine ∧ ak <+: [(['/'], 0, 0)] ∧
    (pn = false → (em = [theEvent] ↔ td.length ≤ 3)) ∧ (pn = true → em = [] ∧ td.length ≤ 1) ∧
    (em ≠ [] → rc = testRegs ∧ ou = testLine ∧ ak = [(['/'], 0, 0)]) := by
  cases h with
  | aborted =>
    rename_i h1 h2
    exact ⟨Or.inl rfl, h1, h2, List.nil_prefix, fun h => (by cases h), fun _ => ⟨rfl, by simp⟩, fun h => absurd rfl h⟩
  | ended =>
    rename_i h1 h2
    exact ⟨Or.inl rfl, h1, h2, List.nil_prefix, fun h => (by cases h), fun _ => ⟨rfl, by simp⟩, fun h => absurd rfl h⟩
  | _ =>
    refine ⟨by first | exact Or.inl rfl | exact Or.inr rfl, by decide, by decide, by decide, fun _ => ?_, fun h => (by cases h),
      fun h => by first | exact ⟨rfl, rfl, rfl⟩ | exact absurd rfl h⟩
    exact ⟨fun h => by first | (cases h; done) | decide, fun h => by first | rfl | (revert h; decide)⟩

theorem regCalls_history (tr : List Ev) (h : ∀ op, .regOp op ∈ tr → op.public = true) : regCalls tr = (history tr).filter RegOp.public := by
  induction tr with
  | nil => rfl
  | cons e es ih =>
    rw [show e :: es = [e] ++ es from rfl, regCalls_append, ih fun op ho => h op (by simp [ho])]
    have : history ([e] ++ es) = history [e] ++ history es := List.filterMap_append
    rw [this, List.filter_append]
    congr 1
    cases e with
    | eff x => cases x <;> rfl
    | regOp op =>
      have := h op (by simp)
      simp [regCalls, history, this]
    | _ => rfl

/-! ### socketio_test.rs -/

/-- C68: what the client does under a program is an execution of the client, so all that holds of these holds. -/
theorem C68_project (cfg : RCfg) (p : AppProg) (acts : List PAct) (t : PSys) (tr : List PEv) (h : PRuns cfg p acts t tr) :
    ∃ as, Runs cfg as t.sys (shown tr) := prun_exec h

theorem anyPanic_iff (tr : List Ev) : anyPanic tr = true ↔ .userPanic ∈ tr := by
  rw [anyPanic, List.any_eq_true]
  constructor
  · rintro ⟨e, he, h⟩
    cases e <;> simp_all
  · exact fun h => ⟨_, h, rfl⟩

/-- C68, socketio_test.rs: whatever the server does, the program sends its event at most once, and exactly these messages;
it did so when it waits, closes or has ended, unless it panicked before, and then it does nothing more.  Its callbacks are
registered before. -/
theorem C68_event (cfg : RCfg) (acts : List PAct) (t : PSys) (tr : List PEv) (h : PRuns cfg socketioTest acts t tr) :
    rawSent (shown tr) = [] ∧ (emitted (shown tr) = [] ∨ emitted (shown tr) = [theEvent]) ∧
    (.userPanic ∉ shown tr → (emitted (shown tr) = [theEvent] ↔ t.todo.length ≤ 3)) ∧
    (.userPanic ∈ shown tr → emitted (shown tr) = [] ∧ t.todo.length ≤ 1) ∧
    (emitted (shown tr) ≠ [] → output true tr = ["Callbacks registered".toList] ∧ .regOp (.setFallback ['/'] 0) ∈ shown tr ∧
      .regOp (.setEvent ['/'] "types".toList 1) ∈ shown tr ∧ .registered ['/'] 0 0 ∈ shown tr) := by
  have hi := test_at h
  obtain ⟨k1, -, -, -, k2, k3, k4⟩ := at_facts hi.at'
  refine ⟨hi.raw, k1, fun hn => k2 ?_, fun hp => k3 ((anyPanic_iff _).2 hp), fun hm => ?_⟩
  · cases hx : anyPanic (shown tr) with
    | false => rfl
    | true => exact absurd ((anyPanic_iff _).1 hx) hn
  · obtain ⟨g1, g2, g3⟩ := k4 hm
    have hreg : ∀ op ∈ regCalls (shown tr), Ev.regOp op ∈ shown tr := by
      intro op hop
      obtain ⟨e, h1, h2⟩ := List.mem_filterMap.1 hop
      cases e <;> simp at h2
      subst h2
      exact h1
    refine ⟨g2, hreg _ (by rw [g1]; simp [testRegs]), hreg _ (by rw [g1]; simp [testRegs]), ?_⟩
    have : ((['/'], 0, 0) : Str × Nat × Cb) ∈ ackCalls (shown tr) := by rw [g3]; simp
    obtain ⟨e, h1, h2⟩ := List.mem_filterMap.1 this
    cases e <;> simp at h2
    obtain ⟨rfl, rfl, rfl⟩ := h2
    exact h1

/-- C68, socketio_test.rs: an event goes to the callback for "types" exactly if that is its name and this callback is
already registered, and otherwise to the fallback; all are events of the namespace "/". -/
theorem C68_callbacks (cfg : RCfg) (acts : List PAct) (t : PSys) (tr : List PEv) (h : PRuns cfg socketioTest acts t tr)
    (t1 t2 : List Ev) (ns name : Str) (cb : Cb) (A : Args) (ack : Option AckHandle)
    (he : shown tr = t1 ++ .eff (.event ns name cb A ack) :: t2) :
    ns = ['/'] ∧ (∀ x, ack = some x → x.ns = ['/']) ∧ .regOp (.setFallback ['/'] 0) ∈ t1 ∧
    (cb = 1 ∧ name = "types".toList ∧ .regOp (.setEvent ['/'] "types".toList 1) ∈ t1 ∨
      cb = 0 ∧ ¬ (name = "types".toList ∧ .regOp (.setEvent ['/'] "types".toList 1) ∈ t1)) := by
  obtain ⟨as, hruns⟩ := prun_exec h
  have hin := C26_dispatch cfg as _ _ hruns t1 t2 ns name cb A ack he
  have hpre : regCalls t1 <+: testRegs := by
    refine List.IsPrefix.trans ?_ (at_facts (test_at h).at').2.1
    rw [he, regCalls_append]
    exact List.prefix_append _ _
  have hreg : ∀ op, Ev.regOp op ∈ t1 ↔ op ∈ regCalls t1 := by
    intro op
    simp only [regCalls, List.mem_filterMap]
    constructor
    · intro h
      exact ⟨_, h, rfl⟩
    · rintro ⟨e, h1, h2⟩
      cases e <;> simp at h2
      subst h2
      exact h1
  have hpub : ∀ op, Ev.regOp op ∈ t1 → op.public = true := by
    intro op hop
    have := hpre.subset ((hreg op).1 hop)
    simp only [testRegs, List.mem_cons, List.not_mem_nil, or_false] at this
    rcases this with rfl | rfl <;> rfl
  have hmem : ∀ op, op.public = true → (op ∈ history t1 ↔ op ∈ regCalls t1) := by
    intro op hop
    rw [regCalls_history t1 hpub, List.mem_filter]
    simp [hop]
  have hack : ∀ x, ack = some x → x.ns = ns := by
    obtain ⟨t0, w, l, reg, h1, h2, h3, h4, h5⟩ := eff_source hruns _ _ _ he _ rfl
    obtain ⟨_, p, _, _, _, _, _, _, _, _, _, _, _, _, h6, _⟩ := C43_event cfg l h3 reg w ns name cb A ack h5
    intro x hx
    rw [h6] at hx
    cases hi : p.id with
    | none => simp [hi] at hx
    | some i =>
      simp only [hi, Option.map_some, Option.some.injEq] at hx
      rw [← hx]
  have hform : regCalls t1 = [] ∨ regCalls t1 = testRegs.take 1 ∨ regCalls t1 = testRegs := by
    obtain ⟨s, hs⟩ := hpre
    generalize regCalls t1 = r at hs
    match r, hs with
    | [], _ => exact Or.inl rfl
    | [_], hs => right; left; simp [testRegs] at hs ⊢; exact hs.1
    | [_, _], hs => right; right; simp [testRegs] at hs ⊢; exact ⟨hs.1, hs.2.1⟩
    | _ :: _ :: _ :: _, hs => simp [testRegs] at hs
  cases hin with
  | event _ hl =>
    obtain ⟨pre, post, hh, -⟩ := hl
    have hm := (hmem (.setEvent ns name cb) rfl).1 (by rw [hh]; simp)
    rcases hform with hf | hf | hf <;> rw [hf] at hm <;> simp [testRegs] at hm
    obtain ⟨rfl, rfl, rfl⟩ := hm
    refine ⟨rfl, hack, ?_, Or.inl ⟨rfl, rfl, ?_⟩⟩
    · rw [hreg, hf]; simp [testRegs]
    · rw [hreg, hf]; simp [testRegs]
  | fallback _ hno hl =>
    obtain ⟨pre, post, hh, -⟩ := hl
    have hm := (hmem (.setFallback ns cb) rfl).1 (by rw [hh]; simp)
    have hm' : Ev.regOp (.setFallback ns cb) ∈ t1 := (hreg _).2 hm
    have hnc : ns = ['/'] ∧ cb = 0 := by
      rcases hform with hf | hf | hf <;> rw [hf] at hm <;> simp [testRegs] at hm ⊢ <;> exact hm
    obtain ⟨rfl, rfl⟩ := hnc
    refine ⟨rfl, hack, hm', Or.inr ⟨rfl, ?_⟩⟩
    rintro ⟨rfl, hev⟩
    rw [hreg, ← hmem _ rfl] at hev
    obtain ⟨pre, post, hh⟩ := List.append_of_mem hev
    refine hno 1 ⟨pre, post, hh, ?_⟩
    have hf : pre.filter RegOp.public ++ .setEvent ['/'] "types".toList 1 :: post.filter RegOp.public <+: testRegs := by
      have := regCalls_history t1 hpub
      rw [hh, List.filter_append, List.filter_cons_of_pos (by rfl)] at this
      rw [← this]
      exact hpre
    have hpost : post.filter RegOp.public = [] := by
      obtain ⟨s, hs⟩ := hf
      generalize pre.filter RegOp.public = x at hs
      generalize post.filter RegOp.public = y at hs
      match x, hs with
      | [], hs => simp [testRegs] at hs
      | [_], hs => simp [testRegs] at hs; exact hs.2.1
      | _ :: _ :: _, hs => simp [testRegs] at hs
    intro op hop
    have hn : op.public = false := by
      cases hb : op.public with
      | false => rfl
      | true =>
        have : op ∈ post.filter RegOp.public := List.mem_filter.2 ⟨hop, hb⟩
        rw [hpost] at this
        cases this
    cases op <;> simp [RegOp.public] at hn ⊢

/-- C68, socketio_test.rs: when no callback runs, the replies sent are exactly those owed: one for every call of the
callback for "types" with a reply handle (and printable arguments), with the id of the event. -/
theorem C68_answers (cfg : RCfg) (acts : List PAct) (t : PSys) (tr : List PEv) (h : PRuns cfg socketioTest acts t tr) :
    answered (shown tr) <+: owed cfg.ext.fin (shown tr) ∧
    (t.callback = [] → answered (shown tr) = owed cfg.ext.fin (shown tr)) := by
  obtain ⟨ls, gs, hr, ha, -⟩ := (test_inv h).rest
  have ho : (shown tr).flatMap (socketioTest.owes cfg.ext.fin) = owed cfg.ext.fin (shown tr) := by
    refine flatMap_toList fun e he => ?_
    cases e with
    | eff x =>
      cases x with
      | event ns name cb A ack =>
        cases ack with
        | none => rfl
        | some x =>
          obtain ⟨a, b, hab⟩ := List.append_of_mem he
          have hx := (C68_callbacks cfg acts t tr h a b _ _ _ _ _ hab).2.1 x rfl
          simp only [AppProg.owes, AppProg.reply, socketioTest]
          cases hd : A.display cfg.ext.fin with
          | ok v =>
            simp only
            by_cases hc : cb = 1
            · simp only [hc, if_true, exReply, hx, Option.toList, theReply, List.append_nil]
            · simp only [hc, if_false, Option.toList]
          | panic => rfl
          | err e => cases e
      | _ => rfl
    | _ => rfl
  rw [ho] at ha
  refine ⟨⟨gs, ha⟩, fun hc => ?_⟩
  rw [hc] at hr
  generalize t.sys.handles = hs at hr
  cases hr
  simpa using ha

/-- C68, socketio_test.rs: nothing else is written to the connection than pongs, the messages of the event, and replies. -/
theorem C68_written (cfg : RCfg) (acts : List PAct) (t : PSys) (tr : List PEv) (h : PRuns cfg socketioTest acts t tr)
    (w : Ws) (hw : w ∈ written (shown tr)) :
    w = .text ['3'] ∨ w ∈ theEvent ∨ ∃ x ∈ owed cfg.ext.fin (shown tr), w = theReply x.1.id := by
  obtain ⟨as, hruns⟩ := prun_exec h
  have hg : ∃ g ∈ groups (shown tr), w ∈ g := by
    obtain ⟨whole, more, part, h1, h2, h3⟩ := C32_wire cfg as _ _ hruns
    rw [h2, List.mem_append] at hw
    rcases hw with hw | hw
    · obtain ⟨g, hg, hw⟩ := List.mem_flatten.1 hw
      exact ⟨g, by rw [h1]; simp [hg], hw⟩
    · rcases h3 with rfl | ⟨g, rest, rfl, h3⟩
      · cases hw
      · exact ⟨g, by rw [h1]; simp, h3.subset hw⟩
  obtain ⟨g, hg, hwg⟩ := hg
  simp only [groups, List.mem_filterMap] at hg
  obtain ⟨e, he, heq⟩ := hg
  cases e <;> simp at heq
  rename_i src g'
  subst heq
  cases src with
  | pong =>
    obtain ⟨a, b, hab⟩ := List.append_of_mem he
    have := (C31_pongs cfg as _ _ hruns a b _ hab).1
    subst this
    left
    simpa using hwg
  | raw =>
    have : g' ∈ rawSent (shown tr) := List.mem_filterMap.2 ⟨_, he, rfl⟩
    rw [(test_at h).raw] at this
    cases this
  | emit ns cb =>
    have : g' ∈ emitted (shown tr) := List.mem_filterMap.2 ⟨_, he, rfl⟩
    right; left
    rcases (C68_event cfg acts t tr h).2.1 with h1 | h1 <;> rw [h1] at this
    · cases this
    · simp only [List.mem_singleton] at this
      rwa [this] at hwg
  | reply x =>
    have hx : (x, g') ∈ answered (shown tr) := List.mem_filterMap.2 ⟨_, he, rfl⟩
    have hx := (C68_answers cfg acts t tr h).1.subset hx
    right; right
    refine ⟨_, hx, ?_⟩
    have hg : g' = [theReply x.id] := by
      simp only [owed, List.mem_filterMap] at hx
      obtain ⟨e, -, heq⟩ := hx
      split at heq
      · split at heq
        · split at heq
          · simp only [Option.some.injEq, Prod.mk.injEq] at heq
            obtain ⟨rfl, rfl⟩ := heq
            rfl
          · cases heq
        · cases heq
      · cases heq
    rw [hg] at hwg
    simpa using hwg

/-- C68, socketio_test.rs: the ack callback runs at most once, for the id 0 of the namespace "/", after it was registered. -/
theorem C68_ack (cfg : RCfg) (acts : List PAct) (t : PSys) (tr : List PEv) (h : PRuns cfg socketioTest acts t tr) :
    (ackRuns (shown tr) = [] ∨ ackRuns (shown tr) = [0]) ∧
    ∀ t1 t2 ns id cb A, shown tr = t1 ++ .eff (.ack ns id cb A) :: t2 →
      ns = ['/'] ∧ id = 0 ∧ .registered ['/'] 0 0 ∈ t1 := by
  obtain ⟨as, hruns⟩ := prun_exec h
  have key : ∀ t1 t2 ns id cb A, shown tr = t1 ++ .eff (.ack ns id cb A) :: t2 →
      cb = 0 ∧ ns = ['/'] ∧ id = 0 ∧ .registered ['/'] 0 0 ∈ t1 := by
    intro t1 t2 ns id cb A he
    have h1 := (C28_own cfg as _ _ hruns t1 t2 ns id cb A he).2.1
    have h2 : (ns, id, cb) ∈ ackCalls (shown tr) := List.mem_filterMap.2 ⟨.registered ns id cb, by rw [he]; simp [h1], rfl⟩
    have h3 := (at_facts (test_at h).at').2.2.2.1.subset h2
    simp only [List.mem_singleton, Prod.mk.injEq] at h3
    obtain ⟨rfl, rfl, rfl⟩ := h3
    exact ⟨rfl, rfl, rfl, h1⟩
  refine ⟨?_, fun t1 t2 ns id cb A he => (key t1 t2 ns id cb A he).2⟩
  have hnd := C28_once cfg as _ _ hruns
  have hall : ∀ c ∈ ackRuns (shown tr), c = 0 := by
    intro c hc
    simp only [ackRuns, List.mem_filterMap] at hc
    obtain ⟨e, he, heq⟩ := hc
    split at heq
    · simp only [Option.some.injEq] at heq
      subst heq
      obtain ⟨a, b, hab⟩ := List.append_of_mem he
      exact (key a b _ _ _ _ hab).1
    · cases heq
  generalize ackRuns (shown tr) = l at hnd hall
  match l, hnd, hall with
  | [], _, _ => exact Or.inl rfl
  | [c], _, hall => exact Or.inr (by rw [hall c (by simp)])
  | c :: d :: _, hnd, hall =>
    have h1 := hall c (by simp)
    have h2 := hall d (by simp)
    rw [h1, h2] at hnd
    simp at hnd

/-- C68, socketio_test.rs: the callbacks print a line for each call, in order, as soon as they are through. -/
theorem C68_output (cfg : RCfg) (acts : List PAct) (t : PSys) (tr : List PEv) (h : PRuns cfg socketioTest acts t tr) :
    output true tr <+: ["Callbacks registered".toList] ∧
    output false tr <+: (shown tr).flatMap (testLines cfg.ext.fin) ∧
    (t.callback = [] → output false tr = (shown tr).flatMap (testLines cfg.ext.fin)) := by
  obtain ⟨ls, gs, hr, -, hl⟩ := (test_inv h).rest
  have ho : (shown tr).flatMap (socketioTest.lines cfg.ext.fin) = (shown tr).flatMap (testLines cfg.ext.fin) := by
    refine flatMap_congr' fun e he => ?_
    cases e with
    | eff x =>
      cases x with
      | event ns name cb A ack =>
        simp only [AppProg.lines, socketioTest, testLines]
        cases hd : A.display cfg.ext.fin with
        | ok v =>
          simp only
          by_cases hc : cb = 1
          · simp only [hc, if_true, Option.isSome, true_and]
          · simp [hc]
        | panic => rfl
        | err e => cases e
      | ack ns id cb A => rfl
      | _ => rfl
    | _ => rfl
  rw [ho] at hl
  refine ⟨(at_facts (test_at h).at').2.2.1, ⟨ls, hl⟩, fun hc => ?_⟩
  rw [hc] at hr
  generalize t.sys.handles = hs at hr
  cases hr
  simpa using hl

/-- C68, socketio_test.rs: a call of the program panics, and the lock is poisoned, only if a callback could not print its
arguments. -/
theorem C68_panic (cfg : RCfg) (acts : List PAct) (t : PSys) (tr : List PEv) (h : PRuns cfg socketioTest acts t tr)
    (hp : .userPanic ∈ shown tr ∨ t.sys.poisoned = true) : ∃ e ∈ shown tr, Unprintable cfg.ext.fin e := by
  refine (test_inv h).poison ?_
  rcases hp with hp | hp
  · refine (test_at h).panic ?_
    rw [anyPanic, List.any_eq_true]
    exact ⟨_, hp, rfl⟩
  · exact hp

theorem prun_snoc {cfg : RCfg} {p : AppProg} {acts : List PAct} {t t' : PSys} {tr evs : List PEv} {a : PAct}
    (h : PRuns cfg p acts t tr) (hs : pstep cfg p t a = some (t', evs)) : PRuns cfg p (acts ++ [a]) t' (tr ++ evs) := by
  simp only [PRuns] at h ⊢
  rw [pexec_append, h]
  simp [pexec, hs]

/-- What is left for the program to do. -/
def PSys.left (t : PSys) : Nat := 3 * t.todo.length + t.sys.closeCall.toNat + t.callback.length

/-- The program can go on by itself. -/
def Continues (cfg : RCfg) (p : AppProg) (t : PSys) : Prop :=
  ∃ a t' evs, pstep cfg p t a = some (t', evs) ∧ (a = .main ∨ a = .callback ∨ a = .env .closeTimeout) ∧ t'.left < t.left ∧
    (t'.sys.client = true ∨ t'.sys.client = false ∧ t'.todo = [] ∧ t'.callback = [])

theorem continues_ends {cfg : RCfg} {p : AppProg}
    (hall : ∀ acts t tr, PRuns cfg p acts t tr → t.sys.client = true → Continues cfg p t) :
    ∀ (n : Nat) (acts : List PAct) (t : PSys) (tr : List PEv), PRuns cfg p acts t tr → t.left ≤ n → t.sys.client = true →
      ∃ acts' t' tr', pexec cfg p t acts' = some (t', tr') ∧
        (∀ a ∈ acts', a = .main ∨ a = .callback ∨ a = .env .closeTimeout) ∧ t'.todo = [] ∧ t'.callback = [] ∧
        t'.sys.client = false := by
  intro n
  induction n with
  | zero =>
    intro acts t tr h hl hc
    obtain ⟨_, _, _, _, _, hlt, _⟩ := hall acts t tr h hc
    omega
  | succ n ih =>
    intro acts t tr h hl hc
    obtain ⟨a, t1, evs, hs, ha, hlt, hc1⟩ := hall acts t tr h hc
    rcases hc1 with hc1 | ⟨hc1, hto, hcb⟩
    · obtain ⟨as, t', tr', h1, h2, h3⟩ := ih _ t1 _ (prun_snoc h hs) (by omega) hc1
      refine ⟨a :: as, t', evs ++ tr', by simp [pexec, hs, h1], ?_, h3⟩
      intro x hx
      rcases List.mem_cons.1 hx with rfl | hx
      · exact ha
      · exact h2 x hx
    · exact ⟨[a], t1, evs, by simp [pexec, hs], by simpa using ha, hto, hcb, hc1⟩

/-- A callback that runs can go on. -/
theorem continues_callback {cfg : RCfg} {p : AppProg} {t : PSys} {tr : List PEv} (hi : ProgInv cfg p t tr) (hc : t.sys.client = true)
    (hn : t.callback ≠ []) : Continues cfg p t := by
  obtain ⟨ls, gs, hr, -, -⟩ := hi.rest
  have go : ∀ op rest s' evs ab, t.callback = op :: rest → runOp cfg false t.sys op = some (s', evs, ab) →
      s'.client = t.sys.client → s'.closeCall = t.sys.closeCall → Continues cfg p t := by
    intro op rest s' evs ab h1 h2 h3 h4
    refine ⟨.callback, ⟨s', t.todo, rest⟩, evs, by simp [pstep, h1, h2], by simp, ?_, Or.inl (by rw [h3]; exact hc)⟩
    simp only [PSys.left, h1, h4, List.length_cons]
    omega
  generalize hcb : t.callback = cb at hr hn
  generalize hh : t.sys.handles = hs at hr
  cases hr with
  | nil => exact absurd rfl hn
  | print l _ => exact go _ _ _ _ _ hcb rfl rfl rfl
  | drop x =>
    refine go _ _ { t.sys with handles := t.sys.handles.erase x, senders := t.sys.senders - 1 } [] false hcb ?_ rfl rfl
    simp [runOp, step, hh]
  | reply x vs g hg =>
    simp only [adds] at hg
    by_cases he : t.sys.task.live = true ∧ ¬ t.sys.chanClosed = true
    · refine go _ _ { t.sys with handles := t.sys.handles.erase x, senders := t.sys.senders - 1, queue := t.sys.queue ++ [g] }
        [.ev (.enqueued (.reply x) g)] false hcb ?_ rfl rfl
      simp [runOp, step, hh, hg, Sys.enqueue, he, Ev.aborts]
    · refine go _ _ { t.sys with handles := t.sys.handles.erase x, senders := t.sys.senders - 1 }
        [.ev (.sendFailed (.reply x) g)] false hcb ?_ rfl rfl
      simp only [runOp, step, hh, hg, Sys.enqueue, he, if_false, List.mem_singleton, if_true]
      rfl

theorem continues_close {cfg : RCfg} {p : AppProg} {t : PSys} (hc : t.sys.client = true) (hcc : t.sys.closeCall = true) :
    Continues cfg p t := by
  refine ⟨.env .closeTimeout, ⟨t.sys.closeOver, t.todo, t.callback⟩, [.ev (.closeReturned (.err (.timeout .close)))], ?_, by simp, ?_,
    Or.inl hc⟩
  · simp [pstep, Act.ofAwait, step, hcc]
  · simp [PSys.left, hcc, Sys.closeOver]

theorem main_client {cfg : RCfg} {s s' : Sys} {a : Act} {evs : List Ev} (hs : step cfg s a = some (s', evs))
    (ha : a.ofMain = true) (hd : a ≠ .dropClient) : s'.client = s.client := by
  cases a <;> simp only [Act.ofMain, Bool.false_eq_true] at ha
  all_goals try (exact absurd rfl hd)
  all_goals
    simp only [step, Sys.enqueue] at hs
    repeat' split at hs
  all_goals try (simp only [reduceCtorEq] at hs; done)
  all_goals
    simp only [Option.some.injEq, Prod.mk.injEq] at hs
    obtain ⟨rfl, rfl⟩ := hs
    rfl

/-- The main function can go on if its next operation is possible. -/
theorem continues_main {cfg : RCfg} {p : AppProg} {t : PSys} (hc : t.sys.client = true) (hcb : t.callback = [])
    (hcc : t.sys.closeCall = false) (op : MOp) (rest : List MOp) (ht : t.todo = op :: rest) (hm : op.ofMain = true)
    (hr : (∃ a, op = .call a ∧ a ≠ .dropClient ∧ step cfg t.sys a ≠ none ∧ rest ≠ []) ∨ (∃ l, op = .print l) ∨ op = .wait ∨
      op = .call .dropClient ∧ t.sys.emit = none ∧ rest = []) : Continues cfg p t := by
  have go : ∀ s' evs ab, runOp cfg true t.sys op = some (s', evs, ab) → (ab = true → rest ≠ []) →
      (s'.client = true ∨ s'.client = false ∧ rest = [] ∧ ab = false) → Continues cfg p t := by
    intro s' evs ab h1 h2 h3
    refine ⟨.main, ⟨s', if ab then [.call .dropClient] else rest, t.callback⟩, evs, ?_, by simp, ?_, ?_⟩
    · simp [pstep, ht, hc, hcb, h1]
    · have hb : s'.closeCall.toNat ≤ 1 := by cases s'.closeCall <;> simp
      cases ab with
      | false =>
        simp only [PSys.left, ht, hcb, hcc, List.length_cons, List.length_nil, Bool.false_eq_true, if_false, Bool.toNat_false]
        omega
      | true =>
        have : 0 < rest.length := List.length_pos_iff.2 (h2 rfl)
        simp only [PSys.left, ht, hcb, hcc, List.length_cons, List.length_nil, if_true, Bool.toNat_false]
        omega
    · rcases h3 with h3 | ⟨h3, h4, h5⟩
      · exact Or.inl h3
      · exact Or.inr ⟨h3, by simp [h4, h5], hcb⟩
  rcases hr with ⟨a, rfl, hd, hs, hne⟩ | ⟨l, rfl⟩ | rfl | ⟨rfl, he, rfl⟩
  · cases hst : step cfg t.sys a with
    | none => exact absurd hst hs
    | some x =>
      refine go x.1 (x.2.map .ev) (x.2.any Ev.aborts) (by simp [runOp, hst]) (fun _ => hne) (Or.inl ?_)
      rw [main_client hst hm hd]
      exact hc
  · exact go t.sys [.printed true l] false rfl (by simp) (Or.inl hc)
  · exact go t.sys [] false rfl (by simp) (Or.inl hc)
  · refine go { t.sys with client := false, ownSend := false, closeSig := true, handleHere := false, handleDropped := true,
                           senders := t.sys.senders - (if t.sys.ownSend then 2 else 1) } [] false ?_ (by simp)
      (Or.inr ⟨rfl, rfl, rfl⟩)
    simp [runOp, step, hc, hcc, he]

theorem test_continues (cfg : RCfg) (acts : List PAct) (t : PSys) (tr : List PEv) (h : PRuns cfg socketioTest acts t tr)
    (hc : t.sys.client = true) : Continues cfg socketioTest t := by
  by_cases hcb : t.callback = []
  · cases hcc : t.sys.closeCall with
    | true => exact continues_close hc hcc
    | false =>
      have hown : t.sys.ownSend = true := by rw [(test_inv h).own, hc]
      have hi := test_at h
      have hgone := hi.gone
      have hat := hi.at'
      generalize regCalls (shown tr) = rc at hat
      generalize output true tr = ou at hat
      generalize emitted (shown tr) = em at hat
      generalize anyPanic (shown tr) = pn at hat
      generalize ackCalls (shown tr) = ak at hat
      generalize htd : t.todo = td at hat hgone
      generalize hemit : t.sys.emit = emit at hat
      generalize t.sys.nextId = next at hat
      have fin := fun op rest ht hm => continues_main (p := socketioTest) (cfg := cfg) hc hcb hcc op rest ht hm
      have go : ∀ a rest, t.todo = MOp.call a :: rest → a.ofMain = true → a ≠ .dropClient → step cfg t.sys a ≠ none → rest ≠ [] →
          Continues cfg socketioTest t := fun a rest h1 h2 h3 h4 h5 => fin _ rest h1 h2 (Or.inl ⟨a, rfl, h3, h4, h5⟩)
      cases hat with
      | a0 =>
        refine go (.reg (.setFallback ['/'] 0)) (socketioTest.main.drop 1) htd rfl (by simp) ?_ (List.cons_ne_nil _ _)
        simp only [step, hc, RegOp.public, and_self, if_true]
        split <;> simp
      | a1 =>
        refine go (.reg (.setEvent ['/'] "types".toList 1)) (socketioTest.main.drop 2) htd rfl (by simp) ?_ (List.cons_ne_nil _ _)
        simp only [step, hc, RegOp.public, and_self, if_true]
        split <;> simp
      | a2 => exact fin (.print "Callbacks registered".toList) (socketioTest.main.drop 3) htd rfl (Or.inr (Or.inl ⟨_, rfl⟩))
      | a3 =>
        refine go (.emitStart ['/'] "event".toList) (socketioTest.main.drop 4) htd rfl (by simp) ?_ (List.cons_ne_nil _ _)
        simp only [step, hc, hemit, and_self, if_true, ne_eq, reduceCtorEq, not_false_eq_true]
      | a4 =>
        refine go (.emitBinary true) (socketioTest.main.drop 5) htd rfl (by simp) ?_ (List.cons_ne_nil _ _)
        simp only [step, hemit, ne_eq, reduceCtorEq, not_false_eq_true]
      | a5 =>
        refine go .emitCallback (socketioTest.main.drop 6) htd rfl (by simp) ?_ (List.cons_ne_nil _ _)
        simp only [step, hemit, ne_eq, reduceCtorEq, not_false_eq_true]
      | a6 =>
        refine go .emitArgs (socketioTest.main.drop 7) htd rfl (by simp) ?_ (List.cons_ne_nil _ _)
        simp only [step, hemit, Option.map, exB_new, ne_eq, reduceCtorEq, not_false_eq_true]
      | a7 =>
        refine go (.emitArg (.seq [.u8 0xde, .u8 0xad, .u8 0xbe, .u8 0xef])) (socketioTest.main.drop 8) htd rfl (by simp) ?_
          (List.cons_ne_nil _ _)
        simp only [step, hemit, exB_first, ne_eq, reduceCtorEq, not_false_eq_true]
      | a8 =>
        refine go (.emitArg (.str "hello".toList)) (socketioTest.main.drop 9) htd rfl (by simp) ?_ (List.cons_ne_nil _ _)
        simp only [step, hemit, exB_second, ne_eq, reduceCtorEq, not_false_eq_true]
      | a9 =>
        refine go .emitSend (socketioTest.main.drop 10) htd rfl (by simp) ?_ (List.cons_ne_nil _ _)
        simp only [step, hemit, exB_finish]
        split <;> simp
      | a10 =>
        refine go .emitEnqueue (socketioTest.main.drop 11) htd rfl (by simp) ?_ (List.cons_ne_nil _ _)
        simp only [step, hemit, hown, if_true, ne_eq, reduceCtorEq, not_false_eq_true]
      | a11 => exact fin .wait (socketioTest.main.drop 12) htd rfl (Or.inr (Or.inr (Or.inl rfl)))
      | a12 =>
        refine go .closeStart (socketioTest.main.drop 13) htd rfl (by simp) ?_ (List.cons_ne_nil _ _)
        simp only [step, hc, hcc, Bool.false_eq_true, not_false_eq_true, and_self, if_true]
        split <;> simp
      | a13 => exact fin (.call .dropClient) [] htd rfl (Or.inr (Or.inr (Or.inr ⟨rfl, hemit, rfl⟩)))
      | a14 => have := (hgone rfl).1; rw [hc] at this; cases this
      | aborted => exact fin (.call .dropClient) [] htd rfl (Or.inr (Or.inr (Or.inr ⟨rfl, hemit, rfl⟩)))
      | ended => have := (hgone rfl).1; rw [hc] at this; cases this
  · exact continues_callback (test_inv h) hc hcb

/-- C68, socketio_test.rs: once connected, the program can always go on to its end, whatever the server does or does not do:
by itself, and with the time limit of `close`. -/
theorem C68_ends (cfg : RCfg) (acts : List PAct) (t : PSys) (tr : List PEv) (h : PRuns cfg socketioTest acts t tr)
    (hc : t.sys.client = true) : ∃ acts' t' tr', pexec cfg socketioTest t acts' = some (t', tr') ∧
      (∀ a ∈ acts', a = .main ∨ a = .callback ∨ a = .env .closeTimeout) ∧ t'.todo = [] ∧ t'.callback = [] ∧
      t'.sys.client = false :=
  continues_ends (test_continues cfg) _ acts t tr h (Nat.le_refl _) hc

end SIO
