import Verif.Spec.Example
import Verif.Lemmas.ClientConn
/-
Executions of the example programs.
-/
namespace SIO
open SIO.Spec

/-! ### What single steps show -/

/-- Observations that have nothing to do with the program. -/
def Ev.quiet : Ev → Bool
  | .received _ => true
  | .eff e => !e.isCall
  | .enqueued .pong _ => true
  | .sendFailed .pong _ => true
  | .dequeued _ => true
  | .wrote _ => true
  | .writeFailed _ => true
  | .groupDone => true
  | .closeSeen => true
  | .taskEnd _ => true
  | .taskDropped => true
  | .closeReturned _ => true
  | .connectReturned _ => true
  | _ => false

def Quiet (evs : List Ev) : Prop := ∀ e ∈ evs, e.quiet = true

theorem quiet_called {evs : List Ev} (h : Quiet evs) : called evs = none := by
  induction evs with
  | nil => rfl
  | cons e es ih =>
    have h1 := h e (by simp)
    have h2 := ih fun x hx => h x (by simp [hx])
    cases e <;> simp_all [Ev.quiet, called]

/-- The program-visible part of the client stays. -/
structure Keeps (s s' : Sys) : Prop where
  emit : s'.emit = s.emit
  nextId : s'.nextId = s.nextId
  allocs : s'.allocs = s.allocs
  clones : s'.clones = s.clones
  chan : s'.chanClosed = s.chanClosed
  own : s.ownSend = s.client → s'.ownSend = s'.client
  client : s.client = true → s'.client = true
  closeCall : s'.closeCall = true → s.closeCall = true
  phase : ∀ sid, s.phase = .connected sid → s'.phase = .connected sid ∧ s'.client = s.client

theorem env_out {cfg : RCfg} {s s' : Sys} {a : Act} {evs : List Ev} (hs : step cfg s a = some (s', evs))
    (ha : a.ofAwait = true ∨ a.ofTask = true) :
    Keeps s s' ∧ s'.handles = s.handles ∧ s'.poisoned = s.poisoned ∧ Quiet evs := by
  cases a <;> simp only [Act.ofAwait, Act.ofTask, or_self, or_true, true_or, Bool.false_eq_true] at ha
  all_goals
    simp only [step, Sys.finishTask, Sys.endTask, Sys.failConnect, Sys.closeOver] at hs
    repeat' split at hs
  all_goals try (simp only [reduceCtorEq] at hs; done)
  all_goals
    simp only [Option.some.injEq, Prod.mk.injEq] at hs
    obtain ⟨rfl, rfl⟩ := hs
    exact ⟨⟨rfl, rfl, rfl, rfl, rfl, fun h => by first | exact h | rfl, fun h => by first | exact h | rfl,
      fun h => by first | exact h | (cases h; done), fun sid h => by first | exact ⟨h, rfl⟩ | (exfalso; simp_all; done)⟩, rfl, rfl,
      by simp [Quiet, Ev.quiet]⟩

/-- The handle a callback is given. -/
def Eff.handle : Eff → Option AckHandle
  | .event _ _ _ _ h => h
  | _ => none

theorem recv_out {cfg : RCfg} {s s' : Sys} {w : Ws} {p : Bool} {evs : List Ev} (hs : step cfg s (.recv w p) = some (s', evs)) :
    Keeps s s' ∧ ((s'.handles = s.handles ∧ s'.poisoned = s.poisoned ∧ Quiet evs) ∨
      ∃ e rest, evs = .received w :: .eff e :: rest ∧ e.isCall = true ∧ Quiet rest ∧ s'.handles = s.handles ++ e.handle.toList ∧
        s'.poisoned = (s.poisoned || p)) := by
  have hr : (s', evs) = s.recv cfg w p := by
    simp only [step] at hs
    split at hs <;> simp_all
  have hsh := processWs_shape cfg s.rx s.reg w
  unfold Sys.recv at hr
  generalize hp : processWs cfg s.rx s.reg w = o at hsh hr
  obtain ⟨st, reg', effs, res⟩ := o
  simp only at hsh
  have hk : ∀ x : Sys, x.emit = s.emit → x.nextId = s.nextId → x.allocs = s.allocs → x.clones = s.clones →
      x.chanClosed = s.chanClosed → x.ownSend = s.ownSend → x.client = s.client → x.closeCall = s.closeCall →
      x.phase = s.phase → Keeps s x := by
    intro x h1 h2 h3 h4 h5 h6 h7 h8 h9
    exact ⟨h1, h2, h3, h4, h5, fun h => by rw [h6, h7, h], fun h => by rw [h7, h], fun h => by rw [← h8, h],
      fun sid h => ⟨by rw [h9, h], h7⟩⟩
  have fin : ∀ {x : Sys} {y : List Ev}, (s', evs) = (x, y) → s' = x ∧ evs = y := by
    intro x y h
    exact ⟨congrArg Prod.fst h, congrArg Prod.snd h⟩
  cases hsh with
  | packet x hx =>
    cases hx with
    | quiet =>
      simp only [Sys.effects, List.any_nil, Bool.false_eq_true, and_false, if_false, List.nil_append, Sys.finishTask,
        Sys.endTask] at hr
      cases res with
      | ok u =>
        obtain ⟨rfl, rfl⟩ := fin hr
        exact ⟨hk _ rfl rfl rfl rfl rfl rfl rfl rfl rfl, Or.inl ⟨rfl, rfl, by simp [Quiet, Ev.quiet]⟩⟩
      | err e =>
        obtain ⟨rfl, rfl⟩ := fin hr
        exact ⟨hk _ rfl rfl rfl rfl rfl rfl rfl rfl rfl, Or.inl ⟨rfl, rfl, by simp [Quiet, Ev.quiet]⟩⟩
      | panic =>
        obtain ⟨rfl, rfl⟩ := fin hr
        exact ⟨hk _ rfl rfl rfl rfl rfl rfl rfl rfl rfl, Or.inl ⟨rfl, rfl, by simp [Quiet, Ev.quiet]⟩⟩
    | noAck ns id pk hn =>
      simp only [Sys.effects, List.any_nil, Bool.false_eq_true, and_false, if_false, List.nil_append, Sys.finishTask,
        Sys.endTask] at hr
      obtain ⟨rfl, rfl⟩ := fin hr
      exact ⟨hk _ rfl rfl rfl rfl rfl rfl rfl rfl rfl, Or.inl ⟨rfl, rfl, by simp [Quiet, Ev.quiet]⟩⟩
    | event ns name cb A ack hcb hns =>
      have key : Keeps s s' ∧ s'.handles = s.handles ++ ack.toList ∧ s'.poisoned = (s.poisoned || p) ∧
          evs = .received w :: .eff (.event ns name cb A ack) :: (if p then [.taskEnd .panic] else []) := by
        cases p <;> cases ack <;>
        · simp [Sys.effects, Sys.effect, Eff.isCall, Sys.finishTask, Sys.endTask] at hr
          obtain ⟨rfl, rfl⟩ := hr
          exact ⟨hk _ rfl rfl rfl rfl rfl rfl rfl rfl rfl, by simp, by simp, rfl⟩
      exact ⟨key.1, Or.inr ⟨_, _, key.2.2.2, rfl, by cases p <;> simp [Quiet, Ev.quiet], key.2.1, key.2.2.1⟩⟩
    | ack ns id cb A hcb =>
      have key : Keeps s s' ∧ s'.handles = s.handles ++ [] ∧ s'.poisoned = (s.poisoned || p) ∧
          evs = .received w :: .eff (.ack ns id cb A) :: (if p then [.taskEnd .panic] else []) := by
        cases p <;>
        · simp [Sys.effects, Sys.effect, Eff.isCall, Sys.finishTask, Sys.endTask] at hr
          obtain ⟨rfl, rfl⟩ := hr
          exact ⟨hk _ rfl rfl rfl rfl rfl rfl rfl rfl rfl, by simp, by simp, rfl⟩
      exact ⟨key.1, Or.inr ⟨_, _, key.2.2.2, rfl, by cases p <;> simp [Quiet, Ev.quiet], key.2.1, key.2.2.1⟩⟩
  | opened o =>
    simp [Sys.effects, Sys.effect, Eff.isCall] at hr
    obtain ⟨rfl, rfl⟩ := hr
    exact ⟨hk _ rfl rfl rfl rfl rfl rfl rfl rfl rfl, Or.inl ⟨rfl, rfl, by simp [Quiet, Ev.quiet, Eff.isCall]⟩⟩
  | secondOpen o =>
    simp [Sys.effects, Sys.effect, Eff.isCall] at hr
    obtain ⟨rfl, rfl⟩ := hr
    exact ⟨hk _ rfl rfl rfl rfl rfl rfl rfl rfl rfl, Or.inl ⟨rfl, rfl, by simp [Quiet, Ev.quiet, Eff.isCall]⟩⟩
  | ping hw =>
    simp only [Sys.effects, Sys.effect, Sys.enqueue, Eff.isCall, List.any_cons, List.any_nil, Bool.or_self, Bool.false_eq_true,
      and_false, if_false] at hr
    split at hr
    · obtain ⟨rfl, rfl⟩ := fin hr
      exact ⟨hk _ rfl rfl rfl rfl rfl rfl rfl rfl rfl, Or.inl ⟨rfl, rfl, by simp [Quiet, Ev.quiet, Eff.isCall]⟩⟩
    · obtain ⟨rfl, rfl⟩ := fin hr
      exact ⟨hk _ rfl rfl rfl rfl rfl rfl rfl rfl rfl, Or.inl ⟨rfl, rfl, by simp [Quiet, Ev.quiet, Eff.isCall]⟩⟩

/-- The calls of a main function. -/
def Act.ofMain : Act → Bool
  | .reg _ => true
  | .rawSend _ => true
  | .emitStart _ _ => true
  | .emitBinary _ => true
  | .emitCallback => true
  | .emitArgs => true
  | .emitArg _ => true
  | .emitSend => true
  | .emitEnqueue => true
  | .closeStart => true
  | .dropClient => true
  | _ => false

def MOp.ofMain : MOp → Bool
  | .call a => a.ofMain
  | _ => true

/-- Observations of the calls of a main function. -/
def Ev.mains : Ev → Bool
  | .eff _ => false
  | .enqueued (.reply _) _ => false
  | .sendFailed (.reply _) _ => false
  | .received _ => false
  | .taskEnd _ => false
  | _ => true

theorem main_out {cfg : RCfg} {s s' : Sys} {a : Act} {evs : List Ev} (hs : step cfg s a = some (s', evs))
    (ha : a.ofMain = true) : (s.ownSend = s.client → s'.ownSend = s'.client) ∧ s'.handles = s.handles ∧
      s'.poisoned = s.poisoned ∧ s'.clones = s.clones ∧ (∀ e ∈ evs, e.mains = true) := by
  cases a <;> simp only [Act.ofMain, Bool.false_eq_true] at ha
  all_goals
    simp only [step, Sys.enqueue] at hs
    repeat' split at hs
  all_goals try (simp only [reduceCtorEq] at hs; done)
  all_goals
    simp only [Option.some.injEq, Prod.mk.injEq] at hs
    obtain ⟨rfl, rfl⟩ := hs
    exact ⟨fun h => by first | exact h | rfl, rfl, rfl, rfl, by simp [Ev.mains]⟩

/-! ### Steps of a program -/

/-- A step of a program, by cases. -/
inductive PTrans (cfg : RCfg) (p : AppProg) (t : PSys) : PSys → List PEv → Prop where
  | main (op : MOp) (rest : List MOp) (s' : Sys) (evs : List PEv) (ab : Bool) : t.todo = op :: rest → t.sys.client = true →
      (op.locks = true → t.callback = []) → runOp cfg true t.sys op = some (s', evs, ab) →
      PTrans cfg p t ⟨s', if ab then [.call .dropClient] else rest, t.callback⟩ evs
  | callback (op : MOp) (rest : List MOp) (s' : Sys) (evs : List PEv) (ab : Bool) : t.callback = op :: rest →
      runOp cfg false t.sys op = some (s', evs, ab) → PTrans cfg p t ⟨s', t.todo, rest⟩ evs
  | quiet (a : Act) (s' : Sys) (evs : List Ev) : Keeps t.sys s' → s'.handles = t.sys.handles → s'.poisoned = t.sys.poisoned →
      Quiet evs → step cfg t.sys a = some (s', evs) → PTrans cfg p t ⟨s', t.todo, t.callback⟩ (evs.map .ev)
  | called (w : Ws) (b : Bool) (s' : Sys) (e : Eff) (rest : List Ev) (ops : List MOp) : Keeps t.sys s' → t.callback = [] →
      step cfg t.sys (.recv w b) = some (s', .received w :: .eff e :: rest) → e.isCall = true → Quiet rest →
      s'.handles = t.sys.handles ++ e.handle.toList → s'.poisoned = (t.sys.poisoned || b) →
      (b = true ∧ p.body cfg.ext.fin e = .panic ∧ ops = unwind e ∨ b = false ∧ p.body cfg.ext.fin e = .ok ops) →
      PTrans cfg p t ⟨s', t.todo, ops⟩ ((.received w :: .eff e :: rest).map .ev)

theorem pstep_trans {cfg : RCfg} {p : AppProg} {t t' : PSys} {a : PAct} {evs : List PEv}
    (h : pstep cfg p t a = some (t', evs)) : PTrans cfg p t t' evs := by
  have fin : ∀ {x : PSys} {y : List PEv}, some (x, y) = some (t', evs) → x = t' ∧ y = evs := by
    intro x y h
    exact ⟨congrArg Prod.fst (Option.some.inj h), congrArg Prod.snd (Option.some.inj h)⟩
  cases a with
  | main =>
    simp only [pstep] at h
    split at h
    · simp at h
    · rename_i op rest hto
      split at h
      · rename_i hc
        split at h
        · simp at h
        · rename_i s' evs' ab hr
          obtain ⟨rfl, rfl⟩ := fin h
          exact .main op rest s' _ ab hto hc.1 (fun hl => by simpa using hc.2 hl) hr
      · simp at h
  | callback =>
    simp only [pstep] at h
    split at h
    · simp at h
    · rename_i op rest hto
      split at h
      · simp at h
      · rename_i s' evs' ab hr
        obtain ⟨rfl, rfl⟩ := fin h
        exact .callback op rest s' _ ab hto hr
  | env a =>
    by_cases hw : ∃ w b, a = .recv w b
    · obtain ⟨w, b, rfl⟩ := hw
      simp only [pstep] at h
      split at h
      · rename_i hc
        have hc : t.callback = [] := by simpa using hc
        split at h
        · simp at h
        · rename_i s' evs' hs
          obtain ⟨hk, hq | ⟨e, rest, rfl, he, hq, hh, hp⟩⟩ := recv_out hs
          · rw [quiet_called hq.2.2] at h
            simp only at h
            split at h
            · simp at h
            · obtain ⟨rfl, rfl⟩ := fin h
              have := PTrans.quiet (p := p) (.recv w b) s' evs' hk hq.1 hq.2.1 hq.2.2 hs
              rwa [hc] at this
          · simp only [called, he, if_true] at h
            split at h
            · rename_i hb
              split at h
              · rename_i hbt
                obtain ⟨rfl, rfl⟩ := fin h
                exact .called w b s' e rest _ hk hc hs he hq hh hp (Or.inl ⟨hbt, hb, rfl⟩)
              · simp at h
            · rename_i ops hb
              split at h
              · simp at h
              · rename_i hbt
                obtain ⟨rfl, rfl⟩ := fin h
                exact .called w b s' e rest _ hk hc hs he hq hh hp (Or.inr ⟨by simpa using hbt, hb⟩)
      · simp at h
    · have h' : (if a.ofAwait = true ∨ (a.ofTask = true ∧ t.callback.isEmpty = true) then
          match step cfg t.sys a with
          | none => none
          | some (s', evs) => some ((⟨s', t.todo, t.callback⟩ : PSys), evs.map PEv.ev)
        else none) = some (t', evs) := by
        rw [← h]
        cases a <;> first | rfl | exact absurd ⟨_, _, rfl⟩ hw
      split at h'
      · rename_i hc
        split at h'
        · simp at h'
        · rename_i s' evs' hs
          obtain ⟨rfl, rfl⟩ := fin h'
          obtain ⟨h1, h2, h3, h4⟩ := env_out hs (hc.imp_right And.left)
          exact .quiet a s' evs' h1 h2 h3 h4 hs
      · simp at h'

theorem pexec_append {cfg : RCfg} {p : AppProg} {as bs : List PAct} : ∀ {t : PSys},
    pexec cfg p t (as ++ bs) = (match pexec cfg p t as with
      | none => none
      | some (t', evs) =>
        match pexec cfg p t' bs with
        | none => none
        | some (t'', evs') => some (t'', evs ++ evs')) := by
  induction as with
  | nil => intro t; simp only [List.nil_append, pexec]; cases pexec cfg p t bs <;> simp
  | cons a as ih =>
    intro t
    simp only [List.cons_append, pexec]
    cases pstep cfg p t a with
    | none => rfl
    | some x =>
      simp only [ih]
      cases pexec cfg p x.1 as with
      | none => rfl
      | some y =>
        simp only
        cases pexec cfg p y.1 bs with
        | none => rfl
        | some z => simp

/-- Induction over the executions of a program. -/
theorem prun_induct {cfg : RCfg} {p : AppProg} {P : List PEv → PSys → Prop} (h0 : P [] p.init)
    (hs : ∀ acts t tr t' evs, PRuns cfg p acts t tr → P tr t → PTrans cfg p t t' evs → P (tr ++ evs) t') :
    ∀ {acts : List PAct} {t : PSys} {tr : List PEv}, PRuns cfg p acts t tr → P tr t := by
  have key : ∀ (n : Nat) (acts : List PAct), acts.length = n → ∀ t tr, PRuns cfg p acts t tr → P tr t := by
    intro n
    induction n with
    | zero =>
      intro acts hl t tr h
      have : acts = [] := List.eq_nil_of_length_eq_zero hl
      subst this
      simp only [PRuns, pexec, Option.some.injEq, Prod.mk.injEq] at h
      obtain ⟨rfl, rfl⟩ := h
      exact h0
    | succ n ih =>
      intro acts hl t tr h
      have hne : acts ≠ [] := by intro h; simp [h] at hl
      have hsp := List.dropLast_concat_getLast hne
      have hdl : acts.dropLast.length = n := by simp [hl]
      generalize acts.dropLast = xs at hsp hdl
      generalize acts.getLast hne = a at hsp
      subst hsp
      simp only [PRuns, pexec_append] at h
      split at h
      · simp at h
      · rename_i t1 tr1 h1
        simp only [pexec] at h
        cases hp : pstep cfg p t1 a with
        | none => simp [hp] at h
        | some x =>
          simp [hp] at h
          obtain ⟨rfl, rfl⟩ := h
          exact hs xs t1 tr1 x.1 x.2 h1 (ih xs hdl t1 tr1 h1) (pstep_trans hp)
  intro acts t tr h
  exact key acts.length acts rfl t tr h

theorem shown_append (a b : List PEv) : shown (a ++ b) = shown a ++ shown b := List.filterMap_append
theorem output_append (m : Bool) (a b : List PEv) : output m (a ++ b) = output m a ++ output m b := List.filterMap_append
theorem answered_append (a b : List Ev) : answered (a ++ b) = answered a ++ answered b := List.filterMap_append
theorem emitted_append (a b : List Ev) : emitted (a ++ b) = emitted a ++ emitted b := List.filterMap_append
theorem rawSent_append (a b : List Ev) : rawSent (a ++ b) = rawSent a ++ rawSent b := List.filterMap_append
theorem owed_append (fin : Str → Bool) (a b : List Ev) : owed fin (a ++ b) = owed fin a ++ owed fin b := List.filterMap_append

theorem shown_ev (evs : List Ev) : shown (evs.map .ev) = evs := by
  simp [shown, List.filterMap_map, Function.comp_def]

theorem output_ev (m : Bool) (evs : List Ev) : output m (evs.map .ev) = [] := by
  simp [output]

theorem runOp_call {cfg : RCfg} {m : Bool} {s s' : Sys} {a : Act} {evs : List PEv} {ab : Bool}
    (h : runOp cfg m s (.call a) = some (s', evs, ab)) :
    ∃ es, step cfg s a = some (s', es) ∧ evs = es.map .ev ∧ ab = es.any Ev.aborts := by
  simp only [runOp] at h
  split at h
  · simp at h
  · rename_i x es hs
    simp only [Option.some.injEq, Prod.mk.injEq] at h
    obtain ⟨rfl, rfl, rfl⟩ := h
    exact ⟨es, hs, rfl, rfl⟩

/-- Every execution of a program is one of the client. -/
theorem prun_exec {cfg : RCfg} {p : AppProg} {acts : List PAct} {t : PSys} {tr : List PEv} (h : PRuns cfg p acts t tr) :
    ∃ as, Runs cfg as t.sys (shown tr) := by
  refine prun_induct (P := fun tr t => ∃ as, Runs cfg as t.sys (shown tr)) ⟨[], rfl⟩ ?_ h
  rintro acts t tr t' evs - ⟨as, ih⟩ ht
  have one : ∀ {a s' es}, step cfg t.sys a = some (s', es) → ∃ as, Runs cfg as s' (shown tr ++ es) := by
    intro a s' es hs
    refine ⟨as ++ [a], ?_⟩
    exact exec_snoc ih hs
  have op : ∀ {m op s' evs ab}, runOp cfg m t.sys op = some (s', evs, ab) → ∃ as, Runs cfg as s' (shown (tr ++ evs)) := by
    intro m op s' evs ab hr
    rw [shown_append]
    cases op with
    | call a =>
      obtain ⟨es, hs, rfl, rfl⟩ := runOp_call hr
      rw [shown_ev]
      exact one hs
    | print l =>
      simp only [runOp, Option.some.injEq, Prod.mk.injEq] at hr
      obtain ⟨rfl, rfl, rfl⟩ := hr
      exact ⟨as, by simpa [shown] using ih⟩
    | wait =>
      simp only [runOp, Option.some.injEq, Prod.mk.injEq] at hr
      obtain ⟨rfl, rfl, rfl⟩ := hr
      exact ⟨as, by simpa [shown] using ih⟩
  cases ht with
  | main o rest s' _ ab h1 h2 h3 hr => exact op hr
  | callback o rest s' _ ab h1 hr => exact op hr
  | quiet a s' es h1 h2 h3 h4 hs => rw [shown_append, shown_ev]; exact one hs
  | called w b s' e rest ops h1 h2 hs h3 h4 h5 h6 h7 => rw [shown_append, shown_ev]; exact one hs

/-! ### Callbacks -/

/-- The reply of a callback to a handle. -/
def AppProg.reply (p : AppProg) (cb : Cb) (h : AckHandle) : Option (List Ws) :=
  match p.answer cb with
  | none => none
  | some vs =>
    match (adds (Builder.newAck h.ns h.id false) vs).finish with
    | .ok g => some g
    | _ => none

/-- The replies a program owes after an observation. -/
def AppProg.owes (p : AppProg) (fin : Str → Bool) : Ev → List (AckHandle × List Ws)
  | .eff (.event _ _ cb args (some h)) =>
    match args.display fin, p.reply cb h with
    | .ok _, some g => [(h, g)]
    | _, _ => []
  | _ => []

/-- The lines its callbacks print after an observation. -/
def AppProg.lines (p : AppProg) (fin : Str → Bool) : Ev → List Str
  | .eff (.event _ _ cb args ack) =>
    match args.display fin with
    | .ok t => (p.eventLine cb ++ t) :: (if (p.answer cb).isSome ∧ ack.isSome then ["Emitting ack".toList] else [])
    | _ => []
  | .eff (.ack _ _ _ args) =>
    match args.display fin with
    | .ok t => [p.ackLine ++ t]
    | _ => []
  | _ => []

/-- What is left of a callback: lines to print, then a reply or the dropping of the handle. -/
inductive AppRest (p : AppProg) : List MOp → List Str → List (AckHandle × List Ws) → List AckHandle → Prop where
  | nil : AppRest p [] [] [] []
  | print (l : Str) {ops : List MOp} {ls : List Str} {gs : List (AckHandle × List Ws)} {hs : List AckHandle} :
      AppRest p ops ls gs hs → AppRest p (.print l :: ops) (l :: ls) gs hs
  | drop (h : AckHandle) : AppRest p [.call (.dropHandle h)] [] [] [h]
  | reply (h : AckHandle) (vs : List SVal) (g : List Ws) : (adds (Builder.newAck h.ns h.id false) vs).finish = .ok g →
      AppRest p [.call (.reply h false vs)] [] [(h, g)] [h]

structure ProgInv (cfg : RCfg) (p : AppProg) (t : PSys) (tr : List PEv) : Prop where
  todo : ∀ op ∈ t.todo, op.ofMain = true
  own : t.sys.ownSend = t.sys.client
  clones : t.sys.clones = 0
  rest : ∃ ls gs, AppRest p t.callback ls gs t.sys.handles ∧
    answered (shown tr) ++ gs = (shown tr).flatMap (p.owes cfg.ext.fin) ∧
    output false tr ++ ls = (shown tr).flatMap (p.lines cfg.ext.fin)
  poison : t.sys.poisoned = true → ∃ e ∈ shown tr, Unprintable cfg.ext.fin e

theorem owes_nil {p : AppProg} {fin : Str → Bool} {evs : List Ev}
    (h : ∀ e ∈ evs, p.owes fin e = [] ∧ p.lines fin e = [] ∧ answered [e] = []) :
    evs.flatMap (p.owes fin) = [] ∧ evs.flatMap (p.lines fin) = [] ∧ answered evs = [] := by
  induction evs with
  | nil => exact ⟨rfl, rfl, rfl⟩
  | cons e es ih =>
    obtain ⟨h1, h2, h3⟩ := h e (List.mem_cons_self ..)
    obtain ⟨h4, h5, h6⟩ := ih fun x hx => h x (List.mem_cons_of_mem _ hx)
    refine ⟨by rw [List.flatMap_cons, h1, h4]; rfl, by rw [List.flatMap_cons, h2, h5]; rfl, ?_⟩
    rw [show e :: es = [e] ++ es from rfl, answered_append, h3, h6]
    rfl

theorem quiet_owes {p : AppProg} {fin : Str → Bool} {evs : List Ev} (h : Quiet evs) :
    evs.flatMap (p.owes fin) = [] ∧ evs.flatMap (p.lines fin) = [] ∧ answered evs = [] := by
  refine owes_nil fun e he => ?_
  have h1 := h e he
  cases e with
  | eff e => cases e <;> first | exact ⟨rfl, rfl, rfl⟩ | cases h1
  | enqueued src g => cases src <;> first | exact ⟨rfl, rfl, rfl⟩ | cases h1
  | sendFailed src g => cases src <;> first | exact ⟨rfl, rfl, rfl⟩ | cases h1
  | _ => exact ⟨rfl, rfl, rfl⟩

theorem mains_owes {p : AppProg} {fin : Str → Bool} {evs : List Ev} (h : ∀ e ∈ evs, e.mains = true) :
    evs.flatMap (p.owes fin) = [] ∧ evs.flatMap (p.lines fin) = [] ∧ answered evs = [] := by
  refine owes_nil fun e he => ?_
  have h1 := h e he
  cases e with
  | eff e => cases h1
  | enqueued src g => cases src <;> first | exact ⟨rfl, rfl, rfl⟩ | cases h1
  | sendFailed src g => cases src <;> first | exact ⟨rfl, rfl, rfl⟩ | cases h1
  | _ => exact ⟨rfl, rfl, rfl⟩

/-- A callback from its call on. -/
theorem body_rest {p : AppProg} {fin : Str → Bool} (hp : ∀ cb vs, p.answer cb = some vs → ∀ h : AckHandle,
      ∃ g, (adds (Builder.newAck h.ns h.id false) vs).finish = .ok g)
    {e : Eff} {ops : List MOp} (h : p.body fin e = .ok ops) :
    AppRest p ops (p.lines fin (.eff e)) (p.owes fin (.eff e)) e.handle.toList := by
  cases e with
  | event ns name cb A ack =>
    simp only [AppProg.body, Bind.bind, Res.bind, Pure.pure] at h
    split at h <;> simp at h
    rename_i t ht
    subst h
    cases ha : p.answer cb with
    | none =>
      cases ack with
      | none => simpa [AppProg.lines, AppProg.owes, Eff.handle, ht, ha, unused] using AppRest.print _ AppRest.nil
      | some x => simpa [AppProg.lines, AppProg.owes, AppProg.reply, Eff.handle, ht, ha, unused] using AppRest.print _ (AppRest.drop x)
    | some vs =>
      cases ack with
      | none => simpa [AppProg.lines, AppProg.owes, Eff.handle, ht, ha] using AppRest.print _ AppRest.nil
      | some x =>
        obtain ⟨g, hg⟩ := hp cb vs ha x
        simpa [AppProg.lines, AppProg.owes, AppProg.reply, Eff.handle, ht, ha, hg] using
          AppRest.print _ (AppRest.print _ (AppRest.reply x vs g hg))
  | ack ns id cb A =>
    simp only [AppProg.body, Bind.bind, Res.bind, Pure.pure] at h
    split at h <;> simp at h
    rename_i t ht
    subst h
    simpa [AppProg.lines, AppProg.owes, Eff.handle, ht] using AppRest.print _ AppRest.nil
  | _ =>
    simp only [AppProg.body, Res.ok.injEq] at h
    subst h
    exact .nil

theorem body_panic {p : AppProg} {fin : Str → Bool} {e : Eff} (h : p.body fin e = .panic) :
    AppRest p (unwind e) (p.lines fin (.eff e)) (p.owes fin (.eff e)) e.handle.toList ∧ Unprintable fin (.eff e) := by
  cases e with
  | event ns name cb A ack =>
    simp only [AppProg.body, Bind.bind, Res.bind, Pure.pure] at h
    split at h <;> simp at h
    rename_i ht
    cases ack with
    | none => exact ⟨by simpa [AppProg.lines, AppProg.owes, Eff.handle, ht, unwind, unused] using AppRest.nil, ht⟩
    | some x => exact ⟨by simpa [AppProg.lines, AppProg.owes, Eff.handle, ht, unwind, unused] using AppRest.drop x, ht⟩
  | ack ns id cb A =>
    simp only [AppProg.body, Bind.bind, Res.bind, Pure.pure] at h
    split at h <;> simp at h
    rename_i ht
    exact ⟨by simpa [AppProg.lines, AppProg.owes, Eff.handle, ht, unwind] using AppRest.nil, ht⟩
  | _ => simp [AppProg.body] at h

theorem pinv_prog {cfg : RCfg} {p : AppProg} (hm : ∀ op ∈ p.main, op.ofMain = true)
    (hp : ∀ cb vs, p.answer cb = some vs → ∀ h : AckHandle, ∃ g, (adds (Builder.newAck h.ns h.id false) vs).finish = .ok g)
    {acts : List PAct} {t : PSys} {tr : List PEv} (h : PRuns cfg p acts t tr) : ProgInv cfg p t tr := by
  refine prun_induct (P := fun tr t => ProgInv cfg p t tr)
    ⟨hm, rfl, rfl, ⟨[], [], .nil, rfl, rfl⟩, by simp [AppProg.init, Sys.init]⟩ ?_ h
  rintro acts t tr t' evs - ih ht
  obtain ⟨ls, gs, hr, ha, hl⟩ := ih.rest
  cases ht with
  | main op rest s' _ ab h1 h2 h3 hrun =>
    have htodo : ∀ x ∈ (if ab = true then [MOp.call .dropClient] else rest), x.ofMain = true := by
      intro x hx
      split at hx
      · simp at hx; subst hx; rfl
      · exact ih.todo x (by rw [h1]; simp [hx])
    cases op with
    | call a =>
      obtain ⟨es, hs, rfl, rfl⟩ := runOp_call hrun
      obtain ⟨k1, k2, k3, k4, k5⟩ := main_out hs (ih.todo (.call a) (by rw [h1]; simp))
      obtain ⟨m1, m2, m3⟩ := mains_owes (p := p) (fin := cfg.ext.fin) k5
      refine ⟨htodo, k1 ih.own, by rw [← ih.clones]; exact k4, ⟨ls, gs, by simpa [k2] using hr, ?_, ?_⟩, ?_⟩
      · simpa [shown_append, shown_ev, answered_append, m1, m3] using ha
      · simpa [shown_append, shown_ev, output_append, output_ev, m2] using hl
      · intro hp'
        obtain ⟨e, he, hu⟩ := ih.poison (k3 ▸ hp')
        exact ⟨e, by simp [shown_append, he], hu⟩
    | print l =>
      simp only [runOp, Option.some.injEq, Prod.mk.injEq] at hrun
      obtain ⟨rfl, rfl, rfl⟩ := hrun
      refine ⟨htodo, ih.own, ih.clones, ⟨ls, gs, hr, ?_, ?_⟩, ?_⟩
      · simpa [shown] using ha
      · simpa [shown, output] using hl
      · simpa [shown] using ih.poison
    | wait =>
      simp only [runOp, Option.some.injEq, Prod.mk.injEq] at hrun
      obtain ⟨rfl, rfl, rfl⟩ := hrun
      exact ⟨htodo, ih.own, ih.clones, ⟨ls, gs, hr, by simpa using ha, by simpa using hl⟩, by simpa using ih.poison⟩
  | callback op rest s' _ ab h1 hrun =>
    rw [h1] at hr
    generalize hh : t.sys.handles = hs at hr
    cases hr with
    | print l hr =>
      simp only [runOp, Option.some.injEq, Prod.mk.injEq] at hrun
      obtain ⟨rfl, rfl, rfl⟩ := hrun
      refine ⟨ih.todo, ih.own, ih.clones, ⟨_, gs, by rw [hh]; exact hr, ?_, ?_⟩, ?_⟩
      · simpa [shown] using ha
      · simpa [shown, output] using hl
      · simpa [shown] using ih.poison
    | drop x =>
      obtain ⟨es, hs, rfl, rfl⟩ := runOp_call hrun
      simp only [step] at hs
      split at hs
      · simp only [Option.some.injEq, Prod.mk.injEq] at hs
        obtain ⟨rfl, rfl⟩ := hs
        refine ⟨ih.todo, ih.own, ih.clones, ⟨[], [], by simpa [hh] using AppRest.nil, ?_, ?_⟩, ?_⟩
        · simpa using ha
        · simpa using hl
        · simpa using ih.poison
      · simp at hs
    | reply x vs g hg =>
      obtain ⟨es, hs, rfl, rfl⟩ := runOp_call hrun
      simp only [adds] at hg
      simp only [step, hg, Sys.enqueue] at hs
      split at hs
      · have hans : ∀ e, (e = .enqueued (.reply x) g ∨ e = .sendFailed (.reply x) g) →
            answered [e] = [(x, g)] ∧ p.owes cfg.ext.fin e = [] ∧ p.lines cfg.ext.fin e = [] := by
          rintro e (rfl | rfl) <;> simp [answered, AppProg.owes, AppProg.lines]
        split at hs
        all_goals
          simp only [Option.some.injEq, Prod.mk.injEq] at hs
          obtain ⟨rfl, rfl⟩ := hs
          refine ⟨ih.todo, ih.own, ih.clones, ⟨[], [], by simpa [hh] using AppRest.nil, ?_, ?_⟩, ?_⟩
        all_goals first
          | (obtain ⟨a1, a2, a3⟩ := hans _ (Or.inl rfl)
             first
               | (simpa [shown_append, shown_ev, answered_append, a1, a2, shown] using ha; done)
               | (simpa [shown_append, shown_ev, output_append, output_ev, a3, shown, output] using hl; done)
               | (intro hp'
                  obtain ⟨e, he, hu⟩ := ih.poison hp'
                  exact ⟨e, by simp [shown_append, he], hu⟩))
          | (obtain ⟨a1, a2, a3⟩ := hans _ (Or.inr rfl)
             first
               | (simpa [shown_append, shown_ev, answered_append, a1, a2, shown] using ha; done)
               | (simpa [shown_append, shown_ev, output_append, output_ev, a3, shown, output] using hl; done)
               | (intro hp'
                  obtain ⟨e, he, hu⟩ := ih.poison hp'
                  exact ⟨e, by simp [shown_append, he], hu⟩))
      · simp at hs
  | quiet a s' es k h2 h3 h4 hs =>
    obtain ⟨m1, m2, m3⟩ := quiet_owes (p := p) (fin := cfg.ext.fin) h4
    refine ⟨ih.todo, k.own ih.own, by rw [← ih.clones]; exact k.clones, ⟨ls, gs, by simpa [h2] using hr, ?_, ?_⟩, ?_⟩
    · simpa [shown_append, shown_ev, answered_append, m1, m3] using ha
    · simpa [shown_append, shown_ev, output_append, output_ev, m2] using hl
    · intro hp'
      obtain ⟨e, he, hu⟩ := ih.poison (h3 ▸ hp')
      exact ⟨e, by simp [shown_append, he], hu⟩
  | called w b s' e rest ops k h2 hs h3 h4 h5 h6 h7 =>
    rw [h2] at hr
    obtain ⟨m1, m2, m3⟩ := quiet_owes (p := p) (fin := cfg.ext.fin) h4
    have hh : t.sys.handles = [] ∧ gs = [] ∧ ls = [] := by
      generalize t.sys.handles = hs at hr
      cases hr
      exact ⟨rfl, rfl, rfl⟩
    obtain ⟨hh, rfl, rfl⟩ := hh
    have hb : AppRest p ops (p.lines cfg.ext.fin (.eff e)) (p.owes cfg.ext.fin (.eff e)) e.handle.toList ∧
        (b = true → Unprintable cfg.ext.fin (.eff e)) := by
      rcases h7 with ⟨_, hb, rfl⟩ | ⟨hb', hb⟩
      · exact ⟨(body_panic hb).1, fun _ => (body_panic hb).2⟩
      · exact ⟨body_rest hp hb, fun h => by simp [hb'] at h⟩
    have hsh : shown (tr ++ (Ev.received w :: Ev.eff e :: rest).map .ev) = shown tr ++ (.received w :: .eff e :: rest) := by
      rw [shown_append, shown_ev]
    refine ⟨ih.todo, k.own ih.own, by rw [← ih.clones]; exact k.clones, ⟨_, _, by simpa [h5, hh] using hb.1, ?_, ?_⟩, ?_⟩
    · rw [hsh, answered_append, show (Ev.received w :: Ev.eff e :: rest) = [Ev.received w, Ev.eff e] ++ rest from rfl,
        answered_append, m3, List.flatMap_append, ← ha]
      simp [answered, m1, show p.owes cfg.ext.fin (.received w) = [] from rfl]
    · rw [hsh, output_append, output_ev, List.flatMap_append, ← hl]
      rw [List.flatMap_cons, List.flatMap_cons, m2, show p.lines cfg.ext.fin (.received w) = [] from rfl]
      simp
    · intro hp'
      rw [h6, Bool.or_eq_true] at hp'
      rcases hp' with hp' | hp'
      · obtain ⟨x, hx, hu⟩ := ih.poison hp'
        exact ⟨x, by rw [hsh]; simp [hx], hu⟩
      · exact ⟨.eff e, by rw [hsh]; simp, hb.2 hp'⟩

end SIO
