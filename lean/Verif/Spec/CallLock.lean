import Verif.CallLock
/-
What is to be seen of callbacks that may be called by several threads, and the order in which
mutexes may be taken.
-/
namespace SIO.Spec

/-- The thread of what was seen. -/
def CbEv.thread : CbEv → Nat
  | .start _ i _ => i
  | .done _ i => i
  | .ack _ i => i
  | .panic i => i

/-- Two calls of one callback never overlap: the first has returned before the second starts. -/
def OneAtATime (es : List CbEv) : Prop :=
  ∀ pre mid post m i j k k', es = pre ++ .start m i k :: (mid ++ .start m j k' :: post) → .done m i ∈ mid

/-- The calls of a callback are numbered: the closure has seen exactly the calls before. -/
def Numbered (es : List CbEv) : Prop :=
  ∀ pre post m i k, es = pre ++ .start m i k :: post →
    k = (pre.filter fun e => match e with | .start n _ _ => decide (n = m) | _ => false).length

/-- A thread that panicked does nothing any more. -/
def PanicEnds (es : List CbEv) : Prop :=
  ∀ pre post i, es = pre ++ .panic i :: post → ∀ e ∈ post, CbEv.thread e ≠ i

/-- A thread panicked while it was in the callback. -/
def PanickedIn (m : Cb) (es : List CbEv) : Prop :=
  ∃ pre mid post i k, es = pre ++ .start m i k :: (mid ++ .panic i :: post) ∧ .done m i ∉ mid

/-- The mutex that an action takes first. -/
def takes : UserAct → Option Lk
  | .reg c _ => some (.reg c)
  | .call m => some (.cell m)
  | _ => none

/-- What an operation may put into the registry of client `c`. -/
def Allowed (may mayAck : Nat → Cb → Prop) (c : Nat) : RegOp → Prop
  | .setEvent _ _ m => may c m
  | .setFallback _ m => may c m
  | .setAck _ _ cb => mayAck c cb
  | _ => True

/-- The actions are allowed, and take only mutexes above `n`. -/
def Above (rank : Lk → Nat) (may mayAck : Nat → Cb → Prop) (n : Nat) (as : List UserAct) : Prop :=
  (∀ a ∈ as, ∀ l, takes a = some l → n < rank l) ∧ ∀ c op, .reg c op ∈ as → Allowed may mayAck c op

/-- The mutexes can be ranked so that a callback takes only mutexes above its own and above those of the
clients it may be registered with. -/
structure Ordered (beh : Behaviour) (rank : Lk → Nat) (may mayAck : Nat → Cb → Prop) : Prop where
  bounded : ∃ b, ∀ l, rank l ≤ b
  clients : ∀ c m, may c m → rank (.reg c) < rank (.cell m)
  events : ∀ m k, Above rank may mayAck (rank (.cell m)) (beh.event m k)
  acks : ∀ c cb, mayAck c cb → Above rank may mayAck (rank (.reg c)) (beh.ack cb)

/-- What is registered at the beginning, and by the threads, is allowed. -/
structure Fair (may mayAck : Nat → Cb → Prop) (reg : Nat → Callbacks) (progs : Nat → Prog) : Prop where
  events : ∀ c ns n, (reg c).namespaces.get ns = some n →
    (∀ ev m, n.events.get ev = some m → may c m) ∧ (∀ m, n.fallback = some m → may c m) ∧
    ∀ id cb, n.acks.get id = some cb → mayAck c cb
  progs : ∀ i as, progs i = .app as → ∀ c op, .reg c op ∈ as → Allowed may mayAck c op

/-- Thread `i`, the connection task of client `c`, has the registry and serves a message; `rest` is what it does
afterwards.  An event: it enters the callback that the registry holds for it at this moment, or there is
none.  An ack: it takes the callback out of the registry and starts it, or there is none. -/
def Serves (beh : Behaviour) (c i : Nat) (rest : List XInstr) (s : XState) : CbMsg → Prop
  | .event ns name => s.holder (.reg c) = some i ∧
      (((s.reg c).getEvent ns name = none ∧ s.code i = .event c ns name :: .unlock c :: rest) ∨
      ∃ m k s', (s.reg c).getEvent ns name = some m ∧ s.code i = .call m :: .unlock c :: rest ∧
        xstep beh s i = some (s', [.start m i k]) ∧ s'.code i = acts (beh.event m k) ++ .ret m :: .unlock c :: rest)
  | .ack ns id => s.holder (.reg c) = some i ∧ s.code i = .ack c ns id :: .unlock c :: rest ∧ ∃ s',
      (s'.reg c).getAndClearAck ns id = (none, s'.reg c) ∧
      ((((s.reg c).getAndClearAck ns id).1 = none ∧ xstep beh s i = some (s', []) ∧ s'.code i = .unlock c :: rest) ∨
      ∃ cb, ((s.reg c).getAndClearAck ns id).1 = some cb ∧ xstep beh s i = some (s', [.ack cb i]) ∧
        s'.code i = acts (beh.ack cb) ++ .unlock c :: rest)

/-- The changes of the registry of client `c` in a schedule. -/
def regChanges (beh : Behaviour) (c : Nat) : XState → List Nat → List RegOp
  | _, [] => []
  | s, i :: is =>
    (match s.code i with
      | .op d op :: _ => if d = c then [op] else []
      | .ack d ns id :: _ => if d = c then [.takeAck ns id] else []
      | _ => []) ++
    match xstep beh s i with
    | none => []
    | some (s', _) => regChanges beh c s' is

end SIO.Spec
