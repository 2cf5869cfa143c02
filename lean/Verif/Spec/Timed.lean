import Verif.Timed
/-
Executions with time.
-/
namespace SIO.Spec

/-- The execution the schedule `acts` leads to, with the time of every observation in milliseconds. -/
def TRuns (cfg : RCfg) (acts : List TAct) (t : TSys) (tr : List (Nat × Ev)) : Prop :=
  texec cfg TSys.init acts = some (t, tr)

/-- How much time passes in a schedule. -/
def elapsed : List TAct → Nat
  | [] => 0
  | .wait n :: as => n + elapsed as
  | _ :: as => elapsed as

/-- The function passed to `connect` returns its stream at time `t0`. -/
def DialedAt (acts : List TAct) (t0 : Nat) : Prop := ∃ a b, acts = a ++ .dialed :: b ∧ elapsed a = t0

/-- Nothing `Connection::new` waits for has come, and no error either. -/
def NothingReady (s : Sys) (hs : Option Handshake) : Prop :=
  (s.phase = .handshake ∧ (hs = none ∨ hs = some .ok)) ∨
  (s.phase = .waitOpen ∧ s.openSlot = none ∧ s.task.live = true)

/-- What `Connection::new` returns if it is not for the timer. -/
def ReadyResult (s : Sys) (hs : Option Handshake) (r : Res CErr Str) : Prop :=
  (s.phase = .handshake ∧ ∃ e, hs = some (.fail e) ∧ r = .err (.websocket e)) ∨
  (s.phase = .handshake ∧ hs = some .spawnFail ∧ r = .err .spawn) ∨
  (s.phase = .waitOpen ∧ ∃ x, s.openSlot = some x ∧ r = .ok x.sid) ∨
  (s.phase = .waitOpen ∧ s.openSlot = none ∧ s.task.live = false ∧ r = .panic)

/-- What the timer makes of it. -/
def TimerResult (s : Sys) (hs : Option Handshake) (r : Res CErr Str) : Prop :=
  (s.phase = .handshake ∧ r = .err (.timeout .handshake)) ∨
  ((s.phase = .waitOpen ∨ hs = some .ok) ∧ r = .err (.timeout .openPacket))

/-- Actions that are part of `connect` or of `close`. -/
def OfCall (a : Act) : Prop :=
  a = .handshakeOk ∨ (∃ e, a = .handshakeFail e) ∨ a = .handshakeTimeout ∨ a = .spawnFail ∨ a = .openReady ∨ a = .openTimeout ∨
  a = .closeStart ∨ a = .closeReady ∨ a = .closeTimeout

end SIO.Spec
