import Verif.Client
/-
Time and polls: the futures of `Connection::new` and `Connection::close` with their `Delay`, on top of the client
machine.  Everything else of the machine is untimed.

`select!` polls its branches in random order and takes the first one that is ready; it is pending if none is.
A `Delay` is ready at every poll at or after its deadline.
-/
namespace SIO

/-- lib.rs:155: ten seconds, in milliseconds. -/
def timeLimit : Nat := 10 * 1000

/-- How the websocket handshake and the spawning of the task end, connection.rs:48,53,62-70. -/
inductive Handshake where
  | ok
  | fail (e : Nat)
  | spawnFail
deriving Repr, DecidableEq

def Handshake.act : Handshake → Act
  | .ok => .handshakeOk
  | .fail e => .handshakeFail e
  | .spawnFail => .spawnFail

/-- `select!` of two branches, each with what happens if it is taken, or `none` if it is not ready. -/
def select {α : Type} (a b : Option α) (bFirst : Bool) : Option α :=
  match a, b with
  | none, b => b
  | some x, none => some x
  | some x, some y => some (if bFirst then y else x)

/-- connection.rs:72-75: the second `select!`. -/
def pollOpen (cfg : RCfg) (s : Sys) (timer : Bool) (timerFirst : Bool) : Sys × List Ev :=
  (select (step cfg s .openReady) (if timer then step cfg s .openTimeout else none) timerFirst).getD (s, [])

/-- connection.rs:52-75: a poll of `Connection::new`.  The handshake is ready with a result or not, the timer has
run out or not; if the handshake is over, the second `select!` belongs to the same poll. -/
def pollConnect (cfg : RCfg) (s : Sys) (timer : Bool) (hs : Option Handshake) (timerFirst timerFirst' : Bool) :
    Sys × List Ev :=
  match s.phase with
  | .handshake =>
    match select (hs.bind fun r => step cfg s r.act) (if timer then step cfg s .handshakeTimeout else none) timerFirst with
    | none => (s, [])
    | some (s1, evs) =>
      match s1.phase with
      | .waitOpen =>
        let (s2, evs') := pollOpen cfg s1 timer timerFirst'
        (s2, evs ++ evs')
      | _ => (s1, evs)
  | _ => pollOpen cfg s timer timerFirst'

/-- connection.rs:99-102: the `select!` of `close`. -/
def pollClose (cfg : RCfg) (s : Sys) (timer : Bool) (timerFirst : Bool) : Sys × List Ev :=
  (select (step cfg s .closeReady) (if timer then step cfg s .closeTimeout else none) timerFirst).getD (s, [])

/-- The machine with a clock. -/
structure TSys where
  sys : Sys
  now : Nat
  /-- connection.rs:46: when the timer of `Connection::new` was started; that is after the function passed to
  `Client::connect` has returned, lib.rs:117-124 -/
  started : Option Nat
  /-- connection.rs:97: when the timer of the last `close` was started -/
  closeAt : Nat

/-- The call of `Client::connect` or `Client::from_stream`. -/
def TSys.init : TSys := ⟨Sys.init, 0, none, 0⟩

/-- Actions with time. -/
inductive TAct where
  /-- time passes -/
  | wait (n : Nat)
  /-- the function passed to `Client::connect` has returned a stream; `Connection::new` begins -/
  | dialed
  /-- `Connection::new` is polled -/
  | pollConnect (hs : Option Handshake) (timerFirst timerFirst' : Bool)
  /-- `close` is called and polled for the first time -/
  | close (timerFirst : Bool)
  /-- the waiting `close` is polled again -/
  | pollClose (timerFirst : Bool)
  /-- anything else -/
  | other (a : Act)

/-- The actions that are part of a poll. -/
def Act.inPoll : Act → Bool
  | .handshakeOk => true
  | .handshakeFail _ => true
  | .handshakeTimeout => true
  | .spawnFail => true
  | .openReady => true
  | .openTimeout => true
  | .closeStart => true
  | .closeReady => true
  | .closeTimeout => true
  | _ => false

/-- `Connection::new` has not returned and its future is still there. -/
def Phase.waiting : Phase → Bool
  | .handshake => true
  | .waitOpen => true
  | _ => false

/-- One action with time; `none` if it is not possible. -/
def tstep (cfg : RCfg) (t : TSys) : TAct → Option (TSys × List Ev)
  | .wait n => some ({ t with now := t.now + n }, [])
  | .dialed => if t.started = none then some ({ t with started := some t.now }, []) else none
  | .pollConnect hs o o' =>
    match t.started with
    | none => none
    | some t0 =>
      if t.sys.phase.waiting then
        let (s, evs) := pollConnect cfg t.sys (decide (t0 + timeLimit ≤ t.now)) hs o o'
        some ({ t with sys := s }, evs)
      else none
  | .close o =>
    match step cfg t.sys .closeStart with
    | none => none
    | some (s, evs) =>
      if s.closeCall then
        let (s', evs') := pollClose cfg s (decide (t.now + timeLimit ≤ t.now)) o
        some ({ t with sys := s', closeAt := t.now }, evs ++ evs')
      else some ({ t with sys := s }, evs)
  | .pollClose o =>
    if t.sys.closeCall then
      let (s, evs) := pollClose cfg t.sys (decide (t.closeAt + timeLimit ≤ t.now)) o
      some ({ t with sys := s }, evs)
    else none
  | .other a =>
    if a.inPoll then none
    else
      match step cfg t.sys a with
      | none => none
      | some (s, evs) => some ({ t with sys := s }, evs)

/-- A schedule with time; the observations with the time of each. -/
def texec (cfg : RCfg) (t : TSys) : List TAct → Option (TSys × List (Nat × Ev))
  | [] => some (t, [])
  | a :: as =>
    match tstep cfg t a with
    | none => none
    | some (t', evs) =>
      match texec cfg t' as with
      | none => none
      | some (t'', tr) => some (t'', evs.map (fun e => (t.now, e)) ++ tr)

end SIO
