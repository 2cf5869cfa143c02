import Verif.Client
import Verif.Args
/-
The example programs of the crate as users of the client: socket-io-client/examples/socketio_test.rs and
socket-io-client/examples/ws_connect.rs.

A program connects, then its main function does its calls one after the other, while the connection task runs on
another thread.  A callback runs inside the task, which does nothing else meanwhile, and holds the lock of the registry,
so the calls of the main function that need the lock wait.  Printing to the standard output itself always succeeds; the
text of the arguments may not be printable (`Display for Args`), then the callback panics before its line is there.
-/
namespace SIO

/-- One thing a function of the program does. -/
inductive MOp where
  /-- a call of the client -/
  | call (a : Act)
  /-- `println!` -/
  | print (line : Str)
  /-- `timeout.await` -/
  | wait

/-- A program. -/
structure AppProg where
  /-- the main function after `connect` -/
  main : List MOp
  /-- what an event callback prints before the arguments -/
  eventLine : Cb → Str
  /-- what the ack callback prints before the arguments -/
  ackLine : Str
  /-- the reply of an event callback that replies -/
  answer : Cb → Option (List Spec.SVal)

/-- A running program: the client, what is left of the main function and of the callback that runs. -/
structure PSys where
  sys : Sys
  todo : List MOp
  callback : List MOp

/-- The main function goes on, the callback that runs goes on, or the client does something by itself. -/
inductive PAct where
  | main
  | callback
  | env (a : Act)

/-- An observation of the client, or a line printed by the main function or by a callback. -/
inductive PEv where
  | ev (e : Ev)
  | printed (inMain : Bool) (line : Str)

def AppProg.init (p : AppProg) : PSys := ⟨Sys.init, p.main, []⟩

/-- The calls that take the lock of the registry, lib.rs:187-204 and emit.rs:94-97. -/
def MOp.locks : MOp → Bool
  | .call (.reg _) => true
  | .call .emitSend => true
  | _ => false

/-- What happens without the program: the connection task (which the callback belongs to) … -/
def Act.ofTask : Act → Bool
  | .streamErr _ => true
  | .streamEnd => true
  | .dequeue => true
  | .write => true
  | .writeFail _ => true
  | .endGroup => true
  | .seeClose => true
  | .dropTask => true
  | _ => false

/-- … and the calls of `connect` and `close` that wait. -/
def Act.ofAwait : Act → Bool
  | .handshakeOk => true
  | .handshakeFail _ => true
  | .handshakeTimeout => true
  | .spawnFail => true
  | .openReady => true
  | .openTimeout => true
  | .closeReady => true
  | .closeTimeout => true
  | _ => false

/-- The callback that is called by an action. -/
def called : List Ev → Option Eff
  | [] => none
  | .eff e :: evs => if e.isCall then some e else called evs
  | _ :: evs => called evs

/-- A reply handle the callback does not use is dropped when it returns or panics. -/
def unused : Option AckHandle → List MOp
  | some h => [.call (.dropHandle h)]
  | none => []

/-- socketio_test.rs:49-56,62-64 and ws_connect.rs:53,58-60: what the callbacks do. -/
def AppProg.body (p : AppProg) (fin : Str → Bool) : Eff → Res Empty (List MOp)
  | .event _ _ cb args ack => do
    let t ← args.display fin
    return .print (p.eventLine cb ++ t) ::
      match p.answer cb with
      | none => unused ack
      | some vs =>
        match ack with
        | none => []
        | some h => [.print "Emitting ack".toList, .call (.reply h false vs)]
  | .ack _ _ _ args => do
    let t ← args.display fin
    return [.print (p.ackLine ++ t)]
  | _ => .ok []

/-- What is left when a callback panics. -/
def unwind : Eff → List MOp
  | .event _ _ _ _ ack => unused ack
  | _ => []

/-- The main function does not go on after a panic, or after the `?` of ws_connect.rs:61-63. -/
def Ev.aborts : Ev → Bool
  | .userPanic => true
  | .sendFailed .raw _ => true
  | _ => false

/-- One operation of a function of the program; the result also says whether that function does not go on. -/
def runOp (cfg : RCfg) (inMain : Bool) (s : Sys) : MOp → Option (Sys × List PEv × Bool)
  | .call a =>
    match step cfg s a with
    | none => none
    | some (s', evs) => some (s', evs.map .ev, evs.any Ev.aborts)
  | .print line => some (s, [.printed inMain line], false)
  | .wait => some (s, [], false)

/-- One action of a running program. -/
def pstep (cfg : RCfg) (p : AppProg) (t : PSys) : PAct → Option (PSys × List PEv)
  | .main =>
    match t.todo with
    | [] => none
    | op :: rest =>
      if t.sys.client ∧ (op.locks → t.callback.isEmpty) then
        match runOp cfg true t.sys op with
        | none => none
        -- when main does not go on, the client is dropped
        | some (s', evs, aborted) => some (⟨s', if aborted then [.call .dropClient] else rest, t.callback⟩, evs)
      else none
  | .callback =>
    match t.callback with
    | [] => none
    | op :: rest =>
      match runOp cfg false t.sys op with
      | none => none
      | some (s', evs, _) => some (⟨s', t.todo, rest⟩, evs)
  | .env (.recv w panics) =>
    if t.callback.isEmpty then
      match step cfg t.sys (.recv w panics) with
      | none => none
      | some (s', evs) =>
        match called evs with
        | none => if panics then none else some (⟨s', t.todo, []⟩, evs.map .ev)
        | some e =>
          match p.body cfg.ext.fin e with
          | .panic => if panics then some (⟨s', t.todo, unwind e⟩, evs.map .ev) else none
          | .ok ops => if panics then none else some (⟨s', t.todo, ops⟩, evs.map .ev)
    else none
  | .env a =>
    if a.ofAwait ∨ (a.ofTask ∧ t.callback.isEmpty) then
      match step cfg t.sys a with
      | none => none
      | some (s', evs) => some (⟨s', t.todo, t.callback⟩, evs.map .ev)
    else none

/-- A schedule of a running program. -/
def pexec (cfg : RCfg) (p : AppProg) (t : PSys) : List PAct → Option (PSys × List PEv)
  | [] => some (t, [])
  | a :: as =>
    match pstep cfg p t a with
    | none => none
    | some (t', evs) =>
      match pexec cfg p t' as with
      | none => none
      | some (t'', evs') => some (t'', evs ++ evs')

/-- socketio_test.rs:49-76.  `arg` cannot fail for these two arguments. -/
def socketioTest : AppProg where
  main := [
    .call (.reg (.setFallback ['/'] 0)),
    .call (.reg (.setEvent ['/'] "types".toList 1)),
    .print "Callbacks registered".toList,
    .call (.emitStart ['/'] "event".toList),
    .call (.emitBinary true),
    .call .emitCallback,
    .call .emitArgs,
    .call (.emitArg (.seq [.u8 0xde, .u8 0xad, .u8 0xbe, .u8 0xef])),
    .call (.emitArg (.str "hello".toList)),
    .call .emitSend,
    .call .emitEnqueue,
    .wait,
    .call .closeStart,
    .call .dropClient]
  eventLine := fun cb => if cb = 1 then "types messaged received: ".toList else []
  ackLine := "event ack received: ".toList
  answer := fun cb => if cb = 1 then some [Spec.SVal.str "message received".toList] else none

/-- ws_connect.rs:53-70 -/
def wsConnect (ns : Option Str) : AppProg where
  main := .call (.reg (.setFallback ['/'] 0)) ::
    ((match ns with
      | none => []
      | some n => [.call (.reg (.setFallback n 1)), .call (.rawSend [.text ("40".toList ++ n ++ [','])])]) ++
    [.wait, .call .closeStart, .call .dropClient])
  eventLine := fun cb =>
    match ns with
    | none => []
    | some n => if cb = 1 then n ++ ": ".toList else []
  ackLine := []
  answer := fun _ => none

end SIO
