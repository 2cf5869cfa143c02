import Verif.Example
import Verif.Spec.Client
/-
What an execution of an example program shows.
-/
namespace SIO.Spec

/-- The execution of the program `p` the schedule `acts` leads to. -/
def PRuns (cfg : RCfg) (p : AppProg) (acts : List PAct) (t : PSys) (tr : List PEv) : Prop :=
  pexec cfg p p.init acts = some (t, tr)

/-- The observations of the client. -/
def shown (tr : List PEv) : List Ev :=
  tr.filterMap fun
    | .ev e => some e
    | _ => none

/-- The lines printed by the main function (`true`) or by the callbacks (`false`). -/
def output (inMain : Bool) (tr : List PEv) : List Str :=
  tr.filterMap fun
    | .printed m line => if m = inMain then some line else none
    | _ => none

/-- The groups of messages of events the program tried to send. -/
def emitted (tr : List Ev) : List (List Ws) :=
  tr.filterMap fun
    | .enqueued (.emit _ _) g => some g
    | .sendFailed (.emit _ _) g => some g
    | .sentElsewhere (.emit _ _) g => some g
    | _ => none

/-- The groups of messages the program tried to put into the queue by itself. -/
def rawSent (tr : List Ev) : List (List Ws) :=
  tr.filterMap fun
    | .enqueued .raw g => some g
    | .sendFailed .raw g => some g
    | _ => none

/-- The replies the program tried to send: the handle used and the messages. -/
def answered (tr : List Ev) : List (AckHandle × List Ws) :=
  tr.filterMap fun
    | .enqueued (.reply h) g => some (h, g)
    | .sendFailed (.reply h) g => some (h, g)
    | _ => none

/-- A callback was called with arguments that cannot be printed. -/
def Unprintable (fin : Str → Bool) : Ev → Prop
  | .eff (.event _ _ _ args _) => args.display fin = .panic
  | .eff (.ack _ _ _ args) => args.display fin = .panic
  | _ => False

/-- The messages of the event socketio_test.rs emits. -/
def theEvent : List Ws :=
  [.text "451-0[\"event\",{\"_placeholder\":true,\"num\":0},\"hello\"]".toList, .binary [4, 0xde, 0xad, 0xbe, 0xef]]

/-- The message it replies with. -/
def theReply (id : Nat) : Ws := .text ("43".toList ++ natDec id ++ "[\"message received\"]".toList)

/-- The replies socketio_test.rs owes: one for every call of its second callback with a reply
handle, unless the callback panics before. -/
def owed (fin : Str → Bool) (tr : List Ev) : List (AckHandle × List Ws) :=
  tr.filterMap fun
    | .eff (.event _ _ cb args (some h)) =>
      match args.display fin with
      | .ok _ => if cb = 1 then some (h, [theReply h.id]) else none
      | _ => none
    | _ => none

/-- The lines the callbacks of socketio_test.rs print. -/
def testLines (fin : Str → Bool) : Ev → List Str
  | .eff (.event _ _ cb args ack) =>
    match args.display fin with
    | .ok t =>
      if cb = 1 then
        ("types messaged received: ".toList ++ t) :: (if ack.isSome then ["Emitting ack".toList] else [])
      else [t]
    | _ => []
  | .eff (.ack _ _ _ args) =>
    match args.display fin with
    | .ok t => ["event ack received: ".toList ++ t]
    | _ => []
  | _ => []

/-- The registrations ws_connect.rs makes for the optional namespace. -/
def wsRegs (ns : Option Str) : List RegOp :=
  .setFallback ['/'] 0 :: (match ns with | some n => [.setFallback n 1] | none => [])

/-- The messages it sends. -/
def wsSent (ns : Option Str) : List (List Ws) :=
  match ns with
  | some n => [[.text ("40".toList ++ n ++ ",".toList)]]
  | none => []

/-- The lines its callbacks print. -/
def wsLines (ns : Option Str) (fin : Str → Bool) : Ev → List Str
  | .eff (.event _ _ cb args _) =>
    match args.display fin with
    | .ok t => [(match ns with | some n => (if cb = 1 then n ++ ": ".toList else []) | none => []) ++ t]
    | _ => []
  | _ => []

end SIO.Spec
