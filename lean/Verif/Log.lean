import Verif.ErrorText
/-
What the client logs: socket-io-client/src/{connection,receiver}.rs, every use of the `log` macros of the library, with
logging on for all levels (so `logInfo` is on).  A log at a smaller level is the part of this one at that level.  What a
logger adds to a line (time, module, level) is not part of it.
-/
namespace SIO

/-- The levels used. -/
inductive Level where
  | warn
  | info
  | debug
  | trace
deriving Repr, DecidableEq

/-- One record. -/
structure Line where
  level : Level
  text : Str
deriving Repr, DecidableEq

/-- What other crates print into the log: also `{:?}` of a websocket error. -/
structure LogPrints extends Prints where
  websocketDebug : Nat → Str

/-- The derived `Debug` of `engine::Open` (engine.rs:19-25). -/
def dbgOpen (p : Prints) (o : Open) : Str :=
  "Open { sid: ".toList ++ dbgStr p o.sid ++ ", ping_timeout: ".toList ++ natDec o.pingTimeout ++ ", ping_interval: ".toList ++
    natDec o.pingInterval ++ " }".toList

/-- The derived `Debug` of `engine::Message` (engine.rs:27-31): `OwnedSubslice` prints what it dereferences to
(owned_subslice/src/lib.rs:75-83). -/
def dbgEMsg (p : Prints) : EMsg → Option Str
  | .text t => t.deref.map fun s => "Text(".toList ++ dbgStr p s ++ ")".toList
  | .binary b => b.deref.map fun s => "Binary(".toList ++ dbgBytes s ++ ")".toList

/-- receiver.rs:127,131,135.  Nothing is logged if formatting panics. -/
def packetLines (cfg : RCfg) (pk : Packet) : List Line :=
  match pk.display cfg.ext.fin with
  | .ok x =>
    ⟨.info, "Received socket packet: ".toList ++ x⟩ ::
      match pk.namespace_, pk.data with
      | .ok ns, .ok .connect => [⟨.info, "Received connect for ".toList ++ ns⟩]
      | .ok ns, .ok .disconnect => [⟨.info, "Received disconnect for ".toList ++ ns⟩]
      | _, _ => []
  | _ => []

/-- The packet an engine message completes (receiver.rs:103-115, as in `processEngineMessage`). -/
def completes (st : RState) (m : EMsg) : Option Packet :=
  match st.inProgress with
  | some ip =>
    match partialAttachments ip.part with
    | .ok n =>
      if n = (ip.attachments ++ [m]).length then
        match deserializePartial ip.part (ip.attachments ++ [m]) with
        | .ok pk => some pk
        | _ => none
      else none
    | _ => none
  | none =>
    match deserialize m with
    | .ok (.packet pk) => some pk
    | _ => none

/-- receiver.rs:102 and what follows. -/
def messageLines (p : Prints) (cfg : RCfg) (st : RState) (m : EMsg) : List Line :=
  match dbgEMsg p m with
  | some t =>
    ⟨.trace, "Received message engine packet: ".toList ++ t⟩ ::
      match completes st m with
      | some pk => packetLines cfg pk
      | none => []
  | none => []

/-- receiver.rs:76-124; line 97 logs a pong as a ping. -/
def engineLines (p : Prints) (cfg : RCfg) (st : RState) (w : Ws) : List Line :=
  match (decode st.decoder w).2 with
  | .ok (.opened o) =>
    ⟨.trace, "Received open engine packet: ".toList ++ dbgOpen p o⟩ ::
      if st.openTx then [] else [⟨.warn, "Received second open engine packet: ".toList ++ dbgOpen p o⟩]
  | .ok .close => [⟨.trace, "Received close engine packet".toList⟩]
  | .ok .ping => [⟨.trace, "Received engine ping packet".toList⟩]
  | .ok .pong => [⟨.trace, "Received engine ping packet".toList⟩]
  | .ok (.message m) => messageLines p cfg st m
  | _ => []

/-- receiver.rs:60-71 -/
def wsLines (p : Prints) (cfg : RCfg) (st : RState) (w : Ws) : List Line :=
  ⟨.trace, "Received WebSocket packet: ".toList ++ dbgWs p w⟩ ::
    match w with
    | .close => [⟨.debug, "Closed with close frame ".toList ++ p.close⟩]
    | .ping _ => []
    | .pong _ => []
    | .text t => engineLines p cfg st (.text t)
    | .binary b => engineLines p cfg st (.binary b)

/-- connection.rs:152, before the first message of the list is written. -/
def sendLines (p : Prints) : List Ws → List Line
  | [] => []
  | w :: _ => [⟨.trace, "Sending websocket packet: ".toList ++ dbgWs p w⟩]

/-- What one action of the client logs. -/
def actLines (p : LogPrints) (cfg : RCfg) (s : Sys) : Act → List Line
  -- connection.rs:76
  | .openReady =>
    match s.openSlot with
    | some o => [⟨.trace, "Received open: ".toList ++ dbgOpen p.toPrints o⟩]
    | none => []
  -- connection.rs:132,142 and 171
  | .recv w _ =>
    match s.task with
    | .running =>
      ⟨.trace, "received message: ".toList ++ ("Ok(".toList ++ dbgWs p.toPrints w ++ ")".toList)⟩ :: wsLines p.toPrints cfg s.rx w
    | _ => wsLines p.toPrints cfg s.rx w
  -- connection.rs:132
  | .streamErr e =>
    match s.task with
    | .running => [⟨.trace, "received message: ".toList ++ ("Err(".toList ++ p.websocketDebug e ++ ")".toList)⟩]
    | _ => []
  -- connection.rs:136
  | .streamEnd =>
    match s.task with
    | .running => [⟨.trace, "got None, stream ended".toList⟩]
    | _ => []
  -- connection.rs:151-153
  | .dequeue =>
    match s.queue with
    | g :: _ => sendLines p.toPrints g
    | [] => []
  | .write =>
    match s.task with
    | .writing (_ :: rest) => sendLines p.toPrints rest
    | _ => []
  -- connection.rs:166
  | .seeClose => [⟨.debug, "Sending close message".toList⟩]
  | _ => []

/-- What a schedule logs, in order. -/
def execLines (p : LogPrints) (cfg : RCfg) (s : Sys) : List Act → List Line
  | [] => []
  | a :: as =>
    match step cfg s a with
    | none => []
    | some (s', _) => actLines p cfg s a ++ execLines p cfg s' as

end SIO
