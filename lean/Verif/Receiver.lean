import Verif.Callbacks
import Verif.Deserialize
/-
Model of socket-io-client/src/receiver.rs.
-/
namespace SIO

/-- receiver.rs:18-30 -/
inductive RErr where
  | engine (e : EErr)
  | socket (e : SErr)
  | args (e : AErr)
  | eventNoArgs (p : Packet)
  | unexpectedAck (p : Packet)

/-- Environment of the receiver: the parts of the JSON library left open, and whether info
logging is on (receiver.rs:127 formats every packet then). -/
structure RCfg where
  ext : Ext
  logInfo : Bool

/-- receiver.rs:40-43 -/
structure InProgress where
  part : Parse
  attachments : List EMsg
deriving Repr, DecidableEq

/-- receiver.rs:32-38.  The send queue and the registry are shared with the client and are not
part of this state; `open` is whether the sender of the open channel is still there. -/
structure RState where
  decoder : EState
  inProgress : Option InProgress
  openTx : Bool
deriving Repr, DecidableEq

/-- receiver.rs:46-58 -/
def RState.new : RState := ⟨EState.new, none, true⟩

/-- A reply handle passed to an event callback (emit.rs:24-29 and 105-116): the namespace and
the id to reply to. -/
structure AckHandle where
  ns : Str
  id : Nat
deriving Repr, DecidableEq

/-- What processing a message does outside of the receiver. -/
inductive Eff where
  /-- receiver.rs:80: the open information is sent to the connecting task. -/
  | opened (o : Open)
  /-- receiver.rs:82: the warning "Received second open engine packet". -/
  | secondOpen (o : Open)
  /-- receiver.rs:92: a group of messages is put into the send queue. -/
  | enqueue (group : List Ws)
  /-- receiver.rs:146: the event callback found for a namespace and event name is called. -/
  | event (ns name : Str) (cb : Cb) (args : Args) (ack : Option AckHandle)
  /-- receiver.rs:156: the ack callback found for a namespace and id is called. -/
  | ack (ns : Str) (id : Nat) (cb : Cb) (args : Args)
deriving Repr, DecidableEq

/-- Everything a call of the receiver does: new state, new registry, effects, result. -/
structure ROut where
  st : RState
  reg : Callbacks
  effs : List Eff
  res : Res RErr Unit

/-- A `Result<_, Empty>` in the receiver. -/
def Res.absurdErr {α ε : Type} : Res Empty α → Res ε α
  | .ok a => .ok a
  | .panic => .panic

/-- receiver.rs:126-163 (`process_packet`): registry, effects, result.  (The receiver state does
not change.  What the callback does is not part of this model.) -/
def processPacket (cfg : RCfg) (reg : Callbacks) (pk : Packet) : Callbacks × List Eff × Res RErr Unit :=
  if cfg.logInfo ∧ (pk.display cfg.ext.fin) = .panic then (reg, [], .panic)
  else
    match pk.namespace_ with
    | .panic => (reg, [], .panic)
    | .ok ns =>
      match pk.data with
      | .panic => (reg, [], .panic)
      | .ok .connect => (reg, [], .ok ())
      | .ok .disconnect => (reg, [], .ok ())
      | .ok (.event id args) =>
        match args.get 0 with
        | .panic => (reg, [], .panic)
        | .ok none => (reg, [], .err (.eventNoArgs pk))
        | .ok (some a) =>
          match a.deserialize cfg.ext .str with
          | .panic => (reg, [], .panic)
          | .err e => (reg, [], .err (.args e))
          | .ok (.str name) =>
            match reg.getEvent ns name with
            | some cb => (reg, [.event ns name cb args (id.map fun i => ⟨ns, i⟩)], .ok ())
            | none => (reg, [], .ok ())
          | .ok _ => (reg, [], .panic)  -- a string was asked for, see `deserialize_str_ok`
      | .ok (.ack id args) =>
        match reg.getAndClearAck ns id with
        | (some cb, reg') => (reg', [.ack ns id cb args], .ok ())
        | (none, reg') => (reg', [], .err (.unexpectedAck pk))

/-- receiver.rs:101-122: an engine message. -/
def processEngineMessage (cfg : RCfg) (st : RState) (reg : Callbacks) (m : EMsg) : ROut :=
  match st.inProgress with
  | some ip =>
    let st' := { st with inProgress := none }
    let ms := ip.attachments ++ [m]
    match partialAttachments ip.part with
    | .panic => ⟨st', reg, [], .panic⟩
    | .ok n =>
      if n = ms.length then
        match deserializePartial ip.part ms with
        | .panic => ⟨st', reg, [], .panic⟩
        | .err e => ⟨st', reg, [], .err (.socket e)⟩
        | .ok pk =>
          let (reg', effs, r) := processPacket cfg reg pk
          ⟨st', reg', effs, r⟩
      else ⟨{ st with inProgress := some ⟨ip.part, ms⟩ }, reg, [], .ok ()⟩
  | none =>
    match deserialize m with
    | .panic => ⟨st, reg, [], .panic⟩
    | .err e => ⟨st, reg, [], .err (.socket e)⟩
    | .ok (.packet pk) =>
      let (reg', effs, r) := processPacket cfg reg pk
      ⟨st, reg', effs, r⟩
    | .ok (.dataNeeded q) => ⟨{ st with inProgress := some ⟨q, []⟩ }, reg, [], .ok ()⟩

/-- receiver.rs:73-124 (`process_message`) -/
def processMessage (cfg : RCfg) (st : RState) (reg : Callbacks) (w : Ws) : ROut :=
  let (dec, r) := decode st.decoder w
  let st := { st with decoder := dec }
  match r with
  | .panic => ⟨st, reg, [], .panic⟩
  | .err e => ⟨st, reg, [], .err (.engine e)⟩
  | .ok (.opened o) =>
    if st.openTx then ⟨{ st with openTx := false }, reg, [.opened o], .ok ()⟩
    else ⟨st, reg, [.secondOpen o], .ok ()⟩
  | .ok .close => ⟨st, reg, [], .ok ()⟩
  | .ok .ping => ⟨st, reg, [.enqueue [encodePong]], .ok ()⟩
  | .ok .pong => ⟨st, reg, [], .ok ()⟩
  | .ok (.message m) => processEngineMessage cfg st reg m

/-- receiver.rs:60-71 (`process_websocket_packet`) -/
def processWs (cfg : RCfg) (st : RState) (reg : Callbacks) (w : Ws) : ROut :=
  match w with
  | .close => ⟨st, reg, [], .ok ()⟩
  | .ping _ => ⟨st, reg, [], .ok ()⟩
  | .pong _ => ⟨st, reg, [], .ok ()⟩
  | .text t => processMessage cfg st reg (.text t)
  | .binary b => processMessage cfg st reg (.binary b)

end SIO
