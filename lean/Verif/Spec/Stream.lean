import Verif.Spec.Receiver
import Verif.Props.EngineWire
/-
What a receiver has to do with everything it receives on a connection.
-/
namespace SIO.Spec

/-- How far a connection is. -/
inductive Stage where
  | fresh
  | opened
  | closed

/-- A websocket control frame. -/
def IsControl (w : Ws) : Prop := (∃ b, w = .ping b) ∨ (∃ b, w = .pong b) ∨ w = .close

/-- A sequence of messages as the engine protocol wants it, from a stage on: one open packet, then
pings, pongs, binary messages, and a close packet at the end.  Text messages may come before the
open packet (C10), control frames at any time. -/
inductive EngineOk : Stage → List Ws → Prop where
  | nil (s : Stage) : EngineOk s []
  | control {s : Stage} {w : Ws} {ws : List Ws} : IsControl w → EngineOk s ws → EngineOk s (w :: ws)
  | opening {w : Ws} {o : Open} {ws : List Ws} : Wire w (.opened o) → EngineOk .opened ws → EngineOk .fresh (w :: ws)
  | closing {w : Ws} {ws : List Ws} : Wire w .close → EngineOk .closed ws → EngineOk .opened (w :: ws)
  | ping {w : Ws} {ws : List Ws} : Wire w .ping → EngineOk .opened ws → EngineOk .opened (w :: ws)
  | pong {w : Ws} {ws : List Ws} : Wire w .pong → EngineOk .opened ws → EngineOk .opened (w :: ws)
  | binary {w : Ws} {b : List UInt8} {ws : List Ws} : Wire w (.binary b) → EngineOk .opened ws →
      EngineOk .opened (w :: ws)
  | text {s : Stage} {w : Ws} {t : List Char} {ws : List Ws} : s ≠ .closed → Wire w (.text t) → EngineOk s ws →
      EngineOk s (w :: ws)

/-- A call of a callback: where it was registered, and what it gets. -/
inductive Call where
  | event (ns name : List Char) (cb : Cb) (args : List (List Char)) (att : List (List UInt8)) (reply : Option AckHandle)
  | ack (ns : List Char) (id : Nat) (cb : Cb) (args : List (List Char)) (att : List (List UInt8))

/-- The effect is that call. -/
inductive IsCall : Eff → Call → Prop where
  | event {ns name : Str} {cb : Cb} {A : Args} {vs : List (List Char)} {bs : List (List UInt8)} {h : Option AckHandle} :
      ArgsShow A vs bs → IsCall (.event ns name cb A h) (.event ns name cb vs bs h)
  | ack {ns : Str} {id : Nat} {cb : Cb} {A : Args} {vs : List (List Char)} {bs : List (List UInt8)} :
      ArgsShow A vs bs → IsCall (.ack ns id cb A) (.ack ns id cb vs bs)

/-- The effects make these calls, in this order, and others that are no calls. -/
inductive Makes : List Eff → List Call → Prop where
  | nil : Makes [] []
  | call {e : Eff} {c : Call} {es : List Eff} {cs : List Call} : IsCall e c → Makes es cs → Makes (e :: es) (c :: cs)
  | other {e : Eff} {es : List Eff} {cs : List Call} : ¬ RunsCallback e → Makes es cs → Makes (e :: es) cs

/-- The argument can be put into the log: it reads as a JSON value whose placeholders have attachments
(C20, C21). -/
def Printable (fin : List Char → Bool) (bs : List (List UInt8)) (v : List Char) : Prop :=
  ∃ t doc u, IsVal t v ∧ Readable fin t ∧ Denotes t doc ∧ Gets fin doc u ∧ (bs = [] ∨ ∃ x, Filled bs u x)

/-- Whom to call: for an event of a namespace (or nobody), and for an ack. -/
structure Who where
  event : List Char → List Char → Option Cb → Prop
  ack : List Char → Nat → Cb → Prop

/-- Whom to call after a history of registrations. -/
def Who.after (h : List RegOp) : Who := ⟨InCharge h, LastAck h⟩

/-- What is to be called for a packet of the namespace. -/
inductive Acts (who : Who) (ns : List Char) : Body → List Call → Prop where
  | connect : Acts who ns .connect []
  | disconnect : Acts who ns .disconnect []
  | event {id : Option Nat} {v : List Char} {vs : List (List Char)} {bs : List (List UInt8)} {name : List Char} {cb : Cb} :
      NameOf v bs name → who.event ns name (some cb) →
      Acts who ns (.event id (v :: vs) bs) [.event ns name cb (v :: vs) bs (id.map fun i => ⟨ns, i⟩)]
  | unhandled {id : Option Nat} {v : List Char} {vs : List (List Char)} {bs : List (List UInt8)} {name : List Char} :
      NameOf v bs name → who.event ns name none → Acts who ns (.event id (v :: vs) bs) []
  | ack {id : Nat} {vs : List (List Char)} {bs : List (List UInt8)} {cb : Cb} :
      who.ack ns id cb → Acts who ns (.ack id vs bs) [.ack ns id cb vs bs]

/-- The arguments of a packet and its attachments. -/
def Body.content : Body → List (List Char) × List (List UInt8)
  | .connect => ([], [])
  | .disconnect => ([], [])
  | .event _ vs bs => (vs, bs)
  | .ack _ vs bs => (vs, bs)

/-- With info logging on every packet is printed first. -/
def Loggable (cfg : RCfg) (body : Body) : Prop :=
  cfg.logInfo = true → ∀ v ∈ body.content.1, Printable cfg.ext.fin body.content.2 v

/-- A packet text as it has to be: the parts, read with the longest namespace, numbers of 64 bits, and the
texts of the arguments. -/
structure Pkt.Reads (p : Pkt) (vs : List (List Char)) : Prop where
  wf : p.Wf
  longest : p.Longest
  fits : p.Fits
  args : p.ArgTexts vs

/-- The contents of engine messages are cut into packets, each a text and its attachments; each packet
is acted on with what is registered at its last message.  At the end there may be a packet that is not
complete. -/
inductive Dispatched (cfg : RCfg) : List (Who × Payload) → List Call → Prop where
  | done : Dispatched cfg [] []
  | waiting {p : Pkt} {vs : List (List Char)} {n : Nat} {who : Who} {ms : List (Who × Payload)} :
      p.Reads vs → p.kind ∈ ['5', '6'] → p.att = some n → ms.length < n →
      Dispatched cfg ((who, .text p.text) :: ms) []
  | packet {p : Pkt} {vs : List (List Char)} {bs : List (List UInt8)} {body : Body} {who : Who}
      {pl : Payload} {pre rest : List (Who × Payload)} {now later : List Call} :
      (pre ++ [(who, pl)]).map Prod.snd = .text p.text :: bs.map .binary → p.Reads vs → p.Means vs bs body →
      Loggable cfg body → Acts who (p.ns.getD ['/']) body now → Dispatched cfg rest later →
      Dispatched cfg (pre ++ (who, pl) :: rest) (now ++ later)

/-- The engine messages among the websocket messages, each with what is registered when it comes. -/
def marks (l : List (Who × Ws)) : List (Who × Payload) :=
  l.filterMap fun x => (payload? x.2).map fun pl => (x.1, pl)

end SIO.Spec
