import Verif.Log
import Verif.Spec.Client
import Verif.Spec.ErrorText
import Verif.Spec.Display
/-
What a log is to tell.
-/
namespace SIO.Spec

/-- What the line says after these words, if it begins with them. -/
def saidAfter (words : Str) (l : Line) : Option Str :=
  if words.isPrefixOf l.text then some (l.text.drop words.length) else none

/-- What the lines with these words say, in order. -/
def says (words : Str) (log : List Line) : List Str := log.filterMap (saidAfter words)

/-- The log of the schedule `acts` from the start. -/
def logOf (p : LogPrints) (cfg : RCfg) (acts : List Act) : List Line := execLines p cfg Sys.init acts

/-- The observations before the task sees the request to close. -/
def beforeClose (tr : List Ev) : List Ev :=
  tr.takeWhile fun
    | .closeSeen => false
    | _ => true

/-- `x` shows a call of a callback: the id of the packet and the arguments the callback gets. -/
inductive CallShown (fin : Str → Bool) : Eff → Str → Prop where
  | event {ns name : Str} {cb : Cb} {A : Args} {ack : Option AckHandle} {vs : List Str} {bs : List Bytes} {x : Str} :
      ArgsShow A vs bs → Displays fin (.event (ack.map (·.id)) vs bs) x → CallShown fin (.event ns name cb A ack) x
  | ack {ns : Str} {id : Nat} {cb : Cb} {A : Args} {vs : List Str} {bs : List Bytes} {x : Str} :
      ArgsShow A vs bs → Displays fin (.ack id vs bs) x → CallShown fin (.ack ns id cb A) x

/-- The messages of one packet, and the lines that tell of it. -/
inductive InfoLines (fin : Str → Bool) : List Payload → List Line → Prop where
  | connect (p : Pkt) (vs : List Str) : p.Wf → p.Longest → p.Fits → p.ArgTexts vs → p.Means vs [] .connect →
      InfoLines fin [.text p.text] [⟨.info, "Received socket packet: Connect".toList⟩, ⟨.info, "Received connect for ".toList ++ p.ns.getD ['/']⟩]
  | disconnect (p : Pkt) (vs : List Str) : p.Wf → p.Longest → p.Fits → p.ArgTexts vs → p.Means vs [] .disconnect →
      InfoLines fin [.text p.text]
        [⟨.info, "Received socket packet: Disconnect".toList⟩, ⟨.info, "Received disconnect for ".toList ++ p.ns.getD ['/']⟩]
  | data (p : Pkt) (vs : List Str) (bs : List Bytes) (body : Body) (x : Str) : p.Wf → p.Longest → p.Fits → p.ArgTexts vs →
      p.Means vs bs body → body ≠ .connect → body ≠ .disconnect → Displays fin body x →
      InfoLines fin (.text p.text :: bs.map .binary) [⟨.info, "Received socket packet: ".toList ++ x⟩]

/-- One packet after the other. -/
inductive InfoLog (fin : Str → Bool) : List Payload → List Line → Prop where
  | nil : InfoLog fin [] []
  | snoc {a g : List Payload} {ls l : List Line} : InfoLog fin a ls → InfoLines fin g l → InfoLog fin (a ++ g) (ls ++ l)

/-- Nothing, or a packet some attachments of which are missing. -/
def Unfinished (r : List Payload) : Prop :=
  r = [] ∨ ∃ (p : Pkt) (n : Nat) (got : List Payload), p.Wf ∧ p.Longest ∧ p.att = some n ∧ got.length < n ∧ r = .text p.text :: got

/-- An engine.io message, as `{:?}` shows it. -/
def payloadText (p : SIO.Prints) : Payload → Str
  | .text s => "Text(".toList ++ dbgStr p s ++ ")".toList
  | .binary b => "Binary(".toList ++ dbgBytes b ++ ")".toList

/-- An open packet, as `{:?}` shows it. -/
def openShown (p : SIO.Prints) (o : Open) : Str :=
  "Open { sid: ".toList ++ dbgStr p o.sid ++ ", ping_timeout: ".toList ++ decimal o.pingTimeout ++
    ", ping_interval: ".toList ++ decimal o.pingInterval ++ " }".toList

/-- The open packets handed to `connect`. -/
def openings (tr : List Ev) : List Open :=
  tr.filterMap fun
    | .eff (.opened o) => some o
    | _ => none

/-- The kinds of engine.io packets. -/
def kinds : List Str := ["open".toList, "close".toList, "ping".toList, "pong".toList, "message".toList]

/-- The kind of the engine.io packet in a websocket message. -/
def kindOf : Ws → Option Str
  | .text ('0' :: _) => some "open".toList
  | .text ('1' :: _) => some "close".toList
  | .text ('2' :: _) => some "ping".toList
  | .text ('3' :: _) => some "pong".toList
  | .text ('4' :: _) => some "message".toList
  | .binary (4 :: _) => some "message".toList
  | _ => none

/-- The line says that an engine.io packet of this kind was received. -/
def NamesKind (kind : Str) (l : Line) : Prop :=
  saidAfter ("Received ".toList ++ kind ++ " engine packet".toList) l ≠ none ∨
  saidAfter ("Received engine ".toList ++ kind ++ " packet".toList) l ≠ none

/-- The words of the lines about socket.io packets. -/
def infoWords : List Str := ["Received socket packet: ".toList, "Received connect for ".toList, "Received disconnect for ".toList]
/-- The words of the lines about the close of the websocket. -/
def debugWords : List Str := ["Closed with close frame ".toList, "Sending close message".toList]

/-- The level of a line by its words. -/
def levelOf (t : Str) : Level :=
  if infoWords.any (·.isPrefixOf t) then .info else if debugWords.any (·.isPrefixOf t) then .debug else .trace

end SIO.Spec
