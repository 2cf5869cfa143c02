import Verif.OwnedSubslice
import Verif.Json
/-
Model of socket-io-protocol/src/engine.rs.
-/
namespace SIO
open Spec (JTree)

/-- `tungstenite::Message`, version 0.11.  The payload of a close frame is not modelled
(nothing reads it). -/
inductive Ws where
  | text (s : Str)
  | binary (b : Bytes)
  | ping (b : Bytes)
  | pong (b : Bytes)
  | close
deriving Repr, DecidableEq

/-- engine.rs:19-25 -/
structure Open where
  sid : Str
  pingTimeout : Nat
  pingInterval : Nat
deriving Repr, DecidableEq

/-- engine.rs:27-31 -/
inductive EMsg where
  | text (t : OwnedSubslice Str)
  | binary (b : OwnedSubslice Bytes)
deriving Repr, DecidableEq

/-- engine.rs:10-17 -/
inductive EPacket where
  | opened (o : Open)
  | close
  | ping
  | pong
  | message (m : EMsg)
deriving Repr, DecidableEq

/-- engine.rs:33-47.  The serde_json error inside `JsonError` is not modelled. -/
inductive EErr where
  | invalidMessage (m : Ws)
  | wrongMessageType (m : Ws)
  | messageBeforeOpen
  | messageAfterClose
  | secondOpen
  | jsonError
deriving Repr, DecidableEq

/-- engine.rs:49-59 (`State`, and `Decoder` which holds just the state) -/
inductive EState where
  | initial
  | active
  | closed
deriving Repr, DecidableEq

/-- engine.rs:61-72 (`Default`, `Decoder::new`) -/
def EState.new : EState := .initial

/-- Deserialization of a `u64` field by serde_json: integer literals below 2^64. -/
def jU64 : JTree → Option Nat
  | .num lex => if lex ≠ [] ∧ lex.all Char.isDigit ∧ decVal lex < u64Bound then some (decVal lex) else none
  | _ => none

/-- Deserialization of a `String` field by serde_json. -/
def jString : JTree → Option Str
  | .str raw => unescape raw
  | _ => none

/-- State of the derived visitor of `Open`: the fields seen so far. -/
structure OpenFields where
  sid : Option Str := none
  pingTimeout : Option Nat := none
  pingInterval : Option Nat := none

/-- Derived `visit_map` of `Open` (engine.rs:19-25, `rename_all = "camelCase"`): a known
key twice is an error, unknown keys are skipped, keys are decoded strings. -/
def openFields : List (Str × JTree) → OpenFields → Option OpenFields
  | [], f => some f
  | (k, x) :: kvs, f =>
    match unescape k with
    | none => none
    | some k =>
      if k = "sid".toList then
        if f.sid.isSome then none
        else match jString x with
          | none => none
          | some v => openFields kvs { f with sid := some v }
      else if k = "pingTimeout".toList then
        if f.pingTimeout.isSome then none
        else match jU64 x with
          | none => none
          | some v => openFields kvs { f with pingTimeout := some v }
      else if k = "pingInterval".toList then
        if f.pingInterval.isSome then none
        else match jU64 x with
          | none => none
          | some v => openFields kvs { f with pingInterval := some v }
      else openFields kvs f

/-- Derived `Deserialize` of `Open`: an object with the three fields, or (serde derives
this too) an array of the three values. -/
def openOfTree : JTree → Option Open
  | .obj kvs =>
    match openFields kvs {} with
    | some ⟨some sid, some pt, some pi⟩ => some ⟨sid, pt, pi⟩
    | _ => none
  | .arr [a, b, c] =>
    match jString a, jU64 b, jU64 c with
    | some sid, some pt, some pi => some ⟨sid, pt, pi⟩
    | _, _, _ => none
  | _ => none

/-- engine.rs:148-150 (`parse_open`) -/
def parseOpen (text : Str) : Res EErr Open :=
  Res.ofOption .jsonError ((parseTree text).bind openOfTree)

/-- engine.rs:86-130 (`decode_text`).  The code looks at the first byte; a first byte
below 128 is the first character, a first byte from 128 on is never one of the digits. -/
def decodeText (st : EState) (text : Str) : EState × Res EErr EPacket :=
  match text with
  | [] => (st, .err (.invalidMessage (.text text)))
  | c :: rest =>
    if c = '0' then
      if st ≠ .initial then (st, .err .secondOpen)
      else
        match parseOpen rest with
        | .ok o => (.active, .ok (.opened o))
        | .err e => (st, .err e)
        | .panic => (st, .panic)
    else if c = '1' then
      if st = .initial then (st, .err .messageBeforeOpen) else (.closed, .ok .close)
    else if c = '2' then
      if st = .initial then (st, .err .messageBeforeOpen) else (st, .ok .ping)
    else if c = '3' then
      if st = .initial then (st, .err .messageBeforeOpen) else (st, .ok .pong)
    else if c = '4' then
      (st, .ok (.message (.text (OwnedSubslice.new text 1 (blen text)))))
    else (st, .err (.invalidMessage (.text text)))

/-- engine.rs:132-145 (`decode_binary`) -/
def decodeBinary (st : EState) (data : Bytes) : EState × Res EErr EPacket :=
  if st = .initial then (st, .err .messageBeforeOpen)
  else
    match data with
    | [] => (st, .err (.invalidMessage (.binary data)))
    | b :: _ =>
      if b ≠ 4 then (st, .err (.invalidMessage (.binary data)))
      else (st, .ok (.message (.binary (OwnedSubslice.new data 1 data.length))))

/-- engine.rs:74-84 (`decode`) -/
def decode (st : EState) (msg : Ws) : EState × Res EErr EPacket :=
  if st = .closed then (st, .err .messageAfterClose)
  else
    match msg with
    | .ping _ => (st, .err (.wrongMessageType msg))
    | .pong _ => (st, .err (.wrongMessageType msg))
    | .close => (st, .err (.wrongMessageType msg))
    | .text t => decodeText st t
    | .binary b => decodeBinary st b

/-- engine.rs:157-167 (`package_message`): asserts that the first byte is `4`. -/
def packageMessage (text : Str) : Res Empty Ws :=
  match text with
  | c :: _ => if c = '4' then .ok (.text text) else .panic
  | [] => .panic

/-- engine.rs:152-155 (`encode_message`) -/
def encodeMessage (text : Str) : Res Empty Ws := packageMessage ('4' :: text)

/-- engine.rs:185-195 (`package_binary`): asserts that the first byte is 4. -/
def packageBinary (data : Bytes) : Res Empty Ws :=
  match data with
  | b :: _ => if b = 4 then .ok (.binary data) else .panic
  | [] => .panic

/-- engine.rs:169-175 (`encode_binary`) -/
def encodeBinary (data : Bytes) : Res Empty Ws := packageBinary (4 :: data)

/-- engine.rs:177-179 -/
def encodePing : Ws := .text ['2']

/-- engine.rs:181-183 -/
def encodePong : Ws := .text ['3']

end SIO
