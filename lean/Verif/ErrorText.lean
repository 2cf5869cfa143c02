import Verif.Client
import Verif.Url
/-
The texts of the errors (`Display`, generated by `thiserror`): socket-io-client/src/lib.rs:37-63, receiver.rs:18-30,
socket-io-protocol/src/engine.rs:33-47, socket/mod.rs:44-60, socket/args/mod.rs:31-42.
-/
namespace SIO

/-- What other crates print, and the derived `Debug` of a packet and of a JSON value, which are left open. -/
structure Prints where
  /-- whether `{:?}` of a string shows this character beyond ASCII as it is -/
  shows : Char → Bool
  jsonDebug : Str
  jsonDisplay : Str
  packet : Packet → Str
  value : Value → Str
  websocket : Nat → Str
  spawn : Str
  /-- the close frame of a message -/
  close : Str

/-- Lower case hexadecimal digits of `n`, with fuel. -/
def natHexF : Nat → Nat → Str
  | 0, n => [hexChar n]
  | f + 1, n => if n < 16 then [hexChar n] else natHexF f (n / 16) ++ [hexChar (n % 16)]

/-- `format!("{:x}", n)` -/
def natHex (n : Nat) : Str := natHexF n n

/-- One character in `{:?}` of a string. -/
def dbgChar (p : Prints) (c : Char) : Str :=
  if c = '\x00' then "\\0".toList
  else if c = '\t' then "\\t".toList
  else if c = '\r' then "\\r".toList
  else if c = '\n' then "\\n".toList
  else if c = '"' then "\\\"".toList
  else if c = '\\' then "\\\\".toList
  else if (32 ≤ c.toNat ∧ c.toNat < 127) ∨ (128 ≤ c.toNat ∧ p.shows c) then [c]
  else "\\u{".toList ++ natHex c.toNat ++ "}".toList

/-- `{:?}` of a string. -/
def dbgStr (p : Prints) (s : Str) : Str := '"' :: (s.flatMap (dbgChar p) ++ ['"'])

/-- `{:?}` of a `Vec<u8>`, after the first element. -/
def dbgMore : Bytes → Str
  | [] => [']']
  | b :: bs => ", ".toList ++ natDec b.toNat ++ dbgMore bs

/-- `{:?}` of a `Vec<u8>`. -/
def dbgBytes : Bytes → Str
  | [] => "[]".toList
  | b :: bs => '[' :: (natDec b.toNat ++ dbgMore bs)

/-- The derived `Debug` of `tungstenite::Message`. -/
def dbgWs (p : Prints) : Ws → Str
  | .text s => "Text(".toList ++ dbgStr p s ++ ")".toList
  | .binary b => "Binary(".toList ++ dbgBytes b ++ ")".toList
  | .ping b => "Ping(".toList ++ dbgBytes b ++ ")".toList
  | .pong b => "Pong(".toList ++ dbgBytes b ++ ")".toList
  | .close => "Close(".toList ++ p.close ++ ")".toList

/-- engine.rs:33-47 -/
def EErr.text (p : Prints) : EErr → Str
  | .invalidMessage m => "Failed to parse websocket message: ".toList ++ dbgWs p m
  | .wrongMessageType m => "Received non-Text, non-Binary websocket message: ".toList ++ dbgWs p m
  | .messageBeforeOpen => "Received message before open".toList
  | .messageAfterClose => "Received message after close".toList
  | .secondOpen => "Received second open".toList
  | .jsonError => "Failed to parse json in message: ".toList ++ p.jsonDebug

/-- socket/mod.rs:44-60 -/
def SErr.text (p : Prints) : SErr → Str
  | .nonAttachmentBinary b => "Received non-attachment binary message: ".toList ++ dbgBytes b
  | .textAttachment s => "Received text message as attachment: ".toList ++ s
  | .invalidMessage s => "Invalid message: ".toList ++ s
  | .invalidExtraData name s => "Invalid extra data included in ".toList ++ name ++ " packet: ".toList ++ s
  | .missingData name s => "Missing data in ".toList ++ name ++ " packet: ".toList ++ s
  | .invalidDataJson s => "Invalid json in message data: ".toList ++ s ++ ", ".toList ++ p.jsonDebug
  | .invalidAttachmentCount got announced =>
    "Wrong number of attachments provided: ".toList ++ natDec got ++ " instead of ".toList ++ natDec announced

/-- socket/args/mod.rs:31-42 -/
def AErr.text (p : Prints) : AErr → Str
  | .noNumInPlaceholderObject v => "Placeholder object is missing num field: ".toList ++ p.value v
  | .placeholderIndexOutOfRange idx len =>
    "Placeholder index out of range: ".toList ++ natDec idx ++ "/".toList ++ natDec len
  | .jsonDeError arg => "Error deserializing json: ".toList ++ arg ++ ", ".toList ++ p.jsonDisplay
  | .jsonSerError => "Error serializing object to json: ".toList ++ p.jsonDisplay

/-- receiver.rs:18-30 -/
def RErr.text (p : Prints) : RErr → Str
  | .engine e => "Error deserializing engine.io protocol: ".toList ++ e.text p
  | .socket e => "Error deserializing socket.io protocol: ".toList ++ e.text p
  | .args e => "Error deserializing argument: ".toList ++ e.text p
  | .eventNoArgs pk => "Event packet with no arguments: ".toList ++ p.packet pk
  | .unexpectedAck pk => "Unexpected ack received: ".toList ++ p.packet pk

/-- connection.rs:54,74,101 -/
def Waiting.text : Waiting → Str
  | .handshake => "websocket handshake".toList
  | .openPacket => "engine.io protocol Open message".toList
  | .close => "close".toList

/-- lib.rs:37-53 -/
def CErr.text (p : Prints) : CErr → Str
  | .websocket e => "Websocket error: ".toList ++ p.websocket e
  | .spawn => "Failed to spawn task: ".toList ++ p.spawn
  | .processing e => "Error processing packet: ".toList ++ e.text p
  | .timeout w => "Connection timed out waiting for ".toList ++ w.text
  | .alreadyClosed => "Already closed".toList

/-- lib.rs:39,55-63: of a url error together with the text that was parsed. -/
def UrlErr.text (p : Prints) (uri : Str) (e : UrlErr) : Str :=
  "Failed to parse URI ".toList ++ uri ++ ": ".toList ++
    match e with
    | .invalidScheme s => "Invalid scheme: ".toList ++ dbgStr p s
    | .noHost => "No host".toList

end SIO
