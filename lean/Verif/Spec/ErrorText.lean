import Verif.ErrorText
/-
What an error text is to tell.
-/
namespace SIO.Spec

/-- The sort of an error: the variants from the outside to the inside. -/
def sortE : EErr → List Nat
  | .invalidMessage _ => [0]
  | .wrongMessageType _ => [1]
  | .messageBeforeOpen => [2]
  | .messageAfterClose => [3]
  | .secondOpen => [4]
  | .jsonError => [5]

def sortS : SErr → List Nat
  | .nonAttachmentBinary _ => [0]
  | .textAttachment _ => [1]
  | .invalidMessage _ => [2]
  | .invalidExtraData _ _ => [3]
  | .missingData _ _ => [4]
  | .invalidDataJson _ => [5]
  | .invalidAttachmentCount _ _ => [6]

def sortA : AErr → List Nat
  | .noNumInPlaceholderObject _ => [0]
  | .placeholderIndexOutOfRange _ _ => [1]
  | .jsonDeError _ => [2]
  | .jsonSerError => [3]

def sortR : RErr → List Nat
  | .engine e => 0 :: sortE e
  | .socket e => 1 :: sortS e
  | .args e => 2 :: sortA e
  | .eventNoArgs _ => [3]
  | .unexpectedAck _ => [4]

def sortC : CErr → List Nat
  | .websocket _ => [0]
  | .spawn => [1]
  | .processing e => 2 :: sortR e
  | .timeout .handshake => [3, 0]
  | .timeout .openPacket => [3, 1]
  | .timeout .close => [3, 2]
  | .alreadyClosed => [4]

/-- Words that say what went wrong, for every variant. -/
def wordsE : EErr → List Str
  | .invalidMessage _ => ["Failed to parse websocket message".toList]
  | .wrongMessageType _ => ["non-Text, non-Binary".toList]
  | .messageBeforeOpen => ["before open".toList]
  | .messageAfterClose => ["after close".toList]
  | .secondOpen => ["second open".toList]
  | .jsonError => ["json".toList]

def wordsS : SErr → List Str
  | .nonAttachmentBinary _ => ["non-attachment binary".toList]
  | .textAttachment _ => ["text message as attachment".toList]
  | .invalidMessage _ => ["Invalid message".toList]
  | .invalidExtraData name _ => ["Invalid extra data".toList, " in ".toList ++ name ++ " packet".toList]
  | .missingData name _ => ["Missing data".toList, " in ".toList ++ name ++ " packet".toList]
  | .invalidDataJson _ => ["Invalid json".toList]
  | .invalidAttachmentCount got announced =>
    ["Wrong number of attachments".toList, decimal got ++ " instead of ".toList ++ decimal announced]

def wordsA : AErr → List Str
  | .noNumInPlaceholderObject _ => ["missing num".toList]
  | .placeholderIndexOutOfRange num len => ["out of range".toList, decimal num ++ "/".toList ++ decimal len]
  | .jsonDeError arg => ["deserializing json".toList, arg]
  | .jsonSerError => [" serializing".toList]

def wordsR : RErr → List Str
  | .engine e => "engine.io".toList :: wordsE e
  | .socket e => "socket.io".toList :: wordsS e
  | .args e => "argument".toList :: wordsA e
  | .eventNoArgs _ => ["Event packet with no arguments".toList]
  | .unexpectedAck _ => ["Unexpected ack".toList]

def wordsC : CErr → List Str
  | .websocket _ => ["Websocket error".toList]
  | .spawn => ["Failed to spawn".toList]
  | .processing e => "processing packet".toList :: wordsR e
  | .timeout .handshake => ["timed out".toList, "websocket handshake".toList]
  | .timeout .openPacket => ["timed out".toList, "Open message".toList]
  | .timeout .close => ["timed out".toList, "close".toList]
  | .alreadyClosed => ["Already closed".toList]

/-- The names of packets the decoder puts into errors. -/
def packetNames : List Str :=
  ["connect".toList, "disconnect".toList, "event".toList, "ack".toList, "binary event".toList, "binary ack".toList]

/-- An error of the socket.io layer the text of which depends on nothing left open. -/
def ExactS : SErr → Prop
  | .invalidExtraData name _ => name ∈ packetNames
  | .missingData name _ => name ∈ packetNames
  | .invalidDataJson _ => False
  | _ => True

/-- An error of the engine.io layer the text of which depends on nothing left open. -/
def ExactE : EErr → Prop
  | .invalidMessage .close => False
  | .wrongMessageType .close => False
  | .jsonError => False
  | _ => True

/-- A control character of ASCII. -/
def Control (c : Char) : Prop := c.toNat < 32 ∨ c.toNat = 127

end SIO.Spec
