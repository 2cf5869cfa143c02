import Verif.Engine
import Verif.Spec.Display
/-
Texts as Rust writes them in source code, which is what `{:?}` prints.
-/
namespace SIO.Spec

/-- A character in a string literal: itself, a short escape, or its code in hexadecimal digits. -/
inductive LitChar : List Char → Char → Prop where
  | plain (c : Char) : c ≠ '"' → c ≠ '\\' → LitChar [c] c
  | short (c x : Char) : (c, x) ∈ [('\x00', '0'), ('\t', 't'), ('\r', 'r'), ('\n', 'n'), ('"', '"'), ('\\', '\\')] → LitChar ['\\', x] c
  | code (c : Char) : LitChar ('\\' :: 'u' :: '{' :: (Nat.toDigits 16 c.toNat ++ ['}'])) c

inductive LitBody : List Char → List Char → Prop where
  | nil : LitBody [] []
  | cons {t body s : List Char} {c : Char} : LitChar t c → LitBody body s → LitBody (t ++ body) (c :: s)

/-- `t` is a string literal for `s`. -/
def Literal (t s : List Char) : Prop := ∃ body, t = '"' :: (body ++ ['"']) ∧ LitBody body s

/-- Bytes as an array of numbers. -/
def byteArray (b : List UInt8) : List Char := '[' :: (commaList (b.map fun x => decimal x.toNat) ++ [']'])

/-- `t` shows the websocket message; what it says of a close frame is left open. -/
inductive WsShown : Ws → List Char → Prop where
  | text {t s : List Char} : Literal t s → WsShown (.text s) ("Text(".toList ++ t ++ ")".toList)
  | binary (b : List UInt8) : WsShown (.binary b) ("Binary(".toList ++ byteArray b ++ ")".toList)
  | ping (b : List UInt8) : WsShown (.ping b) ("Ping(".toList ++ byteArray b ++ ")".toList)
  | pong (b : List UInt8) : WsShown (.pong b) ("Pong(".toList ++ byteArray b ++ ")".toList)
  | close (t : List Char) : WsShown .close ("Close(".toList ++ t ++ ")".toList)

end SIO.Spec
