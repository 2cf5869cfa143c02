import Verif.Text
/-
Model of the url handling: socket-io-client/src/lib.rs:102-172 and 207-226, connection.rs:32-52.
`Url::parse` itself and the names lookup are not modelled: everything starts from a parsed url.
-/
namespace SIO

/-- A parsed url (`url::Url`), its parts as in its serialization. -/
structure Url where
  scheme : Str
  /-- user name and password -/
  credentials : Str
  host : Option Str
  /-- the port, unless it is the default port of the scheme -/
  port : Option Nat
  path : Str
  query : Option Str
  fragment : Option Str
deriving Repr, DecidableEq

/-- lib.rs:55-63 -/
inductive UrlErr where
  | invalidScheme (s : Str)
  | noHost
deriving Repr, DecidableEq

/-- `url`: default ports of the schemes. -/
def defaultPort (scheme : Str) : Option Nat :=
  if scheme = "http".toList ∨ scheme = "ws".toList then some 80
  else if scheme = "https".toList ∨ scheme = "wss".toList then some 443
  else if scheme = "ftp".toList then some 21
  else none

/-- `url`: special schemes. -/
def isSpecial (scheme : Str) : Bool :=
  (defaultPort scheme).isSome || scheme = "file".toList

/-- `Url::set_port`: the default port is left out. -/
def Url.setPort (u : Url) (p : Option Nat) : Url :=
  { u with port := if p = defaultPort u.scheme then none else p }

/-- `Url::set_scheme` with one of the special schemes `ws` and `wss`: fails for urls with
another kind of scheme and for urls without host; afterwards the port is set again. -/
def Url.setScheme (u : Url) (scheme : Str) : Option Url :=
  if isSpecial scheme ≠ isSpecial u.scheme ∨ (u.host = none ∧ isSpecial scheme = true) then none
  else some ({ u with scheme := scheme }.setPort u.port)

/-- lib.rs:207-220, after `Url::parse`. -/
def parseUrl (u : Url) : Res UrlErr Url :=
  let set (scheme : Str) : Res UrlErr Url :=
    match u.setScheme scheme with
    | none => .panic
    | some u =>
      match u.host with
      | none => .err .noHost
      | some _ => .ok u
  if u.scheme = "http".toList ∨ u.scheme = "ws".toList then set "ws".toList
  else if u.scheme = "https".toList ∨ u.scheme = "wss".toList then set "wss".toList
  else .err (.invalidScheme u.scheme)

/-- `Url::port_or_known_default` -/
def Url.portOrDefault (u : Url) : Option Nat :=
  match u.port with
  | some p => some p
  | none => defaultPort u.scheme

/-- A digit of a percent code. -/
def hexDigit (n : UInt8) : Char := Char.ofNat (if n < 10 then n.toNat + 48 else n.toNat + 55)

/-- `form_urlencoded::byte_serialize`, one byte. -/
def formByte (b : UInt8) : List Char :=
  if b = 42 ∨ b = 45 ∨ b = 46 ∨ b = 95 ∨ (48 ≤ b ∧ b ≤ 57) ∨ (65 ≤ b ∧ b ≤ 90) ∨ (97 ≤ b ∧ b ≤ 122) then [Char.ofNat b.toNat]
  else if b = 32 then ['+']
  else ['%', hexDigit (b / 16), hexDigit (b % 16)]

/-- `form_urlencoded::byte_serialize` -/
def formEncode (s : Str) : Str := (s.flatMap String.utf8EncodeChar).flatMap formByte

/-- `form_urlencoded::Serializer::append_pair` -/
def appendPair (q name value : Str) : Str :=
  (if q = [] then [] else q ++ ['&']) ++ formEncode name ++ '=' :: formEncode value

/-- `Url::query_pairs_mut`: a missing query becomes an empty one; the fragment is kept. -/
def Url.mapQuery (u : Url) (f : Str → Str) : Url := { u with query := some (f (u.query.getD [])) }

/-- lib.rs:222-226 -/
def addQueryParams (u : Url) : Url :=
  u.mapQuery fun q => appendPair (appendPair q "EIO".toList "4".toList) "transport".toList "websocket".toList

/-- connection.rs:43-45 -/
def addSid (u : Url) (sid : Option Str) : Url :=
  match sid with
  | none => u
  | some sid => u.mapQuery fun q => appendPair q "sid".toList sid

/-- `client_async_tls`: whether the connection is encrypted; `none`: unsupported scheme. -/
def secureMode (u : Url) : Option Bool :=
  if u.scheme = "ws".toList then some false
  else if u.scheme = "wss".toList then some true
  else none

/-- Where and how to connect. -/
structure Plan where
  /-- the arguments of the `connect` function of the application, lib.rs:118-121 -/
  host : Str
  port : Nat
  secure : Option Bool
  /-- the url of the websocket handshake -/
  url : Url
deriving Repr, DecidableEq

/-- lib.rs:115-126, 146-159 and connection.rs:43-48, up to the handshake. -/
def connectPlan (u : Url) (sid : Option Str) : Res UrlErr Plan :=
  match parseUrl u with
  | .err e => .err e
  | .panic => .panic
  | .ok u =>
    match u.host, u.portOrDefault with
    | some h, some p =>
      let u := addSid (addQueryParams u) sid
      .ok ⟨h, p, secureMode u, u⟩
    | _, _ => .panic

end SIO
