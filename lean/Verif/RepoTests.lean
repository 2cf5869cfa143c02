import Verif.Deserialize
import Verif.Callbacks
import Verif.Url
/-
The unit tests of the code base, carried out on the model: every `#[test]` in /repo, with the
values it uses.  `Url::parse` is outside the model and therefore left out (the parsed url is
given instead).
-/
namespace SIO.RepoTests
open Spec (SVal)

/-- The text of a Rust string literal as engine message. -/
def msg (s : String) : EMsg := .text (OwnedSubslice.ofWhole s.toList)

/-- A `Vec<u8>` as attachment. -/
def att (b : Bytes) : OwnedSubslice Bytes := OwnedSubslice.ofWhole b

def deadbeef : Bytes := [0xde, 0xad, 0xbe, 0xef]

/-- Every number literal is finite, and lone surrogates do not occur in the tests. -/
def ext : Ext := ⟨fun _ => true, fun _ => []⟩

/-- `deserialize(..).unwrap()`, then `deserialize_partial` with the attachments if some are
missing. -/
def receive (m : String) (bufs : List Bytes) : Res SErr Packet :=
  (deserialize (msg m)).bind fun
    | .packet p => if bufs = [] then .ok p else .panic
    | .dataNeeded p => deserializePartial p (bufs.map fun b => .binary (att b))

/-- The argument of that number of an event or ack. -/
def argOf (m : String) (bufs : List Bytes) (i : Nat) : Option Arg :=
  match receive m bufs with
  | .ok p =>
    match p.data with
    | .ok (.event _ a) | .ok (.ack _ a) =>
      match a.get i with
      | .ok (some arg) => some arg
      | _ => none
    | _ => none
  | _ => none

/-! ### owned_subslice/src/lib.rs -/

-- 136-141 (`test_slice`)
example : (OwnedSubslice.new "Hello world!".toList 1 4).deref = some "ell".toList := by decide +kernel

/-! ### socket-io-protocol/src/engine.rs -/

-- 201-206 (`decode_close`)
example : decode EState.new .close = (.initial, .err (.wrongMessageType .close)) := by decide +kernel

def openMsg : Ws :=
  .text "0{\"sid\":\"0vtWsEAcESDOoPs8AAAA\",\"upgrades\":[],\"pingInterval\":25000,\"pingTimeout\":5000}".toList

-- 208-223 (`decode_open`)
example : decode EState.new openMsg =
    (.active, .ok (.opened { sid := "0vtWsEAcESDOoPs8AAAA".toList, pingInterval := 25000, pingTimeout := 5000 })) := by
  decide +kernel
example : decode .active openMsg = (.active, .err .secondOpen) := by decide +kernel

/-! ### socket-io-protocol/src/socket/ser.rs -/

/-- The text that a packet dereferences to (`assert_eq!` on the code's messages compares
these). -/
def textOf : EMsg → Option Str
  | .text t => t.deref
  | .binary _ => none

-- 191-197 (`test_connect`)
example : textOf (serializeConnect "/".toList) = some "40".toList := by decide +kernel

-- 199-205 (`test_disconnect`)
example : textOf (serializeDisconnect "/nsp".toList) = some "41/nsp,".toList := by decide +kernel

-- 207-211 (`test_simple`)
example : ((Builder.newEvent "event".toList "/".toList none false).bind Builder.finish) =
    .ok [.text "42[\"event\"]".toList] := by decide +kernel

/-- What `serialize` makes of a `[u8]`. -/
def u8s (b : Bytes) : SVal := .seq (b.map .u8)

-- 213-226 (`test_simple_binary`)
example : (((Builder.newAck "/binary".toList 3 true).serializeArg (u8s deadbeef)).2,
    ((Builder.newAck "/binary".toList 3 true).serializeArg (u8s deadbeef)).1.finish) =
    (.ok (), .ok [.text "461-/binary,3[{\"_placeholder\":true,\"num\":0}]".toList,
      .binary [4, 0xde, 0xad, 0xbe, 0xef]]) := by decide +kernel

/-! ### socket-io-protocol/src/socket/args/serialize_attachments.rs -/

-- 573-579 (`test_simple`)
example : serB (.str "test".toList) { msgs := [] } = ⟨"\"test\"".toList, { msgs := [] }, .ok⟩ := by decide +kernel

-- 587-593 (`test_simple_struct`)
example : serB (.struct [("a".toList, .u8 5), ("b".toList, .str "test".toList)]) { msgs := [] } =
    ⟨"{\"a\":5,\"b\":\"test\"}".toList, { msgs := [] }, .ok⟩ := by decide +kernel

-- 595-604 (`test_bytes`)
example : encodeBinary deadbeef = .ok (.binary (4 :: deadbeef)) ∧
    serB (u8s deadbeef) { msgs := [] } =
      ⟨"{\"_placeholder\":true,\"num\":0}".toList, { msgs := [.binary (4 :: deadbeef)] }, .ok⟩ := by decide +kernel

-- 616-640 (`test_nested_bytes`)
example : serB (.struct [("v".toList, .seq [.struct [("d".toList, u8s deadbeef)],
      .struct [("d".toList, u8s [])], .struct [("d".toList, u8s [0, 1, 2, 3, 4, 5, 6])]])]) { msgs := [] } =
    ⟨"{\"v\":[{\"d\":{\"_placeholder\":true,\"num\":0}},{\"d\":[]},{\"d\":{\"_placeholder\":true,\"num\":1}}]}".toList,
      { msgs := [.binary (4 :: deadbeef), .binary [4, 0, 1, 2, 3, 4, 5, 6]] }, .ok⟩ := by decide +kernel

/-! ### socket-io-protocol/src/socket/args/deserialize_attachments.rs -/

def placeholderTy : Ty := .struct [("_placeholder".toList, .bool), ("num".toList, .uint 64)]
def arrayJson : Str := "{\"array\": {\"_placeholder\":true,\"num\":0}}".toList

-- 483-490 (`test_translate`): the placeholder is translated, so this target does not fit
example : (fromStrA ext [deadbeef] (.struct [("array".toList, placeholderTy)]) arrayJson).isNone := by decide +kernel

/-- Whether the target is a struct with just those numbers in a sequence. -/
def isBytes (b : List Nat) : Option DVal → Bool
  | some (.struct [.seq vs]) =>
    vs.length == b.length && (vs.zip b).all fun | (.uint n, m) => n == m | _ => false
  | _ => false

def ownedTy : Ty := .struct [("array".toList, .seq (.uint 8))]

-- 497-504 (`test_borrowed`)
example : (match fromStrA ext [deadbeef] (.struct [("array".toList, .bbytes)]) arrayJson with
    | some (.struct [.bytes b]) => b == deadbeef
    | _ => false) = true := by decide +kernel

-- 511-518 (`test_owned`)
example : isBytes [222, 173, 190, 239] (fromStrA ext [deadbeef] ownedTy arrayJson) = true := by decide +kernel

-- 520-527 (`test_passthrough`)
example : isBytes [222, 173, 190, 239] (fromStrA ext [] ownedTy "{\"array\": [222, 173, 190, 239]}".toList) = true := by
  decide +kernel

-- 536-542 (`test_enum_passthrough`)
example : (match fromStrA ext []
      (.enum [("A".toList, .newtype (.int 8)), ("B".toList, .newtype (.uint 32)), ("C".toList, .newtype (.seq (.uint 8)))])
      "{\"B\": 23}".toList with
    | some (.variant n (.uint v)) => n == "B".toList && v == 23
    | _ => false) = true := by decide +kernel

/-! ### socket-io-protocol/src/socket/args/mod.rs -/

def eventText : String := "23[\"test\",\"hello\",{\"key\":\"value\"}]"

/-- The argument as JSON value. -/
def valueOf (a : Option Arg) : Option Value :=
  match a.map (Arg.toJsonValue ext.fin) with
  | some (.ok v) => some v
  | _ => none

-- 170-191 (`test_text_arg_value`)
example : (match valueOf (argOf eventText [] 2) with
    | some (.obj [(k, .str v)]) => k == "key".toList && v == "value".toList
    | _ => false) = true := by decide +kernel

-- 198-217 (`test_text_arg_deserialize_borrowed`)
example : (match (argOf eventText [] 2).map (Arg.deserialize ext (.struct [("key".toList, .bstr)])) with
    | some (.ok (.struct [.str s])) => s == "value".toList
    | _ => false) = true := by decide +kernel

-- 224-242 (`test_text_arg_deserialize_owned`)
example : (match (argOf eventText [] 2).map (Arg.deserialize ext (.struct [("key".toList, .str)])) with
    | some (.ok (.struct [.str s])) => s == "value".toList
    | _ => false) = true := by decide +kernel

-- 250-279 (`test_deserialize_binary_ack`)
example : (match valueOf (argOf "61-10[\"binary\",{\"array\": {\"_placeholder\":true,\"num\":0}}]" [deadbeef] 1) with
    | some (.obj [(k, .arr [.num (.pos a), .num (.pos b), .num (.pos c), .num (.pos d)])]) =>
      k == "array".toList && [a, b, c, d] == [222, 173, 190, 239]
    | _ => false) = true := by decide +kernel

/-! ### socket-io-protocol/src/socket/de.rs -/

/-- The text captured by a group. -/
def group (m : String) (n : Nat) : Option Str :=
  (deserializeRe.captures m.toList).bind fun c => (c.get n).bind fun r => sliceB m.toList r.1 r.2

def m0 : String := "0/nsp,"
def m1 : String := "52-[\"binary\",{\"_placeholder\":true,\"num\":0},{\"_placeholder\":true,\"num\":1}]"
def m2 : String := "20[\"types\",[0,1,2],{\"key\":\"value\"},\"hello\",4]"
def m3 : String := "50-/nsp,1[\"binary namespaced message with ack\"]"

-- 226-260 (`test_deserialize_re`)
example : group m0 1 = some "0".toList ∧ group m0 5 = some "/nsp".toList ∧
    group m1 1 = some "5".toList ∧ group m1 3 = some "2".toList ∧
    group m2 1 = some "2".toList ∧ group m2 6 = some "0".toList ∧
    group m2 7 = some "[\"types\",[0,1,2],{\"key\":\"value\"},\"hello\",4]".toList ∧
    group m3 1 = some "5".toList ∧ group m3 3 = some "0".toList ∧ group m3 5 = some "/nsp".toList ∧
    group m3 6 = some "1".toList ∧ group m3 7 = some "[\"binary namespaced message with ack\"]".toList := by
  decide +kernel

-- 262-277 (`test_parse_text`)
example : parseText (OwnedSubslice.ofWhole m3.toList) = .ok
    { message := OwnedSubslice.ofWhole m3.toList, kind := .binaryEvent, attachments := some 0,
      ns := some (3, 7), id := some 1, args := [(10, 46)] } := by decide +kernel

-- 279-293 (`test_deserialize_connect`)
example : deserialize (msg "0/nsp,") = .ok (.packet
    { message := OwnedSubslice.ofWhole "0/nsp,".toList, kind := .connect, ns := some (1, 5), id := none,
      args := [], attachments := [] }) := by decide +kernel

-- 295-309 (`test_deserialize_disconnect`)
example : deserialize (msg "1/nsp,") = .ok (.packet
    { message := OwnedSubslice.ofWhole "1/nsp,".toList, kind := .disconnect, ns := some (1, 5), id := none,
      args := [], attachments := [] }) := by decide +kernel

-- 311-325 (`test_deserialize_event`)
example : deserialize (msg eventText) = .ok (.packet
    { message := OwnedSubslice.ofWhole eventText.toList, kind := .event, ns := none, id := some 3,
      args := [(3, 9), (10, 17), (18, 33)], attachments := [] }) := by decide +kernel

def ackText : String := "33[\"test\",\"hello\",{\"key\":\"value\"}]"

-- 327-341 (`test_deserialize_ack`)
example : deserialize (msg ackText) = .ok (.packet
    { message := OwnedSubslice.ofWhole ackText.toList, kind := .ack, ns := none, id := some 3,
      args := [(3, 9), (10, 17), (18, 33)], attachments := [] }) := by decide +kernel

def binEvent : String := "51-[\"binary\",{\"_placeholder\":true,\"num\":0}]"

-- 343-367 (`test_deserialize_binary_event`)
example : receive binEvent [deadbeef] = .ok
    { message := OwnedSubslice.ofWhole binEvent.toList, kind := .event, ns := none, id := none,
      args := [(4, 12), (13, 42)], attachments := [att deadbeef] } := by decide +kernel

def binAck : String := "61-10[\"binary\",{\"_placeholder\":true,\"num\":0}]"

-- 369-393 (`test_deserialize_binary_ack`)
example : receive binAck [deadbeef] = .ok
    { message := OwnedSubslice.ofWhole binAck.toList, kind := .ack, ns := none, id := some 10,
      args := [(6, 14), (15, 44)], attachments := [att deadbeef] } := by decide +kernel

/-! ### socket-io-client/src/callbacks.rs -/

/-- The registry of the test: callbacks are identified by numbers. -/
def reg : Callbacks :=
  ((Callbacks.new.setEvent "/".toList "msg".toList 0).setFallback "/".toList 1).setAck "/".toList 0 2

-- 156-178 (`test_simple`)
example : reg.getEvent "/".toList "msg".toList = some 0 ∧ reg.getEvent "/".toList "other".toList = some 1 ∧
    reg.getEvent "/ns".toList "msg".toList = none ∧ (reg.getAndClearAck "/".toList 0).1.isSome ∧
    ((reg.getAndClearAck "/".toList 0).2.getAndClearAck "/".toList 0).1 = none := by decide +kernel

/-! ### socket-io-client/src/lib.rs -/

def exampleCom : Url :=
  { scheme := "https".toList, credentials := [], host := some "example.com".toList, port := none,
    path := "/".toList, query := none, fragment := none }
def localhost : Url :=
  { scheme := "http".toList, credentials := [], host := some "localhost".toList, port := some 8000,
    path := "/".toList, query := none, fragment := none }
/-- What `Url::parse("localhost:8000")` gives. -/
def noSlashes : Url :=
  { scheme := "localhost".toList, credentials := [], host := none, port := none, path := "8000".toList,
    query := none, fragment := none }

-- 232-241 (`test_parse_url`)
example : parseUrl exampleCom = .ok { exampleCom with scheme := "wss".toList } ∧
    Url.portOrDefault { exampleCom with scheme := "wss".toList } = some 443 ∧
    parseUrl localhost = .ok { localhost with scheme := "ws".toList } ∧
    parseUrl noSlashes = .err (.invalidScheme "localhost".toList) := by decide +kernel

end SIO.RepoTests
