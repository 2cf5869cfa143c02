import Verif.Serialize
/-
Model of socket-io-protocol/src/socket/ser.rs.
-/
namespace SIO
open Spec (SVal)

/-- socket/mod.rs:62-70 -/
inductive PKind where
  | connect
  | disconnect
  | event
  | ack
  | binaryEvent
  | binaryAck
deriving Repr, DecidableEq

/-- ser.rs:166-173 -/
def PKind.digit : PKind → Char
  | .connect => '0'
  | .disconnect => '1'
  | .event => '2'
  | .ack => '3'
  | .binaryEvent => '5'
  | .binaryAck => '6'

/-- ser.rs:159-185 (`serialize_header`); the header is kept as text (it is built from
UTF-8 pieces). -/
def serializeHeader (kind : PKind) (att : Option Nat) (ns : Str) (id : Option Nat) : Str :=
  '4' :: kind.digit :: ((match att with | some n => natDec n ++ ['-'] | none => []) ++
    ((if ns ≠ ['/'] then ns ++ [','] else []) ++
      (match id with | some n => natDec n | none => [])))

/-- ser.rs:19-27 -/
inductive Approach where
  | normal
  | binary (kind : PKind) (ns : Str) (id : Option Nat) (attachments : List Ws)
deriving Repr, DecidableEq

/-- ser.rs:13-17 (`PacketBuilder`); the buffer is kept as text. -/
structure Builder where
  buffer : Str
  approach : Approach
  first : Bool
deriving Repr, DecidableEq

namespace Builder

/-- ser.rs:52-90; `ack` is `Kind::Ack`. -/
def new (ns : Str) (id : Option Nat) (binary : Bool) (ack : Bool) : Builder :=
  let kind : PKind :=
    match binary, ack with
    | false, false => .event
    | false, true => .ack
    | true, false => .binaryEvent
    | true, true => .binaryAck
  if !binary then ⟨serializeHeader kind none ns id, .normal, true⟩
  else ⟨[], .binary kind ns id [], true⟩

/-- `Vec::resize_with(n, || panic!())` on the text buffer: truncation, or a panic if the
vector is shorter. -/
def shrinkText (buf : Str) (n : Nat) : Res Unit Str := Res.unwrap (takeB buf n)

/-- The same on the attachment vector. -/
def shrinkMsgs (ms : List Ws) (n : Nat) : Res Unit (List Ws) :=
  if n ≤ ms.length then .ok (ms.take n) else .panic

/-- ser.rs:95-124 (`serialize_arg`).  The error is `ArgsError::JsonSerError`. -/
def serializeArg (b : Builder) (arg : SVal) : Builder × Res Unit Unit :=
  let startPos := blen b.buffer
  let buf0 := b.buffer ++ (if b.first then ['['] else [','])
  match b.approach with
  | .normal =>
    let w := serJ arg
    if w.2 then (⟨buf0 ++ w.1, .normal, false⟩, .ok ())
    else
      match shrinkText (buf0 ++ w.1) startPos with
      | .ok buf => (⟨buf, .normal, false⟩, .err ())
      | _ => (⟨buf0 ++ w.1, .normal, false⟩, .panic)
  | .binary kind ns id att =>
    let attStart := att.length
    let r := serB arg { msgs := att }
    match r.fin with
    | .ok => (⟨buf0 ++ r.out, .binary kind ns id r.cell.msgs, false⟩, .ok ())
    | .panic => (⟨buf0 ++ r.out, .binary kind ns id r.cell.msgs, false⟩, .panic)
    | .err =>
      match shrinkMsgs r.cell.msgs attStart, shrinkText (buf0 ++ r.out) startPos with
      | .ok att', .ok buf => (⟨buf, .binary kind ns id att', false⟩, .err ())
      | _, _ => (⟨buf0 ++ r.out, .binary kind ns id r.cell.msgs, false⟩, .panic)

/-- ser.rs:35-46 (`new_event`) -/
def newEvent (event ns : Str) (id : Option Nat) (binary : Bool) : Res Empty Builder :=
  match (new ns id binary false).serializeArg (.str event) with
  | (b, .ok ()) => .ok b
  | _ => .panic

/-- ser.rs:48-50 (`new_ack`) -/
def newAck (ns : Str) (id : Nat) (binary : Bool) : Builder := new ns (some id) binary true

/-- ser.rs:126-148 (`finish`) -/
def finish (b : Builder) : Res Empty (List Ws) :=
  let s := b.buffer ++ (if !b.first then [']'] else [])
  match b.approach with
  | .normal => (packageMessage s).map ([·])
  | .binary kind ns id att =>
    (packageMessage (serializeHeader kind (some att.length) ns id ++ s)).map (· :: att)

end Builder

/-- ser.rs:151-153 -/
def serializeConnect (ns : Str) : EMsg :=
  .text (OwnedSubslice.ofWhole (serializeHeader .connect none ns none))

/-- ser.rs:155-157 -/
def serializeDisconnect (ns : Str) : EMsg :=
  .text (OwnedSubslice.ofWhole (serializeHeader .disconnect none ns none))

end SIO
