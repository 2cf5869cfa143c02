import Verif.Decode
/-
Model of socket-io-protocol/src/socket/args/mod.rs, and of the `Display`
implementations of socket/mod.rs.
-/
namespace SIO

/-- args/mod.rs:20-24 -/
structure Arg where
  arg : Str
  attachments : List (OwnedSubslice Bytes)
deriving Repr, DecidableEq

/-- args/mod.rs:31-41.  serde_json's own error is not modelled. -/
inductive AErr where
  | noNumInPlaceholderObject (v : Value)
  | placeholderIndexOutOfRange (idx len : Nat)
  | jsonDeError (arg : Str)
  | jsonSerError

namespace Args

/-- args/mod.rs:44-46 -/
def len (a : Args) : Nat := a.args.length

/-- args/mod.rs:48-50 -/
def isEmpty (a : Args) : Bool := a.len == 0

/-- args/mod.rs:52-57: slicing the message may panic. -/
def get (a : Args) (i : Nat) : Res Empty (Option Arg) :=
  match a.args[i]? with
  | none => .ok none
  | some r => do
    let s ← Res.unwrap (sliceB a.message r.1 r.2)
    return some { arg := s, attachments := a.attachments }

/-- args/mod.rs:59-61 and 135-143: the items of the iterator from index `i` on, up to the
first `None`; `n` bounds the number of calls of `next`. -/
def iterFrom (a : Args) : Nat → Nat → Res Empty (List Arg)
  | 0, _ => .ok []
  | n + 1, i => do
    match ← a.get i with
    | none => return []
    | some x => do
      let xs ← iterFrom a n (i + 1)
      return x :: xs

/-- args/mod.rs:59-61: all items (after `len` items the next call returns `None`). -/
def iter (a : Args) : Res Empty (List Arg) := a.iterFrom (a.len + 1) 0

end Args

/-- `Value::as_u64` -/
def asU64 : Value → Option Nat
  | .num (.pos n) => some n
  | _ => none

/-- `buffer.iter().copied().map(|x| x.into()).collect()` -/
def bytesValue (b : Bytes) : Value := .arr (b.map fun x => .num (.pos x.toNat))

mutual
/-- args/mod.rs:88-121 (`fill_placeholders_value`): the value after the in-place update.
(After an error the partly updated value is dropped by the only caller.) -/
def fillV (bufs : List (OwnedSubslice Bytes)) : Value → Res AErr Value
  | .null => .ok .null
  | .bool b => .ok (.bool b)
  | .num n => .ok (.num n)
  | .str s => .ok (.str s)
  | .arr xs => (fillL bufs xs).map .arr
  | .obj kvs =>
    if (mapGet "_placeholder".toList kvs).isSome then
      match (mapGet "num".toList kvs).bind asU64 with
      | none => .err (.noNumInPlaceholderObject (.obj kvs))
      | some idx =>
        match bufs[idx]? with
        | none => .err (.placeholderIndexOutOfRange idx bufs.length)
        | some b =>
          match b.deref with
          | none => .panic
          | some bytes => .ok (bytesValue bytes)
    else (fillM bufs kvs).map .obj
def fillL (bufs : List (OwnedSubslice Bytes)) : List Value → Res AErr (List Value)
  | [] => .ok []
  | x :: xs =>
    match fillV bufs x with
    | .ok y => (fillL bufs xs).map (y :: ·)
    | .err e => .err e
    | .panic => .panic
/-- `values_mut` visits the values in key order. -/
def fillM (bufs : List (OwnedSubslice Bytes)) : List (Str × Value) → Res AErr (List (Str × Value))
  | [] => .ok []
  | (k, x) :: kvs =>
    match fillV bufs x with
    | .ok y => (fillM bufs kvs).map ((k, y) :: ·)
    | .err e => .err e
    | .panic => .panic
end

namespace Arg

/-- args/mod.rs:65-73 (`to_json_value`); the first step is `from_str(..).unwrap()`. -/
def toJsonValue (fin : Str → Bool) (a : Arg) : Res AErr Value :=
  match valueOfText fin a.arg with
  | none => .panic
  | some v => if a.attachments ≠ [] then fillV a.attachments v else .ok v

/-- args/mod.rs:160-164 (`Display for Arg`): `to_json_value().unwrap()`.  (A float prints as
its literal; serde_json prints the shortest literal of the same float.) -/
def display (fin : Str → Bool) (a : Arg) : Res Empty Str :=
  match a.toJsonValue fin with
  | .ok v => .ok (valueText v)
  | _ => .panic

end Arg

/-- args/mod.rs:149-155: the loop of `Display for Args`. -/
def displayArgs (fin : Str → Bool) (first : Bool) : List Arg → Res Empty Str
  | [] => .ok []
  | a :: as => do
    let s ← a.display fin
    let t ← displayArgs fin false as
    return (if first then [] else [',', ' ']) ++ (s ++ t)

/-- args/mod.rs:145-158 (`Display for Args`) -/
def Args.display (fin : Str → Bool) (a : Args) : Res Empty Str := do
  let as ← a.iter
  let s ← displayArgs fin true as
  return '[' :: (s ++ [']'])

/-- `{:?}` of an `Option<u64>` -/
def debugId : Option Nat → Str
  | none => "None".toList
  | some n => "Some(".toList ++ natDec n ++ [')']

/-- socket/mod.rs:110-120 (`Display for Data`) -/
def Data.display (fin : Str → Bool) : Data → Res Empty Str
  | .connect => .ok "Connect".toList
  | .disconnect => .ok "Disconnect".toList
  | .event id args => do
    let s ← args.display fin
    return "Event { id: ".toList ++ debugId id ++ ", args: ".toList ++ s ++ " }".toList
  | .ack id args => do
    let s ← args.display fin
    return "Ack { id: ".toList ++ natDec id ++ ", args: ".toList ++ s ++ " }".toList

/-- socket/mod.rs:104-108 (`Display for Packet`) -/
def Packet.display (fin : Str → Bool) (p : Packet) : Res Empty Str := do
  let d ← p.data
  d.display fin

end SIO
