import Verif.Spec.Value
import Verif.Spec.Packet
/-
What the displayed text of a packet has to be.
-/
namespace SIO.Spec

/-- The texts one after the other, with `, ` between them. -/
def commaList : List (List Char) → List Char
  | [] => []
  | [t] => t
  | t :: t' :: ts => t ++ ", ".toList ++ commaList (t' :: ts)

/-- The text is a JSON value that stands for `v`. -/
def Prints (fin : List Char → Bool) (v : Value) (t : List Char) : Prop := ∃ d, TextDenotes t d ∧ Reads fin d v

/-- An optional id as shown by `{:?}`. -/
def idText : Option Nat → List Char
  | none => "None".toList
  | some n => "Some(".toList ++ decimal n ++ ")".toList

/-- `t` shows the argument with text `w` of a packet with attachments `bs`: the value serde_json
reads from the text (`Gets`), with the attachments filled in. -/
def ArgShown (fin : List Char → Bool) (bs : List (List UInt8)) (w t : List Char) : Prop :=
  ∃ d u v, TextDenotes w d ∧ Gets fin d u ∧ (if bs = [] then v = u else Filled bs u v) ∧ Prints fin v t

/-- One text for each argument. -/
inductive ArgsShown (fin : List Char → Bool) (bs : List (List UInt8)) : List (List Char) → List (List Char) → Prop where
  | nil : ArgsShown fin bs [] []
  | cons {w t : List Char} {ws ts : List (List Char)} :
      ArgShown fin bs w t → ArgsShown fin bs ws ts → ArgsShown fin bs (w :: ws) (t :: ts)

/-- The displayed text of the contents of a packet. -/
inductive Displays (fin : List Char → Bool) : Body → List Char → Prop where
  | connect : Displays fin .connect "Connect".toList
  | disconnect : Displays fin .disconnect "Disconnect".toList
  | event (id : Option Nat) (ws : List (List Char)) (bs : List (List UInt8)) (ts : List (List Char)) :
      ArgsShown fin bs ws ts →
      Displays fin (.event id ws bs)
        ("Event { id: ".toList ++ idText id ++ ", args: [".toList ++ commaList ts ++ "] }".toList)
  | ack (id : Nat) (ws : List (List Char)) (bs : List (List UInt8)) (ts : List (List Char)) :
      ArgsShown fin bs ws ts →
      Displays fin (.ack id ws bs)
        ("Ack { id: ".toList ++ decimal id ++ ", args: [".toList ++ commaList ts ++ "] }".toList)

end SIO.Spec
