import Verif.Model.Reader
import Verif.Spec.Pitch
/-
How to read the printed form of a command. Only the commands themselves are those of the model.
-/

namespace VgmX.Spec

/-- What one wants to see of a command. -/
inductive Shown where
  /-- a write of a value to a register of the YM2151 -/
  | write (reg value : Nat)
  /-- a wait of so many samples -/
  | wait (samples : Nat)
  /-- the end of the sound data -/
  | eos
  /-- any other, with its opcode -/
  | other (opcode : Nat)
  deriving DecidableEq

/-- What is to be seen of this command. (A wait with no samples is not produced by the reader.) -/
def shown : Cmd → Shown
  | .ym2151 _ reg value => .write reg value
  | .wait _ n => .wait (n.getD 0)
  | .eos _ => .eos
  | .plain opcode _ => .other opcode

/-- A number written as `0x` and hexadecimal digits. -/
def readHex : List Char → Option Nat
  | '0' :: 'x' :: s => readBase 16 (s.map Char.toUpper)
  | _ => none

/-- The text tells this. -/
inductive Prints : List Char → Shown → Prop
  | write {a b : List Char} {reg value : Nat} : readHex a = some reg → readHex b = some value →
      Prints ("YM2151Command(Reg: ".toList ++ a ++ ", Data: ".toList ++ b ++ ")".toList)
        (.write reg value)
  | wait {a : List Char} {n : Nat} : readBase 10 a = some n →
      Prints ("VgmCommand(Wait: ".toList ++ a ++ ")".toList) (.wait n)
  | eos : Prints "VgmCommand(EOS)".toList .eos
  | other {a : List Char} {opcode : Nat} : readHex a = some opcode →
      Prints ("VgmCommand(".toList ++ a ++ ")".toList) (.other opcode)

end VgmX.Spec
