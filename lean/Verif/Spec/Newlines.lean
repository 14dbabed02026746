import Verif.Spec.Main
/-
Reading a text file on another system. Does not mention the model.
-/

namespace VgmX.Spec

/-- The line ends of Unix, Windows and old Macs. -/
def linesepsKnown : List (List Char) := [['\n'], ['\r', '\n'], ['\r']]

/-- Encodings that agree with ASCII on ASCII characters: UTF-8, Latin-1, the code pages of
Windows and so on. -/
def AsciiCompatible (enc : Char → List UInt8) : Prop :=
  ∀ c : Char, c.toNat < 128 → enc c = [UInt8.ofNat c.toNat]

/-- Reading with universal line ends, as editors, spreadsheets and Python's `open` do. -/
def universal : List Char → List Char
  | [] => []
  | '\r' :: '\n' :: s => '\n' :: universal s
  | c :: s => (if c = '\r' then '\n' else c) :: universal s

end VgmX.Spec
