/-
How to read the texts the exporters write: numbers, note names. Does not mention the model.
-/

namespace VgmX.Spec

/-- The value of a digit, 0-9 and A-F. -/
def digitVal (c : Char) : Option Nat :=
  if '0' ≤ c ∧ c ≤ '9' then some (c.toNat - '0'.toNat)
  else if 'A' ≤ c ∧ c ≤ 'F' then some (c.toNat - 'A'.toNat + 10)
  else none

/-- Read digits in base `b`, most significant first, onto `acc`. -/
def readFrom (b acc : Nat) : List Char → Option Nat
  | [] => some acc
  | c :: s =>
    match digitVal c with
    | some d => if d < b then readFrom b (acc * b + d) s else none
    | none => none

/-- Read a non-empty number in base `b`. -/
def readBase (b : Nat) (s : List Char) : Option Nat := if s = [] then none else readFrom b 0 s

/-- Is it a decimal digit? -/
def isDec (c : Char) : Bool := decide ('0' ≤ c ∧ c ≤ '9')

/-- Semitones above C of a natural note. -/
def letterPitch : Char → Option Nat
  | 'C' => some 0 | 'D' => some 2 | 'E' => some 4 | 'F' => some 5 | 'G' => some 7
  | 'A' => some 9 | 'B' => some 11 | _ => none

/-- Sharp or natural. -/
def accidental : Char → Option Nat
  | '-' => some 0 | '#' => some 1 | _ => none

/-- The pitch of a Renoise note name such as `C#4`: 12 semitones per octave, from C-0. -/
def pitchOfName : List Char → Option Nat
  | l :: a :: oct =>
    match letterPitch l, accidental a, readBase 10 oct with
    | some p, some s, some o => some (12 * o + p + s)
    | _, _, _ => none
  | _ => none

/-- The octave of a Renoise note name. -/
def octaveOfName (s : List Char) : Option Nat := readBase 10 (s.drop 2)

/-- The octave of a CSV note such as `C#-4-08 [3] Pan R`. -/
def octaveOfCsv (s : List Char) : Option Nat := readBase 10 ((s.drop 3).takeWhile isDec)

/-- The pitch a YM2151 key code stands for (note codes 0, 1, 2, 4, 5, 6, 8, .. are the
twelve semitones from C# up, so code 14 is the C above). -/
def keyCodePitch (octave note : Nat) : Nat := 12 * octave + 1 + (note - note / 4)

end VgmX.Spec
