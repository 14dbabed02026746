import Verif.Model.Note
import Verif.Model.State
/-
What the song tells of a note, and what it does not. Of the model it uses the notes.
-/

namespace VgmX.Spec

/-- The semitone of a YM2151 note code, from C. The chip has twelve codes for the twelve semitones from
C# up; the four that it has not are exported like the code before them, the last like the first. -/
def semitone (note : Nat) : Nat :=
  match note with
  | 0 => 1 | 1 => 2 | 2 => 3 | 3 => 3 | 4 => 4 | 5 => 5 | 6 => 6 | 7 => 6
  | 8 => 7 | 9 => 8 | 10 => 9 | 11 => 10 | 12 => 10 | 13 => 11 | 14 => 12 | _ => 1

/-- Where the note is heard. Neither side is exported like the left one. -/
inductive Side where
  | middle | right | left
  deriving DecidableEq

def side (n : Note) : Side :=
  if n.right ∧ n.left then .middle else if n.right then .right else .left

/-- In the song the two notes look alike: both are key-offs, or they have the same instrument
number and the same semitone; and they are on the same side. When exactly they are, and the key
fraction, is not told. -/
def LooksSame (n n' : Note) : Prop :=
  side n' = side n ∧
  ((n.configId < 0 ∧ n'.configId < 0) ∨
   (0 ≤ n.configId ∧ n'.configId = n.configId ∧
    12 * n'.octave + semitone n'.note = 12 * n.octave + semitone n.note))

/-- The same for rows, which may be empty. -/
def LooksSame? : Option Note → Option Note → Prop
  | none, none => True
  | some n, some n' => LooksSame n n'
  | _, _ => False

end VgmX.Spec
