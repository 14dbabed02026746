import Verif.Model.State
import Verif.Model.Float
import Verif.Model.Text
/-
Model of `src/vgm/ym2151/note.py`: the two note name tables, `Note.__str__` and
`Note.xrns_note`. (`Note.__init__` is in Model/State.)
-/

namespace VgmX

/-- `_NOTE_LOOKUP`, note.py:6-23; a missing key is a `KeyError`. -/
def noteLookup : Nat → Except PyErr Str
  | 0 => .ok ['C', '#']
  | 1 => .ok ['D', ' ']
  | 2 => .ok ['D', '#']
  | 3 => .ok ['D', '?']
  | 4 => .ok ['E', ' ']
  | 5 => .ok ['F', ' ']
  | 6 => .ok ['F', '#']
  | 7 => .ok ['F', '?']
  | 8 => .ok ['G', ' ']
  | 9 => .ok ['G', '#']
  | 10 => .ok ['A', ' ']
  | 11 => .ok ['A', '?']
  | 12 => .ok ['A', '#']
  | 13 => .ok ['B', ' ']
  | 14 => .ok ['C', ' ']
  | 15 => .ok ['C', '?']
  | _ => .error .key

/-- `_NOTE_LOOKUP_XRNS`, note.py:25-42; a missing key is a `KeyError`. -/
def noteLookupXrns : Nat → Except PyErr Str
  | 0 => .ok ['C', '#']
  | 1 => .ok ['D', '-']
  | 2 => .ok ['D', '#']
  | 3 => .ok ['D', '#']
  | 4 => .ok ['E', '-']
  | 5 => .ok ['F', '-']
  | 6 => .ok ['F', '#']
  | 7 => .ok ['F', '#']
  | 8 => .ok ['G', '-']
  | 9 => .ok ['G', '#']
  | 10 => .ok ['A', '-']
  | 11 => .ok ['A', '#']
  | 12 => .ok ['A', '#']
  | 13 => .ok ['B', '-']
  | 14 => .ok ['C', '-']
  | 15 => .ok ['C', '#']
  | _ => .error .key

/-- `"-{:02.0f}".format(self.key_fraction * 1.6)`, note.py:60-61. `1.6` is a double; the
product is rounded to a double, and the format rounds its exact value to an integer, ties
to even. -/
def kfText (keyFraction : Nat) : Str :=
  if keyFraction > 1 then
    '-' :: padLeft '0' 2
      (intStr (roundHalfEven (roundDouble ((keyFraction : Rat) * roundDouble (16 / 10)))))
  else []

/-- The panning text of `__str__`, note.py:62-64. -/
def panText (right left : Bool) : Str :=
  if !right || !left then ['P', 'a', 'n', ' '] ++ (if right then ['R'] else ['L']) else []

/-- `Note.__str__`, note.py:55-65. -/
def Note.str (n : Note) : Except PyErr Str :=
  if n.configId < 0 then .ok ['K', 'e', 'y', ' ', 'O', 'f', 'f']
  else
    match noteLookup n.note with
    | .error e => .error e
    | .ok name =>
      .ok (name ++ ['-'] ++ natStr n.octave ++ kfText n.keyFraction ++ [' ', '['] ++
        intStr n.configId ++ [']', ' '] ++ panText n.right n.left)

/-- `Note.xrns_note`, note.py:67-75. -/
def Note.xrnsNote (n : Note) : Except PyErr Str :=
  if n.configId < 0 then .ok ['O', 'f', 'f']
  else
    match noteLookupXrns n.note with
    | .error e => .error e
    | .ok name =>
      let octave := if n.note = 14 then n.octave + 1 else n.octave
      .ok (name ++ natStr octave)

end VgmX
