import Verif.Spec.Alike
import Verif.Spec.Song
/-
More ways in which two recordings can be related: one is the other slowed down, or transposed by
octaves, or the beginning of the other. Of the model it uses the record types only.
-/

namespace VgmX.Spec

/-- The same event in a recording `k` times as slow. -/
def slowed (k : Nat) : Event → Event
  | .wait n => .wait (k * n)
  | .write r v => .write r v

/-- The note in a recording `k` times as slow. -/
def Note.slowed (k : Nat) (n : Note) : Note := { n with sample := k * n.sample }

/-- Is `r` one of the eight key code registers? -/
def isKeyCode (r : Nat) : Prop := 0x28 ≤ r ∧ r < 0x30

instance (r : Nat) : Decidable (isKeyCode r) := by unfold isKeyCode; infer_instance

/-- The same event `k` octaves higher: the octave is in bits 4-6 of the key code. -/
def raised (k : Nat) : Event → Event
  | .wait n => .wait n
  | .write r v => if isKeyCode r then .write r (v + 16 * k) else .write r v

/-- `h` can be raised by `k` octaves: all its key codes are that far from the top. -/
def CanRaise (k : Nat) (h : List Event) : Prop :=
  ∀ r v, Event.write r v ∈ h → isKeyCode r → v / 16 % 8 + k < 8

/-- Every channel has been given a key code before its first key event. -/
def KeyCodeFirst (h : List Event) : Prop :=
  ∀ (i v : Nat), h[i]? = some (.write 8 v) →
    ∃ (j u : Nat), j < i ∧ h[j]? = some (.write (0x28 + v % 8) u)

/-- The note `k` octaves higher. -/
def Note.raised (k : Nat) (n : Note) : Note := { n with octave := n.octave + k }

/-- What row `row` of the song, counted from its start, shows for channel `c`. -/
def rowOf (d : DaoSong) (c row : Nat) : Option (List DaoNoteColumn) :=
  columnsAt d (row / 64) c (row % 64)

end VgmX.Spec
