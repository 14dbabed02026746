import Verif.Spec.Optimise
import Verif.Spec.Song
/-
Recordings that differ in which channels they have, or in the order of what happens at the same
time on different channels. Of the model it uses the record types only.
-/

namespace VgmX.Spec

/-- The events of `h` that are not for the channels left out: key events and registers of the
channels in `keep`, global registers, waits. -/
def only (keep : Nat → Bool) (h : List Event) : List Event :=
  h.filter fun
    | .wait _ => true
    | .write r v => if r = 8 then keep (v % 8) else if 0x20 ≤ r then keep (r % 8) else true

/-- Two register writes that do not influence each other: of different registers, of the keys of
different channels, or of the keys of a channel and a register that does not concern it. -/
def Independent : Event → Event → Prop
  | .write r v, .write q w =>
    if r = 8 ∧ q = 8 then v % 8 ≠ w % 8
    else if r = 8 then ¬ Concerns q (v % 8)
    else if q = 8 then ¬ Concerns r (w % 8)
    else r ≠ q
  | _, _ => False

instance (a b : Event) : Decidable (Independent a b) := by
  unfold Independent; split <;> infer_instance

/-- `Reordered h h'`: `h'` is `h` with neighbouring independent register writes swapped, any number
of times. -/
inductive Reordered (h : List Event) : List Event → Prop
  | none : Reordered h h
  | swap {p q : List Event} {a b : Event} (before : Reordered h (p ++ a :: b :: q))
      (hi : Independent a b) : Reordered h (p ++ b :: a :: q)

/-- The same note with its instrument renumbered. -/
def renumbered (f : Nat → Nat) (n : Note) : Note :=
  { n with configId := if n.configId < 0 then n.configId else f n.configId.toNat }

/-- `f` maps the numbers of the instruments `a` to the numbers that the same instruments have
in `b`. -/
structure Renumbering (f : Nat → Nat) (a b : List Config) : Prop where
  same : ∀ i x, a[i]? = some x → ∃ y, b[f i]? = some y ∧
    y.base = x.base ∧ y.channel = x.channel ∧ y.operators = x.operators
  inj : ∀ i j, i < a.length → j < a.length → f i = f j → i = j

/-- Is the note a key-on? -/
def isOnNote (n : Note) : Bool := decide (0 ≤ n.configId)

/-- The cells of two songs are the same, the instrument numbers of the second being renumbered in
the first. -/
def SameCell (f : Nat → Nat) (a b : Option (List DaoNoteColumn)) : Prop :=
  (a = none ∧ b = none) ∨ ∃ x y, a = some [x] ∧ b = some [y] ∧ x.note = y.note ∧
    x.panning = y.panning ∧ (x.instrument = none ↔ y.instrument = none) ∧
    x.instrument.bind (readBase 16) = (y.instrument.bind (readBase 16)).map f

end VgmX.Spec
