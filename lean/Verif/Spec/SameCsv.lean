import Verif.Spec.Song
/-
What the CSV export tells of the notes, and what it does not. Of the model it uses the notes.
-/

namespace VgmX.Spec

/-- Both are key-offs, or they have the same instrument number, octave, note code, key fraction (0
and 1 count as the same) and panning (without the right side, the left does not count). When
exactly they are is not told. -/
def ReadsSame (n n' : Note) : Prop :=
  (n.configId < 0 ∧ n'.configId < 0) ∨
  (0 ≤ n.configId ∧ n'.configId = n.configId ∧ n'.octave = n.octave ∧ n'.note = n.note ∧
    (n'.keyFraction = n.keyFraction ∨ (n'.keyFraction ≤ 1 ∧ n.keyFraction ≤ 1)) ∧
    n'.right = n.right ∧ (n.right = true → n'.left = n.left))

/-- The same for rows, which may be empty. -/
def ReadsSame? : Option Note → Option Note → Prop
  | none, none => True
  | some n, some n' => ReadsSame n n'
  | _, _ => False

/-- `m` is the time of the first of the notes `P` (by channel) that is on a row after `r`. -/
def NextAt (P : Nat → List Note) (t r m : Nat) : Prop :=
  (∃ c < 8, ∃ n ∈ P c, n.sample = m ∧ r < n.sample / t) ∧
  ∀ c < 8, ∀ n ∈ P c, r < n.sample / t → m ≤ n.sample

/-- After every row the next note is at the same time (or there is none), and if there is one the
last notes on the row read the same, in every channel. -/
def SameRows (P P' : Nat → List Note) (t : Nat) : Prop :=
  (∀ r m, NextAt P t r m ↔ NextAt P' t r m) ∧
  ∀ r, (∃ m, NextAt P t r m) → ∀ c < 8,
    ReadsSame? (onRow (P c) t r).getLast? (onRow (P' c) t r).getLast?

end VgmX.Spec
