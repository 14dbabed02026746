import Verif.Spec.Song
import Verif.Spec.Decimal
/-
Rows of a table that counts backwards. Of the model it uses the type of notes only.
-/

namespace VgmX.Spec

/-- The number of intervals of `t` samples begun before `sample`: `sample / t` rounded up. -/
def rowBack (t sample : Nat) : Nat := (sample + t - 1) / t

/-- The notes on a row that is so many rows back. -/
def onBack (presses : List Note) (t k : Nat) : List Note :=
  presses.filter (fun n => decide (rowBack t n.sample = k))

/-- The part of `-(a / b)` above the next integer below. -/
def backFraction (a b : Nat) : ℚ := if b ∣ a then 0 else 1 - fractionOf a b

end VgmX.Spec
