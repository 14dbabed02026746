import Verif.Spec.Ticks
import Verif.Spec.Pitch
import Mathlib.Algebra.Order.Field.Rat
/-
How to read the table of tempo estimates that the program prints, and what it should say.
Does not mention the model.
-/

namespace VgmX.Spec

/-- A line such as `1500: 87.32%`: the length, and the percentage in hundredths. -/
def estimateOf (line : List Char) : Option (Nat × Nat) :=
  match line.dropWhile isDec with
  | ':' :: ' ' :: s =>
    match s.dropWhile isDec with
    | ['.', a, b, '%'] =>
      if s.takeWhile isDec = [] then none
      else
        match readBase 10 (line.takeWhile isDec), readBase 10 (s.takeWhile isDec ++ [a, b]) with
        | some n, some p => some (n, p)
        | _, _ => none
    | _ => none
  | _ => none

/-- Shift `a` matches the key-on times better than shift `b`: fewer mismatches, or as many and
shorter. -/
def Better (T : List Nat) (a b : Nat) : Prop :=
  score T a < score T b ∨ (score T a = score T b ∧ a < b)

/-- How well the key-on times match themselves when shifted, from 0 to 1: of the `2 n - 1`
possible mismatches of `n` times, how many are absent. -/
def similarity (T : List Nat) (shift : Nat) : ℚ :=
  if T = [] then 1 else 1 - (score T shift : ℚ) / (2 * (T.length : ℚ) - 1)

end VgmX.Spec
