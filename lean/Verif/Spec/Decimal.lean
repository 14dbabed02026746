import Verif.Spec.Csv
import Verif.Spec.Pitch
import Mathlib.Algebra.Order.Field.Rat
/-
How to read a decimal fraction such as `0.25`, `1.0` or `7.1e-05`. Does not mention the model.
-/

namespace VgmX.Spec

/-- Digits, with or without a decimal point and more digits. -/
def readMantissa (s : List Char) : Option ℚ :=
  match splitAt '.' s with
  | [i] => (readBase 10 i).map (fun n => (n : ℚ))
  | [i, f] =>
    match readBase 10 i, readBase 10 f with
    | some n, some m => some ((n : ℚ) + (m : ℚ) / 10 ^ f.length)
    | _, _ => none
  | _ => none

/-- A decimal number, with or without a negative exponent. -/
def readDecimal (s : List Char) : Option ℚ :=
  match splitAt 'e' s with
  | [m] => readMantissa m
  | [m, '-' :: e] =>
    match readMantissa m, readBase 10 e with
    | some x, some k => some (x / 10 ^ k)
    | _, _ => none
  | _ => none

/-- The part of `a / b` after the point. -/
def fractionOf (a b : Nat) : ℚ := ((a % b : Nat) : ℚ) / (b : ℚ)

end VgmX.Spec
