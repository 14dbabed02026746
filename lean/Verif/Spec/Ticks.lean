/-
Specification of the tempo estimate: how badly a set of key-on times matches itself when
shifted. Does not mention the model.
-/

namespace VgmX.Spec

/-- Ticks that are not a shifted tick. -/
def unmatchedTicks (ticks : List Nat) (shift : Nat) : List Nat :=
  ticks.filter (fun t => decide (∀ u ∈ ticks, u + shift ≠ t))

/-- Ticks whose shifted position is not a tick although it lies before the last tick. -/
def unmatchedShifted (ticks : List Nat) (shift : Nat) : List Nat :=
  ticks.filter (fun u => decide (u + shift ∉ ticks ∧ ∃ t ∈ ticks, u + shift < t))

/-- The number of mismatches. -/
def score (ticks : List Nat) (shift : Nat) : Nat :=
  (unmatchedTicks ticks shift).length + (unmatchedShifted ticks shift).length

/-- `b` is the best shift: in range, no shift in range has a smaller score, and all smaller
shifts in range have a larger score. -/
def BestShift (ticks : List Nat) (b : Nat) : Prop :=
  1000 ≤ b ∧ b < 8000 ∧
  (∀ c, 1000 ≤ c → c < 8000 → score ticks b ≤ score ticks c) ∧
  (∀ c, 1000 ≤ c → c < b → score ticks b < score ticks c)

end VgmX.Spec
