import Mathlib.Algebra.Order.Field.Rat
/-
When things sound: in the recording, and in a song played at its tempo. Exact rational
numbers of seconds; does not mention the model.
-/

namespace VgmX.Spec

/-- The time of a sample of the recording, at 44100 samples per second. -/
def recordedAt (sample : Nat) : ℚ := sample / 44100

/-- The time at which row `row` of a song is played, at `bpm` beats per minute and `lpb` rows
per beat. -/
def playedAt (bpm lpb : ℚ) (row : Nat) : ℚ := row * 60 / (bpm * lpb)

end VgmX.Spec
