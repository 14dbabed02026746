import Verif.Model.SongApi
/-
What a song built by any sequence of calls should hold, said about the calls alone. Of the model
it uses the types only.
-/

namespace VgmX.Spec

/-- The element of a sequence of `n` that the index `i` means: counted from the start if
`0 ≤ i`, from the end if `i < 0`; `none` if there is no such element. -/
def element (n : Nat) (i : Int) : Option Nat :=
  if -(n : Int) ≤ i ∧ i < n then some (i % n).toNat else none

/-- The number of patterns after the calls: just enough for the largest pattern number asked
for, whether that call succeeded or not. -/
def patternCount (calls : List SongCall) : Nat :=
  calls.foldl (fun n c => match c with
    | .addNote p .. => max n (p + 1).toNat
    | .addPattern _ => n) 0

/-- The cell (pattern, track, line) that a call after the calls `before` sets, and what it puts
there, in a song of `tracks` tracks; `none` if it sets none. -/
def cellSet (tracks : Nat) (before : List SongCall) : SongCall → Option ((Nat × Nat × Int) × Line)
  | .addNote p c l x =>
    match element (patternCount (before ++ [.addNote p c l x])) p, element tracks c with
    | some p', some c' => some ((p', c', l), x)
    | _, _ => none
  | .addPattern _ => none

/-- The cells set by the calls, in order. -/
def cellsSet (tracks : Nat) (calls : List SongCall) : List ((Nat × Nat × Int) × Line) :=
  (List.range calls.length).filterMap (fun i =>
    calls[i]?.bind (cellSet tracks (calls.take i)))

/-- The last value put into a cell. -/
def cellLast (tracks : Nat) (calls : List SongCall) (cell : Nat × Nat × Int) : Option Line :=
  ((cellsSet tracks calls).filter (fun x => x.1 = cell)).getLast?.map (·.2)

/-- The lines of a track that have been set, in the order in which they were set for the first
time. -/
def linesSet (tracks : Nat) (calls : List SongCall) (p c : Nat) : List Int :=
  (((cellsSet tracks calls).filter (fun x => x.1.1 = p ∧ x.1.2.1 = c)).map (·.1.2.2)).eraseDups

/-- The call fails: no such pattern even after making new ones (only possible for a negative
number), or no such track. -/
def CallFails (tracks : Nat) (before : List SongCall) : SongCall → Prop
  | .addNote p c _ _ => p < -(patternCount before : Int) ∨ c < -(tracks : Int) ∨ (tracks : Int) ≤ c
  | .addPattern _ => False

instance (tracks : Nat) (before : List SongCall) (c : SongCall) :
    Decidable (CallFails tracks before c) := by
  cases c <;> unfold CallFails <;> infer_instance

/-- The patterns put into the sequence. -/
def sequenceOf (calls : List SongCall) : List Nat :=
  calls.filterMap (fun c => match c with | .addPattern p => some p | .addNote .. => none)

end VgmX.Spec
