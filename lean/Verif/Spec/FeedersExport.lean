import Verif.Spec.Feeders
import Verif.Spec.WatchExport
/-
Exporting while several threads feed the state.
-/

namespace VgmX.Spec

/-- The looks at a state that several threads feed, each with its list of calls, taking their steps in
this order: the `i`-th is made when `at_ i` steps have been made. -/
def looksAmong (calls : List (List Event)) (order : List Nat) (at_ : Nat → Nat) (i : Nat) : State :=
  fedBy calls (order.take (at_ i))

/-- How many notes there are in the end. -/
def notesAmong (calls : List (List Event)) (order : List Nat) : Nat :=
  ((List.range 8).map fun ch => ((fedBy calls order).keyPressesOf ch).length).sum

end VgmX.Spec
