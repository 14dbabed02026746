import Verif.Model.WatchExport
import Verif.Spec.Watch
/-
Exporting while the state is being fed: what the export may show.
-/

namespace VgmX.Spec

/-- The looks at a state to which another thread gives the commands `h`: the `i`-th is made when that
thread has made `at i` steps. -/
def looks (h : List Event) (at_ : Nat → Nat) (i : Nat) : State := moment h (at_ i)

/-- Later looks are made later. -/
def InOrder (at_ : Nat → Nat) : Prop := ∀ i j, i ≤ j → at_ i ≤ at_ j

/-- The state `s`, but with the notes of channel `ch` as they were at look `m ch`. -/
def cutAt (s : State) (look : Nat → State) (m : Nat → Nat) : State :=
  { s with keyPresses := (List.range 8).map fun ch => (look (m ch)).keyPressesOf ch }

/-- How many notes there are in the end. -/
def notesInAll (h : List Event) : Nat :=
  ((List.range 8).map fun ch => ((run h).keyPressesOf ch).length).sum

end VgmX.Spec
