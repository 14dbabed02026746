import Verif.Model.Watch
/-
Commands that are cut off: an exception from outside (Ctrl-C, a signal handler that raises) ends
`apply` or `beat` between two of its single changes, and the caller goes on using the state.
-/

namespace VgmX
open Spec

/-- The state after the first `j` changes of a command or a wait, src/vgm/ym2151/state.py:35-152
and 160-161. -/
def State.cut (s : State) (e : Event) (j : Nat) : State :=
  ((s.changes e).take j).foldl Store.put s

/-- The state after one call that returns (`none`) or is cut off after `j` changes.
(src/vgm/ym2151/state.py:35-152 and 160-161.) -/
def State.stepCut (s : State) : Event × Option Nat → State
  | (e, none) => s.step e
  | (e, some j) => s.cut e j

/-- The state after such calls, from a fresh `State()`. (src/vgm/ym2151/state.py:17-30.) -/
def runCut (d : List (Event × Option Nat)) : State := d.foldl State.stepCut State.init

end VgmX
