import Verif.Spec.Vgm
import Verif.Spec.Ym2151
/-
What the commands of a file mean to the extractor.
-/

namespace VgmX.Spec

/-- What a command means to the extractor. -/
def eventOf : Cmd → Option Event
  | .ym2151 _ r v => some (.write r v)
  | .wait _ (some n) => some (.wait n)
  | .wait _ none => none
  | .plain _ _ => none
  | .eos _ => none

/-- The history a list of commands stands for. -/
def history (cs : List Cmd) : List Event := cs.filterMap eventOf

end VgmX.Spec
