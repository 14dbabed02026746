import Verif.Model.Interrupt
/-
Cut off and done again.
-/

namespace VgmX.Spec

/-- Every call that is cut off is made once more. -/
def doneAgain : List (Event × Option Nat) → List (Event × Option Nat)
  | [] => []
  | (e, none) :: d => (e, none) :: doneAgain d
  | (e, some j) :: d => (e, some j) :: (e, none) :: doneAgain d

end VgmX.Spec
