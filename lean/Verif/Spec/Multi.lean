import Verif.Model.Multi
/-
Several state objects: whose call is whose.
-/

namespace VgmX.Spec

/-- How many objects the program has created. -/
def created (cs : List Call) : Nat := cs.countP (fun c => c == .new)

/-- The calls on object `k`, in order. -/
def callsOn (k : Nat) (cs : List Call) : List Event :=
  cs.filterMap fun
    | .on j e => if j = k then some e else none
    | .new => none

/-- Every call is on an object that exists at that time: before each call on object `k` there are
more than `k` creations. -/
def Possible (cs : List Call) : Prop :=
  ∀ pre k e post, cs = pre ++ Call.on k e :: post → k < created pre

end VgmX.Spec
