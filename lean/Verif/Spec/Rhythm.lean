/-
Vocabulary of C101: rhythms that repeat. Does not mention the model.
-/

namespace VgmX.Spec

/-- The rhythm (a set of times) repeats after `p`. -/
def Repeats (R : Nat → Prop) (p : Nat) : Prop := ∀ t, R (t + p) ↔ R t

end VgmX.Spec
