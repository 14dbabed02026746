import Verif.Spec.History
/-
How much there is in a history and in a list of commands: plain counts.
-/

namespace VgmX.Spec

/-- The number of register writes. -/
def writeCount (h : List Event) : Nat :=
  (h.map fun | .write _ _ => 1 | .wait _ => 0).sum

/-- The number of writes to the key register. -/
def keyCount (h : List Event) : Nat :=
  (h.map fun | .write r _ => if r = 0x08 then 1 else 0 | .wait _ => 0).sum

/-- The number of payload bytes a command carries. -/
def payloadSize : Cmd → Nat
  | .plain _ (some b) => b.length
  | _ => 0

/-- All notes of eight channels counted together. -/
def noteCount (tracks : Nat → List Note) : Nat :=
  ((List.range 8).map fun c => (tracks c).length).sum

end VgmX.Spec
