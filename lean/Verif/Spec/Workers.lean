import Verif.Model.Workers
import Verif.Spec.SharedReader
import Verif.Spec.Feeders
import Verif.Spec.Size
/-
Threads that share a reader and a state: what may be said about them.
-/

namespace VgmX.Spec

/-- The state that `n` threads have made of the file, having made steps in this order. -/
def workedOn (f : Stream) (n : Nat) (order : List Nat) : State :=
  ((Workers.start f n).after order).shared.view

/-- The calls of `apply` and `beat` that a thread makes for what it got. -/
def eventsOf (got : List (Option (Except PyErr Cmd))) : List Event :=
  got.flatMap fun
    | some (.ok c) => history [c]
    | _ => []

/-- Those of all threads. -/
def workOf (w : Workers) : List (List Event) := w.threads.map fun t => eventsOf t.got

/-- The thread has ended. -/
def isOver (t : Worker) : Bool :=
  match t.stage with
  | .over => true
  | _ => false

/-- The thread is about to take the next command, or it has ended. -/
def atTop (t : Worker) : Bool :=
  match t.stage with
  | .over => true
  | .reading none => true
  | _ => false

/-- A thread makes a step only when all the others are between two commands (as with a lock around the
body of the loop and the taking of the command). -/
def lockedLoop : Workers → List Nat → Bool
  | _, [] => true
  | w, i :: order =>
    (w.threads.zipIdx.all fun x => x.2 == i || atTop x.1) && lockedLoop (w.step i) order

end VgmX.Spec
