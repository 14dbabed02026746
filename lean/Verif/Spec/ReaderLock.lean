import Verif.Spec.Workers
/-
Threads that share a reader and a state, with a lock around the taking of a command only.
-/

namespace VgmX.Spec

/-- The thread is within a call of `next`. -/
def inNext (t : Worker) : Bool :=
  match t.stage with
  | .reading (some _) => true
  | _ => false

/-- The thread is about to call `next`, or within that call. -/
def atNext (t : Worker) : Bool :=
  match t.stage with
  | .reading _ => true
  | _ => false

/-- A thread makes a step of `next` only when none of the others is within a call of `next` (as with a
lock around the calls of `next`; the calls of `apply` and `beat` have none). -/
def lockedReader : Workers → List Nat → Bool
  | _, [] => true
  | w, i :: order =>
    (match w.threads[i]? with
      | none => true
      | some t => !atNext t || w.threads.zipIdx.all fun x => x.2 == i || !inNext x.1) &&
    lockedReader (w.step i) order

/-- The commands that the threads have got, thread by thread. -/
def commandsGot (w : Workers) : List Cmd :=
  w.threads.flatMap fun t => t.got.filterMap fun
    | some (.ok c) => some c
    | _ => none

/-- The exceptions that the threads have got. -/
def exceptionsGot (w : Workers) : List PyErr :=
  w.threads.flatMap fun t => t.got.filterMap fun
    | some (.error e) => some e
    | _ => none

/-- The exception with which a loop over the file ends, if it does. -/
def exceptionsOf : Outcome → List PyErr
  | .stop => []
  | .raised e => [e]

end VgmX.Spec
