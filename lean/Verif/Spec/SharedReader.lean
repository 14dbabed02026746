import Verif.Model.SharedReader
/-
What threads that share one reader get.
-/

namespace VgmX.Spec

/-- All bytes that the threads have read, in the order in which they were read. -/
def allRead (w : Sharers) : Bytes := (w.reads.map fun x => x.2.2).flatten

/-- The bytes that call number `c` of thread `i` has read. -/
def readBy (w : Sharers) (i c : Nat) : Bytes :=
  ((w.reads.filter fun x => x.1 == i && x.2.1 == c).map fun x => x.2.2).flatten

/-- Nothing is left in the file. -/
def atEnd (f : Stream) : Prop := f.data.length ≤ f.pos

/-- How many calls of all threads have given a command or an exception. -/
def given (w : Sharers) : Nat :=
  (w.threads.map fun t => (t.done.filter fun r => r.isSome).length).sum

end VgmX.Spec
