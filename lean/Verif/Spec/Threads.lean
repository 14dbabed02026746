import Verif.Model.Threads
import Verif.Spec.Vgm
/-
What the threads should come to.
-/

namespace VgmX.Spec

/-- How a thread has ended, if it has: with a reader and a state, or an exception. -/
def ended : Thread → Option (Except PyErr (Vgm × State))
  | .finished v s => some (.ok (v, s))
  | .raised e => some (.error e)
  | _ => none

/-- The reader of a thread, from when it has been made. -/
def readerOf : Thread → Option Vgm
  | .loop v _ _ => some v
  | .finished v _ => some v
  | _ => none

/-- The same file read without other threads, and whatever is in the dictionary. -/
def aloneResult (gunzip : Bytes → Except PyErr Bytes) (clocks : Clocks) (content : Bytes) :
    Except PyErr (Vgm × State) :=
  match (reader gunzip clocks content).1 with
  | .error e => .error e
  | .ok none => .error .type
  | .ok (some v) =>
    match processVgm v.stream with
    | .error e => .error e
    | .ok s => .ok (v, s)

/-- `p` is what is in one of the files, decompressed if need be, and it is a VGM file. -/
def InFiles (gunzip : Bytes → Except PyErr Bytes) (files : List Bytes) (p : Bytes) : Prop :=
  p.take 4 = vgmMagic ∧
    ∃ c ∈ files, (c.take 2 ≠ gzipMagic ∧ p = c) ∨ (c.take 2 = gzipMagic ∧ gunzip c = .ok p)

end VgmX.Spec
