import Verif.Model.Short
/-
One file object, at any position, and several readers made from it by `vgm.core.reader`. A reader
holds the file object itself (src/vgm/core.py:50), so all of them move the same position.

Simplification: files that are not compressed (for a compressed one every reader has a `GzipFile`
of its own, `Opened.gzip`).
-/

namespace VgmX

/-- A program that reads, over a file that gives all the bytes asked for as long as there are some.
(Calls of the file in src/vgm/core.py:11-166.) -/
def Rd.run {α : Type} : Rd α → Stream → α × Stream
  | .ret a, s => (a, s)
  | .read n k, s => (k (some (s.read n).1)).run (s.read n).2
  | .seek p k, s => k.run (s.seek p)

/-- The attributes of a reader other than the file. (src/vgm/core.py:49-64.) -/
structure Fields where
  eofOffset : Nat
  version : Nat
  dataStart : Nat
  deriving DecidableEq, Repr

/-- The file object, the readers made from it so far, and the class-level table of clocks.
(src/vgm/core.py:45-64.) -/
structure Desk where
  file : Stream
  readers : List Fields
  clocks : Clocks

/-- What the caller does: move in the file, make a reader, ask the `i`-th reader for a command.
(Calls of src/vgm/core.py:78 and 153.) -/
inductive DeskCall where
  | seek (p : Nat)
  | reader
  | next (i : Nat)
  deriving DecidableEq, Repr

/-- What the call gives back. (Calls of src/vgm/core.py:78 and 153.) -/
inductive DeskGot where
  | done
  /-- of `reader` -/
  | opened (r : Except PyErr Opened)
  /-- of `next`; `none` is `StopIteration` -/
  | command (r : Option (Except PyErr Cmd))
  /-- there is no such reader (not a call that can be made) -/
  | noReader
  deriving DecidableEq

/-- One call. (src/vgm/core.py:78-82, 153-166.) -/
def Desk.call (d : Desk) : DeskCall → DeskGot × Desk
  | .seek p => (.done, { d with file := d.file.seek p })
  | .reader =>
    match (readerRd d.clocks).run d.file with
    | ((r, clocks), file) =>
      (.opened r,
        { file := file, clocks := clocks,
          readers :=
            match r with
            | .ok (.vgm a v s) => d.readers ++ [⟨a, v, s⟩]
            | _ => d.readers })
  | .next i =>
    match d.readers[i]? with
    | none => (.noReader, d)
    | some _ =>
      match nextRd.run d.file with
      | (r, file) => (.command r, { d with file := file })

/-- Calls one after the other. (Calls of src/vgm/core.py:78 and 153.) -/
def Desk.calls (d : Desk) : List DeskCall → List DeskGot × Desk
  | [] => ([], d)
  | c :: cs =>
    match d.call c with
    | (g, d') =>
      match d'.calls cs with
      | (gs, d'') => (g :: gs, d'')

end VgmX
