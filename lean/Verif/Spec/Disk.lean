import Verif.Model.Faults
/-
A disk with so many free bytes, for property C81.
-/

namespace VgmX.Spec

/-- The number of free bytes. A write takes as many bytes as there is room for: those that replace
bytes of the file need none. If it could not take a single one it fails with `ENOSPC` (28).
Emptying a file frees its bytes. -/
def disk : Device where
  St := Nat
  write := fun free length pos n =>
    let k := min n ((length - pos) + free)
    if k = 0 then (.error (.other 28), free) else (.ok k, free - (pos + k - length))
  emptied := fun free length => free + length

/-- The free bytes. -/
def _root_.VgmX.FWorld.free (w : FWorld disk) : Nat := w.dev

/-- The name of the file the instruments are written to, if any: `-` is standard output. -/
def instrFile : Option Str → Option Str
  | some n => if n = [] ∨ n = ['-'] then none else some n
  | none => none

/-- The name of the file the song is written to, if any. -/
def trackFile : Option Str → Option Str
  | some n => if n = [] then none else some n
  | none => none

/-- The size of a file; 0 if there is none. -/
def fileSize (fs : Str → Option Bytes) : Option Str → Nat
  | some n => ((fs n).getD []).length
  | none => 0

/-- The instruments of the finished run fit on the disk, the old ones being deleted first. -/
def InstrFits (free : Nat) (before after : Str → Option Bytes) (instr : Option Str) : Prop :=
  fileSize after (instrFile instr) ≤ free + fileSize before (instrFile instr)

/-- The instruments and the song of the finished run fit on the disk together. -/
def BothFit (free : Nat) (before after : Str → Option Bytes) (instr track : Option Str) : Prop :=
  fileSize after (instrFile instr) + fileSize after (trackFile track)
    ≤ free + fileSize before (instrFile instr) + fileSize before (trackFile track)

end VgmX.Spec
