import Verif.Model.Reader
/-
Several threads that call `next` on one reader without a lock: `Vgm.__next__`
(src/vgm/core.py:78-82) and `command` (85-150) read the file in up to three reads, and another
thread may read in between.

Simplifications: those of Model/Reader. One `read` of the file object is not interrupted (the
buffered file objects of CPython hold a lock of their own while they read, `io.BytesIO` the
interpreter lock). What a call does between its reads touches only what belongs to the call.
-/

namespace VgmX

/-- A call that is under way: it reads up to `n` bytes next and goes on with those it gets, or it
is about to return (`none` is `StopIteration`). (src/vgm/core.py:78-150.) -/
inductive NextCall where
  | read (n : Nat) (k : Bytes → NextCall)
  | back (r : Option (Except PyErr Cmd))

/-- `return VgmCommand(cmd_id, f.read(n))`. (src/vgm/core.py:85-150.) -/
def plainReads (cmdId n : Nat) : NextCall :=
  .read n fun b => .back (some (.ok (.plain cmdId (some b))))

/-- `command`, src/vgm/core.py:85-150, read by read. -/
def commandReads (cmdId : Nat) : NextCall :=
  -- core.py:86-94
  if cmdId < 0x30
      ∨ cmdId = 0x60
      ∨ (0x64 ≤ cmdId ∧ cmdId ≤ 0x65)
      ∨ (0x69 ≤ cmdId ∧ cmdId < 0x70)
      ∨ (0x80 ≤ cmdId ∧ cmdId < 0x90)
      ∨ (0x96 ≤ cmdId ∧ cmdId < 0xA0) then
    .back (some (.ok (.plain cmdId none)))
  -- core.py:96-103
  else if 30 ≤ cmdId ∧ cmdId < 0x40 then plainReads cmdId 1
  else if cmdId < 0x4F then plainReads cmdId 2
  else if cmdId < 0x51 then plainReads cmdId 1
  else if cmdId < 0x54 then plainReads cmdId 2
  -- core.py:104-107, `_read8` 25-29
  else if cmdId = 0x54 then
    .read 1 fun b =>
      if b.length ≠ 1 then .back (some (.error .eof))
      else .read 1 fun b' =>
        if b'.length ≠ 1 then .back (some (.error .eof))
        else .back (some (.ok (.ym2151 cmdId (leNat b) (leNat b'))))
  -- core.py:108-117, `_read16` 18-22
  else if cmdId < 0x60 then plainReads cmdId 2
  else if cmdId = 0x61 then
    .read 2 fun b =>
      if b.length ≠ 2 then .back (some (.error .eof))
      else .back (some (.ok (mkWait cmdId (some (leNat b)))))
  else if cmdId = 0x62 then .back (some (.ok (mkWait cmdId (some 735))))
  else if cmdId = 0x63 then .back (some (.ok (mkWait cmdId (some 882))))
  else if cmdId = 0x66 then .back (some (.ok (.eos cmdId)))
  -- core.py:118-124
  else if cmdId = 0x67 then
    .read 6 fun b =>
      if b.length ≠ 6 then .back (some (.error .struct))
      else plainReads cmdId (leNat (b.drop 2))
  -- core.py:125-132
  else if cmdId = 0x68 then
    .read 11 fun b =>
      if b.length ≠ 11 then .back (some (.error .struct))
      else plainReads cmdId (leNat ((b.drop 9).take 2) * 256 + leNat ((b.drop 8).take 1))
  -- core.py:133-150
  else if cmdId < 0x80 then .back (some (.ok (mkWait cmdId none)))
  else if cmdId < 0x92 then plainReads cmdId 4
  else if cmdId = 0x92 then plainReads cmdId 5
  else if cmdId = 0x93 then plainReads cmdId 10
  else if cmdId = 0x94 then plainReads cmdId 1
  else if cmdId = 0x95 then plainReads cmdId 4
  else if cmdId < 0xC0 then plainReads cmdId 2
  else if cmdId < 0xE0 then plainReads cmdId 3
  else plainReads cmdId 4

/-- `__next__` goes on with what `self.file.read(1)` gave, src/vgm/core.py:80-82. -/
def nextGoes : Bytes → NextCall
  | [] => .back none
  | b :: _ => commandReads b.toNat

/-- `Vgm.__next__`, src/vgm/core.py:78-82, read by read. -/
def nextReads : NextCall := .read 1 nextGoes

/-- A thread: the call it is in, if any, and what its calls before gave.
(src/vgm/core.py:78-82.) -/
structure Sharer where
  call : Option NextCall
  done : List (Option (Except PyErr Cmd))

/-- The file object the threads share and the threads. `reads` records, for the statements, what
every read gave, with the thread and the number of its call. (src/vgm/core.py:78-82.) -/
structure Sharers where
  file : Stream
  threads : List Sharer
  reads : List (Nat × Nat × Bytes)

/-- `n` threads that have called nothing yet, on a file object. (src/vgm/core.py:78-82.) -/
def Sharers.start (f : Stream) (n : Nat) : Sharers := ⟨f, List.replicate n ⟨none, []⟩, []⟩

/-- Thread `i` does what it does next: a read (with which a new call begins if it is in none) or
the return from its call. (src/vgm/core.py:78-150.) -/
def Sharers.step (w : Sharers) (i : Nat) : Sharers :=
  match w.threads[i]? with
  | none => w
  | some t =>
    match t.call.getD nextReads with
    | .read n k =>
      { file := (w.file.read n).2
        threads := w.threads.set i { t with call := some (k (w.file.read n).1) }
        reads := w.reads ++ [(i, t.done.length, (w.file.read n).1)] }
    | .back r => { w with threads := w.threads.set i ⟨none, t.done ++ [r]⟩ }

/-- The threads take turns as the schedule says. (src/vgm/core.py:78-150.) -/
def Sharers.after (w : Sharers) (order : List Nat) : Sharers := order.foldl Sharers.step w

end VgmX
