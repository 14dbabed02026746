import Verif.Model.State
/-
Several threads of one process, each reading a file of its own: `reader` (src/vgm/core.py:153-166),
the statements of `Vgm.__init__` (49-64) one by one, and then `process_vgm_file` (src/main.py:11-20)
command by command. What they share is the dictionary `Vgm.clocks` (src/vgm/core.py:47). The
interpreter may change to another thread anywhere; reading or assigning one item of a dictionary is
not interrupted (CPython).

Simplifications: those of Model/Reader. Operations that touch only what belongs to the thread (its
file, its local variables, its state object, see C74) are put together into one step.
-/

namespace VgmX

/-- Where a thread is. (src/vgm/core.py:49-64, 153-166, src/main.py:11-20.) -/
inductive Thread where
  /-- about to call `reader` on its file -/
  | begin (content : Bytes)
  /-- at `self.eof_offset = _read32(self.file)`, core.py:51 -/
  | header (f : Stream)
  /-- at `self.clocks["ym2413"] = v`, core.py:54 -/
  | put2413 (f : Stream) (eof ver v : Nat)
  /-- at `self.file.seek(0x30, io.SEEK_SET)`, core.py:55 -/
  | seek2151 (f : Stream) (eof ver : Nat)
  /-- at `self.clocks["ym2151"] = v`, core.py:56 -/
  | put2151 (f : Stream) (eof ver v : Nat)
  /-- at `if self.version < 110`, core.py:57 -/
  | old (f : Stream) (eof ver : Nat)
  /-- `self.clocks["ym2413"]` was `v`, at `self.clocks["ym2151"] = v`, core.py:58 -/
  | copy (f : Stream) (eof ver v : Nat)
  /-- at `if self.version >= 150`, core.py:60 -/
  | rest (f : Stream) (eof ver : Nat)
  /-- in the loop of `process_vgm_file`, with the reader `v` -/
  | loop (v : Vgm) (f : Stream) (s : State)
  /-- `process_vgm_file` has returned `s` -/
  | finished (v : Vgm) (s : State)
  | raised (e : PyErr)

/-- `reader` up to the call of `Vgm`: src/vgm/core.py:153-165. If it returns `None`, the `for` loop
over it raises `TypeError` (src/main.py:14). -/
def Thread.enter (header : Bytes) (f : Stream) : Thread :=
  if header ≠ [0x56, 0x67, 0x6d, 0x20] then .raised .type else .header f

/-- What a thread does next, and the dictionary after it. (src/vgm/core.py:49-64, 153-166,
src/main.py:11-20.) -/
def Thread.step (gunzip : Bytes → Except PyErr Bytes) (clocks : Clocks) : Thread → Thread × Clocks
  | .begin content =>
    if ((Stream.mk content 0).read 4).1.take 2 = [0x1f, 0x8b] then
      match gunzip content with
      | .error e => (.raised e, clocks)
      | .ok plain => (.enter ((Stream.mk plain 0).read 4).1 ((Stream.mk plain 0).read 4).2, clocks)
    else (.enter ((Stream.mk content 0).read 4).1 ((Stream.mk content 0).read 4).2, clocks)
  | .header f =>
    match read32 f with
    | (.error e, _) => (.raised e, clocks)
    | (.ok eof, f) =>
    match readBcd f with
    | (.error e, _) => (.raised e, clocks)
    | (.ok ver, f) =>
    match read32 f with
    | (.error e, _) => (.raised e, clocks)
    | (.ok _, f) =>
    match read32 f with
    | (.error e, _) => (.raised e, clocks)
    | (.ok v, f) => (.put2413 f eof ver v, clocks)
  | .put2413 f eof ver v => (.seek2151 f eof ver, clocks.set "ym2413" v)
  | .seek2151 f eof ver =>
    match read32 (f.seek 0x30) with
    | (.error e, _) => (.raised e, clocks)
    | (.ok v, f) => (.put2151 f eof ver v, clocks)
  | .put2151 f eof ver v => (.old f eof ver, clocks.set "ym2151" v)
  | .old f eof ver =>
    if ver < 110 then
      match clocks "ym2413" with
      | none => (.raised .key, clocks)
      | some v => (.copy f eof ver v, clocks)
    else (.rest f eof ver, clocks)
  | .copy f eof ver v => (.rest f eof ver, clocks.set "ym2151" v)
  | .rest f eof ver =>
    if 150 ≤ ver then
      match read32 f with
      | (.error e, _) => (.raised e, clocks)
      | (.ok off, f) =>
        let dataStart := 0x34 + off
        (.loop ⟨f.seek dataStart, eof, ver, dataStart⟩ (f.seek dataStart) State.init, clocks)
    else (.loop ⟨f.seek 0x40, eof, ver, 0x40⟩ (f.seek 0x40) State.init, clocks)
  | .loop v f s =>
    match next f with
    | (none, _) => (.finished v s, clocks)
    | (some (.error e), _) => (.raised e, clocks)
    | (some (.ok c), f') =>
      match s.process1 c with
      | .error e => (.raised e, clocks)
      | .ok s' => (.loop v f' s', clocks)
  | .finished v s => (.finished v s, clocks)
  | .raised e => (.raised e, clocks)

/-- The process: `Vgm.clocks` and the threads. (src/vgm/core.py:47.) -/
structure Crew where
  clocks : Clocks
  threads : List Thread

/-- Thread `i` does what it does next. (src/vgm/core.py:49-64, 153-166, src/main.py:11-20.) -/
def Crew.step (gunzip : Bytes → Except PyErr Bytes) (w : Crew) (i : Nat) : Crew :=
  match w.threads[i]? with
  | none => w
  | some t =>
    { clocks := (t.step gunzip w.clocks).2
      threads := w.threads.set i (t.step gunzip w.clocks).1 }

/-- The threads take turns as the schedule says.
(src/vgm/core.py:49-64, 153-166, src/main.py:11-20.) -/
def Crew.run (gunzip : Bytes → Except PyErr Bytes) (w : Crew) : List Nat → Crew
  | [] => w
  | i :: is => (w.step gunzip i).run gunzip is

/-- One thread for every file, none of which has begun. (src/vgm/core.py:153.) -/
def Crew.start (clocks : Clocks) (files : List Bytes) : Crew := ⟨clocks, files.map .begin⟩

end VgmX
