import Verif.Model.State
/-
Model of reading a file whose reads can fail: a gzip file that is cut off or damaged, or has a
wrong checksum. `GzipFile.read` decompresses as it reads (CPython 3.11, Lib/gzip.py
`_GzipReader.read`, Lib/_compression.py `DecompressReader`), so such a file is opened without an
error, delivers what can be decompressed, and raises at the read that needs more; a wrong checksum
is noticed at the read that hits the end.

The functions are those of Model/Reader (`src/vgm/core.py`) and `processVgm` of Model/State once
more, over such a file; with no failure they are the same (`fread_undamaged`, Lemmas/Damaged).

Simplification: how much can be decompressed before a damaged place is taken not to depend on the
sizes of the reads. (It does not for files cut off and wrong checksums; zlib may deliver more or
less of the last block before a corrupted place.)
-/

namespace VgmX

/-- A file object in binary mode: what can be read, the position, and what is raised by a read
that needs more (`none`: then it is the end of the file).
(Standard library, for src/vgm/core.py:11-166.) -/
structure FStream where
  data : Bytes
  pos : Nat
  fail : Option PyErr
  deriving DecidableEq, Repr

/-- `file.read(n)`. (Standard library, for src/vgm/core.py:11-166.) -/
def FStream.read (s : FStream) (n : Nat) : Except PyErr Bytes × FStream :=
  let b := (s.data.drop s.pos).take n
  let ok : Except PyErr Bytes × FStream := (.ok b, { s with pos := s.pos + b.length })
  match s.fail with
  | none => ok
  | some e => if n = 0 ∨ s.pos + n ≤ s.data.length then ok else (.error e, s)

/-- `file.seek(p)`: forwards in a compressed file by reading (Lib/_compression.py
`DecompressReader.seek`). (Standard library, for src/vgm/core.py:11-166.) -/
def FStream.seek (s : FStream) (p : Nat) : Except PyErr FStream :=
  match s.fail with
  | none => .ok { s with pos := p }
  | some e => if p ≤ s.data.length then .ok { s with pos := p } else .error e

/-- `_read32`, `_read16`, `_read8`, src/vgm/core.py:11-29: `k` bytes. -/
def freadLe (k : Nat) (s : FStream) : Except PyErr Nat × FStream :=
  match s.read k with
  | (.error e, s') => (.error e, s')
  | (.ok b, s') => if b.length ≠ k then (.error .eof, s') else (.ok (leNat b), s')

/-- `_read_bcd`, src/vgm/core.py:32-42. -/
def freadBcd (s : FStream) : Except PyErr Nat × FStream :=
  match s.read 4 with
  | (.error e, s') => (.error e, s')
  | (.ok b, s') => if b.length ≠ 4 then (.error .eof, s') else (.ok (bcdValue b), s')

/-- `VgmCommand(cmd_id, f.read(n))`. (src/vgm/core.py:85-150.) -/
def fplain (cmdId : Nat) (s : FStream) (n : Nat) : Except PyErr Cmd × FStream :=
  match s.read n with
  | (.error e, s') => (.error e, s')
  | (.ok b, s') => (.ok (.plain cmdId (some b)), s')

/-- `command`, src/vgm/core.py:85-150. -/
def fcommand (cmdId : Nat) (f : FStream) : Except PyErr Cmd × FStream :=
  if cmdId < 0x30
      ∨ cmdId = 0x60
      ∨ (0x64 ≤ cmdId ∧ cmdId ≤ 0x65)
      ∨ (0x69 ≤ cmdId ∧ cmdId < 0x70)
      ∨ (0x80 ≤ cmdId ∧ cmdId < 0x90)
      ∨ (0x96 ≤ cmdId ∧ cmdId < 0xA0) then
    (.ok (.plain cmdId none), f)
  else if 30 ≤ cmdId ∧ cmdId < 0x40 then fplain cmdId f 1
  else if cmdId < 0x4F then fplain cmdId f 2
  else if cmdId < 0x51 then fplain cmdId f 1
  else if cmdId < 0x54 then fplain cmdId f 2
  else if cmdId = 0x54 then
    match freadLe 1 f with
    | (.error e, f1) => (.error e, f1)
    | (.ok reg, f1) =>
      match freadLe 1 f1 with
      | (.error e, f2) => (.error e, f2)
      | (.ok value, f2) => (.ok (.ym2151 cmdId reg value), f2)
  else if cmdId < 0x60 then fplain cmdId f 2
  else if cmdId = 0x61 then
    match freadLe 2 f with
    | (.error e, f1) => (.error e, f1)
    | (.ok n, f1) => (.ok (mkWait cmdId (some n)), f1)
  else if cmdId = 0x62 then (.ok (mkWait cmdId (some 735)), f)
  else if cmdId = 0x63 then (.ok (mkWait cmdId (some 882)), f)
  else if cmdId = 0x66 then (.ok (.eos cmdId), f)
  else if cmdId = 0x67 then
    match f.read 6 with
    | (.error e, f1) => (.error e, f1)
    | (.ok buffer, f1) =>
      if buffer.length ≠ 6 then (.error .struct, f1)
      else fplain cmdId f1 (leNat (buffer.drop 2))
  else if cmdId = 0x68 then
    match f.read 11 with
    | (.error e, f1) => (.error e, f1)
    | (.ok buffer, f1) =>
      if buffer.length ≠ 11 then (.error .struct, f1)
      else
        let ssB := leNat ((buffer.drop 8).take 1)
        let ssH := leNat ((buffer.drop 9).take 2)
        fplain cmdId f1 (ssH * 256 + ssB)
  else if cmdId < 0x80 then (.ok (mkWait cmdId none), f)
  else if cmdId < 0x92 then fplain cmdId f 4
  else if cmdId = 0x92 then fplain cmdId f 5
  else if cmdId = 0x93 then fplain cmdId f 10
  else if cmdId = 0x94 then fplain cmdId f 1
  else if cmdId = 0x95 then fplain cmdId f 4
  else if cmdId < 0xC0 then fplain cmdId f 2
  else if cmdId < 0xE0 then fplain cmdId f 3
  else fplain cmdId f 4

/-- `Vgm.__next__`, src/vgm/core.py:78-82; `none` is `StopIteration`. -/
def fnext (s : FStream) : Option (Except PyErr Cmd) × FStream :=
  match s.read 1 with
  | (.error e, s1) => (some (.error e), s1)
  | (.ok [], s1) => (none, s1)
  | (.ok (b :: _), s1) =>
    let (r, s2) := fcommand b.toNat s1
    (some r, s2)

/-- `FRuns s cs o`: `for cmd in reader` from position `s` yields the commands `cs` and then ends
as `o` says. (The loop src/main.py:14-18 over src/vgm/core.py:75-82.) -/
inductive FRuns : FStream → List Cmd → Outcome → Prop
  | stop {s s'} : fnext s = (none, s') → FRuns s [] .stop
  | raise {s s' e} : fnext s = (some (.error e), s') → FRuns s [] (.raised e)
  | yield {s s' c cs o} : fnext s = (some (.ok c), s') → FRuns s' cs o → FRuns s (c :: cs) o

/-- `process_vgm_file` over the reader, src/main.py:11-20 (see `processStream`). -/
def fprocessStream : Nat → FStream → State → Option (Except PyErr State)
  | 0, _, _ => none
  | fuel + 1, f, s =>
    match fnext f with
    | (none, _) => some (.ok s)
    | (some (.error e), _) => some (.error e)
    | (some (.ok c), f') =>
      match s.process1 c with
      | .error e => some (.error e)
      | .ok s' => fprocessStream fuel f' s'

/-- `process_vgm_file` on a reader at `f`, src/main.py:11-20. The default is never taken
(`fprocess_runs`). -/
def fprocessVgm (f : FStream) : Except PyErr State :=
  (fprocessStream (f.data.length - f.pos + 1) f State.init).getD (.error .dangling)

/-- The instance attributes of `Vgm` (src/vgm/core.py:45-64). -/
structure FVgm where
  stream : FStream
  eofOffset : Nat
  version : Nat
  dataStart : Nat
  deriving DecidableEq, Repr

/-- `Vgm.__init__`, src/vgm/core.py:49-64. -/
def FVgm.init (clocks : Clocks) (f : FStream) : Except PyErr FVgm × Clocks :=
  match freadLe 4 f with
  | (.error e, _) => (.error e, clocks)
  | (.ok eofOffset, f) =>
  match freadBcd f with
  | (.error e, _) => (.error e, clocks)
  | (.ok version, f) =>
  match freadLe 4 f with
  | (.error e, _) => (.error e, clocks)
  | (.ok _, f) =>
  match freadLe 4 f with
  | (.error e, _) => (.error e, clocks)
  | (.ok ym2413, f) =>
  let clocks := clocks.set "ym2413" ym2413
  match f.seek 0x30 with
  | .error e => (.error e, clocks)
  | .ok f =>
  match freadLe 4 f with
  | (.error e, _) => (.error e, clocks)
  | (.ok ym2151, f) =>
  let clocks := clocks.set "ym2151" ym2151
  let clocks := if version < 110 then clocks.set "ym2151" ym2413 else clocks
  if 150 ≤ version then
    match freadLe 4 f with
    | (.error e, _) => (.error e, clocks)
    | (.ok off, f) =>
      match f.seek (0x34 + off) with
      | .error e => (.error e, clocks)
      | .ok f => (.ok ⟨f, eofOffset, version, 0x34 + off⟩, clocks)
  else
    match f.seek 0x40 with
    | .error e => (.error e, clocks)
    | .ok f => (.ok ⟨f, eofOffset, version, 0x40⟩, clocks)

/-- `reader`, src/vgm/core.py:153-166, on a binary file at position 0 that holds `content`.
`inflate content` is what can be decompressed, and what is raised after it. -/
def freader (inflate : Bytes → Bytes × Option PyErr) (clocks : Clocks) (content : Bytes) :
    Except PyErr (Option FVgm) × Clocks :=
  let finish (header : Bytes) (f : FStream) : Except PyErr (Option FVgm) × Clocks :=
    if header ≠ [0x56, 0x67, 0x6d, 0x20] then (.ok none, clocks)
    else
      match FVgm.init clocks f with
      | (.error e, c) => (.error e, c)
      | (.ok v, c) => (.ok (some v), c)
  match (FStream.mk content 0 none).read 4 with
  | (.error e, _) => (.error e, clocks)
  | (.ok header, f) =>
    if header.take 2 = [0x1f, 0x8b] then
      match (FStream.mk (inflate content).1 0 (inflate content).2).read 4 with
      | (.error e, _) => (.error e, clocks)
      | (.ok header, f) => finish header f
    else finish header f

/-- Decompression as a whole: an error anywhere is an error.
(Standard library, for src/vgm/core.py:159-166.) -/
def eager (inflate : Bytes → Bytes × Option PyErr) (c : Bytes) : Except PyErr Bytes :=
  match inflate c with
  | (plain, none) => .ok plain
  | (_, some e) => .error e

end VgmX
