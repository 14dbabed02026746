import Verif.Model.Reader
/-
The reader over a stream that may give fewer bytes than asked for although there are more (a raw
file, a pipe, a socket), or, if it does not block, `None`. `reader`, `Vgm.__init__`,
`Vgm.__next__` and `command` as programs that read; `Rd.Ends` lists all ways they can end, for all
ways the bytes may arrive.

Simplification: what happens behind a first read that begins with the gzip magic is not followed
here (`Opened.gzip`).
-/

namespace VgmX

/-- What `file.read(n)` may return from `s`, and where the stream is then: `None`, only if the
stream does not block (`nb`); or some bytes, at most `n`, and none at all only if `n` is 0 or
there are no more. (Python's `io.RawIOBase.read`, for src/vgm/core.py:11-166.) -/
inductive Gets (nb : Bool) (s : Stream) (n : Nat) : Option Bytes → Stream → Prop
  | none : nb = true → Gets nb s n none s
  | some (k : Nat) : k ≤ n → (k = 0 → n = 0 ∨ s.data.length ≤ s.pos) →
      Gets nb s n (some (s.read k).1) (s.read k).2

/-- A program that reads. (Calls of the file in src/vgm/core.py:11-166.) -/
inductive Rd (α : Type) where
  /-- it ends -/
  | ret (a : α)
  /-- `b = file.read(n)` -/
  | read (n : Nat) (k : Option Bytes → Rd α)
  /-- `file.seek(p)` -/
  | seek (p : Nat) (k : Rd α)

/-- The ways a program can end, from a stream. (Calls of the file in src/vgm/core.py:11-166.) -/
inductive Rd.Ends {α : Type} (nb : Bool) : Rd α → Stream → α → Stream → Prop
  | ret {a s} : Ends nb (.ret a) s a s
  | read {n k s b s' a t} : Gets nb s n b s' → Ends nb (k b) s' a t → Ends nb (.read n k) s a t
  | seek {p k s a t} : Ends nb k (s.seek p) a t → Ends nb (.seek p k) s a t

variable {α : Type}

/-- `_read32`, `_read16`, `_read8`, src/vgm/core.py:11-29, and what follows. -/
def readLeRd (n : Nat) (err : PyErr → α) (k : Nat → Rd α) : Rd α :=
  .read n (fun
    | none => .ret (err .eof)
    | some b => if b.length ≠ n then .ret (err .eof) else k (leNat b))

/-- `_read_bcd`, src/vgm/core.py:32-42, and what follows. -/
def readBcdRd (err : PyErr → α) (k : Nat → Rd α) : Rd α :=
  .read 4 (fun
    | none => .ret (err .eof)
    | some b => if b.length ≠ 4 then .ret (err .eof) else k (bcdValue b))

/-- `VgmCommand(cmd_id, f.read(n))`. (src/vgm/core.py:85-150.) -/
def plainRd (cmdId n : Nat) (k : Except PyErr Cmd → α) : Rd α :=
  .read n (fun b => .ret (k (.ok (.plain cmdId b))))

/-- `command`, src/vgm/core.py:85-150; `k` is what is made of the result. `struct.unpack` of
`None` is a `TypeError`. -/
def commandRd (cmdId : Nat) (k : Except PyErr Cmd → α) : Rd α :=
  if cmdId < 0x30
      ∨ cmdId = 0x60
      ∨ (0x64 ≤ cmdId ∧ cmdId ≤ 0x65)
      ∨ (0x69 ≤ cmdId ∧ cmdId < 0x70)
      ∨ (0x80 ≤ cmdId ∧ cmdId < 0x90)
      ∨ (0x96 ≤ cmdId ∧ cmdId < 0xA0) then
    .ret (k (.ok (.plain cmdId none)))
  else if 30 ≤ cmdId ∧ cmdId < 0x40 then plainRd cmdId 1 k
  else if cmdId < 0x4F then plainRd cmdId 2 k
  else if cmdId < 0x51 then plainRd cmdId 1 k
  else if cmdId < 0x54 then plainRd cmdId 2 k
  else if cmdId = 0x54 then
    readLeRd 1 (fun e => k (.error e)) (fun reg =>
      readLeRd 1 (fun e => k (.error e)) (fun value => .ret (k (.ok (.ym2151 cmdId reg value)))))
  else if cmdId < 0x60 then plainRd cmdId 2 k
  else if cmdId = 0x61 then
    readLeRd 2 (fun e => k (.error e)) (fun n => .ret (k (.ok (mkWait cmdId (some n)))))
  else if cmdId = 0x62 then .ret (k (.ok (mkWait cmdId (some 735))))
  else if cmdId = 0x63 then .ret (k (.ok (mkWait cmdId (some 882))))
  else if cmdId = 0x66 then .ret (k (.ok (.eos cmdId)))
  else if cmdId = 0x67 then
    .read 6 (fun
      | none => .ret (k (.error .type))
      | some buffer =>
        if buffer.length ≠ 6 then .ret (k (.error .struct))
        else plainRd cmdId (leNat (buffer.drop 2)) k)
  else if cmdId = 0x68 then
    .read 11 (fun
      | none => .ret (k (.error .type))
      | some buffer =>
        if buffer.length ≠ 11 then .ret (k (.error .struct))
        else
          let ssB := leNat ((buffer.drop 8).take 1)
          let ssH := leNat ((buffer.drop 9).take 2)
          plainRd cmdId (ssH * 256 + ssB) k)
  else if cmdId < 0x80 then .ret (k (.ok (mkWait cmdId none)))
  else if cmdId < 0x92 then plainRd cmdId 4 k
  else if cmdId = 0x92 then plainRd cmdId 5 k
  else if cmdId = 0x93 then plainRd cmdId 10 k
  else if cmdId = 0x94 then plainRd cmdId 1 k
  else if cmdId = 0x95 then plainRd cmdId 4 k
  else if cmdId < 0xC0 then plainRd cmdId 2 k
  else if cmdId < 0xE0 then plainRd cmdId 3 k
  else plainRd cmdId 4 k

/-- `Vgm.__next__`, src/vgm/core.py:78-82; `none` is `StopIteration`. -/
def nextRd : Rd (Option (Except PyErr Cmd)) :=
  .read 1 (fun
    | none => .ret none
    | some [] => .ret none
    | some (b :: _) => commandRd b.toNat some)

/-- `ShortRuns nb s cs o`: `for cmd in reader` from `s` may yield the commands `cs` and then end as
`o` says. (The loop src/main.py:14-18 over src/vgm/core.py:75-82.) -/
inductive ShortRuns (nb : Bool) : Stream → List Cmd → Outcome → Prop
  | stop {s s'} : nextRd.Ends nb s none s' → ShortRuns nb s [] .stop
  | raise {s s' e} : nextRd.Ends nb s (some (.error e)) s' → ShortRuns nb s [] (.raised e)
  | yield {s s' c cs o} : nextRd.Ends nb s (some (.ok c)) s' → ShortRuns nb s' cs o →
      ShortRuns nb s (c :: cs) o

/-- `ShortYields nb s cs s'`: the loop may yield `cs` and is then at `s'`.
(The loop src/main.py:14-18 over src/vgm/core.py:75-82.) -/
inductive ShortYields (nb : Bool) : Stream → List Cmd → Stream → Prop
  | nil {s} : ShortYields nb s [] s
  | cons {s s' s'' c cs} : nextRd.Ends nb s (some (.ok c)) s' → ShortYields nb s' cs s'' →
      ShortYields nb s (c :: cs) s''

/-- What `reader` returns: `None`, a reader (`eof_offset`, `version`, `data_start`), or whatever
comes of the file when `gzip` takes over. (src/vgm/core.py:153-166.) -/
inductive Opened where
  | notVgm
  | vgm (eofOffset version dataStart : Nat)
  | gzip
  deriving DecidableEq, Repr

/-- `Vgm.__init__`, src/vgm/core.py:49-64. -/
def initRd (clocks : Clocks) : Rd (Except PyErr Opened × Clocks) :=
  readLeRd 4 (fun e => (.error e, clocks)) (fun eofOffset =>
  readBcdRd (fun e => (.error e, clocks)) (fun version =>
  readLeRd 4 (fun e => (.error e, clocks)) (fun _ =>
  readLeRd 4 (fun e => (.error e, clocks)) (fun ym2413 =>
  let clocks := clocks.set "ym2413" ym2413
  .seek 0x30 (
  readLeRd 4 (fun e => (.error e, clocks)) (fun ym2151 =>
  let clocks := clocks.set "ym2151" ym2151
  let clocks := if version < 110 then clocks.set "ym2151" ym2413 else clocks
  if 150 ≤ version then
    readLeRd 4 (fun e => (.error e, clocks)) (fun off =>
      .seek (0x34 + off) (.ret (.ok (.vgm eofOffset version (0x34 + off)), clocks)))
  else .seek 0x40 (.ret (.ok (.vgm eofOffset version 0x40), clocks))))))))

/-- `reader`, src/vgm/core.py:153-166. `header[:2]` of `None` is a `TypeError`. -/
def readerRd (clocks : Clocks) : Rd (Except PyErr Opened × Clocks) :=
  .read 4 (fun
    | none => .ret (.error .type, clocks)
    | some header =>
      if header.take 2 = [0x1f, 0x8b] then .ret (.ok .gzip, clocks)
      else if header ≠ [0x56, 0x67, 0x6d, 0x20] then .ret (.ok .notVgm, clocks)
      else initRd clocks)

end VgmX
