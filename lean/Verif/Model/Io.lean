import Verif.Model.Main
/-
`main` as a sequence of operations each of which the operating system may refuse: reading from the
input file, moving in it, printing. (For the writing of the output files see Model/Faults.)

A program is a tree of such operations. An operation that is refused raises; nothing in the code
catches exceptions, so a refused operation determines how the program ends. `Io.Ends` lists the
ways a program can end if any operation may be refused at any time.

Simplifications: a refused `print` printed nothing (how much came through is not said here); the
calls of `print` in `ticks_per_note` count as one; a refused read of a compressed file raises the
operating system's error (gzip does not catch it).
-/

namespace VgmX

/-- A program with results in `α`. (Calls of the input and of `print` in src/main.py:23-44.) -/
inductive Io (α : Type) where
  /-- it ends -/
  | ret (a : α)
  /-- `b = file.read(n)`; `err e` is how the program ends if this raises `e` -/
  | read (n : Nat) (err : PyErr → α) (k : Bytes → Io α)
  /-- `file.seek(p)` -/
  | seek (p : Nat) (err : PyErr → α) (k : Io α)
  /-- from now on `file` is another file object, over the old one's content -/
  | switch (g : Bytes → FStream) (k : Io α)
  /-- `print(..)` or `sys.stdout.write(..)` -/
  | print (err : PyErr → α) (k : Io α)

/-- What was refused: to read or move in the input, or to print.
(Calls of the input and of `print` in src/main.py:23-44.) -/
inductive Refused where
  | input
  | print
  deriving DecidableEq

/-- The ways to end, from a file object: `none` if nothing was refused, else what was and with
which exception. (Calls of the input and of `print` in src/main.py:23-44.) -/
inductive Io.Ends {α : Type} : Io α → FStream → α → Option (Refused × PyErr) → Prop
  | ret {a f} : Ends (.ret a) f a none
  | read {n err k f b f' a o} : f.read n = (.ok b, f') → Ends (k b) f' a o →
      Ends (.read n err k) f a o
  | damaged {n err k f e f'} : f.read n = (.error e, f') → Ends (.read n err k) f (err e) none
  | readRefused {n err k f} (e : PyErr) : Ends (.read n err k) f (err e) (some (.input, e))
  | seek {p err k f f' a o} : f.seek p = .ok f' → Ends k f' a o → Ends (.seek p err k) f a o
  | seekDamaged {p err k f e} : f.seek p = .error e → Ends (.seek p err k) f (err e) none
  | seekRefused {p err k f} (e : PyErr) : Ends (.seek p err k) f (err e) (some (.input, e))
  | switch {g k f a o} : Ends k (g f.data) a o → Ends (.switch g k) f a o
  | print {err k f a o} : Ends k f a o → Ends (.print err k) f a o
  | printRefused {err k f} (e : PyErr) : Ends (.print err k) f (err e) (some (.print, e))

variable {α : Type}

/-- `_read32`, `_read16`, `_read8`, src/vgm/core.py:11-29, and what follows. -/
def readLeIo (n : Nat) (err : PyErr → α) (k : Nat → Io α) : Io α :=
  .read n err (fun b => if b.length ≠ n then .ret (err .eof) else k (leNat b))

/-- `_read_bcd`, src/vgm/core.py:32-42. -/
def readBcdIo (err : PyErr → α) (k : Nat → Io α) : Io α :=
  .read 4 err (fun b => if b.length ≠ 4 then .ret (err .eof) else k (bcdValue b))

/-- `VgmCommand(cmd_id, f.read(n))`. (src/vgm/core.py:85-150.) -/
def plainIo (cmdId n : Nat) (err : PyErr → α) (k : Cmd → Io α) : Io α :=
  .read n err (fun b => k (.plain cmdId (some b)))

/-- `command`, src/vgm/core.py:85-150. -/
def commandIo (cmdId : Nat) (err : PyErr → α) (k : Cmd → Io α) : Io α :=
  if cmdId < 0x30
      ∨ cmdId = 0x60
      ∨ (0x64 ≤ cmdId ∧ cmdId ≤ 0x65)
      ∨ (0x69 ≤ cmdId ∧ cmdId < 0x70)
      ∨ (0x80 ≤ cmdId ∧ cmdId < 0x90)
      ∨ (0x96 ≤ cmdId ∧ cmdId < 0xA0) then
    k (.plain cmdId none)
  else if 30 ≤ cmdId ∧ cmdId < 0x40 then plainIo cmdId 1 err k
  else if cmdId < 0x4F then plainIo cmdId 2 err k
  else if cmdId < 0x51 then plainIo cmdId 1 err k
  else if cmdId < 0x54 then plainIo cmdId 2 err k
  else if cmdId = 0x54 then
    readLeIo 1 err (fun reg => readLeIo 1 err (fun value => k (.ym2151 cmdId reg value)))
  else if cmdId < 0x60 then plainIo cmdId 2 err k
  else if cmdId = 0x61 then readLeIo 2 err (fun n => k (mkWait cmdId (some n)))
  else if cmdId = 0x62 then k (mkWait cmdId (some 735))
  else if cmdId = 0x63 then k (mkWait cmdId (some 882))
  else if cmdId = 0x66 then k (.eos cmdId)
  else if cmdId = 0x67 then
    .read 6 err (fun buffer =>
      if buffer.length ≠ 6 then .ret (err .struct)
      else plainIo cmdId (leNat (buffer.drop 2)) err k)
  else if cmdId = 0x68 then
    .read 11 err (fun buffer =>
      if buffer.length ≠ 11 then .ret (err .struct)
      else
        let ssB := leNat ((buffer.drop 8).take 1)
        let ssH := leNat ((buffer.drop 9).take 2)
        plainIo cmdId (ssH * 256 + ssB) err k)
  else if cmdId < 0x80 then k (mkWait cmdId none)
  else if cmdId < 0x92 then plainIo cmdId 4 err k
  else if cmdId = 0x92 then plainIo cmdId 5 err k
  else if cmdId = 0x93 then plainIo cmdId 10 err k
  else if cmdId = 0x94 then plainIo cmdId 1 err k
  else if cmdId = 0x95 then plainIo cmdId 4 err k
  else if cmdId < 0xC0 then plainIo cmdId 2 err k
  else if cmdId < 0xE0 then plainIo cmdId 3 err k
  else plainIo cmdId 4 err k

/-- `Vgm.__next__`, src/vgm/core.py:78-82. -/
def nextIo (err : PyErr → α) (stop : Io α) (k : Cmd → Io α) : Io α :=
  .read 1 err (fun b =>
    match b with
    | [] => stop
    | b :: _ => commandIo b.toNat err k)

/-- `process_vgm_file`, src/main.py:11-20; the first argument bounds the number of rounds, see
`fprocessStream`. -/
def processIo (err : PyErr → α) (k : State → Io α) : Nat → State → Io α
  | 0, _ => .ret (err .dangling)
  | fuel + 1, s =>
    nextIo err (k s) (fun c =>
      match s.process1 c with
      | .error e => .ret (err e)
      | .ok s' => processIo err k fuel s')

/-- `Vgm.__init__`, src/vgm/core.py:49-64. -/
def initIo (clocks : Clocks) (err : PyErr → Clocks → α) (k : Clocks → Io α) : Io α :=
  readLeIo 4 (err · clocks) (fun _ =>
  readBcdIo (err · clocks) (fun version =>
  readLeIo 4 (err · clocks) (fun _ =>
  readLeIo 4 (err · clocks) (fun ym2413 =>
  let clocks := clocks.set "ym2413" ym2413
  .seek 0x30 (err · clocks) (
  readLeIo 4 (err · clocks) (fun ym2151 =>
  let clocks := clocks.set "ym2151" ym2151
  let clocks := if version < 110 then clocks.set "ym2151" ym2413 else clocks
  if 150 ≤ version then
    readLeIo 4 (err · clocks) (fun off =>
    .seek (0x34 + off) (err · clocks) (k clocks))
  else .seek 0x40 (err · clocks) (k clocks)))))))

/-- `reader`, src/vgm/core.py:153-166; it returns `None` (`none`) or a reader (`k`). -/
def readerIo (inflate : Bytes → Bytes × Option PyErr) (clocks : Clocks)
    (err : PyErr → Clocks → α) (none : α) (k : Clocks → Io α) : Io α :=
  let finish (header : Bytes) : Io α :=
    if header ≠ [0x56, 0x67, 0x6d, 0x20] then .ret none else initIo clocks err k
  .read 4 (err · clocks) (fun header =>
    if header.take 2 = [0x1f, 0x8b] then
      .seek 0 (err · clocks)
        (.switch (fun c => ⟨(inflate c).1, 0, (inflate c).2⟩)
          (.read 4 (err · clocks) finish))
    else finish header)

/-- A result of the program. (Calls of the input and of `print` in src/main.py:23-44.) -/
abbrev Res := Except PyErr Unit × World

/-- `extract_instruments`, src/extractors.py:116-121, and what follows. With `-` the text goes to
standard output. -/
def extractInstrumentsIo (env : Env) (instrFilename : Option Str) (s : State) (w : World)
    (k : Res → Io Res) : Io Res :=
  .print (fun e => (.error e, w))
    (let w := w.print
        ("Writing instruments to ".toList ++ nameStr instrFilename ++ "...\n".toList)
    match instrumentsJs s with
    | .error e => .ret (.error e, w)
    | .ok js =>
      if nameTruthy instrFilename && instrFilename != some ['-'] then
        k (smartOpen env instrFilename ['w']
          (fun fo w => (.ok (), (w.write fo js).write fo ['\n'])) w)
      else
        .print (fun e => (.error e, w)) (.print (fun e => (.error e, w.print js))
          (k (.ok (), (w.print js).print ['\n']))))

/-- `extract_tracks_to_xrns`, src/extractors.py:13-50. -/
def extractTracksIo (env : Env) (s : State) (trackFilename : Str) (ticks : Int) (w : World) :
    Io Res :=
  .print (fun e => (.error e, w)) (.ret
    (let w := w.print ("Writing xrns ".toList ++ trackFilename ++ "...\n".toList)
    match exportSong s ticks with
    | .error e => (.error e, w)
    | .ok song =>
      match openFile env w trackFilename ['w', 'b'] with
      | (.error e, w) => (.error e, w)
      | (.ok fh, w) =>
        let (r, bytes) := writeSong env.zip64 env.now (render song)
        (r, { w with fs := setFile w.fs trackFilename bytes }.close fh)))

/-- `if track_filename: ..`, src/main.py:43-44, after the instruments. -/
def tracksIo (env : Env) (trackFilename : Option Str) (s : State) (ticks : Int) : Res → Io Res
  | (.error e, w) => .ret (.error e, w)
  | (.ok (), w) =>
    match trackFilename with
    | some (c :: cs) => extractTracksIo env s (c :: cs) ticks w
    | _ => .ret (.ok (), w)

/-- The outputs, src/main.py:40-44. -/
def outputsIo (env : Env) (instrFilename trackFilename : Option Str) (s : State) (ticks : Int)
    (w : World) : Io Res :=
  if nameTruthy instrFilename then
    extractInstrumentsIo env instrFilename s w (tracksIo env trackFilename s ticks)
  else tracksIo env trackFilename s ticks (.ok (), w)

/-- `if not ticks_per_note: ..`, src/main.py:35-37. -/
def ticksIo (ticks : Option Int) (s : State) (w : World) (k : Int → World → Io Res) : Io Res :=
  let estimate : Io Res :=
    .print (fun e => (.error e, w))
      (let w := w.print "Calculating Ticks Per Note".toList
      .print (fun e => (.error e, w))
        (let w := w.print s.ticksReport
        match s.ticksPerNote with
        | .error e => .ret (.error e, w)
        | .ok n => k n w))
  match ticks with
  | some t => if t ≠ 0 then k t w else estimate
  | none => estimate

/-- The body of `main`'s `with` on a file with this content, src/main.py:29-44. -/
def bodyIo (env : Env) (instrFilename trackFilename : Option Str) (ticks : Option Int)
    (content : Bytes) (w : World) : Io Res :=
  match env.argsFile with
  | none => .ret (.error .name, w)
  | some argsFile =>
  .print (fun e => (.error e, w))
    (let w := w.print ("Opening file: ".toList ++ argsFile ++ ['\n'])
    .switch (fun _ => ⟨content, 0, none⟩)
      (readerIo env.inflate w.clocks (fun e c => (.error e, { w with clocks := c }))
        (.error .type, w)
        (fun clocks =>
          let w := { w with clocks := clocks }
          -- more rounds than there can be commands: each takes a byte
          processIo (fun e => (.error e, w))
            (fun s => ticksIo ticks s w (fun t w =>
              .print (fun e => (.error e, w))
                (outputsIo env instrFilename trackFilename s t
                  (w.print ("Ticks per Note: ".toList ++ intStr t ++ ['\n'])))))
            (content.length + (env.inflate content).1.length + 1) State.init)))

/-- What is done with a result. (Calls of the input and of `print` in src/main.py:23-44.) -/
def Io.map (g : α → α) : Io α → Io α
  | .ret a => .ret (g a)
  | .read n err k => .read n (fun e => g (err e)) (fun b => (k b).map g)
  | .seek p err k => .seek p (fun e => g (err e)) (k.map g)
  | .switch h k => .switch h (k.map g)
  | .print err k => .print (fun e => g (err e)) (k.map g)

/-- `main`, src/main.py:23-44, with an input file: it is closed however the body ends
(src/tools.py:16-20). -/
def mainIo (env : Env) (vgmFilename : Str) (instrFilename trackFilename : Option Str)
    (ticks : Option Int) (w : World) : Io Res :=
  match openFile env w vgmFilename ['r', 'b'] with
  | (.error e, w) => .ret (.error e, w)
  | (.ok fh, w) =>
    (bodyIo env instrFilename trackFilename ticks ((w.fs vgmFilename).getD []) w).map
      (fun x => (x.1, x.2.close fh))

end VgmX
