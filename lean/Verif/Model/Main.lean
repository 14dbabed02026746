import Verif.Model.Damaged
import Verif.Model.Json
import Verif.Model.Ticks
import Verif.Model.Xrns
import Verif.Model.Zip
/-
Model of `src/main.py: main`, `src/tools.py: smart_open` and the parts of
`src/extractors.py` that open files and print.

Simplifications (also in DESIGN.md): a file is written at once (no buffering); `close` does
not raise; the process is not killed (for that see Model/Crash).
-/

namespace VgmX

/-- What the program finds outside itself. (Surroundings of src/main.py:23-44.) -/
structure Env where
  /-- `gzip`: what of a compressed file can be decompressed, and what is raised after it -/
  inflate : Bytes → Bytes × Option PyErr
  /-- the local time when the song is written: `ZipFile.writestr` puts it into the archive -/
  now : DateTime
  /-- `ZipFile.writestr` for an entry of two gigabytes or more, see Model/Zip -/
  zip64 : DateTime → Bytes → Bytes → Except PyErr Unit × Bytes
  /-- why a file cannot be opened for reading or (`true`) writing, although it exists or
  could be created: permissions, directories, ... -/
  openErr : Str → Bool → Option PyErr
  /-- `sys.stdin.read(4)`: standard input is a text stream -/
  stdinRead : Except PyErr Str
  /-- `args.file`: the global `args` exists only if main.py is run as a script (main.py:63) -/
  argsFile : Option Str

/-- Decompression as a whole: an error anywhere is an error.
(Standard library, for src/vgm/core.py:159-166.) -/
abbrev Env.gunzip (env : Env) : Bytes → Except PyErr Bytes := eager env.inflate

/-- Opening and closing of files, in order. (Surroundings of src/main.py:23-44.) -/
inductive Action where
  | opened (id : Nat) (name : Str) (mode : Str)
  | closed (id : Nat)
  deriving DecidableEq, Repr

/-- What the program changes. (Surroundings of src/main.py:23-44.) -/
structure World where
  /-- content of the files -/
  fs : Str → Option Bytes
  stdout : Str
  clocks : Clocks
  trace : List Action
  /-- number of files opened so far: the next file's identity -/
  nextId : Nat

/-- A file object. (Surroundings of src/main.py:23-44.) -/
inductive Handle where
  | stdin
  | stdout
  | file (id : Nat) (name : Str)
  deriving DecidableEq, Repr

/-- `print(.., end="")`. (src/main.py:30, 36, 39.) -/
def World.print (w : World) (s : Str) : World := { w with stdout := w.stdout ++ s }

/-- `d[name] = content` for the file system.
(Built-in, for src/tools.py:8 and src/extractors.py:49.) -/
def setFile (fs : Str → Option Bytes) (name : Str) (content : Bytes) : Str → Option Bytes :=
  fun n => if n = name then some content else fs n

/-- The built-in `open(name, mode)`: "r" needs an existing file, "w" empties or creates it,
"a" keeps or creates it, "x" creates it and refuses if it exists, other modes are a
`ValueError`. ("+", "b" and "t" do not matter here.)
(Built-in, for src/tools.py:8 and src/extractors.py:49.) -/
def openFile (env : Env) (w : World) (name mode : Str) : Except PyErr Handle × World :=
  let done (fs : Str → Option Bytes) : Except PyErr Handle × World :=
    (.ok (.file w.nextId name),
      { w with fs := fs, trace := w.trace ++ [.opened w.nextId name mode], nextId := w.nextId + 1 })
  match mode.head? with
  | some 'r' =>
    match env.openErr name false, w.fs name with
    | some e, _ => (.error e, w)
    | none, none => (.error .fileNotFound, w)
    | none, some _ => done w.fs
  | some 'w' =>
    match env.openErr name true with
    | some e => (.error e, w)
    | none => done (setFile w.fs name [])
  | some 'a' =>
    match env.openErr name true with
    | some e => (.error e, w)
    | none => done (setFile w.fs name ((w.fs name).getD []))
  | some 'x' =>
    match env.openErr name true, w.fs name with
    | some e, _ => (.error e, w)
    | none, some _ => (.error (.other 1), w)
    | none, none => done (setFile w.fs name [])
  | _ => (.error .value, w)

/-- `fh.close()`. (src/tools.py:20.) -/
def World.close (w : World) : Handle → World
  | .file id _ => { w with trace := w.trace ++ [.closed id] }
  | _ => w

/-- Truthiness of a file name: `None` and `""` are false.
(src/tools.py:7, src/main.py:40 and 43.) -/
def nameTruthy : Option Str → Bool
  | some (_ :: _) => true
  | _ => false

/-- `with smart_open(filename, mode) as fh: body`, src/tools.py:5-20. The generator's
`finally` runs after the body whether it returns or raises; the body's exception goes on. -/
def smartOpen {α : Type} (env : Env) (filename : Option Str) (mode : Str)
    (body : Handle → World → Except PyErr α × World) (w : World) : Except PyErr α × World :=
  if nameTruthy filename && filename != some ['-'] then
    match openFile env w (filename.getD []) mode with
    | (.error e, w1) => (.error e, w1)
    | (.ok fh, w1) =>
      let (r, w2) := body fh w1
      -- `if fh is not sys.stdout and fh is not sys.stdin: fh.close()`
      (r, if fh ≠ .stdout ∧ fh ≠ .stdin then w2.close fh else w2)
  else if mode.head? = some 'w' then
    let (r, w2) := body .stdout w
    (r, if Handle.stdout ≠ .stdout ∧ Handle.stdout ≠ .stdin then w2.close .stdout else w2)
  else if mode.head? = some 'r' then
    let (r, w2) := body .stdin w
    (r, if Handle.stdin ≠ .stdout ∧ Handle.stdin ≠ .stdin then w2.close .stdin else w2)
  else (.error (.other 0), w)

/-- An ASCII text as bytes. (src/extractors.py:120-121.) -/
def asciiBytes (s : Str) : Bytes := s.map (fun c => UInt8.ofNat c.toNat)

/-- `fo.write(text)`. (src/extractors.py:120-121.) -/
def World.write (w : World) (fh : Handle) (text : Str) : World :=
  match fh with
  | .file _ name => { w with fs := setFile w.fs name ((w.fs name).getD [] ++ asciiBytes text) }
  | _ => w.print text

/-- `f"{name}"` for a name that may be `None` (never is, where it is printed).
(src/extractors.py:14 and 117.) -/
def nameStr : Option Str → Str
  | some s => s
  | none => "None".toList

/-- `extract_instruments`, src/extractors.py:116-121. -/
def extractInstruments (env : Env) (instrFilename : Option Str) (s : State) (w : World) :
    Except PyErr Unit × World :=
  let w := w.print ("Writing instruments to ".toList ++ nameStr instrFilename ++ "...\n".toList)
  match instrumentsJs s with
  | .error e => (.error e, w)
  | .ok js =>
    smartOpen env instrFilename ['w']
      (fun fo w => (.ok (), (w.write fo js).write fo ['\n'])) w

/-- `extract_tracks_to_xrns`, src/extractors.py:13-50, with `writer`, src/xrns/writer.py:12-23:
the song is built, the file is opened (with the built-in `open`), the song is rendered and
serialized, the result is written. -/
def extractTracksToXrns (env : Env) (s : State) (trackFilename : Str) (ticks : Int) (w : World) :
    Except PyErr Unit × World :=
  let w := w.print ("Writing xrns ".toList ++ trackFilename ++ "...\n".toList)
  match exportSong s ticks with
  | .error e => (.error e, w)
  | .ok song =>
    match openFile env w trackFilename ['w', 'b'] with
    | (.error e, w) => (.error e, w)
    | (.ok fh, w) =>
      let (r, bytes) := writeSong env.zip64 env.now (render song)
      (r, { w with fs := setFile w.fs trackFilename bytes }.close fh)

/-- `vgm.core.reader(f)` on the handle: standard input yields `str`, which is never equal to
`bytes`, so `reader` returns `None` (core.py:155-165); a file is read as in Model/Damaged. -/
def readerOn (env : Env) (w : World) : Handle → Except PyErr (Option FVgm) × World
  | .file _ name =>
    let (r, clocks) := freader env.inflate w.clocks ((w.fs name).getD [])
    (r, { w with clocks := clocks })
  | _ =>
    match env.stdinRead with
    | .error e => (.error e, w)
    | .ok _ => (.ok none, w)

/-- The outputs, src/main.py:40-44. -/
def mainOutputs (env : Env) (instrFilename trackFilename : Option Str) (s : State) (ticks : Int)
    (w : World) : Except PyErr Unit × World :=
  let (r, w) :=
    if nameTruthy instrFilename then extractInstruments env instrFilename s w else (.ok (), w)
  match r with
  | .error e => (.error e, w)
  | .ok () =>
    match trackFilename with
    | some (c :: cs) => extractTracksToXrns env s (c :: cs) ticks w
    | _ => (.ok (), w)

/-- `if not ticks_per_note: ..`, src/main.py:35-37; `ticks` is `None` or an int. -/
def mainTicks (_env : Env) (ticks : Option Int) (s : State) (w : World) :
    Except PyErr Int × World :=
  let estimate : Except PyErr Int × World :=
    (s.ticksPerNote.map Int.ofNat,
      (w.print "Calculating Ticks Per Note".toList).print (s.ticksReport))
  match ticks with
  | some t => if t ≠ 0 then (.ok t, w) else estimate
  | none => estimate

/-- The body of `main`'s `with`, src/main.py:29-44. -/
def mainBody (env : Env) (instrFilename trackFilename : Option Str) (ticks : Option Int)
    (f : Handle) (w : World) : Except PyErr Unit × World :=
  match env.argsFile with
  | none => (.error .name, w)
  | some argsFile =>
  let w := w.print ("Opening file: ".toList ++ argsFile ++ ['\n'])
  match readerOn env w f with
  | (.error e, w) => (.error e, w)
  -- `for cmd in None`, main.py:14 called from 33
  | (.ok none, w) => (.error .type, w)
  | (.ok (some vgm), w) =>
  match fprocessVgm vgm.stream with
  | .error e => (.error e, w)
  | .ok s =>
  match mainTicks env ticks s w with
  | (.error e, w) => (.error e, w)
  | (.ok ticks, w) =>
    mainOutputs env instrFilename trackFilename s ticks
      (w.print ("Ticks per Note: ".toList ++ intStr ticks ++ ['\n']))

/-- `main`, src/main.py:23-44. -/
def main (env : Env) (vgmFilename : Option Str) (instrFilename trackFilename : Option Str)
    (ticks : Option Int) (w : World) : Except PyErr Unit × World :=
  smartOpen env vgmFilename ['r', 'b'] (mainBody env instrFilename trackFilename ticks) w

end VgmX
