import Verif.Model.Main
/-
The program again, with names that may mean the same file (links, `a` and `./a`, file systems
that ignore case). `World.fs` is indexed by files here, `canon name` is the file that `name` means
(for a file that does not exist: the one that would be created). Model/Main is the case in which
every name means a file of its own.

Simplification: what a name means does not change during the run.
-/

namespace VgmX

/-- The built-in `open(name, mode)`, as `openFile`, for the file that the name means.
(Built-in, for src/tools.py:8 and src/extractors.py:49.) -/
def openFileA (canon : Str → Str) (env : Env) (w : World) (name mode : Str) :
    Except PyErr Handle × World :=
  let done (fs : Str → Option Bytes) : Except PyErr Handle × World :=
    (.ok (.file w.nextId name),
      { w with fs := fs, trace := w.trace ++ [.opened w.nextId name mode], nextId := w.nextId + 1 })
  match mode.head? with
  | some 'r' =>
    match env.openErr name false, w.fs (canon name) with
    | some e, _ => (.error e, w)
    | none, none => (.error .fileNotFound, w)
    | none, some _ => done w.fs
  | some 'w' =>
    match env.openErr name true with
    | some e => (.error e, w)
    | none => done (setFile w.fs (canon name) [])
  | some 'a' =>
    match env.openErr name true with
    | some e => (.error e, w)
    | none => done (setFile w.fs (canon name) ((w.fs (canon name)).getD []))
  | some 'x' =>
    match env.openErr name true, w.fs (canon name) with
    | some e, _ => (.error e, w)
    | none, some _ => (.error (.other 1), w)
    | none, none => done (setFile w.fs (canon name) [])
  | _ => (.error .value, w)

/-- `with smart_open(filename, mode) as fh: body`, src/tools.py:5-20. -/
def smartOpenA {α : Type} (canon : Str → Str) (env : Env) (filename : Option Str) (mode : Str)
    (body : Handle → World → Except PyErr α × World) (w : World) : Except PyErr α × World :=
  if nameTruthy filename && filename != some ['-'] then
    match openFileA canon env w (filename.getD []) mode with
    | (.error e, w1) => (.error e, w1)
    | (.ok fh, w1) =>
      let (r, w2) := body fh w1
      (r, if fh ≠ .stdout ∧ fh ≠ .stdin then w2.close fh else w2)
  else if mode.head? = some 'w' then
    let (r, w2) := body .stdout w
    (r, if Handle.stdout ≠ .stdout ∧ Handle.stdout ≠ .stdin then w2.close .stdout else w2)
  else if mode.head? = some 'r' then
    let (r, w2) := body .stdin w
    (r, if Handle.stdin ≠ .stdout ∧ Handle.stdin ≠ .stdin then w2.close .stdin else w2)
  else (.error (.other 0), w)

/-- `fo.write(text)`. (src/extractors.py:120-121.) -/
def World.writeA (canon : Str → Str) (w : World) (fh : Handle) (text : Str) : World :=
  match fh with
  | .file _ name =>
    { w with fs := setFile w.fs (canon name) ((w.fs (canon name)).getD [] ++ asciiBytes text) }
  | _ => w.print text

/-- `extract_instruments`, src/extractors.py:116-121. -/
def extractInstrumentsA (canon : Str → Str) (env : Env) (instrFilename : Option Str) (s : State)
    (w : World) : Except PyErr Unit × World :=
  let w := w.print ("Writing instruments to ".toList ++ nameStr instrFilename ++ "...\n".toList)
  match instrumentsJs s with
  | .error e => (.error e, w)
  | .ok js =>
    smartOpenA canon env instrFilename ['w']
      (fun fo w => (.ok (), (w.writeA canon fo js).writeA canon fo ['\n'])) w

/-- `extract_tracks_to_xrns`, src/extractors.py:13-50, with `writer`, src/xrns/writer.py:12-23. -/
def extractTracksToXrnsA (canon : Str → Str) (env : Env) (s : State) (trackFilename : Str)
    (ticks : Int) (w : World) : Except PyErr Unit × World :=
  let w := w.print ("Writing xrns ".toList ++ trackFilename ++ "...\n".toList)
  match exportSong s ticks with
  | .error e => (.error e, w)
  | .ok song =>
    match openFileA canon env w trackFilename ['w', 'b'] with
    | (.error e, w) => (.error e, w)
    | (.ok fh, w) =>
      let (r, bytes) := writeSong env.zip64 env.now (render song)
      (r, { w with fs := setFile w.fs (canon trackFilename) bytes }.close fh)

/-- `vgm.core.reader(f)` on the handle. (src/vgm/core.py:153-166.) -/
def readerOnA (canon : Str → Str) (env : Env) (w : World) :
    Handle → Except PyErr (Option FVgm) × World
  | .file _ name =>
    let (r, clocks) := freader env.inflate w.clocks ((w.fs (canon name)).getD [])
    (r, { w with clocks := clocks })
  | _ =>
    match env.stdinRead with
    | .error e => (.error e, w)
    | .ok _ => (.ok none, w)

/-- The outputs, src/main.py:40-44. -/
def mainOutputsA (canon : Str → Str) (env : Env) (instrFilename trackFilename : Option Str)
    (s : State) (ticks : Int) (w : World) : Except PyErr Unit × World :=
  let (r, w) :=
    if nameTruthy instrFilename then extractInstrumentsA canon env instrFilename s w
    else (.ok (), w)
  match r with
  | .error e => (.error e, w)
  | .ok () =>
    match trackFilename with
    | some (c :: cs) => extractTracksToXrnsA canon env s (c :: cs) ticks w
    | _ => (.ok (), w)

/-- The body of `main`'s `with`, src/main.py:29-44. -/
def mainBodyA (canon : Str → Str) (env : Env) (instrFilename trackFilename : Option Str)
    (ticks : Option Int) (f : Handle) (w : World) : Except PyErr Unit × World :=
  match env.argsFile with
  | none => (.error .name, w)
  | some argsFile =>
  let w := w.print ("Opening file: ".toList ++ argsFile ++ ['\n'])
  match readerOnA canon env w f with
  | (.error e, w) => (.error e, w)
  | (.ok none, w) => (.error .type, w)
  | (.ok (some vgm), w) =>
  match fprocessVgm vgm.stream with
  | .error e => (.error e, w)
  | .ok s =>
  match mainTicks env ticks s w with
  | (.error e, w) => (.error e, w)
  | (.ok ticks, w) =>
    mainOutputsA canon env instrFilename trackFilename s ticks
      (w.print ("Ticks per Note: ".toList ++ intStr ticks ++ ['\n']))

/-- `main`, src/main.py:23-44. -/
def mainA (canon : Str → Str) (env : Env) (vgmFilename : Option Str)
    (instrFilename trackFilename : Option Str) (ticks : Option Int) (w : World) :
    Except PyErr Unit × World :=
  smartOpenA canon env vgmFilename ['r', 'b'] (mainBodyA canon env instrFilename trackFilename ticks) w

end VgmX
