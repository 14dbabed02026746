import Verif.Model.Main
/-
What `main` does to the file system, operation by operation, so that one can ask what is there
if the process is killed in between. `mainOps` follows the control flow of `main` in Model/Main
(that it ends in the same files is proved: `c67_complete`); the order of the writes of
`zipfile` is that of CPython 3.11.

Buffering: Python and the operating system keep the order of the bytes of one file (a seek
flushes the buffer first), and a file is closed, hence flushed, before the next one is opened.
How many bytes reach the file at a time is not fixed; hence operations on single bytes. Not
modelled: losing power (then the operating system may lose or reorder writes), failing writes.
-/

namespace VgmX

/-- An operation on the file system.
(Operating system, for the files written by src/extractors.py:49-50 and 116-121.) -/
inductive FsOp where
  /-- `open(name, "w")`: the file is created, or emptied -/
  | create (name : Str)
  /-- one byte of a `write` at position `pos` -/
  | put (name : Str) (pos : Nat) (byte : UInt8)
  deriving DecidableEq, Repr

/-- A byte at a position of a file: in place of the one there, or behind the last one.
(Operating system, for the files written by src/extractors.py:49-50 and 116-121.) -/
def putByte (content : Bytes) (pos : Nat) (byte : UInt8) : Bytes :=
  if pos < content.length then content.set pos byte else content ++ [byte]

/-- The effect of an operation.
(Operating system, for the files written by src/extractors.py:49-50 and 116-121.) -/
def FsOp.apply (fs : Str → Option Bytes) : FsOp → Str → Option Bytes
  | .create name => setFile fs name []
  | .put name pos byte => setFile fs name (putByte ((fs name).getD []) pos byte)

/-- The effect of several operations.
(Operating system, for the files written by src/extractors.py:49-50 and 116-121.) -/
def applyOps (ops : List FsOp) (fs : Str → Option Bytes) : Str → Option Bytes :=
  ops.foldl FsOp.apply fs

/-- `f.write(bytes)` at position `pos`.
(Operating system, for the files written by src/extractors.py:49-50 and 116-121.) -/
def puts (name : Str) (pos : Nat) (bytes : Bytes) : List FsOp :=
  bytes.zipIdx.map (fun x => .put name (pos + x.2) x.1)

/-- `extract_instruments`, src/extractors.py:118-121 and src/tools.py:6-20. -/
def instrOps (env : Env) (instrFilename : Option Str) (s : State) : List FsOp :=
  match instrumentsJs s with
  | .error _ => []
  | .ok js =>
    match instrFilename with
    | none => []
    | some name =>
      if name = [] ∨ name = ['-'] then []
      else
        match env.openErr name true with
        | some _ => []
        | none => .create name :: puts name 0 (asciiBytes (js ++ ['\n']))

/-- `with zipfile.ZipFile(f, mode="w") as zf: zf.writestr(entry, data)` on the file `name`:
`_open_to_write` writes the local header with checksum and compressed size 0 (zipfile.py:
1640-1668; the size is known), the data follow, `_ZipWriteFile.close` seeks back and writes the
local header again with checksum and sizes (zipfile.py:1175-1192), and `ZipFile.close` writes
the central directory and the end record (zipfile.py:1910-2010). -/
def zipOps (zip64 : DateTime → Bytes → Bytes → Except PyErr Unit × Bytes) (t : DateTime)
    (name : Str) (entry data : Bytes) : List FsOp :=
  if t.year < 1980 then puts name 0 (zipEndRecord 0 0 0)
  else if 65536 ≤ dosDate t ∨ 65536 ≤ dosTime t then puts name 0 (zipEndRecord 0 0 0)
  else if zip64Needed data.length then puts name 0 (zip64 t entry data).2
  else
    let header0 := zipHeader0 t entry data.length
    let header := zipLocalHeader t entry (Spec.crc32 data) data.length
    let central := zipCentralHeader t entry (Spec.crc32 data) data.length
    puts name 0 (header0 ++ data) ++ puts name 0 header ++
      puts name (header ++ data).length
        (central ++ zipEndRecord 1 central.length (header ++ data).length)

/-- `extract_tracks_to_xrns`, src/extractors.py:13-50, and `writer`, src/xrns/writer.py:12-23. -/
def trackOps (env : Env) (s : State) (name : Str) (ticks : Int) : List FsOp :=
  match exportSong s ticks with
  | .error _ => []
  | .ok song =>
    match env.openErr name true with
    | some _ => []
    | none => .create name ::
        zipOps env.zip64 env.now name (utf8 "Song.xml".toList) (utf8 (songXml (render song)))

/-- The outputs, src/main.py:40-44. -/
def outputsOps (env : Env) (instrFilename trackFilename : Option Str) (s : State) (ticks : Int)
    (w : World) : List FsOp :=
  (if nameTruthy instrFilename then instrOps env instrFilename s else []) ++
  match (if nameTruthy instrFilename then (extractInstruments env instrFilename s w).1
    else .ok ()) with
  | .error _ => []
  | .ok () =>
    match trackFilename with
    | some (c :: cs) => trackOps env s (c :: cs) ticks
    | _ => []

/-- The body of `main`'s `with`, src/main.py:29-44. -/
def bodyOps (env : Env) (instrFilename trackFilename : Option Str) (ticks : Option Int)
    (f : Handle) (w : World) : List FsOp :=
  match env.argsFile with
  | none => []
  | some _ =>
    match readerOn env w f with
    | (.ok (some vgm), w) =>
      match fprocessVgm vgm.stream with
      | .error _ => []
      | .ok s =>
        match mainTicks env ticks s w with
        | (.error _, _) => []
        | (.ok ticks, w) => outputsOps env instrFilename trackFilename s ticks w
    | _ => []

/-- `main`, src/main.py:23-44. -/
def mainOps (env : Env) (vgmFilename : Option Str) (instrFilename trackFilename : Option Str)
    (ticks : Option Int) (w : World) : List FsOp :=
  if nameTruthy vgmFilename && vgmFilename != some ['-'] then
    match openFile env w (vgmFilename.getD []) ['r', 'b'] with
    | (.error _, _) => []
    | (.ok f, w) => bodyOps env instrFilename trackFilename ticks f w
  else bodyOps env instrFilename trackFilename ticks .stdin w

/-- The files if the process is killed after `k` operations. (A kill during src/main.py:23-44.) -/
def killedAfter (k : Nat) (env : Env) (vgmFilename instrFilename trackFilename : Option Str)
    (ticks : Option Int) (w : World) : Str → Option Bytes :=
  applyOps ((mainOps env vgmFilename instrFilename trackFilename ticks w).take k) w.fs

end VgmX
