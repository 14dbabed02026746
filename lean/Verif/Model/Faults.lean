import Verif.Model.Main
/-
`main` on a device whose writes can fail (disk full, quota, broken medium): Python's buffers, the
exceptions of `write`, `seek`, `flush` and `close`, and what `with` and `finally` make of them.
The control flow is that of Model/Main; that nothing differs as long as no write fails is proved
(`c80_faults`).

* A `write` of the operating system takes at least one byte or fails. What it does is up to the
  device: it may fail now and not later. The sizes of Python's buffers are parameters.
* `io.BufferedWriter` as in CPython 3.11, Modules/_io/bufferedio.c (`_io_BufferedWriter_write_impl`,
  `_bufferedwriter_flush_unlocked`, `_io__Buffered_seek_impl`, `buffered_close`);
  `io.TextIOWrapper` as in Modules/_io/textio.c (`_io_TextIOWrapper_write_impl`,
  `_textiowrapper_writeflush`, `_io_TextIOWrapper_close_impl`); `zipfile` as in Lib/zipfile.py.

Simplifications: at most one file is open for writing at a time (true of `main`), its buffers are
part of the state; reading, seeking and closing do not fail by themselves; standard output accepts
everything; an archive that needs zip64 is written at once (its bytes are a parameter, Model/Zip).
-/

namespace VgmX

/-- A device: whether and how many of `n` bytes it takes at position `pos` of a file of this
length, and what it remembers.
(CPython and operating system, for the writes of src/extractors.py:49-50 and 116-121.) -/
structure Device where
  St : Type
  write : St → (length pos n : Nat) → Except PyErr Nat × St
  /-- a file of this length is emptied -/
  emptied : St → Nat → St

/-- Sizes of Python's buffers: of a `BufferedWriter`, and of a `TextIOWrapper`'s pending text.
(CPython and operating system, for the writes of src/extractors.py:49-50 and 116-121.) -/
structure Buffers where
  size : Nat
  chunk : Nat

/-- Bytes written over a content, from a position on.
(CPython and operating system, for the writes of src/extractors.py:49-50 and 116-121.) -/
def overwrite (content : Bytes) (pos : Nat) (bytes : Bytes) : Bytes :=
  content.take pos ++ bytes ++ content.drop (pos + bytes.length)

/-- The files, the device, and the file that is open for writing: its position as the operating
system knows it, the bytes in its buffer, the bytes pending in its text wrapper. `failed`: some
write has failed (not in the code; to speak about it).
(CPython and operating system, for the writes of src/extractors.py:49-50 and 116-121.) -/
structure Open (D : Device) where
  fs : Str → Option Bytes
  dev : D.St
  failed : Bool
  name : Str
  pos : Nat
  buf : Bytes
  text : Bytes

variable {D : Device}

/-- The content of the open file.
(CPython and operating system, for the writes of src/extractors.py:49-50 and 116-121.) -/
def Open.content (s : Open D) : Bytes := (s.fs s.name).getD []

/-- `write(2)`, called with at least one byte.
(CPython and operating system, for the writes of src/extractors.py:49-50 and 116-121.) -/
def Open.raw (s : Open D) (bytes : Bytes) : Except PyErr Nat × Open D :=
  match D.write s.dev s.content.length s.pos bytes.length with
  | (.error e, dev) => (.error e, { s with dev := dev, failed := true })
  | (.ok k, dev) =>
    let k := max 1 (min k bytes.length)
    (.ok k, { s with
      dev := dev, fs := setFile s.fs s.name (overwrite s.content s.pos (bytes.take k)),
      pos := s.pos + k })

/-- `while remaining > stop: write(2)`: how it ends, and what has not been written. The first
argument bounds the number of rounds (every round writes a byte).
(CPython and operating system, for the writes of src/extractors.py:49-50 and 116-121.) -/
def Open.drain (stop : Nat) : Nat → Bytes → Open D → Except PyErr Unit × Bytes × Open D
  | 0, bytes, s => (.ok (), bytes, s)
  | fuel + 1, bytes, s =>
    if bytes.length ≤ stop then (.ok (), bytes, s)
    else
      match s.raw bytes with
      | (.error e, s) => (.error e, bytes, s)
      | (.ok k, s) => Open.drain stop fuel (bytes.drop k) s

/-- `_bufferedwriter_flush_unlocked`: what could not be written stays in the buffer.
(CPython and operating system, for the writes of src/extractors.py:49-50 and 116-121.) -/
def Open.flush (s : Open D) : Except PyErr Unit × Open D :=
  match Open.drain 0 s.buf.length s.buf s with
  | (r, rest, s) => (r, { s with buf := rest })

/-- `_io_BufferedWriter_write_impl`: if the bytes do not fit into the buffer, it is flushed and
they are written directly, except for a last part that is buffered. If that fails, the bytes that
could not be written are dropped.
(CPython and operating system, for the writes of src/extractors.py:49-50 and 116-121.) -/
def Open.write (b : Buffers) (bytes : Bytes) (s : Open D) : Except PyErr Unit × Open D :=
  if bytes.length ≤ b.size - s.buf.length then (.ok (), { s with buf := s.buf ++ bytes })
  else
    match s.flush with
    | (.error e, s) => (.error e, s)
    | (.ok (), s) =>
      match Open.drain b.size bytes.length bytes s with
      | (.error e, _, s) => (.error e, s)
      | (.ok (), rest, s) => (.ok (), { s with buf := rest })

/-- `_io__Buffered_seek_impl`.
(CPython and operating system, for the writes of src/extractors.py:49-50 and 116-121.) -/
def Open.seek (p : Nat) (s : Open D) : Except PyErr Unit × Open D :=
  match s.flush with
  | (.error e, s) => (.error e, s)
  | (.ok (), s) => (.ok (), { s with pos := p })

/-- `tell()`.
(CPython and operating system, for the writes of src/extractors.py:49-50 and 116-121.) -/
def Open.tell (s : Open D) : Nat := s.pos + s.buf.length

/-- One statement after the other.
(Python semantics, for src/tools.py:16-20, src/extractors.py:49-50 and src/xrns/writer.py:22-23.) -/
def andThen (a b : Open D → Except PyErr Unit × Open D) (s : Open D) :
    Except PyErr Unit × Open D :=
  match a s with
  | (.error e, s) => (.error e, s)
  | (.ok (), s) => b s

/-- `try: a finally: b`, and `with`: `b` runs in any case, and if it raises, that is what is
raised.
(Python semantics, for src/tools.py:16-20, src/extractors.py:49-50 and src/xrns/writer.py:22-23.) -/
def tryFinally (a b : Open D → Except PyErr Unit × Open D) (s : Open D) :
    Except PyErr Unit × Open D :=
  match a s with
  | (r, s) =>
    match b s with
    | (.error e, s) => (.error e, s)
    | (.ok (), s) => (r, s)

/-- `_textiowrapper_writeflush`: the pending bytes are handed over, and forgotten also if that
fails. (CPython and operating system, for the writes of src/extractors.py:49-50 and 116-121.) -/
def Open.textFlush (b : Buffers) (s : Open D) : Except PyErr Unit × Open D :=
  if s.text = [] then (.ok (), s) else Open.write b s.text { s with text := [] }

/-- `_io_TextIOWrapper_write_impl`, for the encoded text.
(CPython and operating system, for the writes of src/extractors.py:49-50 and 116-121.) -/
def Open.textWrite (b : Buffers) (bytes : Bytes) (s : Open D) : Except PyErr Unit × Open D :=
  andThen
    (fun s => if s.text.length + bytes.length > b.chunk then s.textFlush b else (.ok (), s))
    (fun s =>
      let s := { s with text := s.text ++ bytes }
      if s.text.length ≥ b.chunk then s.textFlush b else (.ok (), s)) s

/-- `_io_TextIOWrapper_close_impl`: `self.flush()`, then `self.buffer.close()` in any case, which
flushes the buffer once more.
(CPython and operating system, for the writes of src/extractors.py:49-50 and 116-121.) -/
def Open.textClose (b : Buffers) (s : Open D) : Except PyErr Unit × Open D :=
  tryFinally (andThen (Open.textFlush b) Open.flush) Open.flush s

/-- `with self.open(zinfo, mode="w") as dest: dest.write(data)`, after the checks of
`_open_to_write` (zipfile.py:1164-1209, 1668-1674, 1836-1837): how it ends; where the directory is
to start; whether the entry was added to it. `dest.close()` runs also if `dest.write` raised, then
writes the final header and adds the entry all the same. -/
def zipEntry (b : Buffers) (t : DateTime) (entry data : Bytes) (s : Open D) :
    (Except PyErr Unit × Open D) × Nat × Bool :=
  match s.write b (zipHeader0 t entry data.length) with
  | (.error e, s) => ((.error e, s), 0, false)
  | (.ok (), s) =>
    match s.write b data with
    | (r, s) =>
      match andThen (Open.seek 0) (andThen
          (Open.write b (zipLocalHeader t entry (Spec.crc32 data) data.length))
          (Open.seek s.tell)) s with
      | (.error e, s') => ((.error e, s'), s.tell, false)
      | (.ok (), s') => ((r, s'), s.tell, true)

/-- `zf.writestr(entry, data)` on a new archive in a file just opened (zipfile.py:391, 448-449,
1640-1668). -/
def zipWritestr (b : Buffers) (t : DateTime) (entry data : Bytes) (s : Open D) :
    (Except PyErr Unit × Open D) × Nat × Bool :=
  if t.year < 1980 then ((.error .value, s), 0, false)
  else
    match s.seek 0 with
    | (.error e, s) => ((.error e, s), 0, false)
    | (.ok (), s) =>
      if 65536 ≤ dosDate t ∨ 65536 ≤ dosTime t then ((.error .struct, s), 0, false)
      else zipEntry b t entry data s

/-- `ZipFile.close`, zipfile.py:1880-1900, and `_write_end_record`, zipfile.py:1910-2012. -/
def zipClose (b : Buffers) (t : DateTime) (entry data : Bytes) (start : Nat) (added : Bool)
    (s : Open D) : Except PyErr Unit × Open D :=
  andThen (Open.seek start)
    (andThen
      (fun s => if added then
          -- the fixed fields and the name are written separately
          andThen
            (Open.write b ((zipCentralHeader t entry (Spec.crc32 data) data.length).take 46))
            (Open.write b entry) s
        else (.ok (), s))
      (andThen
        (Open.write b (zipEndRecord (if added then 1 else 0)
          (if added then (zipCentralHeader t entry (Spec.crc32 data) data.length).length else 0)
          start))
        Open.flush)) s

/-- `with zipfile.ZipFile(f, mode="w") as zf: zf.writestr(entry, data)`.
(src/xrns/writer.py:22-23.) -/
def zipFileF (b : Buffers) (zip64 : DateTime → Bytes → Bytes → Except PyErr Unit × Bytes)
    (t : DateTime) (entry data : Bytes) (s : Open D) : Except PyErr Unit × Open D :=
  if 1980 ≤ t.year ∧ ¬ (65536 ≤ dosDate t ∨ 65536 ≤ dosTime t) ∧ zip64Needed data.length then
    andThen (Open.write b (zip64 t entry data).2) (fun s => ((zip64 t entry data).1, s)) s
  else
    match zipWritestr b t entry data s with
    | ((r, s), start, added) =>
      match zipClose b t entry data start added s with
      | (.error e, s) => (.error e, s)
      | (.ok (), s) => (r, s)

/-- What the program changes, and the device. (For src/main.py:23-44.) -/
structure FWorld (D : Device) extends World where
  dev : D.St
  failed : Bool

/-- `print`. (For src/main.py:23-44.) -/
def FWorld.print (w : FWorld D) (s : Str) : FWorld D := { w with toWorld := w.toWorld.print s }

/-- `with open(name, mode) as f: body`, with the closing of the file as part of `body`: the file
is opened (emptied) and `body` runs. (src/extractors.py:49-50 and 119-121.) -/
def withWriter (env : Env) (name mode : Str) (body : Open D → Except PyErr Unit × Open D)
    (w : FWorld D) : Except PyErr Unit × FWorld D :=
  match openFile env w.toWorld name mode with
  | (.error e, w') => (.error e, { w with toWorld := w' })
  | (.ok fh, w') =>
    match body {
        fs := w'.fs, dev := D.emptied w.dev ((w.fs name).getD []).length, failed := w.failed,
        name := name, pos := 0, buf := [], text := [] } with
    | (r, s) =>
      (r, { toWorld := { w' with fs := s.fs }.close fh, dev := s.dev, failed := s.failed })

/-- `extract_instruments`, src/extractors.py:116-121, with `smart_open`, src/tools.py:5-20. -/
def extractInstrumentsF (b : Buffers) (env : Env) (instrFilename : Option Str) (s : State)
    (w : FWorld D) : Except PyErr Unit × FWorld D :=
  let w := w.print ("Writing instruments to ".toList ++ nameStr instrFilename ++ "...\n".toList)
  match instrumentsJs s with
  | .error e => (.error e, w)
  | .ok js =>
    if nameTruthy instrFilename && instrFilename != some ['-'] then
      withWriter env (instrFilename.getD []) ['w']
        (tryFinally
          (andThen (Open.textWrite b (asciiBytes js)) (Open.textWrite b (asciiBytes ['\n'])))
          (Open.textClose b)) w
    else (.ok (), (w.print js).print ['\n'])

/-- `extract_tracks_to_xrns`, src/extractors.py:13-50, with `writer`, src/xrns/writer.py:12-23. -/
def extractTracksF (b : Buffers) (env : Env) (s : State) (trackFilename : Str) (ticks : Int)
    (w : FWorld D) : Except PyErr Unit × FWorld D :=
  let w := w.print ("Writing xrns ".toList ++ trackFilename ++ "...\n".toList)
  match exportSong s ticks with
  | .error e => (.error e, w)
  | .ok song =>
    withWriter env trackFilename ['w', 'b']
      (tryFinally
        (zipFileF b env.zip64 env.now (utf8 "Song.xml".toList) (utf8 (songXml (render song))))
        Open.flush) w

/-- The outputs, src/main.py:40-44. -/
def mainOutputsF (b : Buffers) (env : Env) (instrFilename trackFilename : Option Str) (s : State)
    (ticks : Int) (w : FWorld D) : Except PyErr Unit × FWorld D :=
  let (r, w) :=
    if nameTruthy instrFilename then extractInstrumentsF b env instrFilename s w else (.ok (), w)
  match r with
  | .error e => (.error e, w)
  | .ok () =>
    match trackFilename with
    | some (c :: cs) => extractTracksF b env s (c :: cs) ticks w
    | _ => (.ok (), w)

/-- The body of `main`'s `with`, src/main.py:29-44. -/
def mainBodyF (b : Buffers) (env : Env) (instrFilename trackFilename : Option Str)
    (ticks : Option Int) (f : Handle) (w : FWorld D) : Except PyErr Unit × FWorld D :=
  match env.argsFile with
  | none => (.error .name, w)
  | some argsFile =>
  let w := w.print ("Opening file: ".toList ++ argsFile ++ ['\n'])
  match readerOn env w.toWorld f with
  | (.error e, w') => (.error e, { w with toWorld := w' })
  | (.ok none, w') => (.error .type, { w with toWorld := w' })
  | (.ok (some vgm), w') =>
  match fprocessVgm vgm.stream with
  | .error e => (.error e, { w with toWorld := w' })
  | .ok s =>
  match mainTicks env ticks s w' with
  | (.error e, w') => (.error e, { w with toWorld := w' })
  | (.ok ticks, w') =>
    mainOutputsF b env instrFilename trackFilename s ticks
      { w with toWorld := w'.print ("Ticks per Note: ".toList ++ intStr ticks ++ ['\n']) }

/-- `main`, src/main.py:23-44, with `smart_open`, src/tools.py:5-20. -/
def mainF (b : Buffers) (env : Env) (vgmFilename instrFilename trackFilename : Option Str)
    (ticks : Option Int) (w : FWorld D) : Except PyErr Unit × FWorld D :=
  if nameTruthy vgmFilename && vgmFilename != some ['-'] then
    match openFile env w.toWorld (vgmFilename.getD []) ['r', 'b'] with
    | (.error e, w') => (.error e, { w with toWorld := w' })
    | (.ok fh, w') =>
      match mainBodyF b env instrFilename trackFilename ticks fh { w with toWorld := w' } with
      | (r, w) => (r, { w with toWorld := w.toWorld.close fh })
  else mainBodyF b env instrFilename trackFilename ticks .stdin w

end VgmX
