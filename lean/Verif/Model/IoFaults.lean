import Verif.Model.Io
import Verif.Model.Faults
/-
`main` on a system where anything may be refused: reading from the input and moving in it,
printing (as in Model/Io), and every write to an output file (as in Model/Faults).

The parts that only read are those of Model/Io; the parts that write files are those of
Model/Faults. The simplifications are those of the two models.
-/

namespace VgmX

variable {D : Device}

/-- A result of the program on a device. (Calls of the input and of `print`, and writes, in
src/main.py:23-44.) -/
abbrev ResF (D : Device) := Except PyErr Unit × FWorld D

/-- `extract_instruments`, src/extractors.py:116-121, and what follows. With `-` the text goes to
standard output. -/
def extractInstrumentsIoF (b : Buffers) (env : Env) (instrFilename : Option Str) (s : State)
    (w : FWorld D) (k : ResF D → Io (ResF D)) : Io (ResF D) :=
  .print (fun e => (.error e, w))
    (let w := w.print
        ("Writing instruments to ".toList ++ nameStr instrFilename ++ "...\n".toList)
    match instrumentsJs s with
    | .error e => .ret (.error e, w)
    | .ok js =>
      if nameTruthy instrFilename && instrFilename != some ['-'] then
        k (withWriter env (instrFilename.getD []) ['w']
          (tryFinally
            (andThen (Open.textWrite b (asciiBytes js)) (Open.textWrite b (asciiBytes ['\n'])))
            (Open.textClose b)) w)
      else
        .print (fun e => (.error e, w)) (.print (fun e => (.error e, w.print js))
          (k (.ok (), (w.print js).print ['\n']))))

/-- `extract_tracks_to_xrns`, src/extractors.py:13-50, with `writer`, src/xrns/writer.py:12-23. -/
def extractTracksIoF (b : Buffers) (env : Env) (s : State) (trackFilename : Str) (ticks : Int)
    (w : FWorld D) : Io (ResF D) :=
  .print (fun e => (.error e, w)) (.ret
    (let w := w.print ("Writing xrns ".toList ++ trackFilename ++ "...\n".toList)
    match exportSong s ticks with
    | .error e => (.error e, w)
    | .ok song =>
      withWriter env trackFilename ['w', 'b']
        (tryFinally
          (zipFileF b env.zip64 env.now (utf8 "Song.xml".toList) (utf8 (songXml (render song))))
          Open.flush) w))

/-- `if track_filename: ..`, src/main.py:43-44, after the instruments. -/
def tracksIoF (b : Buffers) (env : Env) (trackFilename : Option Str) (s : State) (ticks : Int) :
    ResF D → Io (ResF D)
  | (.error e, w) => .ret (.error e, w)
  | (.ok (), w) =>
    match trackFilename with
    | some (c :: cs) => extractTracksIoF b env s (c :: cs) ticks w
    | _ => .ret (.ok (), w)

/-- The outputs, src/main.py:40-44. -/
def outputsIoF (b : Buffers) (env : Env) (instrFilename trackFilename : Option Str) (s : State)
    (ticks : Int) (w : FWorld D) : Io (ResF D) :=
  if nameTruthy instrFilename then
    extractInstrumentsIoF b env instrFilename s w (tracksIoF b env trackFilename s ticks)
  else tracksIoF b env trackFilename s ticks (.ok (), w)

/-- `if not ticks_per_note: ..`, src/main.py:35-37. -/
def ticksIoF (ticks : Option Int) (s : State) (w : FWorld D) (k : Int → FWorld D → Io (ResF D)) :
    Io (ResF D) :=
  let estimate : Io (ResF D) :=
    .print (fun e => (.error e, w))
      (let w := w.print "Calculating Ticks Per Note".toList
      .print (fun e => (.error e, w))
        (let w := w.print s.ticksReport
        match s.ticksPerNote with
        | .error e => .ret (.error e, w)
        | .ok n => k n w))
  match ticks with
  | some t => if t ≠ 0 then k t w else estimate
  | none => estimate

/-- The body of `main`'s `with` on a file with this content, src/main.py:29-44. -/
def bodyIoF (b : Buffers) (env : Env) (instrFilename trackFilename : Option Str)
    (ticks : Option Int) (content : Bytes) (w : FWorld D) : Io (ResF D) :=
  match env.argsFile with
  | none => .ret (.error .name, w)
  | some argsFile =>
  .print (fun e => (.error e, w))
    (let w := w.print ("Opening file: ".toList ++ argsFile ++ ['\n'])
    .switch (fun _ => ⟨content, 0, none⟩)
      (readerIo env.inflate w.clocks
        (fun e c => (.error e, { w with toWorld := { w.toWorld with clocks := c } }))
        (.error .type, w)
        (fun clocks =>
          let w : FWorld D := { w with toWorld := { w.toWorld with clocks := clocks } }
          -- more rounds than there can be commands: each takes a byte
          processIo (fun e => (.error e, w))
            (fun s => ticksIoF ticks s w (fun t w =>
              .print (fun e => (.error e, w))
                (outputsIoF b env instrFilename trackFilename s t
                  (w.print ("Ticks per Note: ".toList ++ intStr t ++ ['\n'])))))
            (content.length + (env.inflate content).1.length + 1) State.init)))

/-- `main`, src/main.py:23-44, with an input file: it is closed however the body ends
(src/tools.py:16-20). -/
def mainIoF (b : Buffers) (env : Env) (vgmFilename : Str)
    (instrFilename trackFilename : Option Str) (ticks : Option Int) (w : FWorld D) :
    Io (ResF D) :=
  match openFile env w.toWorld vgmFilename ['r', 'b'] with
  | (.error e, w') => .ret (.error e, { w with toWorld := w' })
  | (.ok fh, w') =>
    (bodyIoF b env instrFilename trackFilename ticks ((w'.fs vgmFilename).getD [])
        { w with toWorld := w' }).map
      (fun x => (x.1, { x.2 with toWorld := x.2.toWorld.close fh }))

end VgmX
