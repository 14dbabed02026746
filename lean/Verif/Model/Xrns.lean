import Verif.Model.Note
/-
Model of `src/xrns/parts/*.py` and of `extract_tracks_to_xrns` in `src/extractors.py` up to
the song it hands to the writer (`exportSong`), and of `src/xrns/xrns_serializer.py` down to
the tree of data objects it builds (`render`). The XML text that `xsdata` makes of that tree is
in `Model/Xml`, the zip container (`src/xrns/writer.py`) in `Model/Zip`.
-/

namespace VgmX

/-- `Globals`, parts/globals.py:4-18. -/
structure Globals where
  beatsPerMin : Int := 120
  linesPerBeat : Nat := 4
  ticksPerLine : Nat := 12
  signatureNumerator : Nat := 4
  signatureDenominator : Nat := 4
  metronomeBeatsPerBar : Nat := 4
  metronomeLinesPerBeat : Nat := 0
  shuffleIsActive : Bool := false
  shuffleAmounts : List Nat := [0, 0, 0, 0]
  octave : Nat := 3
  loopCoeff : Nat := 4
  songName : Str := "Untitled".toList
  artist : Str := "FooBar".toList
  deriving DecidableEq

/-- `Instrument`, parts/instrument.py:4-6: no attributes. -/
structure Instrument where
  deriving DecidableEq

/-- `Pattern.Line`, parts/pattern.py:5-9. -/
structure Line where
  note : Str
  instrument : Option Str
  pan : Option Str
  deriving DecidableEq

/-- `Pattern.PatternTrack`, parts/pattern.py:14-16: a `dict` from line number to line, as
the list of its items in insertion order. Also `PatternMasterTrack`, `PatternSendTack`. -/
structure PatternTrack where
  lines : List (Int × Line) := []
  deriving DecidableEq

/-- `Pattern`, parts/pattern.py:4-33. -/
structure Pattern where
  linesPerTrack : Nat
  tracks : List PatternTrack
  masterTracks : List PatternTrack
  sendTracks : List PatternTrack
  deriving DecidableEq

/-- `Pattern.__init__`, parts/pattern.py:24-33. -/
def Pattern.new (tracks linesPerTrack : Nat) : Pattern where
  linesPerTrack := linesPerTrack
  tracks := List.replicate tracks {}
  masterTracks := [{}]
  sendTracks := [{}]

/-- `PatternPool`, parts/pattern.py:36-40. -/
structure PatternPool where
  patterns : List Pattern
  tracks : Nat
  linesPerTrack : Nat
  deriving DecidableEq

/-- `d[k] = v` on a `dict`: an existing key keeps its place.
(Python semantics, for parts/pattern.py:53.) -/
def dictSet {α : Type} (k : Int) (v : α) : List (Int × α) → List (Int × α)
  | [] => [(k, v)]
  | (k', v') :: d => if k' = k then (k', v) :: d else (k', v') :: dictSet k v d

/-- Position of `l[i]` in a Python list of length `len`; `none` is `IndexError`.
(Python semantics, for parts/pattern.py:53.) -/
def pyPos (len : Nat) (i : Int) : Option Nat :=
  if 0 ≤ i then (if i < len then some i.toNat else none)
  else if 0 ≤ i + len then some (i + len).toNat else none

/-- `PatternPool.add_note`, parts/pattern.py:42-55. The `while` loop appends patterns until
`pattern < len(self.patterns)`. -/
def PatternPool.addNote (pool : PatternPool) (pattern channel line : Int)
    (note : Str) (instrument pan : Option Str) : Except PyErr PatternPool :=
  let patterns := pool.patterns ++ List.replicate ((pattern + 1).toNat - pool.patterns.length)
    (Pattern.new pool.tracks pool.linesPerTrack)
  match pyPos patterns.length pattern with
  | none => .error .index
  | some p =>
    match pyPos (patterns[p]?.elim 0 (·.tracks.length)) channel with
    | none => .error .index
    | some c =>
      .ok { pool with
        patterns := patterns.modify p (fun pat =>
          { pat with tracks := pat.tracks.modify c (fun tr =>
            { tr with lines := dictSet line ⟨note, instrument, pan⟩ tr.lines }) }) }

/-- `SequencerTrack` and its two subclasses, parts/track.py:4-16. -/
structure SequencerTrack where
  name : Option Str
  state : Str := "Active".toList
  soloed : Bool := false
  deriving DecidableEq

/-- `Tracks`, parts/track.py:19-25. -/
structure Tracks where
  tracks : List SequencerTrack
  masterTracks : List SequencerTrack
  sendTracks : List SequencerTrack
  deriving DecidableEq

/-- `Tracks.__init__`, parts/track.py:20-25. -/
def Tracks.new (n : Nat) : Tracks where
  tracks := (List.range n).map (fun i => { name := some ("Track ".toList ++ natStr (i + 1)) })
  masterTracks := [{ name := some "Mst".toList }]
  sendTracks := [{ name := some "S01".toList }]

/-- `Song`, parts/song.py:10-18; the sequence is `PatternSequence.sequence_entries`
(parts/pattern_sequence.py:4-13), an entry being its pattern number. -/
structure Song where
  globals : Globals
  instruments : List Instrument
  tracks : Tracks
  patternPool : PatternPool
  patternSequence : List Nat
  deriving DecidableEq

/-- `Song.__init__`, parts/song.py:11-18. -/
def Song.new (tracks instruments : Nat) (linesPerTrack : Nat := 64) : Song where
  globals := {}
  instruments := List.replicate instruments {}
  tracks := Tracks.new tracks
  patternPool := ⟨[], tracks, linesPerTrack⟩
  patternSequence := []

/-- `PatternSequence.add_pattern`, parts/pattern_sequence.py:12-13. -/
def Song.addPattern (s : Song) (p : Nat) : Song :=
  { s with patternSequence := s.patternSequence ++ [p] }

/-- `int(60 / ((ticks_per_note / 44100) * 4))`, extractors.py:19-26. -/
def bpmOf (ticks : Int) : Except PyErr Int :=
  match intTrueDiv ticks 44100 with
  | .error e => .error e
  | .ok noteLength =>
    let beatLength := noteLength.mulNat 4
    match natDivF64 60 beatLength with
    | .error e => .error e
    | .ok bpm => bpm.toInt

/-- `instr`, extractors.py:33-35. -/
def instrColumn (n : Note) : Option Str :=
  if 0 ≤ n.configId then some (hex2 n.configId.toNat) else none

/-- `pan`, extractors.py:37-42. -/
def panColumn (n : Note) : Option Str :=
  if !n.right || !n.left then
    if n.right then some ['0', '0'] else some ['F', '0']
  else none

/-- The body of the inner loop, extractors.py:30-44. `//` and `%` floor (`Int.fdiv`,
`Int.fmod`); `ticks = 0` does not get here, `bpmOf` raises. -/
def exportNote (ticks : Int) (ch : Nat) (pool : PatternPool) (n : Note) :
    Except PyErr PatternPool :=
  let totalRow := Int.fdiv n.sample ticks
  let row := Int.fmod totalRow 64
  let pattern := Int.fdiv totalRow 64
  match n.xrnsNote with
  | .error e => .error e
  | .ok name => pool.addNote pattern ch row name (instrColumn n) (panColumn n)

/-- A `for` loop whose body may raise. (Python semantics, for src/extractors.py:28-44.) -/
def forExcept {α β : Type} (f : β → α → Except PyErr β) : β → List α → Except PyErr β
  | b, [] => .ok b
  | b, a :: l =>
    match f b a with
    | .error e => .error e
    | .ok b' => forExcept f b' l

/-- `extract_tracks_to_xrns` up to the point where it opens the file,
extractors.py:16-47. -/
def exportSong (s : State) (ticks : Int) : Except PyErr Song :=
  let song := Song.new 8 s.configs.length
  match bpmOf ticks with
  | .error e => .error e
  | .ok bpm =>
    let song := { song with globals := { song.globals with beatsPerMin := bpm } }
    match forExcept (fun pool ch =>
        forExcept (exportNote ticks ch) pool (s.keyPressesOf ch))
        song.patternPool (List.range 8) with
    | .error e => .error e
    | .ok pool =>
      let song := { song with patternPool := pool }
      .ok ((List.range pool.patterns.length).foldl Song.addPattern song)

/-! ### Rendering -/

/-- `dao.PatternLineNoteColumnNode`, the fields that are set (xrns_serializer.py:192-196);
here and below all other fields of the data objects keep their default `None`. -/
structure DaoNoteColumn where
  note : Str
  instrument : Option Str
  panning : Option Str
  deriving DecidableEq

/-- `dao.PatternLineNode`, xrns_serializer.py:188-199. -/
structure DaoLine where
  index : Int
  noteColumns : List DaoNoteColumn
  deriving DecidableEq

/-- `dao.PatternTrack`, xrns_serializer.py:185-203. -/
structure DaoPatternTrack where
  lines : List DaoLine
  deriving DecidableEq

/-- `dao.PatternMasterTrack()` and `dao.PatternSendTrack()`: no field is set,
xrns_serializer.py:205-213. -/
structure DaoEmpty where
  deriving DecidableEq

/-- `dao.Pattern`, xrns_serializer.py:168-182. -/
structure DaoPattern where
  patternTrack : List DaoPatternTrack
  patternMasterTrack : List DaoEmpty
  patternSendTrack : List DaoEmpty
  deriving DecidableEq

/-- Which mixer device a track has. (xrns_serializer.py:106-158.) -/
inductive DaoDevice where
  | trackMixer | masterTrackMixer | sendTrackMixer
  deriving DecidableEq

/-- `dao.SequencerTrack`, `dao.SequencerMasterTrack`, `dao.SequencerSendTrack`,
xrns_serializer.py:106-158. -/
structure DaoTrack where
  name : Option Str
  color : Option Str
  colorBlend : Nat
  state : Str
  soloed : Bool
  panningColumnIsVisible : Option Bool
  devices : List DaoDevice
  deriving DecidableEq

/-- `dao.RenoiseSong.Tracks`, xrns_serializer.py:98-104. -/
structure DaoTracks where
  sequencerTrack : List DaoTrack
  sequencerMasterTrack : List DaoTrack
  sequencerSendTrack : List DaoTrack
  deriving DecidableEq

/-- `dao.GlobalSongData`, xrns_serializer.py:62-79. -/
structure DaoGlobals where
  beatsPerMin : Int
  linesPerBeat : Nat
  ticksPerLine : Nat
  signatureNumerator : Nat
  signatureDenominator : Nat
  metronomeBeatsPerBar : Nat
  metronomeLinesPerBeat : Nat
  shuffleIsActive : Bool
  shuffleAmounts : List Nat
  octave : Nat
  loopCoeff : Nat
  songName : Str
  artist : Str
  deriving DecidableEq

/-- `dao.RenoiseSong`, xrns_serializer.py:54-60. -/
structure DaoSong where
  globalSongData : DaoGlobals
  instruments : List DaoEmpty
  tracks : DaoTracks
  patterns : List DaoPattern
  sequenceEntries : List Nat
  deriving DecidableEq

/-- `SerializerConfig.track_colors`, xrns_serializer.py:20-29. -/
def trackColors : List Str :=
  ["166,41,41".toList, "166,80,41".toList, "166,118,41".toList, "166,144,41".toList,
   "161,166,41".toList, "118,166,47".toList, "71,166,47".toList, "63,166,106".toList]

/-- `_render_global_song_data`, xrns_serializer.py:62-79. -/
def renderGlobals (g : Globals) : DaoGlobals where
  beatsPerMin := g.beatsPerMin
  linesPerBeat := g.linesPerBeat
  ticksPerLine := g.ticksPerLine
  signatureNumerator := g.signatureNumerator
  signatureDenominator := g.signatureDenominator
  metronomeBeatsPerBar := g.metronomeBeatsPerBar
  metronomeLinesPerBeat := g.metronomeLinesPerBeat
  shuffleIsActive := g.shuffleIsActive
  shuffleAmounts := g.shuffleAmounts
  octave := g.octave
  loopCoeff := g.loopCoeff
  songName := g.songName
  artist := g.artist

/-- `_render_track`, xrns_serializer.py:106-128: `color` is `next(color_iter)`, unset when
the iterator is exhausted. -/
def renderTrack (t : SequencerTrack) (color : Option Str) : DaoTrack where
  name := t.name
  color := color
  colorBlend := 0
  state := t.state
  soloed := t.soloed
  panningColumnIsVisible := some true
  devices := [.trackMixer]

/-- `_render_master_track`, xrns_serializer.py:130-144. -/
def renderMasterTrack (t : SequencerTrack) : DaoTrack where
  name := t.name
  color := some "220,220,220".toList
  colorBlend := 0
  state := t.state
  soloed := t.soloed
  panningColumnIsVisible := none
  devices := [.masterTrackMixer]

/-- `_render_send_track`, xrns_serializer.py:146-158. -/
def renderSendTrack (t : SequencerTrack) : DaoTrack where
  name := t.name
  color := some "41,166,153".toList
  colorBlend := 0
  state := t.state
  soloed := t.soloed
  panningColumnIsVisible := none
  devices := [.sendTrackMixer]

/-- The comprehension over the tracks with the colour iterator, xrns_serializer.py:92-93. -/
def renderSeqTracks : List SequencerTrack → List Str → List DaoTrack
  | [], _ => []
  | t :: ts, [] => renderTrack t none :: renderSeqTracks ts []
  | t :: ts, c :: cs => renderTrack t (some c) :: renderSeqTracks ts cs

/-- `_render_tracks`, xrns_serializer.py:91-104. -/
def renderTracks (t : Tracks) : DaoTracks where
  sequencerTrack := renderSeqTracks t.tracks trackColors
  sequencerMasterTrack := t.masterTracks.map renderMasterTrack
  sequencerSendTrack := t.sendTracks.map renderSendTrack

/-- `_render_pattern_track`, xrns_serializer.py:184-203. -/
def renderPatternTrack (t : PatternTrack) : DaoPatternTrack where
  lines := t.lines.map (fun (idx, line) =>
    { index := idx
      noteColumns := [{ note := line.note, instrument := line.instrument, panning := line.pan }] })

/-- `_render_pattern`, xrns_serializer.py:167-182. -/
def renderPattern (p : Pattern) : DaoPattern where
  patternTrack := p.tracks.map renderPatternTrack
  patternMasterTrack := p.masterTracks.map (fun _ => {})
  patternSendTrack := p.sendTracks.map (fun _ => {})

/-- `XrnsSerializer.render`, xrns_serializer.py:38-60, with the remaining `_render_*`
methods (instruments 81-89, pattern pool 160-165, sequence 215-230). -/
def render (s : Song) : DaoSong where
  globalSongData := renderGlobals s.globals
  instruments := s.instruments.map (fun _ => {})
  tracks := renderTracks s.tracks
  patterns := s.patternPool.patterns.map renderPattern
  sequenceEntries := s.patternSequence

end VgmX
