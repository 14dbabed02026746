import Verif.Model.Xrns
import Verif.Spec.Pitch
/-
How to read an exported song. Of the model it uses the types of the data objects
(`DaoSong`) and of notes, not the functions that build them.
-/

namespace VgmX.Spec

/-- The lines of track `c` of pattern `p`. -/
def linesOf (d : DaoSong) (p c : Nat) : List DaoLine :=
  match d.patterns[p]? with
  | none => []
  | some pat =>
    match pat.patternTrack[c]? with
    | none => []
    | some tr => tr.lines

/-- The note columns of row `r` of track `c` of pattern `p`: none if the row is empty. -/
def columnsAt (d : DaoSong) (p c r : Nat) : Option (List DaoNoteColumn) :=
  ((linesOf d p c).find? (fun l => decide (l.index = (r : Int)))).map (·.noteColumns)

/-- The notes that fall on row `row` of the song, counted from its start, at `t` samples per
row. -/
def onRow (presses : List Note) (t row : Nat) : List Note :=
  presses.filter (fun n => decide (n.sample / t = row))

/-- The note column is that of the note: its name, its instrument as a hexadecimal number
(blank for a key-off), and its panning (blank in the middle). -/
structure Shows (col : DaoNoteColumn) (n : Note) : Prop where
  note : n.xrnsNote = .ok col.note
  instrument : if n.configId = -1 then col.instrument = none
    else ∃ s, col.instrument = some s ∧ readBase 16 s = some n.configId.toNat ∧
      2 ≤ s.length ∧ (s.length = 2 ↔ n.configId < 256)
  panning : col.panning = match n.left, n.right with
    | true, true => none
    | false, true => some ['0', '0']
    | _, false => some ['F', '0']

/-- Read a song back from its rendering, given what the rendering leaves out: the number of
lines of its patterns. -/
def readBack (linesPerTrack : Nat) (d : DaoSong) : Song where
  globals :=
    { beatsPerMin := d.globalSongData.beatsPerMin
      linesPerBeat := d.globalSongData.linesPerBeat
      ticksPerLine := d.globalSongData.ticksPerLine
      signatureNumerator := d.globalSongData.signatureNumerator
      signatureDenominator := d.globalSongData.signatureDenominator
      metronomeBeatsPerBar := d.globalSongData.metronomeBeatsPerBar
      metronomeLinesPerBeat := d.globalSongData.metronomeLinesPerBeat
      shuffleIsActive := d.globalSongData.shuffleIsActive
      shuffleAmounts := d.globalSongData.shuffleAmounts
      octave := d.globalSongData.octave
      loopCoeff := d.globalSongData.loopCoeff
      songName := d.globalSongData.songName
      artist := d.globalSongData.artist }
  instruments := d.instruments.map (fun _ => {})
  tracks :=
    { tracks := d.tracks.sequencerTrack.map (fun t => ⟨t.name, t.state, t.soloed⟩)
      masterTracks := d.tracks.sequencerMasterTrack.map (fun t => ⟨t.name, t.state, t.soloed⟩)
      sendTracks := d.tracks.sequencerSendTrack.map (fun t => ⟨t.name, t.state, t.soloed⟩) }
  patternPool :=
    { patterns := d.patterns.map (fun p =>
        { linesPerTrack := linesPerTrack
          tracks := p.patternTrack.map (fun t =>
            ⟨t.lines.map (fun l => (l.index,
              match l.noteColumns with
              | [col] => ⟨col.note, col.instrument, col.panning⟩
              | _ => ⟨[], none, none⟩))⟩)
          masterTracks := p.patternMasterTrack.map (fun _ => {})
          sendTracks := p.patternSendTrack.map (fun _ => {}) })
      tracks := d.tracks.sequencerTrack.length
      linesPerTrack := linesPerTrack }
  patternSequence := d.sequenceEntries

end VgmX.Spec

namespace VgmX

/-- The tree of data objects `extract_tracks_to_xrns` hands to the XML serializer:
extractors.py:13-50 with `writer`, xrns/writer.py:12-15. -/
def exportXrns (s : State) (ticks : Int) : Except PyErr DaoSong :=
  match exportSong s ticks with
  | .error e => .error e
  | .ok song => .ok (render song)

end VgmX
