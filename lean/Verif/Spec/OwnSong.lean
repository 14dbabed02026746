import Verif.Spec.SongFile
import Verif.Spec.Newlines
/-
Track files whose texts are the caller's own: which texts XML can carry, how a reader decodes the
file, and what it should show. Of the model it uses the types of songs only.
-/

namespace VgmX.Spec

/-- The characters of XML 1.0 (surrogates are not characters of Lean), without the carriage
return, which readers turn into a line feed. -/
def XmlChar (c : Char) : Prop :=
  c = '\t' ∨ c = '\n' ∨ (32 ≤ c.toNat ∧ c.toNat ≠ 0xFFFE ∧ c.toNat ≠ 0xFFFF)

instance (c : Char) : Decidable (XmlChar c) := by unfold XmlChar; infer_instance

/-- A text that an element can carry: of such characters, and not only white space. -/
def CarriedText (t : List Char) : Prop := (∃ c ∈ t, isBlank c = false) ∧ ∀ c ∈ t, XmlChar c

instance (t : List Char) : Decidable (CarriedText t) := by unfold CarriedText; infer_instance

/-- All texts of a song can be carried: its name, its artist, the names and states of its tracks
and the contents of its lines. -/
structure CarriedSong (s : Song) : Prop where
  songName : CarriedText s.globals.songName
  artist : CarriedText s.globals.artist
  tracks : ∀ t ∈ s.tracks.tracks ++ s.tracks.masterTracks ++ s.tracks.sendTracks,
    (∀ n ∈ t.name, CarriedText n) ∧ CarriedText t.state
  lines : ∀ p ∈ s.patternPool.patterns, ∀ t ∈ p.tracks, ∀ l ∈ t.lines,
    CarriedText l.2.note ∧ (∀ i ∈ l.2.instrument, CarriedText i) ∧ (∀ q ∈ l.2.pan, CarriedText q)

/-- A text in UTF-8 (decoder: Lean's own, `none` for anything that is not UTF-8). -/
def utf8Decode (b : Bytes) : Option (List Char) := b.toByteArray.utf8Decode?.map Array.toList

/-- The song in a track file, read as XML readers do: UTF-8, then line ends made uniform, then
elements. -/
def readSongFileUtf8 (b : Bytes) : Option DaoSong :=
  match unzip b with
  | some [e] =>
    if utf8Decode e.name = some "Song.xml".toList then
      (utf8Decode e.data).bind (fun s => readSongXml (universal s))
    else none
  | _ => none

/-- What a file shows of a track. -/
def trackShown (t : DaoTrack) : Option (List Char) × List Char × Bool := (t.name, t.state, t.soloed)

/-- The same of the track of a song. -/
def trackMeant (t : SequencerTrack) : Option (List Char) × List Char × Bool :=
  (t.name, t.state, t.soloed)

/-- The file shows the song: settings and texts, tracks of the three kinds, number of instruments,
patterns with their lines in order, sequence. -/
structure SongShown (s : Song) (d : DaoSong) : Prop where
  songName : d.globalSongData.songName = s.globals.songName
  artist : d.globalSongData.artist = s.globals.artist
  tempo : (d.globalSongData.beatsPerMin, d.globalSongData.linesPerBeat,
      d.globalSongData.ticksPerLine) =
    (s.globals.beatsPerMin, s.globals.linesPerBeat, s.globals.ticksPerLine)
  signature : (d.globalSongData.signatureNumerator, d.globalSongData.signatureDenominator,
      d.globalSongData.metronomeBeatsPerBar, d.globalSongData.metronomeLinesPerBeat) =
    (s.globals.signatureNumerator, s.globals.signatureDenominator,
      s.globals.metronomeBeatsPerBar, s.globals.metronomeLinesPerBeat)
  shuffle : (d.globalSongData.shuffleIsActive, d.globalSongData.shuffleAmounts) =
    (s.globals.shuffleIsActive, s.globals.shuffleAmounts)
  octave : (d.globalSongData.octave, d.globalSongData.loopCoeff) =
    (s.globals.octave, s.globals.loopCoeff)
  instruments : d.instruments.length = s.instruments.length
  tracks : d.tracks.sequencerTrack.map trackShown = s.tracks.tracks.map trackMeant
  masters : d.tracks.sequencerMasterTrack.map trackShown = s.tracks.masterTracks.map trackMeant
  sends : d.tracks.sequencerSendTrack.map trackShown = s.tracks.sendTracks.map trackMeant
  lines : d.patterns.map (fun p => p.patternTrack.map (fun t => t.lines.map (fun l =>
      (l.index, l.noteColumns.map (fun c => (c.note, c.instrument, c.panning)))))) =
    s.patternPool.patterns.map (fun p => p.tracks.map (fun t => t.lines.map (fun l =>
      (l.1, [(l.2.note, l.2.instrument, l.2.pan)]))))
  sequence : d.sequenceEntries = s.patternSequence

end VgmX.Spec
