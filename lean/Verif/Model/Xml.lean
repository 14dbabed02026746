import Verif.Model.Xrns
/-
Model of the XML text of a song: the data classes of `src/xrns/xml/song/renoise_song65.py`
that the serializer uses (element and attribute names and their order are the `metadata` and
the order of the fields there), and of `XmlSerializer.render` (xsdata) on them with
`pretty_print=True, encoding="UTF-8", xml_version="1.0"`, src/xrns/writer.py:17-20.

xsdata itself is not part of the repository. What is taken from its documentation: the fields
of a data class are written in their order, attributes into the start tag, elements as
children; `None` is left out, a list is written item by item; integers are written in decimal,
Booleans as `true` and `false`; an element without content is written `<name/>`; pretty
printing puts every element on its own line, indented by two spaces per level, except that an
element with text is on one line with its text; the text is preceded by an XML declaration.
-/

namespace VgmX

mutual
/-- An element: with text, or with child elements (possibly none).
(xsdata, for src/xrns/writer.py:17-20.) -/
inductive Xml where
  | leaf (name : Str) (attrs : List (Str × Str)) (text : Str)
  | node (name : Str) (attrs : List (Str × Str)) (kids : XmlList)
/-- Child elements. (xsdata, for src/xrns/writer.py:17-20.) -/
inductive XmlList where
  | nil
  | cons (x : Xml) (l : XmlList)
end

/-- Child elements from a list. (xsdata, for src/xrns/writer.py:17-20.) -/
def XmlList.ofList : List Xml → XmlList
  | [] => .nil
  | x :: l => .cons x (XmlList.ofList l)

/-- Characters of element text (xml.sax.saxutils.escape, as used by the writer).
(xsdata, for src/xrns/writer.py:17-20.) -/
def xmlEscapeChar (c : Char) : Str :=
  if c = '&' then "&amp;".toList
  else if c = '<' then "&lt;".toList
  else if c = '>' then "&gt;".toList
  else [c]

/-- Text content. (xsdata, for src/xrns/writer.py:17-20.) -/
def xmlEscape (s : Str) : Str := s.flatMap xmlEscapeChar

/-- Characters of an attribute value between double quotes (saxutils.quoteattr; values with
double quotes do not occur). (xsdata, for src/xrns/writer.py:17-20.) -/
def xmlEscapeAttrChar (c : Char) : Str :=
  if c = '"' then "&quot;".toList
  else if c = '\n' then "&#10;".toList
  else if c = '\r' then "&#13;".toList
  else if c = '\t' then "&#9;".toList
  else xmlEscapeChar c

/-- Attributes of a start tag. (xsdata, for src/xrns/writer.py:17-20.) -/
def xmlAttrs : List (Str × Str) → Str
  | [] => []
  | (k, v) :: l => ' ' :: k ++ "=\"".toList ++ v.flatMap xmlEscapeAttrChar ++ ['"'] ++ xmlAttrs l

/-- Indentation. (xsdata, for src/xrns/writer.py:17-20.) -/
def xmlIndent (depth : Nat) : Str := List.replicate (2 * depth) ' '

mutual
/-- The lines of an element. (xsdata, for src/xrns/writer.py:17-20.) -/
def Xml.text (depth : Nat) : Xml → Str
  | .leaf n a t =>
    xmlIndent depth ++ '<' :: n ++ xmlAttrs a ++ '>' :: xmlEscape t ++ "</".toList ++ n ++ ">\n".toList
  | .node n a .nil => xmlIndent depth ++ '<' :: n ++ xmlAttrs a ++ "/>\n".toList
  | .node n a (.cons x l) =>
    xmlIndent depth ++ '<' :: n ++ xmlAttrs a ++ ">\n".toList
      ++ x.text (depth + 1) ++ l.text (depth + 1)
      ++ xmlIndent depth ++ "</".toList ++ n ++ ">\n".toList
/-- The lines of child elements. (xsdata, for src/xrns/writer.py:17-20.) -/
def XmlList.text (depth : Nat) : XmlList → Str
  | .nil => []
  | .cons x l => x.text depth ++ l.text depth
end

/-- The whole document. (xsdata, for src/xrns/writer.py:17-20.) -/
def xmlDocument (x : Xml) : Str :=
  "<?xml version=\"1.0\" encoding=\"UTF-8\"?>\n".toList ++ x.text 0

/-! ### The data objects as elements -/

/-- An element with text. (xsdata on the classes of renoise_song65.py:686-21936.) -/
def xText (name : String) (t : Str) : Xml := .leaf name.toList [] t

/-- An element with children. (xsdata on the classes of renoise_song65.py:686-21936.) -/
def xNode (name : String) (kids : List Xml) : Xml := .node name.toList [] (.ofList kids)

/-- An element with children and the `type` attribute that its class declares.
(xsdata on the classes of renoise_song65.py:686-21936.) -/
def xTyped (name : String) (kids : List Xml) : Xml :=
  .node name.toList [("type".toList, name.toList)] (.ofList kids)

/-- A field that may be `None`. (xsdata on the classes of renoise_song65.py:686-21936.) -/
def xOpt (name : String) : Option Str → List Xml
  | none => []
  | some t => [xText name t]

/-- A Boolean field. (xsdata on the classes of renoise_song65.py:686-21936.) -/
def xBool (name : String) (b : Bool) : Xml :=
  xText name (if b then "true".toList else "false".toList)

/-- `GlobalSongData`, renoise_song65.py:686-880. -/
def DaoGlobals.xml (g : DaoGlobals) : Xml :=
  xNode "GlobalSongData" [
    xText "BeatsPerMin" (intStr g.beatsPerMin),
    xText "LinesPerBeat" (natStr g.linesPerBeat),
    xText "TicksPerLine" (natStr g.ticksPerLine),
    xText "SignatureNumerator" (natStr g.signatureNumerator),
    xText "SignatureDenominator" (natStr g.signatureDenominator),
    xText "MetronomeBeatsPerBar" (natStr g.metronomeBeatsPerBar),
    xText "MetronomeLinesPerBeat" (natStr g.metronomeLinesPerBeat),
    xBool "ShuffleIsActive" g.shuffleIsActive,
    xNode "ShuffleAmounts" (g.shuffleAmounts.map (fun n => xText "ShuffleAmount" (natStr n))),
    xText "Octave" (natStr g.octave),
    xText "LoopCoeff" (natStr g.loopCoeff),
    xText "SongName" g.songName,
    xText "Artist" g.artist]

/-- The mixer devices: `TrackMixerDevice` renoise_song65.py:17843-17955,
`MasterTrackMixerDevice` 11335-11489, `SendTrackMixerDevice` 17126-17238. Only one of the
lists of `TrackFilterDeviceChain.Devices` (20334-20868) is not empty, so their order does not
matter. -/
def DaoDevice.xml : DaoDevice → Xml
  | .trackMixer => xTyped "TrackMixerDevice" []
  | .masterTrackMixer => xTyped "MasterTrackMixerDevice" []
  | .sendTrackMixer => xTyped "SendTrackMixerDevice" []

/-- `SequencerTrack` renoise_song65.py:21480-21640, `SequencerMasterTrack` 21152-21312,
`SequencerSendTrack` 21316-21476, with `TrackFilterDeviceChain` 20297-20868. -/
def DaoTrack.xml (name : String) (t : DaoTrack) : Xml :=
  xTyped name (
    xOpt "Name" t.name ++ xOpt "Color" t.color ++
    [xText "ColorBlend" (natStr t.colorBlend), xText "State" t.state, xBool "Soloed" t.soloed] ++
    (match t.panningColumnIsVisible with
      | none => []
      | some b => [xBool "PanningColumnIsVisible" b]) ++
    [xNode "FilterDevices" [xNode "Devices" (t.devices.map DaoDevice.xml)]])

/-- `RenoiseSong.Tracks`, renoise_song65.py:21898-21936. -/
def DaoTracks.xml (t : DaoTracks) : Xml :=
  xNode "Tracks" (
    t.sequencerTrack.map (DaoTrack.xml "SequencerTrack") ++
    t.sequencerMasterTrack.map (DaoTrack.xml "SequencerMasterTrack") ++
    t.sequencerSendTrack.map (DaoTrack.xml "SequencerSendTrack"))

/-- `PatternLineNoteColumnNode`, renoise_song65.py:1790-1845. -/
def DaoNoteColumn.xml (c : DaoNoteColumn) : Xml :=
  xNode "NoteColumn" (xText "Note" c.note :: xOpt "Instrument" c.instrument ++
    xOpt "Panning" c.panning)

/-- `PatternLineNode`, renoise_song65.py:3309-3368: `index` is an attribute. -/
def DaoLine.xml (l : DaoLine) : Xml :=
  .node "Line".toList [("index".toList, intStr l.index)]
    (.ofList [xNode "NoteColumns" (l.noteColumns.map DaoNoteColumn.xml)])

/-- `PatternTrack`, renoise_song65.py:19223-19296. -/
def DaoPatternTrack.xml (t : DaoPatternTrack) : Xml :=
  xTyped "PatternTrack" [xNode "Lines" (t.lines.map DaoLine.xml)]

/-- `Pattern`, renoise_song65.py:19613-19681, with `PatternMasterTrack` 19069-19142 and
`PatternSendTrack` 19146-19219. -/
def DaoPattern.xml (p : DaoPattern) : Xml :=
  xNode "Pattern" [xNode "Tracks" (
    p.patternTrack.map DaoPatternTrack.xml ++
    p.patternMasterTrack.map (fun _ => xTyped "PatternMasterTrack" []) ++
    p.patternSendTrack.map (fun _ => xTyped "PatternSendTrack" []))]

/-- `RenoiseSong`, renoise_song65.py:21745-21936, with `RenoiseInstrument` 21644-21741,
`PatternPool` 19685-19728, `PatternSequence` 3372-3471, `PatternSequenceEntry` 1849-1893. -/
def DaoSong.xml (s : DaoSong) : Xml :=
  .node "RenoiseSong".toList [("doc_version".toList, "65".toList)] (.ofList [
    s.globalSongData.xml,
    xNode "Instruments" (s.instruments.map (fun _ => xNode "Instrument" [])),
    s.tracks.xml,
    xNode "PatternPool" [xNode "Patterns" (s.patterns.map DaoPattern.xml)],
    xNode "PatternSequence" [xNode "SequenceEntries"
      (s.sequenceEntries.map (fun p => xNode "SequenceEntry" [xText "Pattern" (natStr p)]))]])

/-- `serializer.render(xml_song)`, writer.py:20. -/
def songXml (s : DaoSong) : Str := xmlDocument s.xml

end VgmX
