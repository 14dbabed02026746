import Verif.Model.Xml
import Verif.Spec.Pitch
/-
How to read a Renoise song file: an XML parser (elements, attributes in double quotes, text,
the predefined entities and the three character references that a serializer uses for white
space in attributes; no comments, CDATA, DTD or namespaces, which are not recognized), and
the meaning of the elements. Of the model it uses the types of elements (`Xml`) and of data
objects (`DaoSong`) only.
-/

namespace VgmX.Spec

/-- Start tags, empty-element tags, end tags and text. -/
inductive XTok where
  | start (name : List Char) (attrs : List (List Char × List Char))
  | empty (name : List Char) (attrs : List (List Char × List Char))
  | close (name : List Char)
  | text (s : List Char)
  deriving DecidableEq, Repr

/-- White space. -/
def isBlank (c : Char) : Bool := c == ' ' || c == '\n' || c == '\t' || c == '\r'

/-- Replace entity references. -/
def unescape : List Char → List Char
  | '&' :: 'a' :: 'm' :: 'p' :: ';' :: s => '&' :: unescape s
  | '&' :: 'l' :: 't' :: ';' :: s => '<' :: unescape s
  | '&' :: 'g' :: 't' :: ';' :: s => '>' :: unescape s
  | '&' :: 'q' :: 'u' :: 'o' :: 't' :: ';' :: s => '"' :: unescape s
  | '&' :: '#' :: '1' :: '0' :: ';' :: s => '\n' :: unescape s
  | '&' :: '#' :: '1' :: '3' :: ';' :: s => '\r' :: unescape s
  | '&' :: '#' :: '9' :: ';' :: s => '\t' :: unescape s
  | c :: s => c :: unescape s
  | [] => []

/-- Where the reader of attributes stands: between attributes, in a name, after the equals
sign, in a value (characters so far, last first). -/
inductive AMode where
  | space
  | key (acc : List Char)
  | eq (key : List Char)
  | val (key acc : List Char)

/-- The attributes of a tag. -/
def readAttrs : AMode → List Char → Option (List (List Char × List Char))
  | .space, [] => some []
  | .space, c :: s => if isBlank c then readAttrs .space s else readAttrs (.key [c]) s
  | .key acc, c :: s =>
    if c = '=' then readAttrs (.eq acc.reverse) s else readAttrs (.key (c :: acc)) s
  | .eq k, c :: s => if c = '"' then readAttrs (.val k []) s else none
  | .val k acc, c :: s =>
    if c = '"' then (readAttrs .space s).map (fun l => (k, unescape acc.reverse) :: l)
    else readAttrs (.val k (c :: acc)) s
  | _, [] => none

/-- The name of a tag and its attributes. -/
def readTag (s : List Char) : Option (List Char × List (List Char × List Char)) :=
  (readAttrs .space (s.dropWhile (fun c => !isBlank c))).map
    (fun l => (s.takeWhile (fun c => !isBlank c), l))

/-- What stands between `<` and `>`; a declaration `<?..?>` counts for nothing. -/
def tagTok (s : List Char) : Option (List XTok) :=
  match s with
  | '?' :: _ => some []
  | '/' :: n => some [.close n]
  | s =>
    if s.getLast? = some '/' then (readTag s.dropLast).map (fun r => [.empty r.1 r.2])
    else (readTag s).map (fun r => [.start r.1 r.2])

/-- Text between tags; white space alone counts for nothing. -/
def textTok (s : List Char) : List XTok :=
  if s.all isBlank then [] else [.text (unescape s)]

/-- Outside a tag (text so far, last character first), or in one, `quoted` inside an
attribute value. -/
inductive XMode where
  | text (acc : List Char)
  | tag (acc : List Char) (quoted : Bool)

/-- The tokens of a text. -/
def xlex : XMode → List Char → Option (List XTok)
  | .text acc, [] => some (textTok acc.reverse)
  | .text acc, c :: s =>
    if c = '<' then (xlex (.tag [] false) s).map (fun l => textTok acc.reverse ++ l)
    else xlex (.text (c :: acc)) s
  | .tag _ _, [] => none
  | .tag acc quoted, c :: s =>
    if c = '"' then xlex (.tag (c :: acc) (!quoted)) s
    else if c = '>' ∧ quoted = false then
      match tagTok acc.reverse with
      | none => none
      | some ts => (xlex (.text []) s).map (fun l => ts ++ l)
    else xlex (.tag (c :: acc) quoted) s

mutual
/-- An element at the front of the tokens, and what follows it. The first argument bounds the
depth of the recursion. -/
def pNode : Nat → List XTok → Option (Xml × List XTok)
  | 0, _ => none
  | _ + 1, .empty n a :: r => some (.node n a .nil, r)
  | _ + 1, .start n a :: .text s :: .close m :: r =>
    if n = m then some (.leaf n a s, r) else none
  | k + 1, .start n a :: r =>
    match pKids k r with
    | some (l, m, r) => if n = m then some (.node n a l, r) else none
    | none => none
  | _ + 1, _ => none
/-- Elements up to an end tag, and the name in it. -/
def pKids : Nat → List XTok → Option (XmlList × List Char × List XTok)
  | 0, _ => none
  | _ + 1, .close m :: r => some (.nil, m, r)
  | k + 1, ts =>
    match pNode k ts with
    | none => none
    | some (x, r) => (pKids k r).map (fun y => (.cons x y.1, y.2))
end

/-- An XML document. -/
def parseXml (s : List Char) : Option Xml :=
  match xlex (.text []) s with
  | none => none
  | some ts =>
    match pNode (ts.length + 1) ts with
    | some (x, []) => some x
    | _ => none

/-! ### Elements by name -/

/-- The child elements, as a list. -/
def kidsList : XmlList → List Xml
  | .nil => []
  | .cons x l => x :: kidsList l

/-- The child elements of an element. -/
def kids : Xml → List Xml
  | .leaf _ _ _ => []
  | .node _ _ l => kidsList l

/-- Its name. -/
def tagName : Xml → List Char
  | .leaf n _ _ => n
  | .node n _ _ => n

/-- Its attributes. -/
def attrs : Xml → List (List Char × List Char)
  | .leaf _ a _ => a
  | .node _ a _ => a

/-- The value of an attribute. -/
def attr (name : String) (x : Xml) : Option (List Char) :=
  ((attrs x).find? (fun a => a.1 == name.toList)).map (·.2)

/-- The children with a name, in order. -/
def named (name : String) (x : Xml) : List Xml :=
  (kids x).filter (fun y => tagName y == name.toList)

/-- The first child with a name. -/
def child (name : String) (x : Xml) : Option Xml := (named name x).head?

/-- The text of an element. -/
def content : Xml → Option (List Char)
  | .leaf _ _ t => some t
  | .node _ _ _ => none

/-- The text of the first child with a name. -/
def textOf (name : String) (x : Xml) : Option (List Char) := (child name x).bind content

/-- A decimal number. -/
def numOf (name : String) (x : Xml) : Option Nat := (textOf name x).bind (readBase 10)

/-- A decimal number with an optional minus sign. -/
def readInt : List Char → Option Int
  | '-' :: s => (readBase 10 s).map (fun n => -(n : Int))
  | s => (readBase 10 s).map (fun n => (n : Int))

/-- A number that may be negative. -/
def intOf (name : String) (x : Xml) : Option Int := (textOf name x).bind readInt

/-- `true` or `false`. -/
def readBool (s : List Char) : Option Bool :=
  if s = "true".toList then some true else if s = "false".toList then some false else none

/-- A Boolean. -/
def boolOf (name : String) (x : Xml) : Option Bool := (textOf name x).bind readBool

/-- All or nothing. -/
def allSome {α : Type} : List (Option α) → Option (List α)
  | [] => some []
  | none :: _ => none
  | some a :: l => (allSome l).map (a :: ·)

/-! ### A song -/

/-- `GlobalSongData`. -/
def readGlobals (x : Xml) : Option DaoGlobals := do
  let beatsPerMin ← intOf "BeatsPerMin" x
  let linesPerBeat ← numOf "LinesPerBeat" x
  let ticksPerLine ← numOf "TicksPerLine" x
  let signatureNumerator ← numOf "SignatureNumerator" x
  let signatureDenominator ← numOf "SignatureDenominator" x
  let metronomeBeatsPerBar ← numOf "MetronomeBeatsPerBar" x
  let metronomeLinesPerBeat ← numOf "MetronomeLinesPerBeat" x
  let shuffleIsActive ← boolOf "ShuffleIsActive" x
  let amounts ← child "ShuffleAmounts" x
  let shuffleAmounts ← allSome ((named "ShuffleAmount" amounts).map
    (fun y => (content y).bind (readBase 10)))
  let octave ← numOf "Octave" x
  let loopCoeff ← numOf "LoopCoeff" x
  let songName ← textOf "SongName" x
  let artist ← textOf "Artist" x
  some { beatsPerMin, linesPerBeat, ticksPerLine, signatureNumerator, signatureDenominator,
         metronomeBeatsPerBar, metronomeLinesPerBeat, shuffleIsActive, shuffleAmounts, octave,
         loopCoeff, songName, artist }

/-- A mixer device, by the name of its element. -/
def readDevice (x : Xml) : Option DaoDevice :=
  if tagName x = "TrackMixerDevice".toList then some .trackMixer
  else if tagName x = "MasterTrackMixerDevice".toList then some .masterTrackMixer
  else if tagName x = "SendTrackMixerDevice".toList then some .sendTrackMixer
  else none

/-- A track of the song. -/
def readTrack (x : Xml) : Option DaoTrack := do
  let colorBlend ← numOf "ColorBlend" x
  let state ← textOf "State" x
  let soloed ← boolOf "Soloed" x
  let chain ← child "FilterDevices" x
  let devs ← child "Devices" chain
  let devices ← allSome ((kids devs).map readDevice)
  some { name := textOf "Name" x, color := textOf "Color" x, colorBlend, state, soloed,
         panningColumnIsVisible := boolOf "PanningColumnIsVisible" x, devices }

/-- The tracks of the song. -/
def readTracks (x : Xml) : Option DaoTracks := do
  let sequencerTrack ← allSome ((named "SequencerTrack" x).map readTrack)
  let sequencerMasterTrack ← allSome ((named "SequencerMasterTrack" x).map readTrack)
  let sequencerSendTrack ← allSome ((named "SequencerSendTrack" x).map readTrack)
  some { sequencerTrack, sequencerMasterTrack, sequencerSendTrack }

/-- A note column: a note name, and possibly an instrument and a panning. -/
def readNoteColumn (x : Xml) : Option DaoNoteColumn := do
  let note ← textOf "Note" x
  some { note, instrument := textOf "Instrument" x, panning := textOf "Panning" x }

/-- A line of a pattern; its number is the attribute `index`. -/
def readLine (x : Xml) : Option DaoLine := do
  let index ← (attr "index" x).bind readInt
  let cols ← child "NoteColumns" x
  let noteColumns ← allSome ((named "NoteColumn" cols).map readNoteColumn)
  some { index, noteColumns }

/-- A track of a pattern. -/
def readPatternTrack (x : Xml) : Option DaoPatternTrack := do
  let ls ← child "Lines" x
  let lines ← allSome ((named "Line" ls).map readLine)
  some { lines }

/-- A pattern. -/
def readPattern (x : Xml) : Option DaoPattern := do
  let ts ← child "Tracks" x
  let patternTrack ← allSome ((named "PatternTrack" ts).map readPatternTrack)
  some { patternTrack
         patternMasterTrack := (named "PatternMasterTrack" ts).map (fun _ => {})
         patternSendTrack := (named "PatternSendTrack" ts).map (fun _ => {}) }

/-- A song. -/
def readSong (x : Xml) : Option DaoSong :=
  if tagName x = "RenoiseSong".toList ∧ attr "doc_version" x = some "65".toList then do
    let globals ← child "GlobalSongData" x
    let globalSongData ← readGlobals globals
    let ins ← child "Instruments" x
    let trs ← child "Tracks" x
    let tracks ← readTracks trs
    let pool ← child "PatternPool" x
    let pats ← child "Patterns" pool
    let patterns ← allSome ((named "Pattern" pats).map readPattern)
    let sq ← child "PatternSequence" x
    let es ← child "SequenceEntries" sq
    let sequenceEntries ← allSome ((named "SequenceEntry" es).map (numOf "Pattern"))
    some { globalSongData, instruments := (named "Instrument" ins).map (fun _ => {}), tracks,
           patterns, sequenceEntries }
  else none

/-- A song from the text of `Song.xml`. -/
def readSongXml (s : List Char) : Option DaoSong := (parseXml s).bind readSong

end VgmX.Spec
