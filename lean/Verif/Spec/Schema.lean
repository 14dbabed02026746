import Verif.Spec.Xml
/-
The format of song files, as far as songs made by this program use it: a transcription (by script,
from the text of src/xrns/xml/song/renoise_song65.py, which was itself generated from the schema of
Renoise) of which child elements a class has, in which order, how often, of which type, and of its
attributes; and what it means that an element is as its class says. Of the model it uses the type of
elements (`Xml`) and of songs only.
-/

namespace VgmX.Spec.Schema

/-- The classes that a song made by this program uses. -/
inductive Cls where
  | renoiseSong
  | globalSongData
  | globalSongDataShuffleAmounts
  | renoiseSongInstruments
  | renoiseInstrument
  | renoiseSongTracks
  | sequencerTrack
  | sequencerMasterTrack
  | sequencerSendTrack
  | trackFilterDeviceChain
  | trackFilterDeviceChainDevices
  | trackMixerDevice
  | masterTrackMixerDevice
  | sendTrackMixerDevice
  | patternPool
  | patternPoolPatterns
  | pattern
  | patternTracks
  | patternTrack
  | patternTrackLines
  | patternMasterTrack
  | patternSendTrack
  | patternLineNode
  | patternLineNodeNoteColumns
  | patternLineNoteColumnNode
  | patternSequence
  | patternSequenceSequenceEntries
  | patternSequenceEntry
  deriving DecidableEq, Repr

/-- What an element holds: a number, a truth value, any text, one of some texts, or what a class says;
`other`: a class that these songs do not use. -/
inductive Ty where
  | int | float | bool | text
  | oneOf (l : List String)
  | cls (c : Cls)
  | other
  deriving DecidableEq, Repr

/-- A child element: its name, what it holds, and whether it may be repeated. -/
structure Field where
  name : String
  ty : Ty
  many : Bool := false
  deriving DecidableEq, Repr

/-- An attribute: optional with any text, required with a number, or always there with this text. -/
inductive AttrRule where
  | optional (name : String)
  | number (name : String)
  | fixed (name : String) (value : String)
  deriving DecidableEq, Repr

/-- A class: its child elements, in order, and its attributes. -/
structure ClassDef where
  fields : List Field
  attrs : List AttrRule
  deriving DecidableEq, Repr

/-- The classes, from src/xrns/xml/song/renoise_song65.py (line numbers at each). -/
def classDef : Cls → ClassDef
  | .renoiseSong => -- 21745-21936
    { fields := [⟨"GlobalSongData", .cls .globalSongData, false⟩,
        ⟨"ScriptingToolData", .other, false⟩, ⟨"RecordManager", .other, false⟩,
        ⟨"MidiMapper", .other, false⟩, ⟨"OscMapper", .other, false⟩,
        ⟨"Instruments", .cls .renoiseSongInstruments, false⟩,
        ⟨"SelectedInstrumentIndex", .int, false⟩, ⟨"MidiInputRouting", .other, false⟩,
        ⟨"Tracks", .cls .renoiseSongTracks, false⟩, ⟨"SelectedTrackIndex", .int, false⟩,
        ⟨"SpectrumTrackDisplayA", .int, false⟩, ⟨"SpectrumTrackDisplayB", .int, false⟩,
        ⟨"PatternPool", .cls .patternPool, false⟩,
        ⟨"PatternSequence", .cls .patternSequence, false⟩,
        ⟨"LastSoloedOutMode", .oneOf ["Active", "Off", "Mute"], false⟩],
      attrs := [.fixed "doc_version" "65", .optional "type"] }
  | .globalSongData => -- 686-880
    { fields := [⟨"BeatsPerMin", .float, false⟩, ⟨"LinesPerBeat", .int, false⟩,
        ⟨"TicksPerLine", .int, false⟩, ⟨"SignatureNumerator", .int, false⟩,
        ⟨"SignatureDenominator", .int, false⟩, ⟨"MetronomeBeatsPerBar", .int, false⟩,
        ⟨"MetronomeLinesPerBeat", .int, false⟩, ⟨"ShuffleIsActive", .bool, false⟩,
        ⟨"ShuffleAmounts", .cls .globalSongDataShuffleAmounts, false⟩,
        ⟨"Octave", .int, false⟩, ⟨"LoopCoeff", .int, false⟩, ⟨"SongName", .text, false⟩,
        ⟨"Artist", .text, false⟩, ⟨"SongComments", .other, false⟩,
        ⟨"ShowSongCommentsAfterLoading", .bool, false⟩,
        ⟨"ShowUsedAutomationsOnly", .bool, false⟩, ⟨"FollowAutomations", .bool, false⟩,
        ⟨"SampleOffsetCompatibilityMode", .bool, false⟩,
        ⟨"PitchEffectsCompatibilityMode", .bool, false⟩,
        ⟨"GlobalTrackHeadroom", .float, false⟩, ⟨"PlaybackEngineVersion", .int, false⟩,
        ⟨"RenderSelectionNameCounter", .int, false⟩,
        ⟨"RecordSampleNameCounter", .int, false⟩, ⟨"NewSampleNameCounter", .int, false⟩],
      attrs := [.optional "type"] }
  | .globalSongDataShuffleAmounts => -- 863-870
    { fields := [⟨"ShuffleAmount", .int, true⟩],
      attrs := [] }
  | .renoiseSongInstruments => -- 21882-21895
    { fields := [⟨"Instrument", .cls .renoiseInstrument, true⟩],
      attrs := [.optional "type"] }
  | .renoiseInstrument => -- 21644-21741
    { fields := [⟨"SelectedPresetName", .text, false⟩, ⟨"SelectedPresetLibrary", .text, false⟩,
        ⟨"SelectedPresetIsModified", .bool, false⟩, ⟨"Name", .text, false⟩,
        ⟨"CopyIntoNewSampleNameCounter", .int, false⟩,
        ⟨"CopyIntoNewInstrumentNameCounter", .int, false⟩,
        ⟨"GlobalProperties", .other, false⟩, ⟨"MidiInputProperties", .other, false⟩,
        ⟨"PhraseGenerator", .other, false⟩, ⟨"SampleGenerator", .other, false⟩,
        ⟨"PluginGenerator", .other, false⟩, ⟨"MidiGenerator", .other, false⟩,
        ⟨"ActiveGeneratorTab", .oneOf ["Samples", "Plugin", "Ext Midi"], false⟩],
      attrs := [.optional "type"] }
  | .renoiseSongTracks => -- 21898-21936
    { fields := [⟨"SequencerTrack", .cls .sequencerTrack, true⟩,
        ⟨"SequencerGroupTrack", .other, true⟩,
        ⟨"SequencerMasterTrack", .cls .sequencerMasterTrack, true⟩,
        ⟨"SequencerSendTrack", .cls .sequencerSendTrack, true⟩],
      attrs := [.optional "type"] }
  | .sequencerTrack => -- 21480-21640
    { fields := [⟨"Name", .text, false⟩, ⟨"Color", .text, false⟩, ⟨"ColorBlend", .float, false⟩,
        ⟨"State", .oneOf ["Active", "Off", "Mute"], false⟩, ⟨"Soloed", .bool, false⟩,
        ⟨"NoteColumnStates", .other, false⟩, ⟨"NoteColumnNames", .other, false⟩,
        ⟨"NumberOfVisibleNoteColumns", .int, false⟩,
        ⟨"NumberOfVisibleEffectColumns", .int, false⟩,
        ⟨"VolumeColumnIsVisible", .bool, false⟩, ⟨"PanningColumnIsVisible", .bool, false⟩,
        ⟨"DelayColumnIsVisible", .bool, false⟩,
        ⟨"SampleEffectColumnIsVisible", .bool, false⟩, ⟨"TrackRouting", .int, false⟩,
        ⟨"GroupNestingLevel", .int, false⟩, ⟨"TrackDelay", .float, false⟩,
        ⟨"Collapsed", .bool, false⟩, ⟨"Visible", .bool, false⟩,
        ⟨"FilterDevices", .cls .trackFilterDeviceChain, false⟩],
      attrs := [.fixed "type" "SequencerTrack"] }
  | .sequencerMasterTrack => -- 21152-21312
    { fields := [⟨"Name", .text, false⟩, ⟨"Color", .text, false⟩, ⟨"ColorBlend", .float, false⟩,
        ⟨"State", .oneOf ["Active", "Off", "Mute"], false⟩, ⟨"Soloed", .bool, false⟩,
        ⟨"NoteColumnStates", .other, false⟩, ⟨"NoteColumnNames", .other, false⟩,
        ⟨"NumberOfVisibleNoteColumns", .int, false⟩,
        ⟨"NumberOfVisibleEffectColumns", .int, false⟩,
        ⟨"VolumeColumnIsVisible", .bool, false⟩, ⟨"PanningColumnIsVisible", .bool, false⟩,
        ⟨"DelayColumnIsVisible", .bool, false⟩,
        ⟨"SampleEffectColumnIsVisible", .bool, false⟩, ⟨"TrackRouting", .int, false⟩,
        ⟨"GroupNestingLevel", .int, false⟩, ⟨"TrackDelay", .float, false⟩,
        ⟨"Collapsed", .bool, false⟩, ⟨"Visible", .bool, false⟩,
        ⟨"FilterDevices", .cls .trackFilterDeviceChain, false⟩],
      attrs := [.fixed "type" "SequencerMasterTrack"] }
  | .sequencerSendTrack => -- 21316-21476
    { fields := [⟨"Name", .text, false⟩, ⟨"Color", .text, false⟩, ⟨"ColorBlend", .float, false⟩,
        ⟨"State", .oneOf ["Active", "Off", "Mute"], false⟩, ⟨"Soloed", .bool, false⟩,
        ⟨"NoteColumnStates", .other, false⟩, ⟨"NoteColumnNames", .other, false⟩,
        ⟨"NumberOfVisibleNoteColumns", .int, false⟩,
        ⟨"NumberOfVisibleEffectColumns", .int, false⟩,
        ⟨"VolumeColumnIsVisible", .bool, false⟩, ⟨"PanningColumnIsVisible", .bool, false⟩,
        ⟨"DelayColumnIsVisible", .bool, false⟩,
        ⟨"SampleEffectColumnIsVisible", .bool, false⟩, ⟨"TrackRouting", .int, false⟩,
        ⟨"GroupNestingLevel", .int, false⟩, ⟨"TrackDelay", .float, false⟩,
        ⟨"Collapsed", .bool, false⟩, ⟨"Visible", .bool, false⟩,
        ⟨"FilterDevices", .cls .trackFilterDeviceChain, false⟩],
      attrs := [.fixed "type" "SequencerSendTrack"] }
  | .trackFilterDeviceChain => -- 20297-20868
    { fields := [⟨"SelectedPresetName", .text, false⟩, ⟨"SelectedPresetLibrary", .text, false⟩,
        ⟨"SelectedPresetIsModified", .bool, false⟩,
        ⟨"Devices", .cls .trackFilterDeviceChainDevices, false⟩],
      attrs := [.optional "type"] }
  | .trackFilterDeviceChainDevices => -- 20334-20868
    { fields := [⟨"AnalogFilterDevice", .other, true⟩, ⟨"AudioPluginDevice", .other, true⟩,
        ⟨"BusCompressorDevice", .other, true⟩, ⟨"CabinetSimulatorDevice", .other, true⟩,
        ⟨"Chorus2Device", .other, true⟩, ⟨"ChorusDevice", .other, true⟩,
        ⟨"Comb2Device", .other, true⟩, ⟨"CombDevice", .other, true⟩,
        ⟨"CompressorDevice", .other, true⟩, ⟨"ConvolverDevice", .other, true⟩,
        ⟨"CrossoverDevice", .other, true⟩, ⟨"DcOffsetDevice", .other, true⟩,
        ⟨"DelayDevice", .other, true⟩, ⟨"DigitalFilterDevice", .other, true⟩,
        ⟨"Distortion2Device", .other, true⟩, ⟨"DistortionDevice", .other, true⟩,
        ⟨"DooferDevice", .other, true⟩, ⟨"Eq10Device", .other, true⟩,
        ⟨"Eq5Device", .other, true⟩, ⟨"ExciterDevice", .other, true⟩,
        ⟨"Filter1Device", .other, true⟩, ⟨"Filter2Device", .other, true⟩,
        ⟨"Filter3Device", .other, true⟩, ⟨"FilterDistortionDevice", .other, true⟩,
        ⟨"Flanger2Device", .other, true⟩, ⟨"FlangerDevice", .other, true⟩,
        ⟨"FormulaMetaDevice", .other, true⟩, ⟨"GainerDevice", .other, true⟩,
        ⟨"Gate2Device", .other, true⟩, ⟨"GateDevice", .other, true⟩,
        ⟨"GroupTrackMixerDevice", .other, true⟩, ⟨"HydraDevice", .other, true⟩,
        ⟨"InstrumentAutomationDevice", .other, true⟩,
        ⟨"InstrumentMacroDevice", .other, true⟩, ⟨"KeyTrackingDevice", .other, true⟩,
        ⟨"LfoDevice", .other, true⟩, ⟨"LineInDevice", .other, true⟩,
        ⟨"Lofi2Device", .other, true⟩, ⟨"LofiDevice", .other, true⟩,
        ⟨"MasterTrackMixerDevice", .cls .masterTrackMixerDevice, true⟩,
        ⟨"MaximizerDevice", .other, true⟩, ⟨"MetaMixerDevice", .other, true⟩,
        ⟨"MidiCCDevice", .other, true⟩, ⟨"MidiControlDevice", .other, true⟩,
        ⟨"MixerEqDevice", .other, true⟩, ⟨"MultitapDevice", .other, true⟩,
        ⟨"PdcTestDelayDevice", .other, true⟩, ⟨"Phaser2Device", .other, true⟩,
        ⟨"PhaserDevice", .other, true⟩, ⟨"RepeaterDevice", .other, true⟩,
        ⟨"Reverb2Device", .other, true⟩, ⟨"Reverb3Device", .other, true⟩,
        ⟨"ReverbDevice", .other, true⟩, ⟨"RewireInDevice", .other, true⟩,
        ⟨"RingMod2Device", .other, true⟩, ⟨"RingModDevice", .other, true⟩,
        ⟨"SendDevice", .other, true⟩,
        ⟨"SendTrackMixerDevice", .cls .sendTrackMixerDevice, true⟩,
        ⟨"ShaperDevice", .other, true⟩, ⟨"SideChainDevice", .other, true⟩,
        ⟨"SignalFollowerDevice", .other, true⟩, ⟨"StereoExpanderDevice", .other, true⟩,
        ⟨"StutterDevice", .other, true⟩,
        ⟨"TrackMixerDevice", .cls .trackMixerDevice, true⟩,
        ⟨"VelocityDevice", .other, true⟩, ⟨"XYPadDevice", .other, true⟩],
      attrs := [.optional "type"] }
  | .trackMixerDevice => -- 17843-17955
    { fields := [⟨"CustomDeviceName", .text, false⟩, ⟨"IsMaximized", .bool, false⟩,
        ⟨"IsSelected", .bool, false⟩, ⟨"SelectedPresetName", .text, false⟩,
        ⟨"SelectedPresetLibrary", .text, false⟩,
        ⟨"SelectedPresetIsModified", .bool, false⟩, ⟨"RunTimePresetA", .other, false⟩,
        ⟨"RunTimePresetB", .other, false⟩, ⟨"IsActive", .other, false⟩,
        ⟨"Panning", .other, false⟩, ⟨"Volume", .other, false⟩, ⟨"Surround", .other, false⟩,
        ⟨"PostPanning", .other, false⟩, ⟨"PostVolume", .other, false⟩,
        ⟨"SmoothParameterChanges", .bool, false⟩],
      attrs := [.fixed "type" "TrackMixerDevice"] }
  | .masterTrackMixerDevice => -- 11335-11489
    { fields := [⟨"CustomDeviceName", .text, false⟩, ⟨"IsMaximized", .bool, false⟩,
        ⟨"IsSelected", .bool, false⟩, ⟨"SelectedPresetName", .text, false⟩,
        ⟨"SelectedPresetLibrary", .text, false⟩,
        ⟨"SelectedPresetIsModified", .bool, false⟩, ⟨"RunTimePresetA", .other, false⟩,
        ⟨"RunTimePresetB", .other, false⟩, ⟨"IsActive", .other, false⟩,
        ⟨"Panning", .other, false⟩, ⟨"Volume", .other, false⟩, ⟨"Surround", .other, false⟩,
        ⟨"PostPanning", .other, false⟩, ⟨"PostVolume", .other, false⟩,
        ⟨"SmoothParameterChanges", .bool, false⟩, ⟨"AutoDcCorrection", .bool, false⟩,
        ⟨"SoftClipping", .bool, false⟩, ⟨"AutoGain", .bool, false⟩,
        ⟨"BpmAutomator", .other, false⟩, ⟨"LpbAutomator", .other, false⟩,
        ⟨"TplAutomator", .other, false⟩],
      attrs := [.fixed "type" "MasterTrackMixerDevice"] }
  | .sendTrackMixerDevice => -- 17126-17238
    { fields := [⟨"CustomDeviceName", .text, false⟩, ⟨"IsMaximized", .bool, false⟩,
        ⟨"IsSelected", .bool, false⟩, ⟨"SelectedPresetName", .text, false⟩,
        ⟨"SelectedPresetLibrary", .text, false⟩,
        ⟨"SelectedPresetIsModified", .bool, false⟩, ⟨"RunTimePresetA", .other, false⟩,
        ⟨"RunTimePresetB", .other, false⟩, ⟨"IsActive", .other, false⟩,
        ⟨"Panning", .other, false⟩, ⟨"Volume", .other, false⟩, ⟨"Surround", .other, false⟩,
        ⟨"PostPanning", .other, false⟩, ⟨"PostVolume", .other, false⟩,
        ⟨"SmoothParameterChanges", .bool, false⟩],
      attrs := [.fixed "type" "SendTrackMixerDevice"] }
  | .patternPool => -- 19685-19728
    { fields := [⟨"HighliteStep", .int, false⟩, ⟨"DefaultPatternLength", .int, false⟩,
        ⟨"Patterns", .cls .patternPoolPatterns, false⟩],
      attrs := [.optional "type"] }
  | .patternPoolPatterns => -- 19715-19728
    { fields := [⟨"Pattern", .cls .pattern, true⟩],
      attrs := [.optional "type"] }
  | .pattern => -- 19613-19681
    { fields := [⟨"Name", .text, false⟩, ⟨"NumberOfLines", .int, false⟩,
        ⟨"Tracks", .cls .patternTracks, false⟩],
      attrs := [.optional "type"] }
  | .patternTracks => -- 19643-19681
    { fields := [⟨"PatternTrack", .cls .patternTrack, true⟩, ⟨"PatternGroupTrack", .other, true⟩,
        ⟨"PatternMasterTrack", .cls .patternMasterTrack, true⟩,
        ⟨"PatternSendTrack", .cls .patternSendTrack, true⟩],
      attrs := [.optional "type"] }
  | .patternTrack => -- 19223-19296
    { fields := [⟨"SelectedPresetName", .text, false⟩, ⟨"SelectedPresetLibrary", .text, false⟩,
        ⟨"SelectedPresetIsModified", .bool, false⟩,
        ⟨"Lines", .cls .patternTrackLines, false⟩, ⟨"AliasPatternIndex", .int, false⟩,
        ⟨"ColorEnabled", .bool, false⟩, ⟨"Color", .text, false⟩,
        ⟨"Automations", .other, false⟩],
      attrs := [.fixed "type" "PatternTrack"] }
  | .patternTrackLines => -- 19289-19296
    { fields := [⟨"Line", .cls .patternLineNode, true⟩],
      attrs := [] }
  | .patternMasterTrack => -- 19069-19142
    { fields := [⟨"SelectedPresetName", .text, false⟩, ⟨"SelectedPresetLibrary", .text, false⟩,
        ⟨"SelectedPresetIsModified", .bool, false⟩, ⟨"Lines", .other, false⟩,
        ⟨"AliasPatternIndex", .int, false⟩, ⟨"ColorEnabled", .bool, false⟩,
        ⟨"Color", .text, false⟩, ⟨"Automations", .other, false⟩],
      attrs := [.fixed "type" "PatternMasterTrack"] }
  | .patternSendTrack => -- 19146-19219
    { fields := [⟨"SelectedPresetName", .text, false⟩, ⟨"SelectedPresetLibrary", .text, false⟩,
        ⟨"SelectedPresetIsModified", .bool, false⟩, ⟨"Lines", .other, false⟩,
        ⟨"AliasPatternIndex", .int, false⟩, ⟨"ColorEnabled", .bool, false⟩,
        ⟨"Color", .text, false⟩, ⟨"Automations", .other, false⟩],
      attrs := [.fixed "type" "PatternSendTrack"] }
  | .patternLineNode => -- 3309-3368
    { fields := [⟨"NoteColumns", .cls .patternLineNodeNoteColumns, false⟩,
        ⟨"EffectColumns", .other, false⟩],
      attrs := [.number "index", .optional "type"] }
  | .patternLineNodeNoteColumns => -- 3339-3352
    { fields := [⟨"NoteColumn", .cls .patternLineNoteColumnNode, true⟩],
      attrs := [.optional "type"] }
  | .patternLineNoteColumnNode => -- 1790-1845
    { fields := [⟨"Note", .text, false⟩, ⟨"Instrument", .text, false⟩, ⟨"Volume", .text, false⟩,
        ⟨"Panning", .text, false⟩, ⟨"Delay", .text, false⟩, ⟨"EffectNumber", .text, false⟩,
        ⟨"EffectValue", .text, false⟩],
      attrs := [.optional "type"] }
  | .patternSequence => -- 3372-3471
    { fields := [⟨"CurrentPosition", .int, false⟩,
        ⟨"SequenceEntries", .cls .patternSequenceSequenceEntries, false⟩,
        ⟨"SequenceSelection", .other, false⟩, ⟨"LoopSelection", .other, false⟩,
        ⟨"PatternNameWidth", .int, false⟩, ⟨"PatternMatrixWidth", .int, false⟩,
        ⟨"PatternSlotHeight", .int, false⟩, ⟨"PatternSlotWidth", .int, false⟩,
        ⟨"HighliteStep", .int, false⟩, ⟨"HighliteOffset", .int, false⟩,
        ⟨"KeepSequenceSorted", .bool, false⟩],
      attrs := [.optional "type"] }
  | .patternSequenceSequenceEntries => -- 3458-3471
    { fields := [⟨"SequenceEntry", .cls .patternSequenceEntry, true⟩],
      attrs := [.optional "type"] }
  | .patternSequenceEntry => -- 1849-1893
    { fields := [⟨"Pattern", .int, false⟩, ⟨"IsSectionStart", .bool, false⟩,
        ⟨"SectionName", .text, false⟩, ⟨"MutedTracks", .other, false⟩],
      attrs := [.optional "type"] }

/-- A decimal number with an optional minus sign. -/
def isInt (t : List Char) : Bool := (readInt t).isSome

/-- The same, possibly with decimals after a point. -/
def isFloat (t : List Char) : Bool :=
  isInt (t.takeWhile (· != '.')) &&
    match t.dropWhile (· != '.') with
    | [] => true
    | _ :: d => (readBase 10 d).isSome

/-- The text is a value of the type. -/
def textOk (t : List Char) : Ty → Bool
  | .int => isInt t
  | .float => isFloat t
  | .bool => (readBool t).isSome
  | .text => true
  | .oneOf l => l.any (fun s => s.toList == t)
  | .cls _ => false
  | .other => false

/-- The attribute is one of those declared, and its value is as declared. -/
def attrDeclared (rules : List AttrRule) (a : List Char × List Char) : Bool :=
  rules.any (fun r => match r with
    | .optional n => n.toList == a.1
    | .number n => n.toList == a.1 && isInt a.2
    | .fixed n v => n.toList == a.1 && v.toList == a.2)

/-- The attribute is there if it must be. -/
def attrThere (l : List (List Char × List Char)) : AttrRule → Bool
  | .optional _ => true
  | .number n => l.any (fun a => a.1 == n.toList)
  | .fixed n _ => l.any (fun a => a.1 == n.toList)

/-- The attributes of an element of this class. -/
def attrsOk (c : Cls) (l : List (List Char × List Char)) : Bool :=
  l.all (attrDeclared (classDef c).attrs) && (classDef c).attrs.all (attrThere l)

mutual
/-- The element (whose name has been checked) holds what the type says. -/
def validAs : Ty → Xml → Bool
  | ty, .leaf _ a t => a.isEmpty && textOk t ty
  | .cls c, .node _ a l => attrsOk c a && inOrder (classDef c).fields l
  | _, .node _ _ _ => false
/-- The elements are among these, in this order, and only those that may be are repeated. -/
def inOrder : List Field → XmlList → Bool
  | _, .nil => true
  | fs, .cons x l =>
    match fs.dropWhile (fun f => f.name.toList != tagName x) with
    | [] => false
    | f :: rest => validAs f.ty x && inOrder (if f.many then f :: rest else rest) l
end

/-- The text is a song document of the format. -/
def validDocument (s : List Char) : Bool :=
  match parseXml s with
  | none => false
  | some x => tagName x == "RenoiseSong".toList && validAs (.cls .renoiseSong) x

/-- Every track has one of the states that the format knows. -/
def StatesOk (s : Song) : Prop :=
  ∀ t ∈ s.tracks.tracks ++ s.tracks.masterTracks ++ s.tracks.sendTracks,
    t.state ∈ ["Active".toList, "Off".toList, "Mute".toList]

end VgmX.Spec.Schema
