import Verif.Model.Xml
/-
Model of how xsdata turns data objects into elements, for all objects of the classes that
`src/xrns/xrns_serializer.py` uses, and of the objects that it makes of a song. Model/Xml has the
elements of such songs directly; Lemmas/Xsdata proves that they are the same.

xsdata itself is not part of the repository. What is taken from its source (version 21.4,
`XmlSerializer.next_value`, `write_dataclass`, `next_attribute`): attributes in the order of the
class, unless `None`; then the other fields in the order of the class, except that a run of
neighbouring fields marked `sequential` is written in turns: the first items of each, the second
items, and so on.
-/

namespace VgmX

/-- The classes used by src/xrns/xrns_serializer.py:38-230. -/
inductive DaoClass where
  | renoiseSong
  | globalSongData
  | globalSongDataShuffleAmounts
  | renoiseSongInstruments
  | renoiseInstrument
  | renoiseSongTracks
  | sequencerTrack
  | sequencerMasterTrack
  | sequencerSendTrack
  | trackFilterDeviceChain
  | trackFilterDeviceChainDevices
  | trackMixerDevice
  | masterTrackMixerDevice
  | sendTrackMixerDevice
  | patternPool
  | patternPoolPatterns
  | pattern
  | patternTracks
  | patternTrack
  | patternTrackLines
  | patternMasterTrack
  | patternSendTrack
  | patternLineNode
  | patternLineNodeNoteColumns
  | patternLineNoteColumnNode
  | patternSequence
  | patternSequenceSequenceEntries
  | patternSequenceEntry
  deriving DecidableEq, Repr

/-- One field of a data class (`dataclasses.field(..)` with its metadata,
src/xrns/xml/song/renoise_song65.py): the name of the attribute in Python, the name in the document
(`metadata["name"]`, or the former if there is none), whether the items take turns with those of
neighbouring fields (`metadata["sequential"]`). -/
structure ElemField where
  py : String
  name : String
  sequential : Bool := false
  deriving DecidableEq, Repr

/-- A field with `metadata["type"] = "Attribute"`, with its default if it is not `None`
(src/xrns/xml/song/renoise_song65.py; such fields have `init=False`). -/
structure AttrField where
  name : String
  default : Option String := none
  deriving DecidableEq, Repr

/-- The fields with `metadata["type"] = "Element"`, in the order of the class. Written by
tools/schema_fields.py from the text of src/xrns/xml/song/renoise_song65.py (lines at each class). -/
def DaoClass.elems : DaoClass → List ElemField
  | .renoiseSong => -- 21745-21936
    [⟨"global_song_data", "GlobalSongData", false⟩,
     ⟨"scripting_tool_data", "ScriptingToolData", false⟩,
     ⟨"record_manager", "RecordManager", false⟩, ⟨"midi_mapper", "MidiMapper", false⟩,
     ⟨"osc_mapper", "OscMapper", false⟩, ⟨"instruments", "Instruments", false⟩,
     ⟨"selected_instrument_index", "SelectedInstrumentIndex", false⟩,
     ⟨"midi_input_routing", "MidiInputRouting", false⟩, ⟨"tracks", "Tracks", false⟩,
     ⟨"selected_track_index", "SelectedTrackIndex", false⟩,
     ⟨"spectrum_track_display_a", "SpectrumTrackDisplayA", false⟩,
     ⟨"spectrum_track_display_b", "SpectrumTrackDisplayB", false⟩,
     ⟨"pattern_pool", "PatternPool", false⟩, ⟨"pattern_sequence", "PatternSequence", false⟩,
     ⟨"last_soloed_out_mode", "LastSoloedOutMode", false⟩]
  | .globalSongData => -- 686-880
    [⟨"beats_per_min", "BeatsPerMin", false⟩, ⟨"lines_per_beat", "LinesPerBeat", false⟩,
     ⟨"ticks_per_line", "TicksPerLine", false⟩,
     ⟨"signature_numerator", "SignatureNumerator", false⟩,
     ⟨"signature_denominator", "SignatureDenominator", false⟩,
     ⟨"metronome_beats_per_bar", "MetronomeBeatsPerBar", false⟩,
     ⟨"metronome_lines_per_beat", "MetronomeLinesPerBeat", false⟩,
     ⟨"shuffle_is_active", "ShuffleIsActive", false⟩,
     ⟨"shuffle_amounts", "ShuffleAmounts", false⟩, ⟨"octave", "Octave", false⟩,
     ⟨"loop_coeff", "LoopCoeff", false⟩, ⟨"song_name", "SongName", false⟩,
     ⟨"artist", "Artist", false⟩, ⟨"song_comments", "SongComments", false⟩,
     ⟨"show_song_comments_after_loading", "ShowSongCommentsAfterLoading", false⟩,
     ⟨"show_used_automations_only", "ShowUsedAutomationsOnly", false⟩,
     ⟨"follow_automations", "FollowAutomations", false⟩,
     ⟨"sample_offset_compatibility_mode", "SampleOffsetCompatibilityMode", false⟩,
     ⟨"pitch_effects_compatibility_mode", "PitchEffectsCompatibilityMode", false⟩,
     ⟨"global_track_headroom", "GlobalTrackHeadroom", false⟩,
     ⟨"playback_engine_version", "PlaybackEngineVersion", false⟩,
     ⟨"render_selection_name_counter", "RenderSelectionNameCounter", false⟩,
     ⟨"record_sample_name_counter", "RecordSampleNameCounter", false⟩,
     ⟨"new_sample_name_counter", "NewSampleNameCounter", false⟩]
  | .globalSongDataShuffleAmounts => -- 863-870
    [⟨"shuffle_amount", "ShuffleAmount", false⟩]
  | .renoiseSongInstruments => -- 21882-21895
    [⟨"instrument", "Instrument", false⟩]
  | .renoiseInstrument => -- 21644-21741
    [⟨"selected_preset_name", "SelectedPresetName", false⟩,
     ⟨"selected_preset_library", "SelectedPresetLibrary", false⟩,
     ⟨"selected_preset_is_modified", "SelectedPresetIsModified", false⟩,
     ⟨"name", "Name", false⟩,
     ⟨"copy_into_new_sample_name_counter", "CopyIntoNewSampleNameCounter", false⟩,
     ⟨"copy_into_new_instrument_name_counter", "CopyIntoNewInstrumentNameCounter", false⟩,
     ⟨"global_properties", "GlobalProperties", false⟩,
     ⟨"midi_input_properties", "MidiInputProperties", false⟩,
     ⟨"phrase_generator", "PhraseGenerator", false⟩,
     ⟨"sample_generator", "SampleGenerator", false⟩,
     ⟨"plugin_generator", "PluginGenerator", false⟩,
     ⟨"midi_generator", "MidiGenerator", false⟩,
     ⟨"active_generator_tab", "ActiveGeneratorTab", false⟩]
  | .renoiseSongTracks => -- 21898-21936
    [⟨"sequencer_track", "SequencerTrack", false⟩,
     ⟨"sequencer_group_track", "SequencerGroupTrack", false⟩,
     ⟨"sequencer_master_track", "SequencerMasterTrack", false⟩,
     ⟨"sequencer_send_track", "SequencerSendTrack", true⟩]
  | .sequencerTrack => -- 21480-21640
    [⟨"name", "Name", false⟩, ⟨"color", "Color", false⟩,
     ⟨"color_blend", "ColorBlend", false⟩, ⟨"state", "State", false⟩,
     ⟨"soloed", "Soloed", false⟩, ⟨"note_column_states", "NoteColumnStates", false⟩,
     ⟨"note_column_names", "NoteColumnNames", false⟩,
     ⟨"number_of_visible_note_columns", "NumberOfVisibleNoteColumns", false⟩,
     ⟨"number_of_visible_effect_columns", "NumberOfVisibleEffectColumns", false⟩,
     ⟨"volume_column_is_visible", "VolumeColumnIsVisible", false⟩,
     ⟨"panning_column_is_visible", "PanningColumnIsVisible", false⟩,
     ⟨"delay_column_is_visible", "DelayColumnIsVisible", false⟩,
     ⟨"sample_effect_column_is_visible", "SampleEffectColumnIsVisible", false⟩,
     ⟨"track_routing", "TrackRouting", false⟩,
     ⟨"group_nesting_level", "GroupNestingLevel", false⟩,
     ⟨"track_delay", "TrackDelay", false⟩, ⟨"collapsed", "Collapsed", false⟩,
     ⟨"visible", "Visible", false⟩, ⟨"filter_devices", "FilterDevices", false⟩]
  | .sequencerMasterTrack => -- 21152-21312
    [⟨"name", "Name", false⟩, ⟨"color", "Color", false⟩,
     ⟨"color_blend", "ColorBlend", false⟩, ⟨"state", "State", false⟩,
     ⟨"soloed", "Soloed", false⟩, ⟨"note_column_states", "NoteColumnStates", false⟩,
     ⟨"note_column_names", "NoteColumnNames", false⟩,
     ⟨"number_of_visible_note_columns", "NumberOfVisibleNoteColumns", false⟩,
     ⟨"number_of_visible_effect_columns", "NumberOfVisibleEffectColumns", false⟩,
     ⟨"volume_column_is_visible", "VolumeColumnIsVisible", false⟩,
     ⟨"panning_column_is_visible", "PanningColumnIsVisible", false⟩,
     ⟨"delay_column_is_visible", "DelayColumnIsVisible", false⟩,
     ⟨"sample_effect_column_is_visible", "SampleEffectColumnIsVisible", false⟩,
     ⟨"track_routing", "TrackRouting", false⟩,
     ⟨"group_nesting_level", "GroupNestingLevel", false⟩,
     ⟨"track_delay", "TrackDelay", false⟩, ⟨"collapsed", "Collapsed", false⟩,
     ⟨"visible", "Visible", false⟩, ⟨"filter_devices", "FilterDevices", false⟩]
  | .sequencerSendTrack => -- 21316-21476
    [⟨"name", "Name", false⟩, ⟨"color", "Color", false⟩,
     ⟨"color_blend", "ColorBlend", false⟩, ⟨"state", "State", false⟩,
     ⟨"soloed", "Soloed", false⟩, ⟨"note_column_states", "NoteColumnStates", false⟩,
     ⟨"note_column_names", "NoteColumnNames", false⟩,
     ⟨"number_of_visible_note_columns", "NumberOfVisibleNoteColumns", false⟩,
     ⟨"number_of_visible_effect_columns", "NumberOfVisibleEffectColumns", false⟩,
     ⟨"volume_column_is_visible", "VolumeColumnIsVisible", false⟩,
     ⟨"panning_column_is_visible", "PanningColumnIsVisible", false⟩,
     ⟨"delay_column_is_visible", "DelayColumnIsVisible", false⟩,
     ⟨"sample_effect_column_is_visible", "SampleEffectColumnIsVisible", false⟩,
     ⟨"track_routing", "TrackRouting", false⟩,
     ⟨"group_nesting_level", "GroupNestingLevel", false⟩,
     ⟨"track_delay", "TrackDelay", false⟩, ⟨"collapsed", "Collapsed", false⟩,
     ⟨"visible", "Visible", false⟩, ⟨"filter_devices", "FilterDevices", false⟩]
  | .trackFilterDeviceChain => -- 20297-20868
    [⟨"selected_preset_name", "SelectedPresetName", false⟩,
     ⟨"selected_preset_library", "SelectedPresetLibrary", false⟩,
     ⟨"selected_preset_is_modified", "SelectedPresetIsModified", false⟩,
     ⟨"devices", "Devices", false⟩]
  | .trackFilterDeviceChainDevices => -- 20334-20868
    [⟨"analog_filter_device", "AnalogFilterDevice", true⟩,
     ⟨"audio_plugin_device", "AudioPluginDevice", true⟩,
     ⟨"bus_compressor_device", "BusCompressorDevice", true⟩,
     ⟨"cabinet_simulator_device", "CabinetSimulatorDevice", true⟩,
     ⟨"chorus2_device", "Chorus2Device", true⟩, ⟨"chorus_device", "ChorusDevice", true⟩,
     ⟨"comb2_device", "Comb2Device", true⟩, ⟨"comb_device", "CombDevice", true⟩,
     ⟨"compressor_device", "CompressorDevice", true⟩,
     ⟨"convolver_device", "ConvolverDevice", true⟩,
     ⟨"crossover_device", "CrossoverDevice", true⟩,
     ⟨"dc_offset_device", "DcOffsetDevice", true⟩, ⟨"delay_device", "DelayDevice", true⟩,
     ⟨"digital_filter_device", "DigitalFilterDevice", true⟩,
     ⟨"distortion2_device", "Distortion2Device", true⟩,
     ⟨"distortion_device", "DistortionDevice", true⟩,
     ⟨"doofer_device", "DooferDevice", true⟩, ⟨"eq10_device", "Eq10Device", true⟩,
     ⟨"eq5_device", "Eq5Device", true⟩, ⟨"exciter_device", "ExciterDevice", true⟩,
     ⟨"filter1_device", "Filter1Device", true⟩, ⟨"filter2_device", "Filter2Device", true⟩,
     ⟨"filter3_device", "Filter3Device", true⟩,
     ⟨"filter_distortion_device", "FilterDistortionDevice", true⟩,
     ⟨"flanger2_device", "Flanger2Device", true⟩, ⟨"flanger_device", "FlangerDevice", true⟩,
     ⟨"formula_meta_device", "FormulaMetaDevice", true⟩,
     ⟨"gainer_device", "GainerDevice", true⟩, ⟨"gate2_device", "Gate2Device", true⟩,
     ⟨"gate_device", "GateDevice", true⟩,
     ⟨"group_track_mixer_device", "GroupTrackMixerDevice", true⟩,
     ⟨"hydra_device", "HydraDevice", true⟩,
     ⟨"instrument_automation_device", "InstrumentAutomationDevice", true⟩,
     ⟨"instrument_macro_device", "InstrumentMacroDevice", true⟩,
     ⟨"key_tracking_device", "KeyTrackingDevice", true⟩, ⟨"lfo_device", "LfoDevice", true⟩,
     ⟨"line_in_device", "LineInDevice", true⟩, ⟨"lofi2_device", "Lofi2Device", true⟩,
     ⟨"lofi_device", "LofiDevice", true⟩,
     ⟨"master_track_mixer_device", "MasterTrackMixerDevice", true⟩,
     ⟨"maximizer_device", "MaximizerDevice", true⟩,
     ⟨"meta_mixer_device", "MetaMixerDevice", true⟩, ⟨"midi_ccdevice", "MidiCCDevice", true⟩,
     ⟨"midi_control_device", "MidiControlDevice", true⟩,
     ⟨"mixer_eq_device", "MixerEqDevice", true⟩, ⟨"multitap_device", "MultitapDevice", true⟩,
     ⟨"pdc_test_delay_device", "PdcTestDelayDevice", true⟩,
     ⟨"phaser2_device", "Phaser2Device", true⟩, ⟨"phaser_device", "PhaserDevice", true⟩,
     ⟨"repeater_device", "RepeaterDevice", true⟩, ⟨"reverb2_device", "Reverb2Device", true⟩,
     ⟨"reverb3_device", "Reverb3Device", true⟩, ⟨"reverb_device", "ReverbDevice", true⟩,
     ⟨"rewire_in_device", "RewireInDevice", true⟩,
     ⟨"ring_mod2_device", "RingMod2Device", true⟩,
     ⟨"ring_mod_device", "RingModDevice", true⟩, ⟨"send_device", "SendDevice", true⟩,
     ⟨"send_track_mixer_device", "SendTrackMixerDevice", true⟩,
     ⟨"shaper_device", "ShaperDevice", true⟩, ⟨"side_chain_device", "SideChainDevice", true⟩,
     ⟨"signal_follower_device", "SignalFollowerDevice", true⟩,
     ⟨"stereo_expander_device", "StereoExpanderDevice", true⟩,
     ⟨"stutter_device", "StutterDevice", true⟩,
     ⟨"track_mixer_device", "TrackMixerDevice", true⟩,
     ⟨"velocity_device", "VelocityDevice", true⟩, ⟨"xypad_device", "XYPadDevice", true⟩]
  | .trackMixerDevice => -- 17843-17955
    [⟨"custom_device_name", "CustomDeviceName", false⟩,
     ⟨"is_maximized", "IsMaximized", false⟩, ⟨"is_selected", "IsSelected", false⟩,
     ⟨"selected_preset_name", "SelectedPresetName", false⟩,
     ⟨"selected_preset_library", "SelectedPresetLibrary", false⟩,
     ⟨"selected_preset_is_modified", "SelectedPresetIsModified", false⟩,
     ⟨"run_time_preset_a", "RunTimePresetA", false⟩,
     ⟨"run_time_preset_b", "RunTimePresetB", false⟩, ⟨"is_active", "IsActive", false⟩,
     ⟨"panning", "Panning", false⟩, ⟨"volume", "Volume", false⟩,
     ⟨"surround", "Surround", false⟩, ⟨"post_panning", "PostPanning", false⟩,
     ⟨"post_volume", "PostVolume", false⟩,
     ⟨"smooth_parameter_changes", "SmoothParameterChanges", false⟩]
  | .masterTrackMixerDevice => -- 11335-11489
    [⟨"custom_device_name", "CustomDeviceName", false⟩,
     ⟨"is_maximized", "IsMaximized", false⟩, ⟨"is_selected", "IsSelected", false⟩,
     ⟨"selected_preset_name", "SelectedPresetName", false⟩,
     ⟨"selected_preset_library", "SelectedPresetLibrary", false⟩,
     ⟨"selected_preset_is_modified", "SelectedPresetIsModified", false⟩,
     ⟨"run_time_preset_a", "RunTimePresetA", false⟩,
     ⟨"run_time_preset_b", "RunTimePresetB", false⟩, ⟨"is_active", "IsActive", false⟩,
     ⟨"panning", "Panning", false⟩, ⟨"volume", "Volume", false⟩,
     ⟨"surround", "Surround", false⟩, ⟨"post_panning", "PostPanning", false⟩,
     ⟨"post_volume", "PostVolume", false⟩,
     ⟨"smooth_parameter_changes", "SmoothParameterChanges", false⟩,
     ⟨"auto_dc_correction", "AutoDcCorrection", false⟩,
     ⟨"soft_clipping", "SoftClipping", false⟩, ⟨"auto_gain", "AutoGain", false⟩,
     ⟨"bpm_automator", "BpmAutomator", false⟩, ⟨"lpb_automator", "LpbAutomator", false⟩,
     ⟨"tpl_automator", "TplAutomator", false⟩]
  | .sendTrackMixerDevice => -- 17126-17238
    [⟨"custom_device_name", "CustomDeviceName", false⟩,
     ⟨"is_maximized", "IsMaximized", false⟩, ⟨"is_selected", "IsSelected", false⟩,
     ⟨"selected_preset_name", "SelectedPresetName", false⟩,
     ⟨"selected_preset_library", "SelectedPresetLibrary", false⟩,
     ⟨"selected_preset_is_modified", "SelectedPresetIsModified", false⟩,
     ⟨"run_time_preset_a", "RunTimePresetA", false⟩,
     ⟨"run_time_preset_b", "RunTimePresetB", false⟩, ⟨"is_active", "IsActive", false⟩,
     ⟨"panning", "Panning", false⟩, ⟨"volume", "Volume", false⟩,
     ⟨"surround", "Surround", false⟩, ⟨"post_panning", "PostPanning", false⟩,
     ⟨"post_volume", "PostVolume", false⟩,
     ⟨"smooth_parameter_changes", "SmoothParameterChanges", false⟩]
  | .patternPool => -- 19685-19728
    [⟨"highlite_step", "HighliteStep", false⟩,
     ⟨"default_pattern_length", "DefaultPatternLength", false⟩,
     ⟨"patterns", "Patterns", false⟩]
  | .patternPoolPatterns => -- 19715-19728
    [⟨"pattern", "Pattern", false⟩]
  | .pattern => -- 19613-19681
    [⟨"name", "Name", false⟩, ⟨"number_of_lines", "NumberOfLines", false⟩,
     ⟨"tracks", "Tracks", false⟩]
  | .patternTracks => -- 19643-19681
    [⟨"pattern_track", "PatternTrack", false⟩,
     ⟨"pattern_group_track", "PatternGroupTrack", false⟩,
     ⟨"pattern_master_track", "PatternMasterTrack", false⟩,
     ⟨"pattern_send_track", "PatternSendTrack", false⟩]
  | .patternTrack => -- 19223-19296
    [⟨"selected_preset_name", "SelectedPresetName", false⟩,
     ⟨"selected_preset_library", "SelectedPresetLibrary", false⟩,
     ⟨"selected_preset_is_modified", "SelectedPresetIsModified", false⟩,
     ⟨"lines", "Lines", false⟩, ⟨"alias_pattern_index", "AliasPatternIndex", false⟩,
     ⟨"color_enabled", "ColorEnabled", false⟩, ⟨"color", "Color", false⟩,
     ⟨"automations", "Automations", false⟩]
  | .patternTrackLines => -- 19289-19296
    [⟨"line", "Line", false⟩]
  | .patternMasterTrack => -- 19069-19142
    [⟨"selected_preset_name", "SelectedPresetName", false⟩,
     ⟨"selected_preset_library", "SelectedPresetLibrary", false⟩,
     ⟨"selected_preset_is_modified", "SelectedPresetIsModified", false⟩,
     ⟨"lines", "Lines", false⟩, ⟨"alias_pattern_index", "AliasPatternIndex", false⟩,
     ⟨"color_enabled", "ColorEnabled", false⟩, ⟨"color", "Color", false⟩,
     ⟨"automations", "Automations", false⟩]
  | .patternSendTrack => -- 19146-19219
    [⟨"selected_preset_name", "SelectedPresetName", false⟩,
     ⟨"selected_preset_library", "SelectedPresetLibrary", false⟩,
     ⟨"selected_preset_is_modified", "SelectedPresetIsModified", false⟩,
     ⟨"lines", "Lines", false⟩, ⟨"alias_pattern_index", "AliasPatternIndex", false⟩,
     ⟨"color_enabled", "ColorEnabled", false⟩, ⟨"color", "Color", false⟩,
     ⟨"automations", "Automations", false⟩]
  | .patternLineNode => -- 3309-3368
    [⟨"note_columns", "NoteColumns", false⟩, ⟨"effect_columns", "EffectColumns", false⟩]
  | .patternLineNodeNoteColumns => -- 3339-3352
    [⟨"note_column", "NoteColumn", false⟩]
  | .patternLineNoteColumnNode => -- 1790-1845
    [⟨"note", "Note", false⟩, ⟨"instrument", "Instrument", false⟩,
     ⟨"volume", "Volume", false⟩, ⟨"panning", "Panning", false⟩, ⟨"delay", "Delay", false⟩,
     ⟨"effect_number", "EffectNumber", false⟩, ⟨"effect_value", "EffectValue", false⟩]
  | .patternSequence => -- 3372-3471
    [⟨"current_position", "CurrentPosition", false⟩,
     ⟨"sequence_entries", "SequenceEntries", false⟩,
     ⟨"sequence_selection", "SequenceSelection", false⟩,
     ⟨"loop_selection", "LoopSelection", false⟩,
     ⟨"pattern_name_width", "PatternNameWidth", false⟩,
     ⟨"pattern_matrix_width", "PatternMatrixWidth", false⟩,
     ⟨"pattern_slot_height", "PatternSlotHeight", false⟩,
     ⟨"pattern_slot_width", "PatternSlotWidth", false⟩,
     ⟨"highlite_step", "HighliteStep", false⟩, ⟨"highlite_offset", "HighliteOffset", false⟩,
     ⟨"keep_sequence_sorted", "KeepSequenceSorted", false⟩]
  | .patternSequenceSequenceEntries => -- 3458-3471
    [⟨"sequence_entry", "SequenceEntry", false⟩]
  | .patternSequenceEntry => -- 1849-1893
    [⟨"pattern", "Pattern", false⟩, ⟨"is_section_start", "IsSectionStart", false⟩,
     ⟨"section_name", "SectionName", false⟩, ⟨"muted_tracks", "MutedTracks", false⟩]

/-- The fields with `metadata["type"] = "Attribute"`, in the order of the class. Written by
tools/schema_fields.py from the text of src/xrns/xml/song/renoise_song65.py (lines at each class). -/
def DaoClass.attrs : DaoClass → List AttrField
  | .renoiseSong => [⟨"doc_version", some "65"⟩, ⟨"type", none⟩] -- 21745-21936
  | .globalSongData => [⟨"type", none⟩] -- 686-880
  | .globalSongDataShuffleAmounts => [] -- 863-870
  | .renoiseSongInstruments => [⟨"type", none⟩] -- 21882-21895
  | .renoiseInstrument => [⟨"type", none⟩] -- 21644-21741
  | .renoiseSongTracks => [⟨"type", none⟩] -- 21898-21936
  | .sequencerTrack => [⟨"type", some "SequencerTrack"⟩] -- 21480-21640
  | .sequencerMasterTrack => [⟨"type", some "SequencerMasterTrack"⟩] -- 21152-21312
  | .sequencerSendTrack => [⟨"type", some "SequencerSendTrack"⟩] -- 21316-21476
  | .trackFilterDeviceChain => [⟨"type", none⟩] -- 20297-20868
  | .trackFilterDeviceChainDevices => [⟨"type", none⟩] -- 20334-20868
  | .trackMixerDevice => [⟨"type", some "TrackMixerDevice"⟩] -- 17843-17955
  | .masterTrackMixerDevice => [⟨"type", some "MasterTrackMixerDevice"⟩] -- 11335-11489
  | .sendTrackMixerDevice => [⟨"type", some "SendTrackMixerDevice"⟩] -- 17126-17238
  | .patternPool => [⟨"type", none⟩] -- 19685-19728
  | .patternPoolPatterns => [⟨"type", none⟩] -- 19715-19728
  | .pattern => [⟨"type", none⟩] -- 19613-19681
  | .patternTracks => [⟨"type", none⟩] -- 19643-19681
  | .patternTrack => [⟨"type", some "PatternTrack"⟩] -- 19223-19296
  | .patternTrackLines => [] -- 19289-19296
  | .patternMasterTrack => [⟨"type", some "PatternMasterTrack"⟩] -- 19069-19142
  | .patternSendTrack => [⟨"type", some "PatternSendTrack"⟩] -- 19146-19219
  | .patternLineNode => [⟨"index", none⟩, ⟨"type", none⟩] -- 3309-3368
  | .patternLineNodeNoteColumns => [⟨"type", none⟩] -- 3339-3352
  | .patternLineNoteColumnNode => [⟨"type", none⟩] -- 1790-1845
  | .patternSequence => [⟨"type", none⟩] -- 3372-3471
  | .patternSequenceSequenceEntries => [⟨"type", none⟩] -- 3458-3471
  | .patternSequenceEntry => [⟨"type", none⟩] -- 1849-1893

mutual
/-- The value of a field: `None`; something written as text (already converted: numbers in decimal,
Booleans as `true` and `false`); an object; a list.
(For src/xrns/xrns_serializer.py:38-230.) -/
inductive DVal where
  | none
  | text (t : Str)
  | obj (c : DaoClass) (fields : DFields)
  | list (l : DVals)
/-- The keyword arguments of a constructor (the other fields keep their defaults `None` and `[]`).
(For src/xrns/xrns_serializer.py:38-230.) -/
inductive DFields where
  | nil
  | cons (py : String) (v : DVal) (rest : DFields)
/-- The items of a list. (For src/xrns/xrns_serializer.py:38-230.) -/
inductive DVals where
  | nil
  | cons (v : DVal) (rest : DVals)
end

/-- Keyword arguments as a list. (For src/xrns/xrns_serializer.py:38-230.) -/
def DFields.ofList : List (String × DVal) → DFields
  | [] => .nil
  | a :: l => .cons a.1 a.2 (DFields.ofList l)

/-- The items of a list. (For src/xrns/xrns_serializer.py:38-230.) -/
def DVals.ofList : List DVal → DVals
  | [] => .nil
  | a :: l => .cons a (DVals.ofList l)

/-- The length of the longest list. (xsdata, for src/xrns/writer.py:20.) -/
def longest {α : Type} (run : List (List α)) : Nat := run.foldr (fun v n => max v.length n) 0

/-- A run of sequential fields: in round `j` the `j`-th item of each list that has one, until there
is none. All sequential fields of renoise_song65.py are lists. (xsdata, for src/xrns/writer.py:20.) -/
def takeTurns {α : Type} (run : List (List α)) : List α :=
  (List.range (longest run)).flatMap (fun j => run.filterMap (fun v => v[j]?))

/-- `XmlSerializer.next_value`: the fields in order, runs of sequential ones in turns. `run` is the
current run. (xsdata, for src/xrns/writer.py:20.) -/
def nextValues {α : Type} (run : List (List α)) : List (Bool × List α) → List α
  | [] => takeTurns run
  | (true, v) :: rest => nextValues (run ++ [v]) rest
  | (false, v) :: rest => takeTurns run ++ v ++ nextValues [] rest

/-- The name of the elements for a field. (xsdata, for src/xrns/writer.py:20.) -/
def DaoClass.tagOf (c : DaoClass) (py : String) : Str :=
  ((c.elems.find? (fun f => f.py == py)).map (fun f => f.name.toList)).getD []

/-- The values given for a field, rendered. (xsdata, for src/xrns/writer.py:20.) -/
def valueOf {α : Type} (l : List (String × List α)) (py : String) : List α :=
  ((l.find? (fun x => x.1 == py)).map (·.2)).getD []

/-- The text given for an attribute. (xsdata, for src/xrns/writer.py:20.) -/
def DFields.textOf : DFields → String → Option Str
  | .nil, _ => none
  | .cons py v rest, n =>
    if py == n then
      match v with
      | .text t => some t
      | _ => none
    else rest.textOf n

/-- `next_attribute`: the attributes that are not `None`. (xsdata, for src/xrns/writer.py:20.) -/
def DaoClass.attrsOf (c : DaoClass) (fs : DFields) : List (Str × Str) :=
  c.attrs.filterMap (fun a =>
    match a.default with
    | some d => some (a.name.toList, d.toList)
    | none => (fs.textOf a.name).map (fun t => (a.name.toList, t)))

mutual
/-- The elements for a value under a name: none, one, or one per item.
(xsdata, for src/xrns/writer.py:20.) -/
def DVal.elems (tag : Str) : DVal → List Xml
  | .none => []
  | .text t => [.leaf tag [] t]
  | .obj c fs => [.node tag (c.attrsOf fs) (.ofList (nextValues []
      (c.elems.map (fun f => (f.sequential, valueOf (fs.elems c) f.py)))))]
  | .list l => l.elems tag
/-- The elements for each keyword argument. (xsdata, for src/xrns/writer.py:20.) -/
def DFields.elems (c : DaoClass) : DFields → List (String × List Xml)
  | .nil => []
  | .cons py v rest => (py, v.elems (c.tagOf py)) :: rest.elems c
/-- The elements for the items. (xsdata, for src/xrns/writer.py:20.) -/
def DVals.elems (tag : Str) : DVals → List Xml
  | .nil => []
  | .cons v rest => v.elems tag ++ rest.elems tag
end

/-! ### The objects made of a song -/

/-- A number. (For src/xrns/xrns_serializer.py:62-230.) -/
def dNat (n : Nat) : DVal := .text (natStr n)

/-- A truth value. (For src/xrns/xrns_serializer.py:62-230.) -/
def dBool (b : Bool) : DVal := .text (if b then "true".toList else "false".toList)

/-- A text or `None`. (For src/xrns/xrns_serializer.py:62-230.) -/
def dOpt : Option Str → DVal
  | none => .none
  | some t => .text t

/-- A constructor call. (For src/xrns/xrns_serializer.py:62-230.) -/
def dObj (c : DaoClass) (l : List (String × DVal)) : DVal := .obj c (.ofList l)

/-- A list of objects. (For src/xrns/xrns_serializer.py:62-230.) -/
def dList (l : List DVal) : DVal := .list (.ofList l)

/-- `_render_global_song_data`, xrns_serializer.py:62-79. -/
def globalsObj (g : Globals) : DVal :=
  dObj .globalSongData
    [ ("beats_per_min", .text (intStr g.beatsPerMin))
    , ("lines_per_beat", dNat g.linesPerBeat)
    , ("ticks_per_line", dNat g.ticksPerLine)
    , ("signature_numerator", dNat g.signatureNumerator)
    , ("signature_denominator", dNat g.signatureDenominator)
    , ("metronome_beats_per_bar", dNat g.metronomeBeatsPerBar)
    , ("metronome_lines_per_beat", dNat g.metronomeLinesPerBeat)
    , ("shuffle_is_active", dBool g.shuffleIsActive)
    , ("shuffle_amounts", dObj .globalSongDataShuffleAmounts
        [("shuffle_amount", dList (g.shuffleAmounts.map dNat))])
    , ("octave", dNat g.octave)
    , ("loop_coeff", dNat g.loopCoeff)
    , ("song_name", .text g.songName)
    , ("artist", .text g.artist) ]

/-- `filter_devices=..`, xrns_serializer.py:116-120, 139-143, 153-157. -/
def devicesObj (py : String) (device : DaoClass) : DVal :=
  dObj .trackFilterDeviceChain
    [("devices", dObj .trackFilterDeviceChainDevices [(py, dList [dObj device []])])]

/-- `_render_track`, xrns_serializer.py:106-128: `color` is assigned at the end, unless the iterator
is exhausted. -/
def trackObj (t : SequencerTrack) (color : Option Str) : DVal :=
  dObj .sequencerTrack (
    [ ("name", dOpt t.name)
    , ("color_blend", dNat 0)
    , ("state", .text t.state)
    , ("soloed", dBool t.soloed)
    , ("panning_column_is_visible", dBool true)
    , ("filter_devices", devicesObj "track_mixer_device" .trackMixerDevice) ] ++
    match color with
    | none => []
    | some c => [("color", .text c)])

/-- `_render_master_track`, xrns_serializer.py:130-144. -/
def masterTrackObj (t : SequencerTrack) : DVal :=
  dObj .sequencerMasterTrack
    [ ("name", dOpt t.name)
    , ("color", .text "220,220,220".toList)
    , ("color_blend", dNat 0)
    , ("state", .text t.state)
    , ("soloed", dBool t.soloed)
    , ("filter_devices", devicesObj "master_track_mixer_device" .masterTrackMixerDevice) ]

/-- `_render_send_track`, xrns_serializer.py:146-158. -/
def sendTrackObj (t : SequencerTrack) : DVal :=
  dObj .sequencerSendTrack
    [ ("name", dOpt t.name)
    , ("color", .text "41,166,153".toList)
    , ("color_blend", dNat 0)
    , ("state", .text t.state)
    , ("soloed", dBool t.soloed)
    , ("filter_devices", devicesObj "send_track_mixer_device" .sendTrackMixerDevice) ]

/-- The comprehension over the tracks with the colour iterator, xrns_serializer.py:92-93. -/
def seqTrackObjs : List SequencerTrack → List Str → List DVal
  | [], _ => []
  | t :: ts, [] => trackObj t none :: seqTrackObjs ts []
  | t :: ts, c :: cs => trackObj t (some c) :: seqTrackObjs ts cs

/-- `_render_tracks`, xrns_serializer.py:91-104. -/
def tracksObj (t : Tracks) : DVal :=
  dObj .renoiseSongTracks
    [ ("sequencer_track", dList (seqTrackObjs t.tracks trackColors))
    , ("sequencer_master_track", dList (t.masterTracks.map masterTrackObj))
    , ("sequencer_send_track", dList (t.sendTracks.map sendTrackObj)) ]

/-- `_render_pattern_track`, xrns_serializer.py:184-203. -/
def patternTrackObj (t : PatternTrack) : DVal :=
  dObj .patternTrack
    [("lines", dObj .patternTrackLines
      [("line", dList (t.lines.map (fun x =>
        dObj .patternLineNode
          [ ("index", .text (intStr x.1))
          , ("note_columns", dObj .patternLineNodeNoteColumns
              [("note_column", dList
                [dObj .patternLineNoteColumnNode
                  [ ("note", .text x.2.note)
                  , ("instrument", dOpt x.2.instrument)
                  , ("panning", dOpt x.2.pan) ]])]) ])))])]

/-- `_render_pattern`, `_render_pattern_master_track`, `_render_pattern_send_track`,
xrns_serializer.py:167-182, 205-213. -/
def patternObj (p : Pattern) : DVal :=
  dObj .pattern
    [("tracks", dObj .patternTracks
      [ ("pattern_track", dList (p.tracks.map patternTrackObj))
      , ("pattern_master_track", dList (p.masterTracks.map (fun _ => dObj .patternMasterTrack [])))
      , ("pattern_send_track", dList (p.sendTracks.map (fun _ => dObj .patternSendTrack []))) ])]

/-- `render`, xrns_serializer.py:38-60, with `_render_instruments` (81-89), `_render_pattern_pool`
(160-165) and `_render_pattern_sequence` (215-230; the positional arguments there are the first
fields). -/
def songObj (s : Song) : DVal :=
  dObj .renoiseSong
    [ ("global_song_data", globalsObj s.globals)
    , ("instruments", dObj .renoiseSongInstruments
        [("instrument", dList (s.instruments.map (fun _ => dObj .renoiseInstrument [])))])
    , ("tracks", tracksObj s.tracks)
    , ("pattern_pool", dObj .patternPool
        [("patterns", dObj .patternPoolPatterns
          [("pattern", dList (s.patternPool.patterns.map patternObj))])])
    , ("pattern_sequence", dObj .patternSequence
        [("sequence_entries", dObj .patternSequenceSequenceEntries
          [("sequence_entry", dList (s.patternSequence.map (fun p =>
            dObj .patternSequenceEntry [("pattern", dNat p)])))])]) ]

/-- `serializer.render(xml_song)`, writer.py:20: the element of a root object has the name of its
class. -/
def renderRoot (v : DVal) : Option Xml := (v.elems "RenoiseSong".toList).head?

end VgmX
