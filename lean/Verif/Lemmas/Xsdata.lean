import Verif.Model.Xsdata
import Mathlib.Tactic.Common

namespace VgmX

theorem elems_fields (c : DaoClass) (l : List (String × DVal)) :
    (DFields.ofList l).elems c = l.map (fun a => (a.1, a.2.elems (c.tagOf a.1))) := by
  induction l with
  | nil => simp [DFields.ofList, DFields.elems]
  | cons a l ih => simp [DFields.ofList, DFields.elems, ih]

theorem elems_items (tag : Str) (l : List DVal) :
    (DVals.ofList l).elems tag = l.flatMap (fun a => a.elems tag) := by
  induction l with
  | nil => simp [DVals.ofList, DVals.elems]
  | cons a l ih => simp [DVals.ofList, DVals.elems, ih]

theorem elems_dList {α : Type} (tag : Str) (l : List α) (f : α → DVal) (g : α → Xml)
    (h : ∀ a, (f a).elems tag = [g a]) :
    (dList (l.map f)).elems tag = l.map g := by
  unfold dList
  rw [DVal.elems, elems_items]
  induction l with
  | nil => rfl
  | cons a l ih => simp only [List.map_cons, List.flatMap_cons, h, ih]; rfl

/-- No run of sequential fields has more than one field that is not empty: concatenation. -/
theorem nextValues_plain {α : Type} (l : List (Bool × List α)) (h : ∀ x ∈ l, x.1 = false) :
    nextValues [] l = l.flatMap (·.2) := by
  induction l with
  | nil => rfl
  | cons x l ih =>
    obtain ⟨b, v⟩ := x
    cases h (b, v) (by simp)
    rw [nextValues, ih (fun y hy => h y (by simp [hy])), List.flatMap_cons]
    rfl

theorem takeTurns_one {α : Type} (v : List α) : takeTurns [v] = v := by
  unfold takeTurns
  have : longest [v] = v.length := by simp [longest]
  rw [this]
  clear this
  simp only [List.filterMap_cons, List.filterMap_nil]
  induction v with
  | nil => rfl
  | cons a v ih =>
    rw [List.length_cons, List.range_succ_eq_map, List.flatMap_cons, List.flatMap_map]
    simp only [List.getElem?_cons_zero, List.getElem?_cons_succ]
    rw [ih]; rfl

/-- The element of an object, given the elements for its keyword arguments. -/
theorem elems_dObj (tag : Str) (c : DaoClass) (l : List (String × DVal)) (l' : List (String × List Xml))
    (h : l.map (fun a => (a.1, a.2.elems (c.tagOf a.1))) = l') :
    (dObj c l).elems tag = [.node tag (c.attrsOf (.ofList l)) (.ofList (nextValues []
      (c.elems.map (fun f => (f.sequential, valueOf l' f.py)))))] := by
  unfold dObj
  rw [DVal.elems, elems_fields, h]

theorem elems_plain (tag : Str) (c : DaoClass) (l : List (String × DVal))
    (l' : List (String × List Xml))
    (h : l.map (fun a => (a.1, a.2.elems (c.tagOf a.1))) = l')
    (hc : ∀ f ∈ c.elems, f.sequential = false) :
    (dObj c l).elems tag = [.node tag (c.attrsOf (.ofList l)) (.ofList
      (c.elems.flatMap (fun f => valueOf l' f.py)))] := by
  rw [elems_dObj tag c l l' h, nextValues_plain, List.flatMap_map]
  simpa using hc

theorem elems_text (tag t : Str) : (DVal.text t).elems tag = [.leaf tag [] t] := by rw [DVal.elems]
theorem elems_dNat (tag : Str) (n : Nat) : (dNat n).elems tag = [.leaf tag [] (natStr n)] := by
  rw [dNat, DVal.elems]
theorem elems_dBool (tag : Str) (b : Bool) :
    (dBool b).elems tag = [.leaf tag [] (if b then "true".toList else "false".toList)] := by
  rw [dBool, DVal.elems]

theorem elems_shuffle (g : Globals) : (dObj .globalSongDataShuffleAmounts
    [("shuffle_amount", dList (g.shuffleAmounts.map dNat))]).elems "ShuffleAmounts".toList =
    [xNode "ShuffleAmounts" (g.shuffleAmounts.map (fun n => xText "ShuffleAmount" (natStr n)))] := by
  have h := elems_dList "ShuffleAmount".toList g.shuffleAmounts dNat
    (fun n => xText "ShuffleAmount" (natStr n)) (fun _ => by rw [dNat, DVal.elems]; rfl)
  rw [elems_plain _ _ _ [("shuffle_amount", _)] (by rw [List.map_cons]; exact congrArg (fun z => [(_, z)]) h) (by decide)]
  have e : DaoClass.globalSongDataShuffleAmounts.elems.flatMap (fun f => valueOf [("shuffle_amount",
    List.map (fun n => xText "ShuffleAmount" (natStr n)) g.shuffleAmounts)] f.py) =
    List.map (fun n => xText "ShuffleAmount" (natStr n)) g.shuffleAmounts := by
    simp [DaoClass.elems, valueOf]
  rw [e]; rfl

theorem elems_globals (g : Globals) :
    (globalsObj g).elems "GlobalSongData".toList = [(renderGlobals g).xml] := by
  unfold globalsObj
  rw [elems_plain _ _ _ _ rfl (by decide)]
  simp only [List.map_cons, List.map_nil, elems_text, elems_dNat, elems_dBool]
  have : DaoClass.globalSongData.tagOf "shuffle_amounts" = "ShuffleAmounts".toList := by decide
  rw [this, elems_shuffle]
  rfl

theorem elems_none (tag : Str) : DVal.none.elems tag = [] := by rw [DVal.elems]

theorem elems_dOpt (name : String) (o : Option Str) : (dOpt o).elems name.toList = xOpt name o := by
  cases o <;> rw [dOpt, DVal.elems] <;> rfl

/-- One keyword argument. -/
theorem elems_one (tag : Str) (c : DaoClass) (py : String) (v : DVal) (n : String) (kids : List Xml)
    (hn : c.tagOf py = n.toList) (hv : v.elems n.toList = kids) :
    (dObj c [(py, v)]).elems tag = [.node tag (c.attrsOf (.ofList [(py, v)])) (.ofList (nextValues []
      (c.elems.map (fun f => (f.sequential, valueOf [(py, kids)] f.py)))))] := by
  refine elems_dObj _ _ _ _ ?_
  simp only [List.map_cons, List.map_nil, hn, hv]

theorem elems_chain (d : DVal) (kids : List Xml)
    (h : d.elems "Devices".toList = [xNode "Devices" kids]) :
    (dObj .trackFilterDeviceChain [("devices", d)]).elems "FilterDevices".toList =
      [xNode "FilterDevices" [xNode "Devices" kids]] := by
  rw [elems_one _ _ _ _ "Devices" _ (by decide) h]
  rfl

theorem nextValues_sequential {α : Type} (l : List (Bool × List α)) (run : List (List α))
    (h : ∀ x ∈ l, x.1 = true) : nextValues run l = takeTurns (run ++ l.map (·.2)) := by
  induction l generalizing run with
  | nil => rw [nextValues, List.map_nil, List.append_nil]
  | cons x l ih =>
    obtain ⟨b, v⟩ := x
    cases h (b, v) (by simp)
    rw [nextValues, ih _ (fun y hy => h y (by simp [hy])), List.map_cons, List.append_assoc]
    rfl

/-- Only the field `py` is set, to one item. -/
theorem takeTurns_single {α : Type} (fs : List ElemField) (py : String) (x : α)
    (h : (fs.filter (fun f => py == f.py)).length = 1) :
    takeTurns (fs.map (fun f => valueOf [(py, [x])] f.py)) = [x] := by
  have hv : ∀ f : ElemField, valueOf [(py, [x])] f.py = if py == f.py then [x] else [] := by
    intro f
    unfold valueOf
    rw [List.find?_cons]
    cases hb : py == f.py <;> simp
  have hl : ∀ fs : List ElemField, longest (fs.map (fun f => valueOf [(py, [x])] f.py)) =
      if (fs.filter (fun f => py == f.py)).length = 0 then 0 else 1 := by
    intro fs
    induction fs with
    | nil => rfl
    | cons f fs ih =>
      unfold longest at ih ⊢
      rw [List.map_cons, List.foldr_cons, ih, hv f, List.filter_cons]
      cases hb : py == f.py <;> simp
      split <;> rfl
  have hm : ∀ fs : List ElemField, (fs.map (fun f => valueOf [(py, [x])] f.py)).filterMap
      (fun v => v[0]?) = List.replicate (fs.filter (fun f => py == f.py)).length x := by
    intro fs
    induction fs with
    | nil => rfl
    | cons f fs ih =>
      rw [List.map_cons, List.filterMap_cons, hv f, List.filter_cons, ih]
      cases hb : py == f.py <;> simp [List.replicate_succ]
  unfold takeTurns
  rw [hl, h, if_neg (by decide), List.range_one, List.flatMap_singleton, hm, h]
  rfl

theorem elems_devices (py : String) (c : DaoClass) (dev : DaoDevice)
    (h : (py, c, dev) ∈ [("track_mixer_device", .trackMixerDevice, .trackMixer),
      ("master_track_mixer_device", .masterTrackMixerDevice, .masterTrackMixer),
      ("send_track_mixer_device", .sendTrackMixerDevice, .sendTrackMixer)]) :
    (devicesObj py c).elems "FilterDevices".toList =
      [xNode "FilterDevices" [xNode "Devices" [dev.xml]]] := by
  unfold devicesObj
  refine elems_chain _ [dev.xml] ?_
  simp only [List.mem_cons, Prod.mk.injEq, List.not_mem_nil, or_false] at h
  have hd : ∀ (tag : Str) (c : DaoClass), (dList [dObj c []]).elems tag =
      [.node tag (c.attrsOf .nil) (.ofList (nextValues [] (c.elems.map (fun f => (f.sequential, []))))) ] := by
    intro tag c
    unfold dList
    rw [DVal.elems, elems_items, List.flatMap_cons, elems_dObj tag c [] [] rfl]
    rfl
  have ht : ∀ (py : String), py ∈ ["track_mixer_device", "master_track_mixer_device",
      "send_track_mixer_device"] → ∀ x : Xml, nextValues []
      (DaoClass.trackFilterDeviceChainDevices.elems.map
        (fun f => (f.sequential, valueOf [(py, [x])] f.py))) = [x] := by
    intro py hpy x
    rw [nextValues_sequential _ _ (by
      intro y hy
      obtain ⟨f, hf, rfl⟩ := List.mem_map.mp hy
      have : ∀ f ∈ DaoClass.trackFilterDeviceChainDevices.elems, f.sequential = true := by
        decide +kernel
      exact this f hf), List.map_map, List.nil_append]
    refine takeTurns_single _ _ _ ?_
    simp only [List.mem_cons, List.not_mem_nil, or_false] at hpy
    rcases hpy with rfl | rfl | rfl <;> decide +kernel
  rcases h with ⟨rfl, rfl, rfl⟩ | ⟨rfl, rfl, rfl⟩ | ⟨rfl, rfl, rfl⟩
  · rw [elems_one _ _ _ _ "TrackMixerDevice" _ (by decide +kernel) (hd _ _), ht _ (by decide)]
    rfl
  · rw [elems_one _ _ _ _ "MasterTrackMixerDevice" _ (by decide +kernel) (hd _ _), ht _ (by decide)]
    rfl
  · rw [elems_one _ _ _ _ "SendTrackMixerDevice" _ (by decide +kernel) (hd _ _), ht _ (by decide)]
    rfl

theorem elems_track (t : SequencerTrack) (color : Option Str) :
    (trackObj t color).elems "SequencerTrack".toList =
      [(renderTrack t color).xml "SequencerTrack"] := by
  unfold trackObj
  rw [elems_plain _ _ _ _ rfl (by decide)]
  have h1 : DaoClass.sequencerTrack.tagOf "name" = "Name".toList := by decide
  have h2 : DaoClass.sequencerTrack.tagOf "filter_devices" = "FilterDevices".toList := by decide
  have hd := elems_devices "track_mixer_device" .trackMixerDevice .trackMixer (by simp)
  cases color <;>
  · simp only [List.map_cons, List.map_nil, elems_text, elems_dNat, elems_dBool, h1, h2, elems_dOpt,
      hd, List.map_append]
    cases hn : t.name <;> simp only [hn, xOpt, renderTrack, DaoTrack.xml] <;> rfl

theorem elems_masterTrack (t : SequencerTrack) :
    (masterTrackObj t).elems "SequencerMasterTrack".toList =
      [(renderMasterTrack t).xml "SequencerMasterTrack"] := by
  unfold masterTrackObj
  rw [elems_plain _ _ _ _ rfl (by decide)]
  have h1 : DaoClass.sequencerMasterTrack.tagOf "name" = "Name".toList := by decide
  have h2 : DaoClass.sequencerMasterTrack.tagOf "filter_devices" = "FilterDevices".toList := by decide
  have hd := elems_devices "master_track_mixer_device" .masterTrackMixerDevice .masterTrackMixer
    (by simp)
  simp only [List.map_cons, List.map_nil, elems_text, elems_dNat, elems_dBool, h1, h2, elems_dOpt, hd]
  cases hn : t.name <;> simp only [hn, xOpt, renderMasterTrack, DaoTrack.xml] <;> rfl

theorem elems_sendTrack (t : SequencerTrack) :
    (sendTrackObj t).elems "SequencerSendTrack".toList =
      [(renderSendTrack t).xml "SequencerSendTrack"] := by
  unfold sendTrackObj
  rw [elems_plain _ _ _ _ rfl (by decide)]
  have h1 : DaoClass.sequencerSendTrack.tagOf "name" = "Name".toList := by decide
  have h2 : DaoClass.sequencerSendTrack.tagOf "filter_devices" = "FilterDevices".toList := by decide
  have hd := elems_devices "send_track_mixer_device" .sendTrackMixerDevice .sendTrackMixer
    (by simp)
  simp only [List.map_cons, List.map_nil, elems_text, elems_dNat, elems_dBool, h1, h2, elems_dOpt, hd]
  cases hn : t.name <;> simp only [hn, xOpt, renderSendTrack, DaoTrack.xml] <;> rfl

theorem elems_seqTracks (l : List SequencerTrack) (cs : List Str) :
    (dList (seqTrackObjs l cs)).elems "SequencerTrack".toList =
      (renderSeqTracks l cs).map (DaoTrack.xml "SequencerTrack") := by
  unfold dList
  rw [DVal.elems, elems_items]
  induction l generalizing cs with
  | nil => rfl
  | cons t l ih =>
    cases cs with
    | nil => simp only [seqTrackObjs, renderSeqTracks, List.flatMap_cons, ih, elems_track]; rfl
    | cons c cs => simp only [seqTrackObjs, renderSeqTracks, List.flatMap_cons, ih, elems_track]; rfl

theorem elems_tracks (t : Tracks) :
    (tracksObj t).elems "Tracks".toList = [(renderTracks t).xml] := by
  unfold tracksObj
  rw [elems_dObj _ _ _ _ rfl]
  have h1 : DaoClass.renoiseSongTracks.tagOf "sequencer_track" = "SequencerTrack".toList := by decide
  have h2 : DaoClass.renoiseSongTracks.tagOf "sequencer_master_track" =
    "SequencerMasterTrack".toList := by decide
  have h3 : DaoClass.renoiseSongTracks.tagOf "sequencer_send_track" =
    "SequencerSendTrack".toList := by decide
  simp only [List.map_cons, List.map_nil, h1, h2, h3, elems_seqTracks,
    elems_dList _ _ _ _ elems_masterTrack, elems_dList _ _ _ _ elems_sendTrack]
  simp only [DaoClass.elems, List.map_cons, List.map_nil, nextValues]
  simp only [List.nil_append, takeTurns_one, DaoTracks.xml, renderTracks, List.map_map, Function.comp_def]
  generalize List.map (DaoTrack.xml "SequencerTrack") _ = A
  generalize List.map (fun a => DaoTrack.xml "SequencerMasterTrack" (renderMasterTrack a)) _ = B
  generalize List.map (fun a => DaoTrack.xml "SequencerSendTrack" (renderSendTrack a)) _ = C
  have e : takeTurns ([] : List (List Xml)) = [] := rfl
  simp [e, valueOf, xNode]
  rfl

/-- One keyword argument, a class without sequential fields, in which `py` occurs once. -/
theorem elems_onePlain (tag : Str) (c : DaoClass) (py : String) (v : DVal) (n : String)
    (kids : List Xml) (hn : c.tagOf py = n.toList) (hv : v.elems n.toList = kids)
    (hc : ∀ f ∈ c.elems, f.sequential = false)
    (h1 : (c.elems.filter (fun f => py == f.py)).length = 1) :
    (dObj c [(py, v)]).elems tag =
      [.node tag (c.attrsOf (.ofList [(py, v)])) (.ofList kids)] := by
  rw [elems_one tag c py v n kids hn hv, nextValues_plain, List.flatMap_map]
  · have hv : ∀ f : ElemField, valueOf [(py, kids)] f.py = if py == f.py then kids else [] := by
      intro f
      unfold valueOf
      rw [List.find?_cons]
      cases hb : py == f.py <;> simp
    have key : ∀ fs : List ElemField, fs.flatMap (fun f => valueOf [(py, kids)] f.py) =
        (fs.filter (fun f => py == f.py)).flatMap (fun _ => kids) := by
      intro fs
      induction fs with
      | nil => rfl
      | cons f fs ih =>
        rw [List.flatMap_cons, ih, List.filter_cons, hv]
        cases hb : py == f.py <;> simp
    have e : c.elems.flatMap (fun f => valueOf [(py, kids)] f.py) = kids := by
      rw [key]
      obtain ⟨f, hf⟩ := List.length_eq_one_iff.mp h1
      rw [hf, List.flatMap_singleton]
    show [Xml.node tag _ (.ofList (c.elems.flatMap (fun f => valueOf [(py, kids)] f.py)))] = _
    rw [e]
  · simpa using hc

theorem elems_line (x : Int × Line) :
    (dObj .patternLineNode
      [ ("index", .text (intStr x.1))
      , ("note_columns", dObj .patternLineNodeNoteColumns
          [("note_column", dList
            [dObj .patternLineNoteColumnNode
              [ ("note", .text x.2.note)
              , ("instrument", dOpt x.2.instrument)
              , ("panning", dOpt x.2.pan) ]])]) ]).elems "Line".toList =
    [DaoLine.xml { index := x.1, noteColumns := [{ note := x.2.note, instrument := x.2.instrument, panning := x.2.pan }] }] := by
  have hcol : (dObj .patternLineNoteColumnNode
              [ ("note", .text x.2.note)
              , ("instrument", dOpt x.2.instrument)
              , ("panning", dOpt x.2.pan) ]).elems "NoteColumn".toList =
      [DaoNoteColumn.xml { note := x.2.note, instrument := x.2.instrument, panning := x.2.pan }] := by
    rw [elems_plain _ _ _ _ rfl (by decide)]
    have h1 : DaoClass.patternLineNoteColumnNode.tagOf "instrument" = "Instrument".toList := by decide
    have h2 : DaoClass.patternLineNoteColumnNode.tagOf "panning" = "Panning".toList := by decide
    simp only [List.map_cons, List.map_nil, elems_text, h1, h2, elems_dOpt]
    cases hi : x.2.instrument <;> cases hp : x.2.pan <;>
      simp only [xOpt, DaoNoteColumn.xml] <;> rfl
  have hcols : (dObj .patternLineNodeNoteColumns
          [("note_column", dList
            [dObj .patternLineNoteColumnNode
              [ ("note", .text x.2.note)
              , ("instrument", dOpt x.2.instrument)
              , ("panning", dOpt x.2.pan) ]])]).elems "NoteColumns".toList =
      [xNode "NoteColumns" [DaoNoteColumn.xml
        { note := x.2.note, instrument := x.2.instrument, panning := x.2.pan }]] := by
    have hl := elems_dList "NoteColumn".toList [()] _ _ (fun _ => hcol)
    simp only [List.map_cons, List.map_nil] at hl
    rw [elems_onePlain _ _ _ _ "NoteColumn" _ (by decide) hl (by decide) (by decide)]
    rfl
  rw [elems_plain _ _ _ _ rfl (by decide)]
  have h1 : DaoClass.patternLineNode.tagOf "note_columns" = "NoteColumns".toList := by decide
  simp only [List.map_cons, List.map_nil, h1, hcols]
  rfl

theorem elems_patternTrack (t : PatternTrack) :
    (patternTrackObj t).elems "PatternTrack".toList = [(renderPatternTrack t).xml] := by
  unfold patternTrackObj
  rw [elems_onePlain _ _ _ _ "Lines" _ (by decide) (elems_onePlain _ _ _ _ "Line" _ (by decide)
      (elems_dList "Line".toList t.lines _ _ elems_line) (by decide) (by decide)) (by decide)
      (by decide)]
  rw [renderPatternTrack, DaoPatternTrack.xml, List.map_map]
  rfl

theorem elems_pattern (p : Pattern) :
    (patternObj p).elems "Pattern".toList = [(renderPattern p).xml] := by
  have hm : ∀ a : PatternTrack, (dObj .patternMasterTrack []).elems "PatternMasterTrack".toList =
      [xTyped "PatternMasterTrack" []] := by
    intro _; rw [elems_plain _ _ _ _ rfl (by decide)]; rfl
  have hs : ∀ a : PatternTrack, (dObj .patternSendTrack []).elems "PatternSendTrack".toList =
      [xTyped "PatternSendTrack" []] := by
    intro _; rw [elems_plain _ _ _ _ rfl (by decide)]; rfl
  have ht : (dObj .patternTracks
      [ ("pattern_track", dList (p.tracks.map patternTrackObj))
      , ("pattern_master_track", dList (p.masterTracks.map (fun _ => dObj .patternMasterTrack [])))
      , ("pattern_send_track", dList (p.sendTracks.map (fun _ => dObj .patternSendTrack [])))
      ]).elems "Tracks".toList = [xNode "Tracks" (
        p.tracks.map (fun t => (renderPatternTrack t).xml) ++
        p.masterTracks.map (fun _ => xTyped "PatternMasterTrack" []) ++
        p.sendTracks.map (fun _ => xTyped "PatternSendTrack" []))] := by
    rw [elems_plain _ _ _ _ rfl (by decide)]
    have h1 : DaoClass.patternTracks.tagOf "pattern_track" = "PatternTrack".toList := by decide
    have h2 : DaoClass.patternTracks.tagOf "pattern_master_track" = "PatternMasterTrack".toList := by
      decide
    have h3 : DaoClass.patternTracks.tagOf "pattern_send_track" = "PatternSendTrack".toList := by
      decide
    simp only [List.map_cons, List.map_nil, h1, h2, h3, elems_dList _ _ _ _ elems_patternTrack,
      elems_dList _ _ _ _ hm, elems_dList _ _ _ _ hs]
    simp [DaoClass.elems, valueOf, xNode]
    rfl
  unfold patternObj
  rw [elems_onePlain _ _ _ _ "Tracks" _ (by decide) ht (by decide) (by decide)]
  simp only [renderPattern, DaoPattern.xml, List.map_map]
  rfl

theorem elems_song (s : Song) : (songObj s).elems "RenoiseSong".toList = [(render s).xml] := by
  have hi : (dObj .renoiseSongInstruments
        [("instrument", dList (s.instruments.map (fun _ => dObj .renoiseInstrument [])))]).elems
        "Instruments".toList =
      [xNode "Instruments" ((render s).instruments.map (fun _ => xNode "Instrument" []))] := by
    rw [elems_onePlain _ _ _ _ "Instrument" _ (by decide)
      (elems_dList _ s.instruments (fun _ => dObj .renoiseInstrument [])
        (fun _ => xNode "Instrument" [])
        (fun _ => by rw [elems_plain _ _ _ _ rfl (by decide)]; rfl)) (by decide) (by decide)]
    simp only [render, List.map_map]
    rfl
  have hp : (dObj .patternPool
        [("patterns", dObj .patternPoolPatterns
          [("pattern", dList (s.patternPool.patterns.map patternObj))])]).elems
        "PatternPool".toList =
      [xNode "PatternPool" [xNode "Patterns" ((render s).patterns.map DaoPattern.xml)]] := by
    rw [elems_onePlain _ _ _ _ "Patterns" _ (by decide) (elems_onePlain _ _ _ _ "Pattern" _ (by decide)
      (elems_dList _ s.patternPool.patterns _ _ elems_pattern) (by decide) (by decide)) (by decide)
      (by decide)]
    simp only [render, List.map_map]
    rfl
  have hq : (dObj .patternSequence
        [("sequence_entries", dObj .patternSequenceSequenceEntries
          [("sequence_entry", dList (s.patternSequence.map (fun p =>
            dObj .patternSequenceEntry [("pattern", dNat p)])))])]).elems "PatternSequence".toList =
      [xNode "PatternSequence" [xNode "SequenceEntries"
        (s.patternSequence.map (fun p => xNode "SequenceEntry" [xText "Pattern" (natStr p)]))]] := by
    rw [elems_onePlain _ _ _ _ "SequenceEntries" _ (by decide)
      (elems_onePlain _ _ _ _ "SequenceEntry" _ (by decide)
        (elems_dList _ s.patternSequence _
          (fun p => xNode "SequenceEntry" [xText "Pattern" (natStr p)])
          (fun p => by
            rw [elems_onePlain _ _ _ _ "Pattern" _ (by decide) (elems_dNat _ _) (by decide) (by decide)]
            rfl)) (by decide) (by decide)) (by decide) (by decide)]
    rfl
  unfold songObj
  rw [elems_plain _ _ _ _ rfl (by decide)]
  have h1 : DaoClass.renoiseSong.tagOf "global_song_data" = "GlobalSongData".toList := by decide
  have h2 : DaoClass.renoiseSong.tagOf "instruments" = "Instruments".toList := by decide
  have h3 : DaoClass.renoiseSong.tagOf "tracks" = "Tracks".toList := by decide
  have h4 : DaoClass.renoiseSong.tagOf "pattern_pool" = "PatternPool".toList := by decide
  have h5 : DaoClass.renoiseSong.tagOf "pattern_sequence" = "PatternSequence".toList := by decide
  simp only [List.map_cons, List.map_nil, h1, h2, h3, h4, h5, elems_globals, elems_tracks, hi, hp, hq]
  rfl

end VgmX
