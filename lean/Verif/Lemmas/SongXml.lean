import Verif.Lemmas.Xml
import Verif.Spec.Song
/-
The elements of a song are read back as the song.
-/

namespace VgmX
open Spec

@[simp] theorem kidsList_ofList (l : List Xml) : kidsList (.ofList l) = l := by
  induction l with
  | nil => rfl
  | cons x l ih => simp [XmlList.ofList, kidsList, ih]

@[simp] theorem kids_xNode (n : String) (l : List Xml) : kids (xNode n l) = l := by
  simp [kids, xNode]

@[simp] theorem kids_xTyped (n : String) (l : List Xml) : kids (xTyped n l) = l := by
  simp [kids, xTyped]

@[simp] theorem tagName_xNode (n : String) (l : List Xml) : tagName (xNode n l) = n.toList := rfl
@[simp] theorem tagName_xTyped (n : String) (l : List Xml) : tagName (xTyped n l) = n.toList := rfl
@[simp] theorem tagName_xText (n : String) (t : Str) : tagName (xText n t) = n.toList := rfl
@[simp] theorem tagName_xBool (n : String) (b : Bool) : tagName (xBool n b) = n.toList := rfl
@[simp] theorem content_xText (n : String) (t : Str) : content (xText n t) = some t := rfl
@[simp] theorem content_xBool (n : String) (b : Bool) :
    content (xBool n b) = some (if b then "true".toList else "false".toList) := rfl

theorem readBool_text (b : Bool) :
    readBool (if b then "true".toList else "false".toList) = some b := by cases b <;> decide

theorem readInt_intStr (z : Int) : readInt (intStr z) = some z := by
  cases z with
  | ofNat n =>
    have h : ∀ s, natStr n ≠ '-' :: s := by
      intro s e
      have : '-' ∈ natStr n := by rw [e]; exact List.mem_cons_self
      unfold natStr at this
      obtain ⟨d, _, hd⟩ := List.mem_map.mp this
      revert hd
      unfold digitChar
      split <;> decide
    rw [intStr, readInt]
    · rw [readBase_natStr]; rfl
    · intro s e; exact h s e
  | negSucc n =>
    rw [intStr, readInt, readBase_natStr]
    rfl

theorem allSome_map {α β : Type} (l : List α) (f : α → Option β) (g : α → β)
    (h : ∀ a ∈ l, f a = some (g a)) : allSome (l.map f) = some (l.map g) := by
  induction l with
  | nil => rfl
  | cons a l ih =>
    rw [List.map_cons, h a List.mem_cons_self, allSome,
      ih (fun x hx => h x (List.mem_cons_of_mem _ hx))]
    rfl

theorem allSome_read {α : Type} (l : List α) (f : α → Xml) (rd : Xml → Option α)
    (h : ∀ a ∈ l, rd (f a) = some a) : allSome ((l.map f).map rd) = some l := by
  rw [List.map_map, allSome_map l (rd ∘ f) id (fun a ha => h a ha), List.map_id]

theorem filter_names {α : Type} (l : List α) (f : α → Xml) (n : String) (m : String)
    (h : ∀ a ∈ l, tagName (f a) = m.toList) :
    (l.map f).filter (fun y => tagName y == n.toList) = if m = n then l.map f else [] := by
  split
  · rename_i e
    subst e
    apply List.filter_eq_self.mpr
    intro x hx
    obtain ⟨a, ha, rfl⟩ := List.mem_map.mp hx
    simp [h a ha]
  · rename_i e
    apply List.filter_eq_nil_iff.mpr
    intro x hx
    obtain ⟨a, ha, rfl⟩ := List.mem_map.mp hx
    simp only [h a ha, beq_iff_eq]
    intro hc
    exact e (String.toList_inj.mp hc)


theorem numOf_eq {n : String} {x : Xml} {k : Nat} (h : textOf n x = some (natStr k)) :
    numOf n x = some k := by
  unfold numOf; rw [h]; exact readBase_natStr k

theorem boolOf_eq {n : String} {x : Xml} {b : Bool}
    (h : textOf n x = some (if b then "true".toList else "false".toList)) :
    boolOf n x = some b := by
  unfold boolOf; rw [h]; exact readBool_text b

theorem intOf_eq {n : String} {x : Xml} {k : Int} (h : textOf n x = some (intStr k)) :
    intOf n x = some k := by
  unfold intOf; rw [h]; exact readInt_intStr k

theorem readGlobals_xml (g : DaoGlobals) : readGlobals g.xml = some g := by
  have hs : allSome ((named "ShuffleAmount" (xNode "ShuffleAmounts"
      (g.shuffleAmounts.map (fun n => xText "ShuffleAmount" (natStr n))))).map
        (fun y => (content y).bind (readBase 10))) = some g.shuffleAmounts := by
    unfold named
    rw [kids_xNode, filter_names _ _ _ "ShuffleAmount" (fun _ _ => rfl), if_pos rfl]
    apply allSome_read
    intro a _
    simp [readBase_natStr]
  unfold readGlobals
  rw [intOf_eq (k := g.beatsPerMin) rfl, numOf_eq (k := g.linesPerBeat) rfl,
    numOf_eq (k := g.ticksPerLine) rfl, numOf_eq (k := g.signatureNumerator) rfl,
    numOf_eq (k := g.signatureDenominator) rfl, numOf_eq (k := g.metronomeBeatsPerBar) rfl,
    numOf_eq (k := g.metronomeLinesPerBeat) rfl, boolOf_eq (b := g.shuffleIsActive) rfl,
    show child "ShuffleAmounts" g.xml = some (xNode "ShuffleAmounts"
      (g.shuffleAmounts.map (fun n => xText "ShuffleAmount" (natStr n)))) from rfl,
    numOf_eq (k := g.octave) rfl, numOf_eq (k := g.loopCoeff) rfl,
    show textOf "SongName" g.xml = some g.songName from rfl,
    show textOf "Artist" g.xml = some g.artist from rfl]
  simp only [Option.bind_eq_bind, Option.bind_some, hs]

theorem readDevice_xml (d : DaoDevice) : readDevice d.xml = some d := by
  cases d <;> rfl

/-- The track elements: `SequencerTrack`, `SequencerMasterTrack`, `SequencerSendTrack`. -/
theorem readTrack_xml (n : String) (t : DaoTrack) : readTrack (t.xml n) = some t := by
  have hd : allSome ((kids (xNode "Devices" (t.devices.map DaoDevice.xml))).map readDevice)
      = some t.devices := by
    rw [kids_xNode]
    exact allSome_read _ _ _ (fun d _ => readDevice_xml d)
  obtain ⟨name, color, blend, state, soloed, pan, devices⟩ := t
  have h1 : numOf "ColorBlend" (DaoTrack.xml n ⟨name, color, blend, state, soloed, pan, devices⟩)
      = some blend := by
    apply numOf_eq; cases name <;> cases color <;> cases pan <;> rfl
  have h2 : textOf "State" (DaoTrack.xml n ⟨name, color, blend, state, soloed, pan, devices⟩)
      = some state := by
    cases name <;> cases color <;> cases pan <;> rfl
  have h3 : boolOf "Soloed" (DaoTrack.xml n ⟨name, color, blend, state, soloed, pan, devices⟩)
      = some soloed := by
    apply boolOf_eq; cases name <;> cases color <;> cases pan <;> rfl
  have h4 : child "FilterDevices" (DaoTrack.xml n ⟨name, color, blend, state, soloed, pan, devices⟩)
      = some (xNode "FilterDevices" [xNode "Devices" (devices.map DaoDevice.xml)]) := by
    cases name <;> cases color <;> cases pan <;> rfl
  have h5 : textOf "Name" (DaoTrack.xml n ⟨name, color, blend, state, soloed, pan, devices⟩)
      = name := by
    cases name <;> cases color <;> cases pan <;> rfl
  have h6 : textOf "Color" (DaoTrack.xml n ⟨name, color, blend, state, soloed, pan, devices⟩)
      = color := by
    cases name <;> cases color <;> cases pan <;> rfl
  have h7 : boolOf "PanningColumnIsVisible"
      (DaoTrack.xml n ⟨name, color, blend, state, soloed, pan, devices⟩) = pan := by
    cases pan with
    | none => cases name <;> cases color <;> rfl
    | some b => apply boolOf_eq; cases name <;> cases color <;> rfl
  unfold readTrack
  rw [h1, h2, h3, h4, h5, h6, h7]
  simp only [Option.bind_eq_bind, Option.bind_some]
  rw [show child "Devices" (xNode "FilterDevices" [xNode "Devices" (devices.map DaoDevice.xml)])
    = some (xNode "Devices" (devices.map DaoDevice.xml)) from rfl]
  simp only [Option.bind_some]
  simp only at hd
  rw [hd]
  rfl

theorem readTracks_xml (t : DaoTracks) : readTracks t.xml = some t := by
  have key : ∀ n : String,
      named n t.xml =
        (if "SequencerTrack" = n then t.sequencerTrack.map (DaoTrack.xml "SequencerTrack") else []) ++
        (if "SequencerMasterTrack" = n then
          t.sequencerMasterTrack.map (DaoTrack.xml "SequencerMasterTrack") else []) ++
        (if "SequencerSendTrack" = n then
          t.sequencerSendTrack.map (DaoTrack.xml "SequencerSendTrack") else []) := by
    intro n
    unfold named DaoTracks.xml
    rw [kids_xNode, List.filter_append, List.filter_append,
      filter_names _ _ _ "SequencerTrack" (fun _ _ => rfl),
      filter_names _ _ _ "SequencerMasterTrack" (fun _ _ => rfl),
      filter_names _ _ _ "SequencerSendTrack" (fun _ _ => rfl)]
  unfold readTracks
  rw [key, key, key]
  simp only [reduceIte, String.reduceEq, List.append_nil, List.nil_append]
  rw [allSome_read _ _ _ (fun t _ => readTrack_xml _ t),
    allSome_read _ _ _ (fun t _ => readTrack_xml _ t),
    allSome_read _ _ _ (fun t _ => readTrack_xml _ t)]
  rfl

theorem readNoteColumn_xml (c : DaoNoteColumn) : readNoteColumn c.xml = some c := by
  obtain ⟨note, instrument, panning⟩ := c
  cases instrument <;> cases panning <;> rfl

theorem readLine_xml (l : DaoLine) : readLine l.xml = some l := by
  obtain ⟨index, cols⟩ := l
  unfold readLine
  rw [show attr "index" (DaoLine.xml ⟨index, cols⟩) = some (intStr index) from rfl,
    show child "NoteColumns" (DaoLine.xml ⟨index, cols⟩) =
      some (xNode "NoteColumns" (cols.map DaoNoteColumn.xml)) from rfl]
  simp only [Option.bind_eq_bind, Option.bind_some, readInt_intStr]
  unfold named
  rw [kids_xNode, filter_names _ _ _ "NoteColumn" (fun _ _ => rfl), if_pos rfl,
    allSome_read _ _ _ (fun c _ => readNoteColumn_xml c)]
  rfl

theorem readPatternTrack_xml (t : DaoPatternTrack) : readPatternTrack t.xml = some t := by
  obtain ⟨lines⟩ := t
  unfold readPatternTrack
  rw [show child "Lines" (DaoPatternTrack.xml ⟨lines⟩) =
      some (xNode "Lines" (lines.map DaoLine.xml)) from rfl]
  simp only [Option.bind_eq_bind, Option.bind_some]
  unfold named
  rw [kids_xNode, filter_names _ _ _ "Line" (fun _ _ => rfl), if_pos rfl,
    allSome_read _ _ _ (fun c _ => readLine_xml c)]
  rfl

theorem map_empty (l : List DaoEmpty) (f : Xml → DaoEmpty) (g : DaoEmpty → Xml) :
    (l.map g).map f = l := by
  rw [List.map_map]
  exact List.map_id'' (fun _ => rfl) l

theorem readPattern_xml (p : DaoPattern) : readPattern p.xml = some p := by
  obtain ⟨a, b, c⟩ := p
  have key : ∀ n : String,
      named n (xNode "Tracks" (a.map DaoPatternTrack.xml ++
        b.map (fun _ => xTyped "PatternMasterTrack" []) ++
        c.map (fun _ => xTyped "PatternSendTrack" []))) =
        (if "PatternTrack" = n then a.map DaoPatternTrack.xml else []) ++
        (if "PatternMasterTrack" = n then b.map (fun _ => xTyped "PatternMasterTrack" []) else []) ++
        (if "PatternSendTrack" = n then c.map (fun _ => xTyped "PatternSendTrack" []) else []) := by
    intro n
    unfold named
    rw [kids_xNode, List.filter_append, List.filter_append,
      filter_names _ _ _ "PatternTrack" (fun _ _ => rfl),
      filter_names _ _ _ "PatternMasterTrack" (fun _ _ => rfl),
      filter_names _ _ _ "PatternSendTrack" (fun _ _ => rfl)]
  unfold readPattern
  rw [show child "Tracks" (DaoPattern.xml ⟨a, b, c⟩) = some (xNode "Tracks"
    (a.map DaoPatternTrack.xml ++ b.map (fun _ => xTyped "PatternMasterTrack" []) ++
      c.map (fun _ => xTyped "PatternSendTrack" []))) from rfl]
  simp only [Option.bind_eq_bind, Option.bind_some]
  rw [key, key, key]
  simp only [reduceIte, String.reduceEq, List.append_nil, List.nil_append]
  rw [allSome_read _ _ _ (fun t _ => readPatternTrack_xml t), map_empty, map_empty]
  rfl

/-- The elements of a song are read back as the song. -/
theorem readSong_xml (d : DaoSong) : readSong d.xml = some d := by
  obtain ⟨g, ins, trs, pats, sq⟩ := d
  unfold readSong
  rw [if_pos ⟨rfl, rfl⟩,
    show child "GlobalSongData" (DaoSong.xml ⟨g, ins, trs, pats, sq⟩) = some g.xml from rfl,
    show child "Instruments" (DaoSong.xml ⟨g, ins, trs, pats, sq⟩) =
      some (xNode "Instruments" (ins.map (fun _ => xNode "Instrument" []))) from rfl,
    show child "Tracks" (DaoSong.xml ⟨g, ins, trs, pats, sq⟩) = some trs.xml from rfl,
    show child "PatternPool" (DaoSong.xml ⟨g, ins, trs, pats, sq⟩) =
      some (xNode "PatternPool" [xNode "Patterns" (pats.map DaoPattern.xml)]) from rfl,
    show child "PatternSequence" (DaoSong.xml ⟨g, ins, trs, pats, sq⟩) =
      some (xNode "PatternSequence" [xNode "SequenceEntries"
        (sq.map (fun p => xNode "SequenceEntry" [xText "Pattern" (natStr p)]))]) from rfl]
  simp only [Option.bind_eq_bind, Option.bind_some, readGlobals_xml, readTracks_xml]
  rw [show child "Patterns" (xNode "PatternPool" [xNode "Patterns" (pats.map DaoPattern.xml)]) =
      some (xNode "Patterns" (pats.map DaoPattern.xml)) from rfl,
    show child "SequenceEntries" (xNode "PatternSequence" [xNode "SequenceEntries"
        (sq.map (fun p => xNode "SequenceEntry" [xText "Pattern" (natStr p)]))]) =
      some (xNode "SequenceEntries"
        (sq.map (fun p => xNode "SequenceEntry" [xText "Pattern" (natStr p)]))) from rfl]
  simp only [Option.bind_some]
  unfold named
  rw [kids_xNode, kids_xNode, kids_xNode, filter_names _ _ _ "Pattern" (fun _ _ => rfl), if_pos rfl,
    filter_names _ _ _ "SequenceEntry" (fun _ _ => rfl), if_pos rfl,
    filter_names _ _ _ "Instrument" (fun _ _ => rfl), if_pos rfl,
    allSome_read _ _ _ (fun t _ => readPattern_xml t),
    allSome_read _ _ _ (fun p _ => numOf_eq (k := p) rfl), map_empty]
  rfl

end VgmX
