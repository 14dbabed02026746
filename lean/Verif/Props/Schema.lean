import Verif.Spec.Schema
import Verif.Props.OwnSong
/-
C110: the song document is of the format that its classes declare. Vocabulary: Spec/Schema.lean.
-/

namespace VgmX
open Spec Spec.Schema

theorem inOrder_step {fs : List Field} {x : Xml} {l : List Xml} (f : Field) (rest : List Field)
    (h : fs.dropWhile (fun f => f.name.toList != tagName x) = f :: rest)
    (hx : validAs f.ty x = true)
    (hl : inOrder (if f.many then f :: rest else rest) (.ofList l) = true) :
    inOrder fs (.ofList (x :: l)) = true := by
  rw [XmlList.ofList, inOrder, h]
  simp only [hx, hl, Bool.and_self]

/-- A run of elements of the same repeatable kind. -/
theorem inOrder_many {fs : List Field} {α : Type} (g : α → Xml) (f : Field) (rest : List Field)
    (l : List α) (r : List Xml) (hm : f.many = true)
    (h : ∀ a, tagName (g a) = f.name.toList)
    (hfs : fs.dropWhile (fun k => k.name.toList != f.name.toList) = f :: rest)
    (hx : ∀ a ∈ l, validAs f.ty (g a) = true)
    (h0 : inOrder fs (.ofList r) = true)
    (hr : inOrder (f :: rest) (.ofList r) = true) :
    inOrder fs (.ofList (l.map g ++ r)) = true := by
  have key : ∀ l : List α, (∀ a ∈ l, validAs f.ty (g a) = true) →
      inOrder (f :: rest) (.ofList (l.map g ++ r)) = true := by
    intro l
    induction l with
    | nil => intro _; exact hr
    | cons a l ih =>
      intro hx
      refine inOrder_step f rest ?_ (hx a (by simp)) ?_
      · rw [h a]; simp [List.dropWhile]
      · rw [if_pos hm]; exact ih (fun b hb => hx b (by simp [hb]))
  cases l with
  | nil => exact h0
  | cons a l =>
    refine inOrder_step f rest ?_ (hx a (by simp)) ?_
    · rw [h a]; exact hfs
    · rw [if_pos hm]; exact key l (fun b hb => hx b (by simp [hb]))

theorem validAs_node {c : Cls} {n : Str} {a : List (Str × Str)} {l : List Xml}
    (ha : attrsOk c a = true) (hl : inOrder (classDef c).fields (.ofList l) = true) :
    validAs (.cls c) (.node n a (.ofList l)) = true := by
  rw [validAs, ha, hl]; rfl

theorem validAs_text {ty : Ty} {n : String} {t : Str} (h : textOk t ty = true) :
    validAs ty (xText n t) = true := by
  rw [xText, validAs, h]; rfl

theorem isInt_intStr (z : Int) : isInt (intStr z) = true := by
  unfold isInt; rw [readInt_intStr]; rfl

theorem isInt_natStr (n : Nat) : isInt (natStr n) = true := isInt_intStr n

theorem intStr_noPoint (z : Int) : ∀ c ∈ intStr z, (c != '.') = true := by
  have hn : ∀ n, ∀ c ∈ natStr n, (c != '.') = true := by
    intro n c hc
    obtain ⟨d, _, rfl⟩ := List.mem_map.mp hc
    unfold digitChar
    split <;> decide
  cases z with
  | ofNat n => exact hn n
  | negSucc n =>
    intro c hc
    rcases List.mem_cons.mp hc with e | e
    · rw [e]; decide
    · exact hn _ c e

theorem isFloat_intStr (z : Int) : isFloat (intStr z) = true := by
  have h := intStr_noPoint z
  unfold isFloat
  have hd : ∀ l : Str, (∀ c ∈ l, (c != '.') = true) → l.dropWhile (· != '.') = [] := by
    intro l hl
    induction l with
    | nil => rfl
    | cons a l ih =>
      rw [List.dropWhile_cons, if_pos (hl a (by simp))]
      exact ih (fun c hc => hl c (by simp [hc]))
  have hd := hd _ h
  have ht := List.takeWhile_append_dropWhile (p := (· != '.')) (l := intStr z)
  rw [hd, List.append_nil] at ht
  rw [hd, ht, isInt_intStr]
  rfl

theorem isFloat_natStr (n : Nat) : isFloat (natStr n) = true := isFloat_intStr n

theorem textOk_bool (b : Bool) :
    textOk (if b then "true".toList else "false".toList) .bool = true := by
  cases b <;> decide

theorem valid_globals (g : DaoGlobals) : validAs (.cls .globalSongData) g.xml = true := by
  refine validAs_node (by decide) ?_
  refine inOrder_step _ _ rfl (validAs_text (isFloat_intStr _)) ?_
  refine inOrder_step _ _ rfl (validAs_text (isInt_natStr _)) ?_
  refine inOrder_step _ _ rfl (validAs_text (isInt_natStr _)) ?_
  refine inOrder_step _ _ rfl (validAs_text (isInt_natStr _)) ?_
  refine inOrder_step _ _ rfl (validAs_text (isInt_natStr _)) ?_
  refine inOrder_step _ _ rfl (validAs_text (isInt_natStr _)) ?_
  refine inOrder_step _ _ rfl (validAs_text (isInt_natStr _)) ?_
  refine inOrder_step _ _ rfl (validAs_text (textOk_bool _)) ?_
  refine inOrder_step _ _ rfl ?_ ?_
  · refine validAs_node (by decide) ?_
    have := inOrder_many (fs := (classDef .globalSongDataShuffleAmounts).fields)
      (fun n => xText "ShuffleAmount" (natStr n)) ⟨"ShuffleAmount", .int, true⟩ []
      g.shuffleAmounts [] rfl (fun _ => rfl) rfl (fun _ _ => validAs_text (isInt_natStr _)) rfl rfl
    rwa [List.append_nil] at this
  refine inOrder_step _ _ rfl (validAs_text (isInt_natStr _)) ?_
  refine inOrder_step _ _ rfl (validAs_text (isInt_natStr _)) ?_
  refine inOrder_step _ _ rfl (validAs_text rfl) ?_
  refine inOrder_step _ _ rfl (validAs_text rfl) ?_
  rfl

/-- A track whose state is one of the three and which has one device. -/
theorem valid_trackKids (fs : List Field)
    (hfs : fs = (classDef .sequencerTrack).fields) (t : DaoTrack) (dev : DaoDevice)
    (hs : t.state ∈ ["Active".toList, "Off".toList, "Mute".toList]) (hd : t.devices = [dev]) :
    inOrder fs (.ofList (xOpt "Name" t.name ++ xOpt "Color" t.color ++
      [xText "ColorBlend" (natStr t.colorBlend), xText "State" t.state, xBool "Soloed" t.soloed] ++
      (match t.panningColumnIsVisible with
        | none => []
        | some b => [xBool "PanningColumnIsVisible" b]) ++
      [xNode "FilterDevices" [xNode "Devices" (t.devices.map DaoDevice.xml)]])) = true := by
  subst hfs
  rw [hd]
  have hstate : textOk t.state (.oneOf ["Active", "Off", "Mute"]) = true := by
    simp only [List.mem_cons, List.not_mem_nil, or_false] at hs
    rcases hs with h | h | h <;> rw [h] <;> decide
  have hdev : validAs (.cls .trackFilterDeviceChain)
      (xNode "FilterDevices" [xNode "Devices" ([dev].map DaoDevice.xml)]) = true := by
    cases dev <;> decide
  cases hn : t.name <;> cases hc : t.color <;> cases hp : t.panningColumnIsVisible <;>
    simp only [xOpt, List.nil_append, List.cons_append]
  all_goals
    first
    | refine inOrder_step ⟨"Name", .text, false⟩ _ rfl (validAs_text rfl) ?_
    | skip
    first
    | refine inOrder_step ⟨"Color", .text, false⟩ _ rfl (validAs_text rfl) ?_
    | skip
    refine inOrder_step ⟨"ColorBlend", .float, false⟩ _ rfl (validAs_text (isFloat_natStr _)) ?_
    refine inOrder_step ⟨"State", .oneOf ["Active", "Off", "Mute"], false⟩ _ rfl
      (validAs_text hstate) ?_
    refine inOrder_step ⟨"Soloed", .bool, false⟩ _ rfl (validAs_text (textOk_bool _)) ?_
    first
    | refine inOrder_step ⟨"PanningColumnIsVisible", .bool, false⟩ _ rfl
        (validAs_text (textOk_bool _)) ?_
    | skip
    exact inOrder_step ⟨"FilterDevices", .cls .trackFilterDeviceChain, false⟩ _ rfl hdev rfl

theorem valid_track (c : Cls) (n : String) (hf : (classDef c).fields = (classDef .sequencerTrack).fields)
    (ha : attrsOk c [("type".toList, n.toList)] = true) (t : DaoTrack) (dev : DaoDevice)
    (hs : t.state ∈ ["Active".toList, "Off".toList, "Mute".toList]) (hd : t.devices = [dev]) :
    validAs (.cls c) (t.xml n) = true :=
  validAs_node ha (valid_trackKids _ hf t dev hs hd)

theorem mem_renderSeqTracks (ts : List SequencerTrack) (cs : List Str) :
    ∀ t ∈ renderSeqTracks ts cs, ∃ u ∈ ts, t.state = u.state ∧ t.devices = [.trackMixer] := by
  induction ts generalizing cs with
  | nil => simp [renderSeqTracks]
  | cons u ts ih =>
    have go : ∀ (cs : List Str) (c : Option Str), ∀ t ∈ renderTrack u c :: renderSeqTracks ts cs,
        ∃ u' ∈ u :: ts, t.state = u'.state ∧ t.devices = [.trackMixer] := by
      intro cs c t ht
      rcases List.mem_cons.mp ht with rfl | ht
      · exact ⟨u, by simp, rfl, rfl⟩
      · obtain ⟨v, hv, h⟩ := ih cs t ht
        exact ⟨v, by simp [hv], h⟩
    cases cs with
    | nil => exact go [] none
    | cons c cs => exact go cs (some c)

theorem valid_tracks (s : Song) (h : StatesOk s) :
    validAs (.cls .renoiseSongTracks) (renderTracks s.tracks).xml = true := by
  refine validAs_node (by decide) ?_
  rw [List.append_assoc]
  have h3 : ∀ fs, fs.dropWhile (fun k : Field => k.name.toList != "SequencerSendTrack".toList) =
      [⟨"SequencerSendTrack", .cls .sequencerSendTrack, true⟩] →
      inOrder fs (.ofList ((renderTracks s.tracks).sequencerSendTrack.map
        (DaoTrack.xml "SequencerSendTrack"))) = true := by
    intro fs hfs
    have := inOrder_many (fs := fs) (DaoTrack.xml "SequencerSendTrack")
      ⟨"SequencerSendTrack", .cls .sequencerSendTrack, true⟩ []
      (renderTracks s.tracks).sequencerSendTrack [] rfl (fun _ => rfl) hfs (by
        intro t ht
        obtain ⟨u, hu, rfl⟩ := List.mem_map.mp ht
        exact valid_track .sequencerSendTrack _ (by decide) (by decide) _ .sendTrackMixer
          (h u (by simp [hu])) rfl) (by rw [XmlList.ofList, inOrder]) rfl
    rwa [List.append_nil] at this
  have h2 : ∀ fs, fs.dropWhile (fun k : Field => k.name.toList != "SequencerMasterTrack".toList) =
      [⟨"SequencerMasterTrack", .cls .sequencerMasterTrack, true⟩,
        ⟨"SequencerSendTrack", .cls .sequencerSendTrack, true⟩] →
      fs.dropWhile (fun k : Field => k.name.toList != "SequencerSendTrack".toList) =
      [⟨"SequencerSendTrack", .cls .sequencerSendTrack, true⟩] →
      inOrder fs (.ofList ((renderTracks s.tracks).sequencerMasterTrack.map
        (DaoTrack.xml "SequencerMasterTrack") ++
        (renderTracks s.tracks).sequencerSendTrack.map (DaoTrack.xml "SequencerSendTrack"))) =
        true := by
    intro fs hfs hfs'
    refine inOrder_many (fs := fs) (DaoTrack.xml "SequencerMasterTrack")
      ⟨"SequencerMasterTrack", .cls .sequencerMasterTrack, true⟩ _ _ _ rfl (fun _ => rfl) hfs ?_
      (h3 fs hfs') (h3 _ rfl)
    intro t ht
    obtain ⟨u, hu, rfl⟩ := List.mem_map.mp ht
    exact valid_track .sequencerMasterTrack _ (by decide) (by decide) _ .masterTrackMixer
      (h u (by simp [hu])) rfl
  refine inOrder_many (DaoTrack.xml "SequencerTrack")
    ⟨"SequencerTrack", .cls .sequencerTrack, true⟩ _ _ _ rfl (fun _ => rfl) rfl ?_
    (h2 _ rfl rfl) (h2 _ rfl rfl)
  intro t ht
  obtain ⟨u, hu, h1, h2⟩ := mem_renderSeqTracks _ _ t ht
  exact valid_track .sequencerTrack _ (by decide) (by decide) _ .trackMixer
    (h1 ▸ h u (by simp [hu])) h2

theorem valid_line (l : DaoLine) : validAs (.cls .patternLineNode) l.xml = true := by
  refine validAs_node ?_ ?_
  · unfold attrsOk
    have h : attrDeclared (classDef .patternLineNode).attrs ("index".toList, intStr l.index) = true := by
      simp [attrDeclared, classDef, isInt_intStr]
    simp only [List.all_cons, List.all_nil, Bool.and_true, h, Bool.true_and]
    rfl
  · refine inOrder_step _ _ rfl ?_ rfl
    refine validAs_node (by decide) ?_
    have := inOrder_many (fs := (classDef .patternLineNodeNoteColumns).fields) DaoNoteColumn.xml
      ⟨"NoteColumn", .cls .patternLineNoteColumnNode, true⟩ [] l.noteColumns [] rfl (fun _ => rfl) rfl
      (by
        intro c _
        refine validAs_node (by decide) ?_
        refine inOrder_step ⟨"Note", .text, false⟩ _ rfl (validAs_text rfl) ?_
        cases c.instrument <;> cases c.panning
        · rfl
        · exact inOrder_step ⟨"Panning", .text, false⟩ _ rfl (validAs_text rfl) rfl
        · exact inOrder_step ⟨"Instrument", .text, false⟩ _ rfl (validAs_text rfl) rfl
        · exact inOrder_step ⟨"Instrument", .text, false⟩ _ rfl (validAs_text rfl)
            (inOrder_step ⟨"Panning", .text, false⟩ _ rfl (validAs_text rfl) rfl)) rfl rfl
    rwa [List.append_nil] at this

theorem valid_pattern (p : DaoPattern) : validAs (.cls .pattern) p.xml = true := by
  refine validAs_node (by decide) ?_
  refine inOrder_step _ _ rfl ?_ rfl
  refine validAs_node (by decide) ?_
  rw [List.append_assoc]
  have h3 : ∀ fs, fs.dropWhile (fun k : Field => k.name.toList != "PatternSendTrack".toList) =
      [⟨"PatternSendTrack", .cls .patternSendTrack, true⟩] →
      inOrder fs (.ofList (p.patternSendTrack.map (fun _ => xTyped "PatternSendTrack" []))) = true := by
    intro fs hfs
    have := inOrder_many (fs := fs) (fun _ : DaoEmpty => xTyped "PatternSendTrack" [])
      ⟨"PatternSendTrack", .cls .patternSendTrack, true⟩ [] p.patternSendTrack [] rfl
      (fun _ => rfl) hfs (fun _ _ => by decide) (by rw [XmlList.ofList, inOrder]) rfl
    rwa [List.append_nil] at this
  have h2 : ∀ fs, fs.dropWhile (fun k : Field => k.name.toList != "PatternMasterTrack".toList) =
      [⟨"PatternMasterTrack", .cls .patternMasterTrack, true⟩,
        ⟨"PatternSendTrack", .cls .patternSendTrack, true⟩] →
      fs.dropWhile (fun k : Field => k.name.toList != "PatternSendTrack".toList) =
        [⟨"PatternSendTrack", .cls .patternSendTrack, true⟩] →
      inOrder fs (.ofList (p.patternMasterTrack.map (fun _ => xTyped "PatternMasterTrack" []) ++
        p.patternSendTrack.map (fun _ => xTyped "PatternSendTrack" []))) = true := by
    intro fs hfs hfs'
    exact inOrder_many (fs := fs) (fun _ : DaoEmpty => xTyped "PatternMasterTrack" [])
      ⟨"PatternMasterTrack", .cls .patternMasterTrack, true⟩ _ _ _ rfl (fun _ => rfl) hfs
      (fun _ _ => by decide) (h3 fs hfs') (h3 _ rfl)
  refine inOrder_many DaoPatternTrack.xml ⟨"PatternTrack", .cls .patternTrack, true⟩ _ _ _ rfl
    (fun _ => rfl) rfl ?_ (h2 _ rfl rfl) (h2 _ rfl rfl)
  intro t _
  refine validAs_node (by decide) ?_
  refine inOrder_step ⟨"Lines", .cls .patternTrackLines, false⟩ _ rfl ?_ rfl
  refine validAs_node (by decide) ?_
  have := inOrder_many (fs := (classDef .patternTrackLines).fields) DaoLine.xml
    ⟨"Line", .cls .patternLineNode, true⟩ [] t.lines [] rfl (fun _ => rfl) rfl
    (fun l _ => valid_line l) rfl rfl
  rwa [List.append_nil] at this

theorem valid_song (s : Song) (h : StatesOk s) :
    validAs (.cls .renoiseSong) (render s).xml = true := by
  refine validAs_node (by decide) ?_
  refine inOrder_step _ _ rfl (valid_globals _) ?_
  refine inOrder_step _ _ rfl ?_ ?_
  · refine validAs_node (by decide) ?_
    have := inOrder_many (fs := (classDef .renoiseSongInstruments).fields)
      (fun _ : DaoEmpty => xNode "Instrument" []) ⟨"Instrument", .cls .renoiseInstrument, true⟩ []
      (render s).instruments [] rfl (fun _ => rfl) rfl (fun _ _ => by decide) rfl rfl
    rwa [List.append_nil] at this
  refine inOrder_step _ _ rfl (valid_tracks s h) ?_
  refine inOrder_step _ _ rfl ?_ ?_
  · refine validAs_node (by decide) ?_
    refine inOrder_step ⟨"Patterns", .cls .patternPoolPatterns, false⟩ _ rfl ?_ rfl
    refine validAs_node (by decide) ?_
    have := inOrder_many (fs := (classDef .patternPoolPatterns).fields) DaoPattern.xml
      ⟨"Pattern", .cls .pattern, true⟩ [] (render s).patterns [] rfl (fun _ => rfl) rfl
      (fun p _ => valid_pattern p) rfl rfl
    rwa [List.append_nil] at this
  refine inOrder_step _ _ rfl ?_ rfl
  refine validAs_node (by decide) ?_
  refine inOrder_step ⟨"SequenceEntries", .cls .patternSequenceSequenceEntries, false⟩ _ rfl ?_ rfl
  refine validAs_node (by decide) ?_
  have := inOrder_many (fs := (classDef .patternSequenceSequenceEntries).fields)
    (fun p : Nat => xNode "SequenceEntry" [xText "Pattern" (natStr p)])
    ⟨"SequenceEntry", .cls .patternSequenceEntry, true⟩ [] (render s).sequenceEntries [] rfl
    (fun _ => rfl) rfl (fun p _ => validAs_node (by decide)
      (inOrder_step ⟨"Pattern", .int, false⟩ _ rfl (validAs_text (isInt_natStr p)) rfl)) rfl rfl
  rwa [List.append_nil] at this

/-- C110: The document of any song whose texts XML can carry and whose tracks have one of the
states that the format knows is of the format: each element is one that the class of its parent
declares, in the declared order, repeated only where that is allowed, with a value of the declared
type and the declared attributes. -/
theorem c110_song (s : Song) (hc : CarriedSong s) (hs : StatesOk s) :
    validDocument (songXml (render s)) = true := by
  unfold validDocument songXml
  rw [parseXml_document _ (cok_song (render_carried hc)).wf]
  simp only [valid_song s hs, Bool.and_true]
  rfl

/-- C110: So is every exported document, for every state of the chip and every number of samples
per row. -/
theorem c110_export (s : State) (ticks : Int) (d : DaoSong) (h : exportXrns s ticks = .ok d) :
    validDocument (songXml d) = true := by
  unfold exportXrns at h
  cases hs : exportSong s ticks with
  | error e => rw [hs] at h; simp at h
  | ok song =>
    rw [hs] at h
    have h := Except.ok.inj h
    subst h
    have hst : StatesOk song := by
      unfold exportSong at hs
      simp only at hs
      split at hs
      · simp at hs
      · split at hs
        · simp at hs
        · rename_i _ bpm _ _ pool hp
          have hs := Except.ok.inj hs
          obtain ⟨-, h2, -⟩ := addPattern_fold (List.range pool.patterns.length)
            { { Song.new 8 s.configs.length with
                globals := { (Song.new 8 s.configs.length).globals with beatsPerMin := bpm } } with
              patternPool := pool }
          rw [hs] at h2
          unfold StatesOk
          rw [h2]
          show ∀ t ∈ (Tracks.new 8).tracks ++ (Tracks.new 8).masterTracks ++
            (Tracks.new 8).sendTracks, _
          decide +kernel
    unfold validDocument songXml
    rw [parseXml_document _ (ok_song (exportSong_texts hs)).wf]
    simp only [valid_song song hst, Bool.and_true]
    rfl

/-- C110: The same seen from the file: what is in the archive is such a document. -/
theorem c110_file (zip64 : DateTime → Bytes → Bytes → Except PyErr Unit × Bytes) (t : DateTime)
    (hc : ClockReading t) (hy : ZipYear t) (s : State) (ticks : Int) (d : DaoSong)
    (h : exportXrns s ticks = .ok d) (hl : (songXml d).length < maxDocument) :
    ∃ e text, unzip (writeSong zip64 t d).2 = some [e] ∧ utf8Decode e.data = some text ∧
      validDocument text = true := by
  have hascii : ∀ c ∈ songXml d, c.toNat < 128 := by
    intro c hc
    rcases (c63_document s ticks d h).2 c hc with h | h
    · omega
    · rw [h]; decide
  have hlen : (utf8 (songXml d)).length < maxDocument := by
    rw [utf8_ascii _ hascii, List.length_map]; exact hl
  obtain ⟨date, time, -, h2, -, -⟩ := c62_unzip zip64 t hc hy (utf8 "Song.xml".toList)
    (utf8 (songXml d)) (by decide) hlen
  exact ⟨_, songXml d, h2, utf8Decode_utf8 _, c110_export s ticks d h⟩

/-- Wrong documents are not accepted: an unknown element, a wrong order, a repeated element, a value
of another type, a missing attribute. -/
example :
    validDocument "<RenoiseSong doc_version=\"65\"><GlobalSongData/><Tracks/></RenoiseSong>".toList = true ∧
    validDocument "<RenoiseSong doc_version=\"65\"><Tracks/><GlobalSongData/></RenoiseSong>".toList = false ∧
    validDocument "<RenoiseSong doc_version=\"65\"><Tracks/><Tracks/></RenoiseSong>".toList = false ∧
    validDocument "<RenoiseSong doc_version=\"65\"><Track/></RenoiseSong>".toList = false ∧
    validDocument "<RenoiseSong doc_version=\"65\"><SelectedTrackIndex>x</SelectedTrackIndex></RenoiseSong>".toList = false ∧
    validDocument "<RenoiseSong><Tracks/></RenoiseSong>".toList = false := by
  decide +kernel

/-- A song that meets the hypotheses. -/
example : StatesOk c109Song := by
  unfold StatesOk
  decide +kernel

end VgmX
