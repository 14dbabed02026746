import Verif.Lemmas.SongText
import Verif.Spec.OwnSong
/-
Songs with the caller's own texts: their document has no carriage return and is read back. The
lemmas are those of Lemmas/SongText with `XmlChar` (any character XML can carry) in the place of
printable ASCII.
-/

namespace VgmX
open Spec


/-- A name all of whose characters can be carried. -/
def NameCarried (n : Str) : Prop := IsName n ∧ ∀ c ∈ n, XmlChar c

instance (n : Str) : Decidable (NameCarried n) := by unfold NameCarried; infer_instance

mutual
/-- All names and texts of an element. -/
def Xml.Carried : Xml → Prop
  | .leaf n a t => NameCarried n ∧ (∀ x ∈ a, NameCarried x.1 ∧ ∀ c ∈ x.2, XmlChar c) ∧ CarriedText t
  | .node n a l => NameCarried n ∧ (∀ x ∈ a, NameCarried x.1 ∧ ∀ c ∈ x.2, XmlChar c) ∧ l.Carried
/-- See `Xml.Carried`. -/
def XmlList.Carried : XmlList → Prop
  | .nil => True
  | .cons x l => x.Carried ∧ l.Carried
end

mutual
theorem Xml.Carried.wf {x : Xml} (h : x.Carried) : x.WF := by
  match x, h with
  | .leaf n a t, h => exact ⟨h.1.1, fun x hx => (h.2.1 x hx).1.1, h.2.2.1⟩
  | .node n a l, h => exact ⟨h.1.1, fun x hx => (h.2.1 x hx).1.1, h.2.2.wf⟩
theorem XmlList.Carried.wf {l : XmlList} (h : l.Carried) : l.WF := by
  match l, h with
  | .nil, _ => trivial
  | .cons x l, h => exact ⟨h.1.wf, h.2.wf⟩
end

theorem cdoc_escapeChar {c : Char} (h : XmlChar c) : ∀ d ∈ xmlEscapeChar c, XmlChar d := by
  unfold xmlEscapeChar
  split
  · decide
  · split
    · decide
    · split
      · decide
      · intro d hd; rw [List.mem_singleton.mp hd]; exact h

theorem cdoc_escape {t : Str} (h : ∀ c ∈ t, XmlChar c) : ∀ d ∈ xmlEscape t, XmlChar d := by
  intro d hd
  obtain ⟨c, hc, hd⟩ := List.mem_flatMap.mp hd
  exact cdoc_escapeChar (h c hc) d hd

theorem cdoc_escapeAttrChar {c : Char} (h : XmlChar c) :
    ∀ d ∈ xmlEscapeAttrChar c, XmlChar d := by
  unfold xmlEscapeAttrChar
  split
  · decide
  · split
    · decide
    · split
      · decide
      · split
        · decide
        · exact cdoc_escapeChar h

theorem cdoc_attrs {a : List (Str × Str)} (h : ∀ x ∈ a, NameCarried x.1 ∧ ∀ c ∈ x.2, XmlChar c) :
    ∀ d ∈ xmlAttrs a, XmlChar d := by
  induction a with
  | nil => simp [xmlAttrs]
  | cons x a ih =>
    obtain ⟨k, v⟩ := x
    intro d hd
    have hx := h (k, v) (by simp)
    simp only [xmlAttrs, List.mem_append, List.mem_cons, List.cons_append] at hd
    rcases hd with hd | (((hd | hd) | hd) | (hd | hd)) | hd
    · rw [hd]; decide
    · exact hx.1.2 d hd
    · revert hd; revert d; decide
    · obtain ⟨c, hc, hd⟩ := List.mem_flatMap.mp hd
      exact cdoc_escapeAttrChar (hx.2 c hc) d hd
    · rw [hd]; decide
    · exact absurd hd (by simp)
    · exact ih (fun x hx => h x (by simp [hx])) d hd

theorem cdoc_indent (n : Nat) : ∀ d ∈ xmlIndent n, XmlChar d := by
  intro d hd
  rw [(List.mem_replicate.mp hd).2]; decide

theorem cdoc_append {s t : Str} (hs : ∀ d ∈ s, XmlChar d) (ht : ∀ d ∈ t, XmlChar d) :
    ∀ d ∈ s ++ t, XmlChar d := by
  intro d hd
  rcases List.mem_append.mp hd with h | h
  · exact hs d h
  · exact ht d h

theorem cdoc_cons {c : Char} {t : Str} (hc : XmlChar c) (ht : ∀ d ∈ t, XmlChar d) :
    ∀ d ∈ c :: t, XmlChar d := by
  intro d hd
  rcases List.mem_cons.mp hd with h | h
  · rw [h]; exact hc
  · exact ht d h

theorem cdoc_name {n : Str} (h : NameCarried n) : ∀ d ∈ n, XmlChar d := fun d hd => h.2 d hd

mutual
theorem cdoc_text {x : Xml} (h : x.Carried) (n : Nat) : ∀ d ∈ x.text n, XmlChar d := by
  match x, h with
  | .leaf nm a t, h =>
    rw [Xml.text]
    exact cdoc_append (cdoc_append (cdoc_append (cdoc_append (cdoc_append (cdoc_indent n)
      (cdoc_cons (by decide) (cdoc_name h.1))) (cdoc_attrs h.2.1))
      (cdoc_cons (by decide) (cdoc_escape h.2.2.2)) |> fun q => cdoc_append q (by decide))
      (cdoc_name h.1)) (by decide)
  | .node nm a .nil, h =>
    rw [Xml.text]
    exact cdoc_append (cdoc_append (cdoc_append (cdoc_indent n)
      (cdoc_cons (by decide) (cdoc_name h.1))) (cdoc_attrs h.2.1)) (by decide)
  | .node nm a (.cons x l), h =>
    rw [Xml.text]
    exact cdoc_append (cdoc_append (cdoc_append (cdoc_append (cdoc_append (cdoc_append (cdoc_append
      (cdoc_append (cdoc_append (cdoc_indent n)
      (cdoc_cons (by decide) (cdoc_name h.1))) (cdoc_attrs h.2.1)) (by decide))
      (cdoc_text h.2.2.1 (n + 1))) (cdoc_texts h.2.2.2 (n + 1))) (cdoc_indent n)) (by decide))
      (cdoc_name h.1)) (by decide)
theorem cdoc_texts {l : XmlList} (h : l.Carried) (n : Nat) : ∀ d ∈ l.text n, XmlChar d := by
  match l, h with
  | .nil, _ => simp [XmlList.text]
  | .cons x l, h =>
    rw [XmlList.text]
    exact cdoc_append (cdoc_text h.1 n) (cdoc_texts h.2 n)
end

theorem cdoc_document {x : Xml} (h : x.Carried) : ∀ d ∈ xmlDocument x, XmlChar d := by
  unfold xmlDocument
  exact cdoc_append (by decide +kernel) (cdoc_text h 0)

/-! ### Elements of songs -/

theorem cok_ofList (l : List Xml) : (XmlList.ofList l).Carried ↔ ∀ x ∈ l, x.Carried := by
  induction l with
  | nil => simp [XmlList.ofList, XmlList.Carried]
  | cons x l ih => simp [XmlList.ofList, XmlList.Carried, ih]

theorem cok_xText {n : String} {t : Str} (hn : NameCarried n.toList) (ht : CarriedText t) :
    (xText n t).Carried := ⟨hn, by simp, ht⟩

theorem cok_xNode {n : String} {l : List Xml} (hn : NameCarried n.toList) (h : ∀ x ∈ l, x.Carried) :
    (xNode n l).Carried := ⟨hn, by simp, (cok_ofList l).mpr h⟩

theorem cok_xTyped {n : String} {l : List Xml} (hn : NameCarried n.toList) (h : ∀ x ∈ l, x.Carried) :
    (xTyped n l).Carried := by
  refine ⟨hn, ?_, (cok_ofList l).mpr h⟩
  intro x hx
  rw [List.mem_singleton.mp hx]
  exact ⟨(by decide : NameCarried "type".toList), hn.2⟩

theorem cok_xOpt {n : String} {t : Option Str} (hn : NameCarried n.toList) (ht : ∀ s ∈ t, CarriedText s) :
    ∀ x ∈ xOpt n t, x.Carried := by
  cases t with
  | none => simp [xOpt]
  | some s =>
    intro x hx
    rw [List.mem_singleton.mp hx]
    exact cok_xText hn (ht s rfl)

theorem cok_xBool {n : String} {b : Bool} (hn : NameCarried n.toList) : (xBool n b).Carried :=
  cok_xText hn (by cases b <;> decide)

theorem digitChar_carried (n : Nat) : isBlank (digitChar n) = false ∧ XmlChar (digitChar n) := by
  unfold digitChar
  split <;> decide

theorem carried_of {t : Str} (hne : t ≠ []) (h : ∀ c ∈ t, isBlank c = false ∧ XmlChar c) :
    CarriedText t := by
  obtain ⟨c, t, rfl⟩ := List.exists_cons_of_ne_nil hne
  exact ⟨⟨c, by simp, (h c (by simp)).1⟩, fun d hd => (h d hd).2⟩

theorem carried_natStr (n : Nat) : CarriedText (natStr n) := by
  refine carried_of (natStr_ne_nil n) ?_
  intro c hc
  obtain ⟨d, _, rfl⟩ := List.mem_map.mp hc
  exact digitChar_carried d

theorem carried_intStr (z : Int) : CarriedText (intStr z) := by
  cases z with
  | ofNat n => exact carried_natStr n
  | negSucc n =>
    obtain ⟨⟨c, hc, hb⟩, h⟩ := carried_natStr (n + 1)
    refine ⟨⟨c, List.mem_cons_of_mem _ hc, hb⟩, ?_⟩
    intro d hd
    rcases List.mem_cons.mp hd with e | e
    · rw [e]; decide
    · exact h d e

theorem carried_hex2 (n : Nat) : CarriedText (hex2 n) := by
  refine carried_of ?_ ?_
  · have := (hex2_length n).1
    intro h; rw [h] at this; simp at this
  · intro c hc
    unfold hex2 padLeft at hc
    rcases List.mem_append.mp hc with h | h
    · rw [(List.mem_replicate.mp h).2]; decide
    · obtain ⟨d, _, rfl⟩ := List.mem_map.mp h
      exact digitChar_carried d

/-- A track of the song whose texts are good. -/
structure DaoTrack.Carried (t : DaoTrack) : Prop where
  name : ∀ s ∈ t.name, CarriedText s
  color : ∀ s ∈ t.color, CarriedText s
  state : CarriedText t.state

/-- A song whose texts are good. -/
structure DaoSong.Carried (d : DaoSong) : Prop where
  songName : CarriedText d.globalSongData.songName
  artist : CarriedText d.globalSongData.artist
  tracks : ∀ t ∈ d.tracks.sequencerTrack, t.Carried
  masters : ∀ t ∈ d.tracks.sequencerMasterTrack, t.Carried
  sends : ∀ t ∈ d.tracks.sequencerSendTrack, t.Carried
  cols : ∀ p ∈ d.patterns, ∀ t ∈ p.patternTrack, ∀ l ∈ t.lines, ∀ c ∈ l.noteColumns,
    CarriedText c.note ∧ (∀ s ∈ c.instrument, CarriedText s) ∧ (∀ s ∈ c.panning, CarriedText s)

theorem cok_track {n : String} {t : DaoTrack} (hn : NameCarried n.toList) (h : t.Carried) :
    (t.xml n).Carried := by
  refine cok_xTyped hn ?_
  intro x hx
  simp only [List.mem_append, List.mem_cons, List.not_mem_nil, or_false] at hx
  rcases hx with (((hx | hx) | hx) | hx) | hx
  · exact cok_xOpt (by decide) h.name x hx
  · exact cok_xOpt (by decide) h.color x hx
  · rcases hx with rfl | rfl | rfl
    · exact cok_xText (by decide) (carried_natStr _)
    · exact cok_xText (by decide) h.state
    · exact cok_xBool (by decide)
  · cases hp : t.panningColumnIsVisible with
    | none => rw [hp] at hx; simp at hx
    | some b =>
      rw [hp] at hx
      rw [List.mem_singleton.mp hx]
      exact cok_xBool (by decide)
  · subst hx
    refine cok_xNode (by decide) ?_
    intro x hx
    rw [List.mem_singleton.mp hx]
    refine cok_xNode (by decide) ?_
    intro x hx
    obtain ⟨d, _, rfl⟩ := List.mem_map.mp hx
    cases d
    · exact cok_xTyped (by decide) (by simp)
    · exact cok_xTyped (by decide) (by simp)
    · exact cok_xTyped (by decide) (by simp)

theorem cok_tracks {t : DaoTracks} (h1 : ∀ x ∈ t.sequencerTrack, x.Carried)
    (h2 : ∀ x ∈ t.sequencerMasterTrack, x.Carried) (h3 : ∀ x ∈ t.sequencerSendTrack, x.Carried) :
    t.xml.Carried := by
  refine cok_xNode (by decide) ?_
  intro x hx
  simp only [List.mem_append] at hx
  rcases hx with (hx | hx) | hx <;> obtain ⟨d, hd, rfl⟩ := List.mem_map.mp hx
  · exact cok_track (by decide) (h1 d hd)
  · exact cok_track (by decide) (h2 d hd)
  · exact cok_track (by decide) (h3 d hd)

theorem cok_globals {g : DaoGlobals} (h1 : CarriedText g.songName) (h2 : CarriedText g.artist) :
    g.xml.Carried := by
  refine cok_xNode (by decide) ?_
  intro x hx
  simp only [List.mem_cons, List.not_mem_nil, or_false] at hx
  rcases hx with rfl | rfl | rfl | rfl | rfl | rfl | rfl | rfl | rfl | rfl | rfl | rfl | rfl
  · exact cok_xText (by decide) (carried_intStr _)
  · exact cok_xText (by decide) (carried_natStr _)
  · exact cok_xText (by decide) (carried_natStr _)
  · exact cok_xText (by decide) (carried_natStr _)
  · exact cok_xText (by decide) (carried_natStr _)
  · exact cok_xText (by decide) (carried_natStr _)
  · exact cok_xText (by decide) (carried_natStr _)
  · exact cok_xBool (by decide)
  · refine cok_xNode (by decide) ?_
    intro x hx
    obtain ⟨d, _, rfl⟩ := List.mem_map.mp hx
    exact cok_xText (by decide) (carried_natStr _)
  · exact cok_xText (by decide) (carried_natStr _)
  · exact cok_xText (by decide) (carried_natStr _)
  · exact cok_xText (by decide) h1
  · exact cok_xText (by decide) h2

theorem cok_line {l : DaoLine} (h : ∀ c ∈ l.noteColumns,
    CarriedText c.note ∧ (∀ s ∈ c.instrument, CarriedText s) ∧ (∀ s ∈ c.panning, CarriedText s)) : l.xml.Carried := by
  refine ⟨by decide, ?_, (cok_ofList _).mpr ?_⟩
  · intro x hx
    rw [List.mem_singleton.mp hx]
    exact ⟨(by decide : NameCarried "index".toList), (carried_intStr _).2⟩
  · intro x hx
    rw [List.mem_singleton.mp hx]
    refine cok_xNode (by decide) ?_
    intro x hx
    obtain ⟨c, hc, rfl⟩ := List.mem_map.mp hx
    obtain ⟨a, b, e⟩ := h c hc
    refine cok_xNode (by decide) ?_
    intro x hx
    simp only [List.mem_append, List.cons_append, List.mem_cons] at hx
    rcases hx with rfl | hx | hx
    · exact cok_xText (by decide) a
    · exact cok_xOpt (by decide) b x hx
    · exact cok_xOpt (by decide) e x hx

/-- The elements of a song are good. -/
theorem cok_song {d : DaoSong} (h : d.Carried) : d.xml.Carried := by
  refine ⟨by decide, by decide, (cok_ofList _).mpr ?_⟩
  intro x hx
  simp only [List.mem_cons, List.not_mem_nil, or_false] at hx
  rcases hx with rfl | rfl | rfl | rfl | rfl
  · exact cok_globals h.songName h.artist
  · refine cok_xNode (by decide) ?_
    intro x hx
    obtain ⟨c, _, rfl⟩ := List.mem_map.mp hx
    exact cok_xNode (by decide) (by simp)
  · exact cok_tracks h.tracks h.masters h.sends
  · refine cok_xNode (by decide) ?_
    intro x hx
    rw [List.mem_singleton.mp hx]
    refine cok_xNode (by decide) ?_
    intro x hx
    obtain ⟨p, hp, rfl⟩ := List.mem_map.mp hx
    refine cok_xNode (by decide) ?_
    intro x hx
    rw [List.mem_singleton.mp hx]
    refine cok_xNode (by decide) ?_
    intro x hx
    simp only [List.mem_append] at hx
    rcases hx with (hx | hx) | hx <;> obtain ⟨t, ht, rfl⟩ := List.mem_map.mp hx
    · refine cok_xTyped (by decide) ?_
      intro x hx
      rw [List.mem_singleton.mp hx]
      refine cok_xNode (by decide) ?_
      intro x hx
      obtain ⟨l, hl, rfl⟩ := List.mem_map.mp hx
      exact cok_line (h.cols p hp t ht l hl)
    · exact cok_xTyped (by decide) (by simp)
    · exact cok_xTyped (by decide) (by simp)
  · refine cok_xNode (by decide) ?_
    intro x hx
    rw [List.mem_singleton.mp hx]
    refine cok_xNode (by decide) ?_
    intro x hx
    obtain ⟨p, _, rfl⟩ := List.mem_map.mp hx
    refine cok_xNode (by decide) ?_
    intro x hx
    rw [List.mem_singleton.mp hx]
    exact cok_xText (by decide) (carried_natStr _)

/-- The document of a song is read back. -/
theorem readSongXml_carried {d : DaoSong} (h : d.Carried) : readSongXml (songXml d) = some d := by
  unfold readSongXml songXml
  rw [parseXml_document _ (cok_song h).wf]
  exact readSong_xml d

/-! ### Decoding -/

theorem universal_id {s : Str} (h : ∀ c ∈ s, c ≠ '\r') : universal s = s := by
  induction s with
  | nil => rfl
  | cons c s ih =>
    have hc : c ≠ '\r' := h c (by simp)
    have ih := ih (fun d hd => h d (List.mem_cons_of_mem _ hd))
    rw [universal, if_neg hc, ih]
    intro t e
    exact absurd e hc

theorem utf8Decode_utf8 (s : Str) : utf8Decode (utf8 s) = some s := by
  unfold utf8Decode
  have : (utf8 s).toByteArray = s.utf8Encode := by
    unfold utf8 List.utf8Encode
    rfl
  rw [this, List.utf8Decode?_utf8Encode]
  rfl

theorem XmlChar.ne_cr {c : Char} (h : XmlChar c) : c ≠ '\r' := by
  rintro rfl
  revert h
  decide

/-! ### Rendered songs -/

theorem carried_color {n : Nat} : ∀ c ∈ trackColors.drop n, CarriedText c := by
  have : ∀ c ∈ trackColors, CarriedText c := by decide
  intro c hc
  exact this c (List.mem_of_mem_drop hc)

theorem renderSeqTracks_carried (ts : List SequencerTrack)
    (h : ∀ t ∈ ts, (∀ n ∈ t.name, CarriedText n) ∧ CarriedText t.state) (cs : List Str)
    (hcs : ∀ c ∈ cs, CarriedText c) : ∀ t ∈ renderSeqTracks ts cs, t.Carried := by
  induction ts generalizing cs with
  | nil => simp [renderSeqTracks]
  | cons t ts ih =>
    have ht := h t (by simp)
    have hts : ∀ t ∈ ts, _ := fun x hx => h x (List.mem_cons_of_mem _ hx)
    cases cs with
    | nil =>
      intro x hx
      rcases List.mem_cons.mp hx with rfl | hx
      · exact ⟨ht.1, by simp [renderTrack], ht.2⟩
      · exact ih hts [] hcs x hx
    | cons c cs =>
      intro x hx
      rcases List.mem_cons.mp hx with rfl | hx
      · refine ⟨ht.1, ?_, ht.2⟩
        intro s hs
        have : s = c := by simpa [renderTrack] using hs.symm
        rw [this]; exact hcs c (by simp)
      · exact ih hts cs (fun d hd => hcs d (List.mem_cons_of_mem _ hd)) x hx

theorem render_carried {s : Song} (h : CarriedSong s) : (render s).Carried where
  songName := h.songName
  artist := h.artist
  tracks := renderSeqTracks_carried _ (fun t ht => h.tracks t (by simp [ht])) _
    (carried_color (n := 0))
  masters := by
    intro t ht
    obtain ⟨u, hu, rfl⟩ := List.mem_map.mp ht
    have hu := h.tracks u (by simp [hu])
    refine ⟨hu.1, ?_, hu.2⟩
    intro s hs
    cases hs
    decide
  sends := by
    intro t ht
    obtain ⟨u, hu, rfl⟩ := List.mem_map.mp ht
    have hu := h.tracks u (by simp [hu])
    refine ⟨hu.1, ?_, hu.2⟩
    intro s hs
    cases hs
    decide
  cols := by
    intro p hp t ht l hl c hc
    obtain ⟨p', hp', rfl⟩ := List.mem_map.mp hp
    obtain ⟨t', ht', rfl⟩ := List.mem_map.mp ht
    obtain ⟨l', hl', rfl⟩ := List.mem_map.mp hl
    rw [List.mem_singleton.mp hc]
    exact h.lines p' hp' t' ht' l' hl'

theorem renderSeqTracks_shown (ts : List SequencerTrack) (cs : List Str) :
    (renderSeqTracks ts cs).map trackShown = ts.map trackMeant := by
  induction ts generalizing cs with
  | nil => rfl
  | cons t ts ih => cases cs <;> simp [renderSeqTracks, ih, trackShown, trackMeant, renderTrack]

theorem render_shown (s : Song) : SongShown s (render s) where
  songName := rfl
  artist := rfl
  tempo := rfl
  signature := rfl
  shuffle := rfl
  octave := rfl
  instruments := by simp [render]
  tracks := renderSeqTracks_shown _ _
  masters := by
    simp only [render, renderTracks, List.map_map]; rfl
  sends := by
    simp only [render, renderTracks, List.map_map]; rfl
  lines := by
    simp only [render, List.map_map, renderPattern, renderPatternTrack, Function.comp_def,
      List.map_cons, List.map_nil]
  sequence := rfl

end VgmX
