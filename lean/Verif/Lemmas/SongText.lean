import Verif.Lemmas.Xml
import Verif.Lemmas.SongXml
import Verif.Lemmas.Xrns
/-
Exported songs contain only printable ASCII characters and no blank texts, so their XML
document is ASCII and is read back.
-/

namespace VgmX
open Spec

/-- A printable ASCII character. -/
def PrintChar (c : Char) : Prop := 32 ≤ c.toNat ∧ c.toNat < 127

instance (c : Char) : Decidable (PrintChar c) := by unfold PrintChar; infer_instance

/-- A name of printable characters. -/
def NameOk (n : Str) : Prop := IsName n ∧ ∀ c ∈ n, PrintChar c

instance (n : Str) : Decidable (NameOk n) := by unfold NameOk; infer_instance

/-- A text of printable characters that is not blank. -/
def TextOk (t : Str) : Prop := (∃ c ∈ t, isBlank c = false) ∧ ∀ c ∈ t, PrintChar c

instance (t : Str) : Decidable (TextOk t) := by unfold TextOk; infer_instance

mutual
/-- All names and texts of an element. -/
def Xml.Ok : Xml → Prop
  | .leaf n a t => NameOk n ∧ (∀ x ∈ a, NameOk x.1 ∧ ∀ c ∈ x.2, PrintChar c) ∧ TextOk t
  | .node n a l => NameOk n ∧ (∀ x ∈ a, NameOk x.1 ∧ ∀ c ∈ x.2, PrintChar c) ∧ l.Ok
/-- See `Xml.Ok`. -/
def XmlList.Ok : XmlList → Prop
  | .nil => True
  | .cons x l => x.Ok ∧ l.Ok
end

mutual
theorem Xml.Ok.wf {x : Xml} (h : x.Ok) : x.WF := by
  match x, h with
  | .leaf n a t, h => exact ⟨h.1.1, fun x hx => (h.2.1 x hx).1.1, h.2.2.1⟩
  | .node n a l, h => exact ⟨h.1.1, fun x hx => (h.2.1 x hx).1.1, h.2.2.wf⟩
theorem XmlList.Ok.wf {l : XmlList} (h : l.Ok) : l.WF := by
  match l, h with
  | .nil, _ => trivial
  | .cons x l, h => exact ⟨h.1.wf, h.2.wf⟩
end

/-- A character of the document. -/
def DocChar (c : Char) : Prop := PrintChar c ∨ c = '\n'

instance (c : Char) : Decidable (DocChar c) := by unfold DocChar; infer_instance

theorem doc_escapeChar {c : Char} (h : PrintChar c) : ∀ d ∈ xmlEscapeChar c, DocChar d := by
  unfold xmlEscapeChar
  split
  · decide
  · split
    · decide
    · split
      · decide
      · intro d hd; rw [List.mem_singleton.mp hd]; exact Or.inl h

theorem doc_escape {t : Str} (h : ∀ c ∈ t, PrintChar c) : ∀ d ∈ xmlEscape t, DocChar d := by
  intro d hd
  obtain ⟨c, hc, hd⟩ := List.mem_flatMap.mp hd
  exact doc_escapeChar (h c hc) d hd

theorem doc_escapeAttrChar {c : Char} (h : PrintChar c) :
    ∀ d ∈ xmlEscapeAttrChar c, DocChar d := by
  unfold xmlEscapeAttrChar
  split
  · decide
  · split
    · decide
    · split
      · decide
      · split
        · decide
        · exact doc_escapeChar h

theorem doc_attrs {a : List (Str × Str)} (h : ∀ x ∈ a, NameOk x.1 ∧ ∀ c ∈ x.2, PrintChar c) :
    ∀ d ∈ xmlAttrs a, DocChar d := by
  induction a with
  | nil => simp [xmlAttrs]
  | cons x a ih =>
    obtain ⟨k, v⟩ := x
    intro d hd
    have hx := h (k, v) (by simp)
    simp only [xmlAttrs, List.mem_append, List.mem_cons, List.cons_append] at hd
    rcases hd with hd | (((hd | hd) | hd) | (hd | hd)) | hd
    · rw [hd]; decide
    · exact Or.inl (hx.1.2 d hd)
    · revert hd; revert d; decide
    · obtain ⟨c, hc, hd⟩ := List.mem_flatMap.mp hd
      exact doc_escapeAttrChar (hx.2 c hc) d hd
    · rw [hd]; decide
    · exact absurd hd (by simp)
    · exact ih (fun x hx => h x (by simp [hx])) d hd

theorem doc_indent (n : Nat) : ∀ d ∈ xmlIndent n, DocChar d := by
  intro d hd
  rw [(List.mem_replicate.mp hd).2]; decide

theorem doc_append {s t : Str} (hs : ∀ d ∈ s, DocChar d) (ht : ∀ d ∈ t, DocChar d) :
    ∀ d ∈ s ++ t, DocChar d := by
  intro d hd
  rcases List.mem_append.mp hd with h | h
  · exact hs d h
  · exact ht d h

theorem doc_cons {c : Char} {t : Str} (hc : DocChar c) (ht : ∀ d ∈ t, DocChar d) :
    ∀ d ∈ c :: t, DocChar d := by
  intro d hd
  rcases List.mem_cons.mp hd with h | h
  · rw [h]; exact hc
  · exact ht d h

theorem doc_name {n : Str} (h : NameOk n) : ∀ d ∈ n, DocChar d := fun d hd => Or.inl (h.2 d hd)

mutual
theorem doc_text {x : Xml} (h : x.Ok) (n : Nat) : ∀ d ∈ x.text n, DocChar d := by
  match x, h with
  | .leaf nm a t, h =>
    rw [Xml.text]
    exact doc_append (doc_append (doc_append (doc_append (doc_append (doc_indent n)
      (doc_cons (by decide) (doc_name h.1))) (doc_attrs h.2.1))
      (doc_cons (by decide) (doc_escape h.2.2.2)) |> fun q => doc_append q (by decide))
      (doc_name h.1)) (by decide)
  | .node nm a .nil, h =>
    rw [Xml.text]
    exact doc_append (doc_append (doc_append (doc_indent n)
      (doc_cons (by decide) (doc_name h.1))) (doc_attrs h.2.1)) (by decide)
  | .node nm a (.cons x l), h =>
    rw [Xml.text]
    exact doc_append (doc_append (doc_append (doc_append (doc_append (doc_append (doc_append
      (doc_append (doc_append (doc_indent n)
      (doc_cons (by decide) (doc_name h.1))) (doc_attrs h.2.1)) (by decide))
      (doc_text h.2.2.1 (n + 1))) (doc_texts h.2.2.2 (n + 1))) (doc_indent n)) (by decide))
      (doc_name h.1)) (by decide)
theorem doc_texts {l : XmlList} (h : l.Ok) (n : Nat) : ∀ d ∈ l.text n, DocChar d := by
  match l, h with
  | .nil, _ => simp [XmlList.text]
  | .cons x l, h =>
    rw [XmlList.text]
    exact doc_append (doc_text h.1 n) (doc_texts h.2 n)
end

theorem doc_document {x : Xml} (h : x.Ok) : ∀ d ∈ xmlDocument x, DocChar d := by
  unfold xmlDocument
  exact doc_append (by decide +kernel) (doc_text h 0)

/-! ### Elements of songs -/

theorem ok_ofList (l : List Xml) : (XmlList.ofList l).Ok ↔ ∀ x ∈ l, x.Ok := by
  induction l with
  | nil => simp [XmlList.ofList, XmlList.Ok]
  | cons x l ih => simp [XmlList.ofList, XmlList.Ok, ih]

theorem ok_xText {n : String} {t : Str} (hn : NameOk n.toList) (ht : TextOk t) :
    (xText n t).Ok := ⟨hn, by simp, ht⟩

theorem ok_xNode {n : String} {l : List Xml} (hn : NameOk n.toList) (h : ∀ x ∈ l, x.Ok) :
    (xNode n l).Ok := ⟨hn, by simp, (ok_ofList l).mpr h⟩

theorem ok_xTyped {n : String} {l : List Xml} (hn : NameOk n.toList) (h : ∀ x ∈ l, x.Ok) :
    (xTyped n l).Ok := by
  refine ⟨hn, ?_, (ok_ofList l).mpr h⟩
  intro x hx
  rw [List.mem_singleton.mp hx]
  exact ⟨(by decide : NameOk "type".toList), hn.2⟩

theorem ok_xOpt {n : String} {t : Option Str} (hn : NameOk n.toList) (ht : ∀ s ∈ t, TextOk s) :
    ∀ x ∈ xOpt n t, x.Ok := by
  cases t with
  | none => simp [xOpt]
  | some s =>
    intro x hx
    rw [List.mem_singleton.mp hx]
    exact ok_xText hn (ht s rfl)

theorem ok_xBool {n : String} {b : Bool} (hn : NameOk n.toList) : (xBool n b).Ok :=
  ok_xText hn (by cases b <;> decide)

theorem digitChar_ok (n : Nat) : isBlank (digitChar n) = false ∧ PrintChar (digitChar n) := by
  unfold digitChar
  split <;> decide

theorem textOk_of {t : Str} (hne : t ≠ []) (h : ∀ c ∈ t, isBlank c = false ∧ PrintChar c) :
    TextOk t := by
  obtain ⟨c, t, rfl⟩ := List.exists_cons_of_ne_nil hne
  exact ⟨⟨c, by simp, (h c (by simp)).1⟩, fun d hd => (h d hd).2⟩

theorem textOk_natStr (n : Nat) : TextOk (natStr n) := by
  refine textOk_of (natStr_ne_nil n) ?_
  intro c hc
  obtain ⟨d, _, rfl⟩ := List.mem_map.mp hc
  exact digitChar_ok d

theorem textOk_intStr (z : Int) : TextOk (intStr z) := by
  cases z with
  | ofNat n => exact textOk_natStr n
  | negSucc n =>
    obtain ⟨⟨c, hc, hb⟩, h⟩ := textOk_natStr (n + 1)
    refine ⟨⟨c, List.mem_cons_of_mem _ hc, hb⟩, ?_⟩
    intro d hd
    rcases List.mem_cons.mp hd with e | e
    · rw [e]; decide
    · exact h d e

theorem textOk_hex2 (n : Nat) : TextOk (hex2 n) := by
  refine textOk_of ?_ ?_
  · have := (hex2_length n).1
    intro h; rw [h] at this; simp at this
  · intro c hc
    unfold hex2 padLeft at hc
    rcases List.mem_append.mp hc with h | h
    · rw [(List.mem_replicate.mp h).2]; decide
    · obtain ⟨d, _, rfl⟩ := List.mem_map.mp h
      exact digitChar_ok d

/-- A track of the song whose texts are good. -/
structure DaoTrack.Ok (t : DaoTrack) : Prop where
  name : ∀ s ∈ t.name, TextOk s
  color : ∀ s ∈ t.color, TextOk s
  state : TextOk t.state

/-- A song whose texts are good. -/
structure DaoSong.Ok (d : DaoSong) : Prop where
  songName : TextOk d.globalSongData.songName
  artist : TextOk d.globalSongData.artist
  tracks : ∀ t ∈ d.tracks.sequencerTrack, t.Ok
  masters : ∀ t ∈ d.tracks.sequencerMasterTrack, t.Ok
  sends : ∀ t ∈ d.tracks.sequencerSendTrack, t.Ok
  cols : ∀ p ∈ d.patterns, ∀ t ∈ p.patternTrack, ∀ l ∈ t.lines, ∀ c ∈ l.noteColumns,
    TextOk c.note ∧ (∀ s ∈ c.instrument, TextOk s) ∧ (∀ s ∈ c.panning, TextOk s)

theorem ok_track {n : String} {t : DaoTrack} (hn : NameOk n.toList) (h : t.Ok) :
    (t.xml n).Ok := by
  refine ok_xTyped hn ?_
  intro x hx
  simp only [List.mem_append, List.mem_cons, List.not_mem_nil, or_false] at hx
  rcases hx with (((hx | hx) | hx) | hx) | hx
  · exact ok_xOpt (by decide) h.name x hx
  · exact ok_xOpt (by decide) h.color x hx
  · rcases hx with rfl | rfl | rfl
    · exact ok_xText (by decide) (textOk_natStr _)
    · exact ok_xText (by decide) h.state
    · exact ok_xBool (by decide)
  · cases hp : t.panningColumnIsVisible with
    | none => rw [hp] at hx; simp at hx
    | some b =>
      rw [hp] at hx
      rw [List.mem_singleton.mp hx]
      exact ok_xBool (by decide)
  · subst hx
    refine ok_xNode (by decide) ?_
    intro x hx
    rw [List.mem_singleton.mp hx]
    refine ok_xNode (by decide) ?_
    intro x hx
    obtain ⟨d, _, rfl⟩ := List.mem_map.mp hx
    cases d
    · exact ok_xTyped (by decide) (by simp)
    · exact ok_xTyped (by decide) (by simp)
    · exact ok_xTyped (by decide) (by simp)

theorem ok_tracks {t : DaoTracks} (h1 : ∀ x ∈ t.sequencerTrack, x.Ok)
    (h2 : ∀ x ∈ t.sequencerMasterTrack, x.Ok) (h3 : ∀ x ∈ t.sequencerSendTrack, x.Ok) :
    t.xml.Ok := by
  refine ok_xNode (by decide) ?_
  intro x hx
  simp only [List.mem_append] at hx
  rcases hx with (hx | hx) | hx <;> obtain ⟨d, hd, rfl⟩ := List.mem_map.mp hx
  · exact ok_track (by decide) (h1 d hd)
  · exact ok_track (by decide) (h2 d hd)
  · exact ok_track (by decide) (h3 d hd)

theorem ok_globals {g : DaoGlobals} (h1 : TextOk g.songName) (h2 : TextOk g.artist) :
    g.xml.Ok := by
  refine ok_xNode (by decide) ?_
  intro x hx
  simp only [List.mem_cons, List.not_mem_nil, or_false] at hx
  rcases hx with rfl | rfl | rfl | rfl | rfl | rfl | rfl | rfl | rfl | rfl | rfl | rfl | rfl
  · exact ok_xText (by decide) (textOk_intStr _)
  · exact ok_xText (by decide) (textOk_natStr _)
  · exact ok_xText (by decide) (textOk_natStr _)
  · exact ok_xText (by decide) (textOk_natStr _)
  · exact ok_xText (by decide) (textOk_natStr _)
  · exact ok_xText (by decide) (textOk_natStr _)
  · exact ok_xText (by decide) (textOk_natStr _)
  · exact ok_xBool (by decide)
  · refine ok_xNode (by decide) ?_
    intro x hx
    obtain ⟨d, _, rfl⟩ := List.mem_map.mp hx
    exact ok_xText (by decide) (textOk_natStr _)
  · exact ok_xText (by decide) (textOk_natStr _)
  · exact ok_xText (by decide) (textOk_natStr _)
  · exact ok_xText (by decide) h1
  · exact ok_xText (by decide) h2

theorem ok_line {l : DaoLine} (h : ∀ c ∈ l.noteColumns,
    TextOk c.note ∧ (∀ s ∈ c.instrument, TextOk s) ∧ (∀ s ∈ c.panning, TextOk s)) : l.xml.Ok := by
  refine ⟨by decide, ?_, (ok_ofList _).mpr ?_⟩
  · intro x hx
    rw [List.mem_singleton.mp hx]
    exact ⟨(by decide : NameOk "index".toList), (textOk_intStr _).2⟩
  · intro x hx
    rw [List.mem_singleton.mp hx]
    refine ok_xNode (by decide) ?_
    intro x hx
    obtain ⟨c, hc, rfl⟩ := List.mem_map.mp hx
    obtain ⟨a, b, e⟩ := h c hc
    refine ok_xNode (by decide) ?_
    intro x hx
    simp only [List.mem_append, List.cons_append, List.mem_cons] at hx
    rcases hx with rfl | hx | hx
    · exact ok_xText (by decide) a
    · exact ok_xOpt (by decide) b x hx
    · exact ok_xOpt (by decide) e x hx

/-- The elements of a song are good. -/
theorem ok_song {d : DaoSong} (h : d.Ok) : d.xml.Ok := by
  refine ⟨by decide, by decide, (ok_ofList _).mpr ?_⟩
  intro x hx
  simp only [List.mem_cons, List.not_mem_nil, or_false] at hx
  rcases hx with rfl | rfl | rfl | rfl | rfl
  · exact ok_globals h.songName h.artist
  · refine ok_xNode (by decide) ?_
    intro x hx
    obtain ⟨c, _, rfl⟩ := List.mem_map.mp hx
    exact ok_xNode (by decide) (by simp)
  · exact ok_tracks h.tracks h.masters h.sends
  · refine ok_xNode (by decide) ?_
    intro x hx
    rw [List.mem_singleton.mp hx]
    refine ok_xNode (by decide) ?_
    intro x hx
    obtain ⟨p, hp, rfl⟩ := List.mem_map.mp hx
    refine ok_xNode (by decide) ?_
    intro x hx
    rw [List.mem_singleton.mp hx]
    refine ok_xNode (by decide) ?_
    intro x hx
    simp only [List.mem_append] at hx
    rcases hx with (hx | hx) | hx <;> obtain ⟨t, ht, rfl⟩ := List.mem_map.mp hx
    · refine ok_xTyped (by decide) ?_
      intro x hx
      rw [List.mem_singleton.mp hx]
      refine ok_xNode (by decide) ?_
      intro x hx
      obtain ⟨l, hl, rfl⟩ := List.mem_map.mp hx
      exact ok_line (h.cols p hp t ht l hl)
    · exact ok_xTyped (by decide) (by simp)
    · exact ok_xTyped (by decide) (by simp)
  · refine ok_xNode (by decide) ?_
    intro x hx
    rw [List.mem_singleton.mp hx]
    refine ok_xNode (by decide) ?_
    intro x hx
    obtain ⟨p, _, rfl⟩ := List.mem_map.mp hx
    refine ok_xNode (by decide) ?_
    intro x hx
    rw [List.mem_singleton.mp hx]
    exact ok_xText (by decide) (textOk_natStr _)

/-- The document of a song is read back. -/
theorem readSongXml_songXml {d : DaoSong} (h : d.Ok) : readSongXml (songXml d) = some d := by
  unfold readSongXml songXml
  rw [parseXml_document _ (ok_song h).wf]
  exact readSong_xml d

/-! ### Exported songs are good -/

/-- A line whose texts are good. -/
def Line.Ok (l : Line) : Prop :=
  TextOk l.note ∧ (∀ s ∈ l.instrument, TextOk s) ∧ (∀ s ∈ l.pan, TextOk s)

/-- A pool whose texts are good. -/
def PatternPool.Ok (pool : PatternPool) : Prop :=
  ∀ p ∈ pool.patterns, ∀ t ∈ p.tracks, ∀ l ∈ t.lines, l.2.Ok

theorem mem_dictSet {α : Type} (k : Int) (v : α) (d : List (Int × α)) :
    ∀ x ∈ dictSet k v d, x.2 = v ∨ x ∈ d := by
  induction d with
  | nil => intro x hx; rw [List.mem_singleton.mp hx]; exact Or.inl rfl
  | cons y d ih =>
    intro x hx
    rw [dictSet] at hx
    split at hx
    · rcases List.mem_cons.mp hx with rfl | h
      · exact Or.inl rfl
      · exact Or.inr (List.mem_cons_of_mem _ h)
    · rcases List.mem_cons.mp hx with rfl | h
      · exact Or.inr (by simp)
      · rcases ih x h with e | e
        · exact Or.inl e
        · exact Or.inr (List.mem_cons_of_mem _ e)

theorem mem_modify {α : Type} (l : List α) (n : Nat) (f : α → α) :
    ∀ x ∈ l.modify n f, x ∈ l ∨ ∃ y ∈ l, x = f y := by
  intro x hx
  obtain ⟨i, hi, rfl⟩ := List.mem_iff_getElem.mp hx
  rw [List.getElem_modify]
  have hi' : i < l.length := by simpa using hi
  split
  · exact Or.inr ⟨l[i], List.getElem_mem _, rfl⟩
  · exact Or.inl (List.getElem_mem _)

theorem addNote_lines {pool pool' : PatternPool} {p c r : Int} {n : Str} {i q : Option Str}
    (h : pool.Ok) (hl : Line.Ok ⟨n, i, q⟩) (e : pool.addNote p c r n i q = .ok pool') :
    pool'.Ok := by
  unfold PatternPool.addNote at e
  simp only at e
  split at e
  · exact absurd e (by simp)
  · split at e
    · exact absurd e (by simp)
    · injection e with e
      subst e
      intro pat hpat tr htr l hll
      have hold : ∀ y ∈ pool.patterns ++ List.replicate ((p + 1).toNat - pool.patterns.length)
          (Pattern.new pool.tracks pool.linesPerTrack), ∀ t ∈ y.tracks, ∀ l ∈ t.lines, l.2.Ok := by
        intro y hy t ht l hl
        rcases List.mem_append.mp hy with hy | hy
        · exact h y hy t ht l hl
        · rw [(List.mem_replicate.mp hy).2] at ht
          rw [(List.mem_replicate.mp ht).2] at hl
          exact absurd hl (by simp)
      rcases mem_modify _ _ _ pat hpat with hp | ⟨y, hy, rfl⟩
      · exact hold pat hp tr htr l hll
      · rcases mem_modify _ _ _ tr htr with ht | ⟨z, hz, rfl⟩
        · exact hold y hy tr ht l hll
        · rcases mem_dictSet _ _ _ l hll with e | e
          · rw [e]; exact hl
          · exact hold y hy z hz l e

theorem noteLookupXrns_ok {n : Nat} {s : Str} (h : noteLookupXrns n = .ok s) : TextOk s := by
  unfold noteLookupXrns at h
  split at h <;> first | (injection h with h; subst h; decide) | simp at h

theorem textOk_append {s t : Str} (hs : TextOk s) (ht : TextOk t) : TextOk (s ++ t) := by
  obtain ⟨⟨c, hc, hb⟩, h⟩ := hs
  refine ⟨⟨c, by simp [hc], hb⟩, ?_⟩
  intro d hd
  rcases List.mem_append.mp hd with e | e
  · exact h d e
  · exact ht.2 d e

theorem xrnsNote_ok {n : Note} {s : Str} (h : n.xrnsNote = .ok s) : TextOk s := by
  unfold Note.xrnsNote at h
  split at h
  · injection h with h; subst h; decide
  · cases e : noteLookupXrns n.note with
    | error x => rw [e] at h; simp at h
    | ok nm =>
      rw [e] at h
      injection h with h
      subst h
      exact textOk_append (noteLookupXrns_ok e) (textOk_natStr _)

theorem exportNote_lines {ticks : Int} {ch : Nat} {pool pool' : PatternPool} {n : Note}
    (h : pool.Ok) (e : exportNote ticks ch pool n = .ok pool') : pool'.Ok := by
  unfold exportNote at e
  cases hn : n.xrnsNote with
  | error x => simp [hn] at e
  | ok nm =>
    simp only [hn] at e
    refine addNote_lines h ⟨xrnsNote_ok hn, ?_, ?_⟩ e
    · intro s hs
      simp only [instrColumn] at hs
      split at hs
      · cases hs; exact textOk_hex2 _
      · cases hs
    · intro s hs
      simp only [panColumn] at hs
      split at hs
      · split at hs <;> (cases hs; decide)
      · cases hs

theorem forExcept_keep {α β : Type} {f : β → α → Except PyErr β} {P : β → Prop}
    (step : ∀ b a b', P b → f b a = .ok b' → P b') {l : List α} :
    ∀ {b b'}, P b → forExcept f b l = .ok b' → P b' := by
  induction l with
  | nil => intro b b' hb h; injection h with h; subst h; exact hb
  | cons a l ih =>
    intro b b' hb h
    simp only [forExcept] at h
    cases e : f b a with
    | error x => rw [e] at h; simp at h
    | ok b1 =>
      rw [e] at h
      exact ih (step b a b1 hb e) h

theorem addPattern_fold (l : List Nat) (s : Song) :
    (l.foldl Song.addPattern s).globals = s.globals ∧ (l.foldl Song.addPattern s).tracks = s.tracks ∧
    (l.foldl Song.addPattern s).patternPool = s.patternPool := by
  induction l generalizing s with
  | nil => exact ⟨rfl, rfl, rfl⟩
  | cons a l ih => exact ih (s.addPattern a)

/-- Whatever the state and the length of a row: if a song comes out, its texts are good. -/
theorem exportSong_texts {s : State} {ticks : Int} {song : Song}
    (h : exportSong s ticks = .ok song) : (render song).Ok := by
  unfold exportSong at h
  simp only at h
  split at h
  · simp at h
  · split at h
    · simp at h
    · rename_i _ bpm _ _ pool hp
      injection h with h
      obtain ⟨h1, h2, h3⟩ := addPattern_fold (List.range pool.patterns.length)
        { { Song.new 8 s.configs.length with
            globals := { (Song.new 8 s.configs.length).globals with beatsPerMin := bpm } } with
          patternPool := pool }
      rw [h] at h1 h2 h3
      have hpool : pool.Ok := by
        refine forExcept_keep (P := PatternPool.Ok) ?_ ?_ hp
        · intro b a b' hb e
          exact forExcept_keep (P := PatternPool.Ok) (fun b a b' hb e => exportNote_lines hb e) hb e
        · intro p hp; simp [Song.new] at hp
      constructor
      · show TextOk song.globals.songName
        rw [h1]; exact (by decide : TextOk "Untitled".toList)
      · show TextOk song.globals.artist
        rw [h1]; exact (by decide : TextOk "FooBar".toList)
      · intro t ht
        have : t ∈ renderSeqTracks (Tracks.new 8).tracks trackColors := by
          have := ht; simp only [render, renderTracks, h2] at this; exact this
        clear ht
        revert t
        have q : ∀ t ∈ renderSeqTracks (Tracks.new 8).tracks trackColors,
            (∀ s ∈ t.name, TextOk s) ∧ (∀ s ∈ t.color, TextOk s) ∧ TextOk t.state := by
          decide +kernel
        intro t ht
        exact ⟨(q t ht).1, (q t ht).2.1, (q t ht).2.2⟩
      · intro t ht
        simp only [render, renderTracks, h2] at ht
        have q : ∀ t ∈ (Tracks.new 8).masterTracks.map renderMasterTrack,
            (∀ s ∈ t.name, TextOk s) ∧ (∀ s ∈ t.color, TextOk s) ∧ TextOk t.state := by
          decide +kernel
        exact ⟨(q t ht).1, (q t ht).2.1, (q t ht).2.2⟩
      · intro t ht
        simp only [render, renderTracks, h2] at ht
        have q : ∀ t ∈ (Tracks.new 8).sendTracks.map renderSendTrack,
            (∀ s ∈ t.name, TextOk s) ∧ (∀ s ∈ t.color, TextOk s) ∧ TextOk t.state := by
          decide +kernel
        exact ⟨(q t ht).1, (q t ht).2.1, (q t ht).2.2⟩
      · intro p hp t ht l hl c hc
        simp only [render, h3] at hp
        obtain ⟨p, hp', rfl⟩ := List.mem_map.mp hp
        obtain ⟨t, ht', rfl⟩ := List.mem_map.mp ht
        obtain ⟨l, hl', rfl⟩ := List.mem_map.mp hl
        rw [List.mem_singleton.mp hc]
        exact hpool p hp' t ht' l hl'

end VgmX
