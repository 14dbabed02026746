import Verif.Lemmas.OwnSong
import Verif.Props.Writer
import Verif.Props.SongApi
/-
C109: a song with the caller's own texts survives the file. Vocabulary: Spec/OwnSong.lean,
Spec/SongApi.lean, Spec/Song.lean.
-/

namespace VgmX
open Spec

theorem c109_render (zip64 : DateTime → Bytes → Bytes → Except PyErr Unit × Bytes) (t : DateTime)
    (hc : ClockReading t) (hy : ZipYear t) (song : Song) (hs : CarriedSong song)
    (hl : (utf8 (songXml (render song))).length < maxDocument) :
    readSongFileUtf8 (writeSong zip64 t (render song)).2 = some (render song) := by
  obtain ⟨date, time, h1, h2, -, -⟩ := c62_unzip zip64 t hc hy (utf8 "Song.xml".toList)
    (utf8 (songXml (render song))) (by decide) hl
  have hk := render_carried hs
  have hd : ∀ c ∈ songXml (render song), c ≠ '\r' :=
    fun c hc => XmlChar.ne_cr (cdoc_document (cok_song hk) c hc)
  unfold readSongFileUtf8 writeSong
  rw [h2]
  simp only [utf8Decode_utf8, Option.bind_some, universal_id hd, if_true]
  exact readSongXml_carried hk

/-- C109: Whatever the song (any number of tracks, patterns and lines, any settings) and whatever
characters its texts contain, as long as XML can carry them: writing it ends well, and the file
read back shows the song. For every date from 1980 to 2107 and documents below two gigabytes. -/
theorem c109_file (zip64 : DateTime → Bytes → Bytes → Except PyErr Unit × Bytes) (t : DateTime)
    (hc : ClockReading t) (hy : ZipYear t) (song : Song) (hs : CarriedSong song)
    (hl : (utf8 (songXml (render song))).length < maxDocument) :
    (writeSong zip64 t (render song)).1 = .ok () ∧
      ∃ d, readSongFileUtf8 (writeSong zip64 t (render song)).2 = some d ∧ SongShown song d := by
  obtain ⟨date, time, h1, -, -, -⟩ := c62_unzip zip64 t hc hy (utf8 "Song.xml".toList)
    (utf8 (songXml (render song))) (by decide) hl
  exact ⟨h1, render song, c109_render zip64 t hc hy song hs hl, render_shown song⟩

theorem mem_dictOf {α : Type} (l : List (Int × α)) : ∀ x ∈ dictOf l, ∃ y ∈ l, y.2 = x.2 := by
  induction l using List.reverseRecOn with
  | nil => simp [dictOf]
  | append_singleton l a ih =>
    intro x hx
    rw [dictOf_snoc] at hx
    rcases mem_dictSet _ _ _ x hx with e | e
    · exact ⟨a, by simp, e.symm⟩
    · obtain ⟨y, hy, e⟩ := ih x e
      exact ⟨y, by simp [hy], e⟩

theorem mem_cellsSet {T : Nat} {calls : List SongCall} {x : (Nat × Nat × Int) × Line}
    (h : x ∈ cellsSet T calls) : ∃ p c l, SongCall.addNote p c l x.2 ∈ calls := by
  obtain ⟨i, -, hi⟩ := List.mem_filterMap.mp h
  obtain ⟨call, hc, hs⟩ := Option.bind_eq_some_iff.mp hi
  have hm := List.mem_of_getElem? hc
  cases call with
  | addPattern p => simp [cellSet] at hs
  | addNote p c l y =>
    unfold cellSet at hs
    simp only at hs
    split at hs
    · injection hs with hs
      refine ⟨p, c, l, ?_⟩
      rw [← hs]; exact hm
    · exact absurd hs (by simp)

/-- C109 with C71: a song named by the caller and built by any calls. What the file shows in a
cell is what the last call for this cell has put there, character for character. -/
theorem c109_calls (zip64 : DateTime → Bytes → Bytes → Except PyErr Unit × Bytes) (t : DateTime)
    (hc : ClockReading t) (hy : ZipYear t) (T I : Int) (L : Nat) (name artist : Str)
    (calls : List SongCall) (hn : CarriedText name) (ha : CarriedText artist)
    (hcalls : ∀ p c l x, SongCall.addNote p c l x ∈ calls → CarriedText x.note ∧
      (∀ i ∈ x.instrument, CarriedText i) ∧ (∀ q ∈ x.pan, CarriedText q))
    (song : Song)
    (hsong : song = { ((Song.make T I L).calls calls).2 with
      globals := { ((Song.make T I L).calls calls).2.globals with
        songName := name, artist := artist } })
    (hl : (utf8 (songXml (render song))).length < maxDocument) :
    ∃ d, readSongFileUtf8 (writeSong zip64 t (render song)).2 = some d ∧
      d.globalSongData.songName = name ∧ d.globalSongData.artist = artist ∧
      d.patterns.length = patternCount calls ∧ d.sequenceEntries = sequenceOf calls ∧
      ∀ p c r : Nat, columnsAt d p c r =
        (cellLast T.toNat calls (p, c, r)).map (fun x => [⟨x.note, x.instrument, x.pan⟩]) := by
  have h := callsInv T I L calls
  have hcarried : CarriedSong song := by
    subst hsong
    refine ⟨hn, ha, ?_, ?_⟩
    · intro u hu
      simp only [h.tracks] at hu
      simp only [Tracks.new, List.mem_append, List.mem_map, List.mem_singleton] at hu
      rcases hu with (⟨i, -, rfl⟩ | rfl) | rfl
      · refine ⟨?_, (by decide : CarriedText "Active".toList)⟩
        intro n hn
        injection hn with hn
        rw [← hn]
        obtain ⟨-, hk⟩ := carried_natStr (i + 1)
        refine ⟨⟨'T', by simp, by decide⟩, ?_⟩
        intro c hc
        rcases List.mem_append.mp hc with e | e
        · exact (by decide : ∀ c ∈ "Track ".toList, XmlChar c) c e
        · exact hk c e
      · exact ⟨fun n hn => by injection hn with hn; rw [← hn]; decide, (by decide : CarriedText "Active".toList)⟩
      · exact ⟨fun n hn => by injection hn with hn; rw [← hn]; decide, (by decide : CarriedText "Active".toList)⟩
    · intro p hp u hu l hl
      obtain ⟨i, hi, hp⟩ := List.getElem_of_mem hp
      obtain ⟨j, hj, hu⟩ := List.getElem_of_mem hu
      have hla : ((Song.make T I L).calls calls).2.patternPool.linesAt i j = u.lines := by
        unfold PatternPool.linesAt
        simp only at hi hp
        rw [List.getElem?_eq_getElem hi, hp, Option.bind_some, List.getElem?_eq_getElem hj, hu]
        rfl
      rw [← hla, h.lines] at hl
      obtain ⟨y, hy, e⟩ := mem_dictOf _ l hl
      rw [← e]
      obtain ⟨z, hz, rfl⟩ := List.mem_map.mp hy
      obtain ⟨p, c, k, hm⟩ := mem_cellsSet (List.mem_of_mem_filter hz)
      exact hcalls p c k z.2 hm
  have hd' : readSongFileUtf8 (writeSong zip64 t (render song)).2 = some (render song) :=
    c109_render zip64 t hc hy song hcarried hl
  refine ⟨render song, hd', ?_⟩
  have hsh := c71_shape T I L calls
  have hcl := c71_cells T I L calls
  subst hsong
  exact ⟨rfl, rfl, hsh.1, hsh.2.2.2.2, hcl⟩

/-- A song with a name in Japanese, an artist with the characters that XML escapes, and a note that
is not one. -/
def c109Calls : List SongCall :=
  [ .addNote 0 0 5 ⟨"<C&4>".toList, some "é".toList, none⟩
  , .addPattern 0 ]

/-- See `c109Calls`. -/
def c109Song : Song :=
  let s := ((Song.make 1 1 64).calls c109Calls).2
  { s with globals := { s.globals with
      songName := "夜の歌".toList, artist := "\"A\" & <B>".toList } }

example : CarriedText "夜の歌".toList ∧ CarriedText "\"A\" & <B>".toList ∧
    ∀ p c l x, SongCall.addNote p c l x ∈ c109Calls → CarriedText x.note ∧
      (∀ i ∈ x.instrument, CarriedText i) ∧ (∀ q ∈ x.pan, CarriedText q) := by
  refine ⟨by decide, by decide, ?_⟩
  intro p c l x h
  rcases List.mem_cons.mp h with h | h
  · injection h with _ _ _ h
    subst h
    decide
  · rcases List.mem_cons.mp h with h | h
    · cases h
    · cases h

example : (utf8 (songXml (render c109Song))).length < maxDocument := by decide +kernel

/-- What the hypothesis on texts excludes: of a name of blanks nothing is left. -/
example : readSongXml (songXml (render { c109Song with
    globals := { c109Song.globals with songName := "  ".toList } })) = none := by decide +kernel

end VgmX
