import Verif.Spec.SongFile
import Verif.Spec.Song
import Verif.Lemmas.Zip
import Verif.Lemmas.SongText
import Verif.Props.Xrns
/-
The track file: what is in it, byte by byte, and that it can be read back (C62, C63).
-/

namespace VgmX
open Spec

theorem shift_or (a b k : Nat) (h : b < 2 ^ k) : (a <<< k) ||| b = a * 2 ^ k + b := by
  rw [Nat.shiftLeft_eq, Nat.mul_comm, Nat.two_pow_add_eq_or_of_lt h]

theorem dosDate_eq (t : DateTime) (h : ClockReading t) :
    dosDate t = (t.year - 1980) * 512 + t.month * 32 + t.day := by
  unfold dosDate
  have hm := h.month; have hd := h.day
  have e : t.month <<< 5 ||| t.day = t.month * 32 + t.day := shift_or _ _ 5 (by omega)
  rw [Nat.or_assoc, e, shift_or _ _ 9 (by omega)]
  omega

theorem dosTime_eq (t : DateTime) (h : ClockReading t) :
    dosTime t = t.hour * 2048 + t.minute * 32 + t.second / 2 := by
  unfold dosTime
  have hm := h.minute; have hd := h.second
  have e : t.minute <<< 5 ||| (t.second / 2) = t.minute * 32 + t.second / 2 :=
    shift_or _ _ 5 (by omega)
  rw [Nat.or_assoc, e, shift_or _ _ 11 (by omega)]
  omega

theorem dosDate_big (t : DateTime) (h : 2108 ≤ t.year) : 65536 ≤ dosDate t := by
  unfold dosDate
  have : (t.year - 1980) <<< 9 ≤ (t.year - 1980) <<< 9 ||| t.month <<< 5 ||| t.day := by
    rw [Nat.or_assoc]; exact Nat.left_le_or
  have e : (t.year - 1980) <<< 9 = (t.year - 1980) * 512 := Nat.shiftLeft_eq _ _
  omega

theorem utf8Char_ascii (c : Char) (h : c.toNat < 128) :
    String.utf8EncodeChar c = [UInt8.ofNat c.toNat] := by
  unfold String.utf8EncodeChar
  have : c.val.toNat ≤ 127 := by
    have : c.val.toNat = c.toNat := rfl
    omega
  simp only [this, if_true]
  rfl

theorem utf8_ascii (s : Str) (h : ∀ c ∈ s, c.toNat < 128) :
    utf8 s = s.map (fun c => UInt8.ofNat c.toNat) := by
  induction s with
  | nil => rfl
  | cons c s ih =>
    rw [utf8, List.flatMap_cons, utf8Char_ascii c (h c (by simp))]
    exact congrArg _ (ih (fun d hd => h d (by simp [hd])))

theorem asciiDecode_utf8 (s : Str) (h : ∀ c ∈ s, c.toNat < 128) :
    asciiDecode (utf8 s) = some s := by
  rw [utf8_ascii s h]
  unfold asciiDecode
  rw [if_pos, List.map_map]
  · congr 1
    conv_rhs => rw [← List.map_id s]
    apply List.map_congr_left
    intro c hc
    have hc := h c hc
    simp only [Function.comp, id, UInt8.toNat_ofNat']
    rw [Nat.mod_eq_of_lt (by omega)]
    exact Char.ofNat_toNat c
  · rw [List.all_map, List.all_eq_true]
    intro c hc
    have hc := h c hc
    simp only [Function.comp, UInt8.toNat_ofNat', decide_eq_true_eq]
    omega

theorem docChar_ascii {c : Char} (h : DocChar c) : c.toNat < 128 := by
  rcases h with h | h
  · have := h.2; omega
  · rw [h]; decide

/-- C62: A single file put into an archive can be taken out of it again. For every file name,
every content below two gigabytes (to be exact, below the size at which `zipfile` changes the
format) and every date from 1980 to 2107, writing ends well, and what is in the archive is
one entry with that name, that content (checksum and both headers in agreement) and that time
stamp, its seconds rounded down to even ones. -/
theorem c62_unzip (zip64 : DateTime → Bytes → Bytes → Except PyErr Unit × Bytes) (t : DateTime)
    (hc : ClockReading t) (hy : ZipYear t) (name data : Bytes) (hn : name.length < 65536)
    (hs : data.length < maxDocument) :
    ∃ date time, (zipSingle zip64 t name data).1 = .ok () ∧
      unzip (zipSingle zip64 t name data).2 = some [⟨name, data, date, time⟩] ∧
      wordDate date = (t.year, t.month, t.day) ∧
      wordTime time = (t.hour, t.minute, t.second / 2 * 2) := by
  have hd := dosDate_eq t hc
  have htm := dosTime_eq t hc
  have h0 : data.length < 2045222520 := hs
  have h1 := hy.1; have h1' := hy.2; have h2 := hc.month; have h3 := hc.day
  have h4 := hc.hour; have h5 := hc.minute; have h6 := hc.second
  have hdl : dosDate t < 65536 := by omega
  have htl : dosTime t < 65536 := by omega
  have hz : zipSingle zip64 t name data =
      (.ok (), zipLocalHeader t name (crc32 data) data.length ++ data ++
        zipCentralHeader t name (crc32 data) data.length ++
        zipEndRecord 1 (zipCentralHeader t name (crc32 data) data.length).length
          (zipLocalHeader t name (crc32 data) data.length ++ data).length) := by
    unfold zipSingle
    rw [if_neg (by omega), if_neg (by omega), if_neg (by unfold zip64Needed; omega)]
  rw [hz]
  refine ⟨dosDate t, dosTime t, rfl, unzip_single t name data hn (by omega) hdl htl, ?_, ?_⟩
  · rw [hd]; unfold wordDate
    simp only [Prod.mk.injEq]
    omega
  · rw [htm]; unfold wordTime
    simp only [Prod.mk.injEq]
    omega

/-- C62: With any other year writing raises, and the archive is left without entries. -/
theorem c62_bad_date (zip64 : DateTime → Bytes → Bytes → Except PyErr Unit × Bytes)
    (t : DateTime) (hy : ¬ ZipYear t) (name data : Bytes) :
    (∃ e, (zipSingle zip64 t name data).1 = .error e) ∧
      unzip (zipSingle zip64 t name data).2 = some [] := by
  have hy : t.year < 1980 ∨ 2107 < t.year := by unfold ZipYear at hy; omega
  unfold zipSingle
  split
  · exact ⟨⟨_, rfl⟩, by decide⟩
  · rw [if_pos (Or.inl (dosDate_big t (by omega)))]
    exact ⟨⟨_, rfl⟩, by decide⟩

/-- C63: The XML document of every exported song is made of printable ASCII characters and
line ends, and a parser reads the song back from it. For every state of the chip and every
number of samples per row. -/
theorem c63_document (s : State) (ticks : Int) (d : DaoSong) (h : exportXrns s ticks = .ok d) :
    readSongXml (songXml d) = some d ∧
      ∀ c ∈ songXml d, (32 ≤ c.toNat ∧ c.toNat < 127) ∨ c = '\n' := by
  unfold exportXrns at h
  cases hs : exportSong s ticks with
  | error e => rw [hs] at h; simp at h
  | ok song =>
    rw [hs] at h
    injection h with h
    subst h
    have hok := exportSong_texts hs
    exact ⟨readSongXml_songXml hok, fun c hc => doc_document (ok_song hok) c hc⟩

theorem readSongFile_of {b : Bytes} {e : ZipEntry} {s : Str} (hu : unzip b = some [e])
    (hn : asciiDecode e.name = some "Song.xml".toList) (hd : asciiDecode e.data = some s) :
    readSongFile b = readSongXml s := by
  unfold readSongFile
  rw [hu]
  simp only [hn, if_true, hd, Option.bind_some]

/-- C63: Reading the track file of an exported song gives the song back: unpack the archive,
decode the text, parse the XML, read the elements. For every state, every number of samples
per row, and every clock reading from 1980 to 2107, if the document is below two
gigabytes. -/
theorem c63_file (zip64 : DateTime → Bytes → Bytes → Except PyErr Unit × Bytes) (t : DateTime)
    (hc : ClockReading t) (hy : ZipYear t) (s : State) (ticks : Int) (d : DaoSong)
    (h : exportXrns s ticks = .ok d) (hs : (songXml d).length < maxDocument) :
    (writeSong zip64 t d).1 = .ok () ∧ readSongFile (writeSong zip64 t d).2 = some d := by
  obtain ⟨hr, hp⟩ := c63_document s ticks d h
  have hasc : ∀ c ∈ songXml d, c.toNat < 128 := fun c h => docChar_ascii (hp c h)
  have hname : asciiDecode (utf8 "Song.xml".toList) = some "Song.xml".toList :=
    asciiDecode_utf8 _ (by decide)
  have hnl : (utf8 "Song.xml".toList).length < 65536 := by decide
  have hlen : (utf8 (songXml d)).length = (songXml d).length := by
    rw [utf8_ascii _ hasc, List.length_map]
  have hdec := asciiDecode_utf8 _ hasc
  unfold writeSong
  generalize utf8 "Song.xml".toList = name at *
  generalize utf8 (songXml d) = data at *
  obtain ⟨date, time, h1, h2, -, -⟩ := c62_unzip zip64 t hc hy name data hnl (by omega)
  exact ⟨h1, (readSongFile_of h2 hname hdec).trans hr⟩

/-- C63: Whatever the clock shows: if writing the song ends well, the file is one that reads
back as the song; if it raises, the clock shows a year before 1980 or after 2107, and the file
is an archive without entries. -/
theorem c63_either (zip64 : DateTime → Bytes → Bytes → Except PyErr Unit × Bytes) (t : DateTime)
    (hc : ClockReading t) (s : State) (ticks : Int) (d : DaoSong)
    (h : exportXrns s ticks = .ok d) (hs : (songXml d).length < maxDocument) :
    ((writeSong zip64 t d).1 = .ok () ∧ ZipYear t ∧
      readSongFile (writeSong zip64 t d).2 = some d) ∨
    ((∃ e, (writeSong zip64 t d).1 = .error e) ∧ ¬ ZipYear t ∧
      unzip (writeSong zip64 t d).2 = some []) := by
  by_cases hy : ZipYear t
  · obtain ⟨h1, h2⟩ := c63_file zip64 t hc hy s ticks d h hs
    exact .inl ⟨h1, hy, h2⟩
  · obtain ⟨h1, h2⟩ := c62_bad_date zip64 t hy (utf8 "Song.xml".toList) (utf8 (songXml d))
    exact .inr ⟨h1, hy, h2⟩

/-! A concrete case. -/

/-- A clock reading. -/
def exampleNow : DateTime := ⟨2024, 2, 29, 23, 59, 58⟩

theorem exampleNow_clock : ClockReading exampleNow ∧ ZipYear exampleNow :=
  ⟨⟨by decide, by decide, by decide, by decide, by decide⟩, by decide, by decide⟩

example : (zipSingle (fun _ _ _ => (.ok (), [])) exampleNow [65] [1, 2, 3]).2.length = 103 := by
  decide +kernel

example : unzip (zipSingle (fun _ _ _ => (.ok (), [])) exampleNow [65] [1, 2, 3]).2 =
    some [⟨[65], [1, 2, 3], 22621, 49021⟩] := by decide +kernel

/-- The checksum of `123456789` is the check value of CRC-32. -/
example : crc32 [49, 50, 51, 52, 53, 54, 55, 56, 57] = 0xCBF43926 := by decide +kernel

end VgmX
