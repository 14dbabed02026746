import Verif.Spec.Zip
import Verif.Spec.Xml
import Verif.Model.Zip
/-
How to read a track file (`.xrns`): a zip archive with one entry, `Song.xml`, whose text is a
song. Of the model it uses the type of songs (`DaoSong`) and of clock readings (`DateTime`).
-/

namespace VgmX.Spec

/-- A text in UTF-8 with ASCII characters only: one byte each. -/
def asciiDecode (b : Bytes) : Option (List Char) :=
  if b.all (fun x => decide (x.toNat < 128)) then some (b.map (fun x => Char.ofNat x.toNat))
  else none

/-- The song in a track file. -/
def readSongFile (b : Bytes) : Option DaoSong :=
  match unzip b with
  | some [e] =>
    if asciiDecode e.name = some "Song.xml".toList then (asciiDecode e.data).bind readSongXml
    else none
  | _ => none

/-- What a clock can show (`second` up to 61: leap seconds). -/
structure ClockReading (t : DateTime) : Prop where
  month : 1 ≤ t.month ∧ t.month ≤ 12
  day : 1 ≤ t.day ∧ t.day ≤ 31
  hour : t.hour ≤ 23
  minute : t.minute ≤ 59
  second : t.second ≤ 61

/-- The years that a zip archive can hold. -/
def ZipYear (t : DateTime) : Prop := 1980 ≤ t.year ∧ t.year ≤ 2107

/-- The size, in bytes, up to which the format of the archive is modelled (about 2 GB). -/
def maxDocument : Nat := 2045222520

/-- The date word of a zip entry: day in the low 5 bits, then 4 bits for the month, then the
years since 1980. -/
def wordDate (w : Nat) : Nat × Nat × Nat := (1980 + w / 512, w / 32 % 16, w % 32)

/-- The time word: seconds, counted in pairs, in the low 5 bits, then 6 bits for the minute,
then the hour. -/
def wordTime (w : Nat) : Nat × Nat × Nat := (w / 2048, w / 32 % 64, 2 * (w % 32))

end VgmX.Spec
