import Verif.Spec.Zip
import Verif.Model.Xml
/-
Model of `src/xrns/writer.py`, and of the part of the standard library's `zipfile` it uses:
`ZipFile(f, mode="w")`, `writestr(name, text)` and the end of the `with` block (CPython 3.11,
Lib/zipfile.py). The file is seekable; the checksum is `zlib.crc32`, given by its definition.
Archives whose entry needs zip64 (2 GB and more) are a parameter.
-/

namespace VgmX

/-- `time.localtime(time.time())[:6]`. (Standard library, for src/xrns/writer.py:22-23.) -/
structure DateTime where
  year : Nat
  month : Nat
  day : Nat
  hour : Nat
  minute : Nat
  second : Nat
  deriving DecidableEq, Repr

/-- `struct.pack` of an unsigned number in `k` bytes, little-endian.
(Standard library, for src/xrns/writer.py:22-23.) -/
def pack (k n : Nat) : Bytes := (List.range k).map (fun i => UInt8.ofNat (n / 256 ^ i))

/-- `dosdate`, zipfile.py:448. -/
def dosDate (t : DateTime) : Nat := ((t.year - 1980) <<< 9) ||| (t.month <<< 5) ||| t.day

/-- `dostime`, zipfile.py:449. -/
def dosTime (t : DateTime) : Nat := (t.hour <<< 11) ||| (t.minute <<< 5) ||| (t.second / 2)

/-- From the version to the length of the name: the same fields in both headers.
(Standard library, for src/xrns/writer.py:22-23.) -/
def zipCommon (t : DateTime) (crc size nameLen : Nat) : Bytes :=
  pack 1 20 ++ pack 1 0 ++ pack 2 0 ++ pack 2 0 ++ pack 2 (dosTime t) ++ pack 2 (dosDate t)
    ++ pack 4 crc ++ pack 4 size ++ pack 4 size ++ pack 2 nameLen

/-- `ZipInfo.FileHeader`, zipfile.py:440-490: signature, extract version and reserved byte,
flags, compression, time, date, checksum, compressed size, size, lengths of name and extra
field, name. -/
def zipLocalHeader (t : DateTime) (name : Bytes) (crc size : Nat) : Bytes :=
  pack 4 0x04034B50 ++ zipCommon t crc size name.length ++ pack 2 0 ++ name

/-- The local header as `_open_to_write` first writes it (zipfile.py:1640-1668): checksum and
compressed size are 0, the size is known. -/
def zipHeader0 (t : DateTime) (entry : Bytes) (size : Nat) : Bytes :=
  pack 4 0x04034B50 ++ (pack 1 20 ++ pack 1 0 ++ pack 2 0 ++ pack 2 0 ++ pack 2 (dosTime t)
    ++ pack 2 (dosDate t) ++ pack 4 0 ++ pack 4 0 ++ pack 4 size
    ++ pack 2 entry.length) ++ pack 2 0 ++ entry

/-- The central directory, zipfile.py:1920-1971: signature, create version, create system (3:
Unix), the same fields as above, lengths of extra field and comment, disk, internal and
external attributes (0o600 << 16), offset of the local header, name. -/
def zipCentralHeader (t : DateTime) (name : Bytes) (crc size : Nat) : Bytes :=
  pack 4 0x02014B50 ++ pack 1 20 ++ pack 1 3 ++ zipCommon t crc size name.length
    ++ pack 2 0 ++ pack 2 0 ++ pack 2 0 ++ pack 2 0 ++ pack 4 (0o600 <<< 16) ++ pack 4 0 ++ name

/-- The end record, zipfile.py:2004-2007. -/
def zipEndRecord (count size offset : Nat) : Bytes :=
  pack 4 0x06054B50 ++ pack 2 0 ++ pack 2 0 ++ pack 2 count ++ pack 2 count
    ++ pack 4 size ++ pack 4 offset ++ pack 2 0

/-- What needs zip64: `zinfo.file_size * 1.05 > ZIP64_LIMIT`, zipfile.py:1658. (The product is
a floating-point one; it is above the limit from 2045222521 on, as here.) -/
def zip64Needed (size : Nat) : Prop := 100 * (2 ^ 31 - 1) < size * 105

/-- (Standard library, for src/xrns/writer.py:22-23.) -/
instance (size : Nat) : Decidable (zip64Needed size) := by unfold zip64Needed; infer_instance

/-- `with zipfile.ZipFile(f, mode="w") as zf: zf.writestr(name, data)`: how it ends, and what
is then in the file. If `writestr` raises because of the date (zipfile.py:391, 481), nothing
of the entry has been written, and leaving the `with` block writes the end record of an empty
archive. -/
def zipSingle (zip64 : DateTime → Bytes → Bytes → Except PyErr Unit × Bytes) (t : DateTime)
    (name data : Bytes) : Except PyErr Unit × Bytes :=
  if t.year < 1980 then (.error .value, zipEndRecord 0 0 0)
  else if 65536 ≤ dosDate t ∨ 65536 ≤ dosTime t then (.error .struct, zipEndRecord 0 0 0)
  else if zip64Needed data.length then zip64 t name data
  else
    let local_ := zipLocalHeader t name (Spec.crc32 data) data.length ++ data
    let central := zipCentralHeader t name (Spec.crc32 data) data.length
    (.ok (), local_ ++ central ++ zipEndRecord 1 central.length local_.length)

/-- `data.encode("utf-8")`, zipfile.py:1825. -/
def utf8 (s : Str) : Bytes := s.flatMap String.utf8EncodeChar

/-- `writer`, src/xrns/writer.py:12-23, after rendering: `rendered = serializer.render(..)`
and `zf.writestr("Song.xml", rendered)`. -/
def writeSong (zip64 : DateTime → Bytes → Bytes → Except PyErr Unit × Bytes) (t : DateTime)
    (d : DaoSong) : Except PyErr Unit × Bytes :=
  zipSingle zip64 t (utf8 "Song.xml".toList) (utf8 (songXml d))

end VgmX
