import Verif.Spec.Vgm
/-
How to read a zip archive (APPNOTE.TXT): the end record at the end of the file, the central
directory it points to, and for every entry the local header it points to and the data behind
it. Only stored (uncompressed) entries, no comments, no zip64; everything the two headers say
twice must agree, and the checksum must be right.
-/

namespace VgmX.Spec

/-- One step of CRC-32, bit by bit: the polynomial 0x04C11DB7, reflected. -/
def crcStep (c : UInt32) : UInt32 :=
  if c &&& 1 = 1 then (c >>> 1) ^^^ 0xEDB88320 else c >>> 1

/-- One byte of CRC-32. -/
def crcByte (c : UInt32) (b : UInt8) : UInt32 :=
  crcStep (crcStep (crcStep (crcStep (crcStep (crcStep (crcStep (crcStep (c ^^^ b.toUInt32))))))))

/-- CRC-32. -/
def crc32 (b : Bytes) : Nat := ((b.foldl crcByte 0xFFFFFFFF) ^^^ 0xFFFFFFFF).toNat

/-- The little-endian number in `k` bytes from `p`. -/
def leAt (b : Bytes) (p k : Nat) : Nat := leValue ((b.drop p).take k)

/-- `k` bytes from `p`, all of them present. -/
def slice (b : Bytes) (p k : Nat) : Option Bytes :=
  if p + k ≤ b.length then some ((b.drop p).take k) else none

/-- An entry: its name, its data, and when it was last modified (the 16-bit date and time
words). -/
structure ZipEntry where
  name : Bytes
  data : Bytes
  date : Nat
  time : Nat
  deriving DecidableEq, Repr

/-- The entry whose central directory header starts at `p`, and where the next one starts. -/
def readEntry (b : Bytes) (p : Nat) : Option (ZipEntry × Nat) := do
  let c ← slice b p 46
  guard (leAt c 0 4 = 0x02014B50)
  let nameLen := leAt c 28 2
  let extraLen := leAt c 30 2
  let commentLen := leAt c 32 2
  let name ← slice b (p + 46) nameLen
  let size := leAt c 24 4
  let q := leAt c 42 4
  let l ← slice b q 30
  guard (leAt l 0 4 = 0x04034B50)
  -- not encrypted, no data descriptor, stored
  guard (leAt c 8 2 = 0 ∧ leAt c 10 2 = 0 ∧ leAt c 20 4 = size)
  -- version, flags, method, time, date, checksum, sizes, name length in both headers
  guard ((c.drop 6).take 24 = (l.drop 4).take 24)
  let name' ← slice b (q + 30) (leAt l 26 2)
  guard (name' = name)
  let data ← slice b (q + 30 + leAt l 26 2 + leAt l 28 2) size
  guard (crc32 data = leAt c 16 4)
  some (⟨name, data, leAt c 14 2, leAt c 12 2⟩, p + 46 + nameLen + extraLen + commentLen)

/-- `n` entries from `p`, and where they end. -/
def readEntries (b : Bytes) : Nat → Nat → Option (List ZipEntry × Nat)
  | 0, p => some ([], p)
  | n + 1, p => do
    let (e, p) ← readEntry b p
    let (es, p) ← readEntries b n p
    some (e :: es, p)

/-- The entries of a zip archive. -/
def unzip (b : Bytes) : Option (List ZipEntry) :=
  if 22 ≤ b.length then do
    let p := b.length - 22
    let e := b.drop p
    guard (leAt e 0 4 = 0x06054B50)
    -- one disk, no comment
    guard (leAt e 4 2 = 0 ∧ leAt e 6 2 = 0 ∧ leAt e 8 2 = leAt e 10 2 ∧ leAt e 20 2 = 0)
    let (es, q) ← readEntries b (leAt e 10 2) (leAt e 16 4)
    -- the directory ends where the end record starts, and has the size given
    guard (q = p ∧ leAt e 12 4 = p - leAt e 16 4)
    some es
  else none

end VgmX.Spec
