import Verif.Model.Reader
/-
Specification of the VGM command stream and header, written from the VGM file format
specification (operand lengths, wait lengths, header offsets). Of the model it uses only
the types of bytes and of command objects.
-/

namespace VgmX.Spec

/-- The number that bytes denote in little-endian order: byte `i` counts `256 ^ i`. -/
def leValue (b : Bytes) : Nat := (b.zipIdx.map fun x => x.1.toNat * 256 ^ x.2).sum

/-- Operand bytes per opcode (first, last, number), for opcodes of fixed length. Opcodes
that the format leaves undefined have none. -/
def operandTable : List (Nat × Nat × Nat) :=
  [(0x00, 0x2F, 0), (0x30, 0x3F, 1), (0x40, 0x4E, 2), (0x4F, 0x50, 1), (0x51, 0x5F, 2),
   (0x60, 0x60, 0), (0x61, 0x61, 2), (0x62, 0x66, 0), (0x68, 0x68, 11), (0x69, 0x6F, 0),
   (0x70, 0x8F, 0), (0x90, 0x91, 4), (0x92, 0x92, 5), (0x93, 0x93, 10), (0x94, 0x94, 1),
   (0x95, 0x95, 4), (0x96, 0x9F, 0), (0xA0, 0xBF, 2), (0xC0, 0xDF, 3), (0xE0, 0xFF, 4)]

/-- Operand bytes of an opcode of fixed length (all but 0x67). -/
def fixedLen (op : Nat) : Nat :=
  ((operandTable.find? fun e => decide (e.1 ≤ op ∧ op ≤ e.2.1)).map (·.2.2)).getD 0

/-- The data-block size of a 0x67 command: bytes 3..6 of the operands, of which bit 31
selects the chip. -/
def blockSize (operands : Bytes) : Nat := leValue ((operands.drop 2).take 4) % 2 ^ 31

/-- Samples a command waits for. -/
def waitOf (op : Nat) (operands : Bytes) : Nat :=
  if op = 0x61 then leValue (operands.take 2)
  else if op = 0x62 then 735
  else if op = 0x63 then 882
  else if 0x70 ≤ op ∧ op ≤ 0x7F then op - 0x70 + 1
  else if 0x80 ≤ op ∧ op ≤ 0x8F then op - 0x80
  else 0

/-- Opcodes without special meaning to an extractor and with a fixed number of operands. -/
def isPlainOp (op : Nat) : Prop :=
  op < 256 ∧ op ≠ 0x54 ∧ ¬ (0x61 ≤ op ∧ op ≤ 0x63) ∧ ¬ (0x66 ≤ op ∧ op ≤ 0x68) ∧
    ¬ (0x70 ≤ op ∧ op ≤ 0x7F)

instance (op : Nat) : Decidable (isPlainOp op) := by unfold isPlainOp; infer_instance

/-- `Encodes c bs`: the bytes `bs` are a VGM encoding of the command `c`. A data block is
any of at most 2^31-1 bytes. Of the 0x68 command (PCM RAM write) only those of size
field 0 are covered, see `c02_pcm_ram_write_refuted`. -/
inductive Encodes : Cmd → Bytes → Prop
  | noOperand (op : UInt8) : isPlainOp op.toNat → fixedLen op.toNat = 0 →
      Encodes (.plain op.toNat none) [op]
  | operands (op : UInt8) (payload : Bytes) : isPlainOp op.toNat →
      0 < fixedLen op.toNat → payload.length = fixedLen op.toNat →
      Encodes (.plain op.toNat (some payload)) (op :: payload)
  | ym2151 (reg value : UInt8) : Encodes (.ym2151 0x54 reg.toNat value.toNat) [0x54, reg, value]
  | wait16 (lo hi : UInt8) : Encodes (.wait 0x61 (some (lo.toNat + 256 * hi.toNat))) [0x61, lo, hi]
  | wait735 : Encodes (.wait 0x62 (some 735)) [0x62]
  | wait882 : Encodes (.wait 0x63 (some 882)) [0x63]
  | waitShort (op : UInt8) : 0x70 ≤ op.toNat → op.toNat ≤ 0x7F →
      Encodes (.wait op.toNat (some (op.toNat - 0x70 + 1))) [op]
  | eos : Encodes (.eos 0x66) [0x66]
  | block (compat tt s0 s1 s2 s3 : UInt8) (payload : Bytes) :
      s0.toNat + 256 * (s1.toNat + 256 * (s2.toNat + 256 * s3.toNat)) = payload.length →
      payload.length < 2 ^ 31 →
      Encodes (.plain 0x67 (some payload)) (0x67 :: compat :: tt :: s0 :: s1 :: s2 :: s3 :: payload)
  | pcmRam (operands : Bytes) : operands.length = 11 → operands.drop 8 = [0, 0, 0] →
      Encodes (.plain 0x68 (some [])) (0x68 :: operands)

/-- Remaining bytes that are a truncated command, with the exception raised for it. -/
inductive Truncated : Bytes → PyErr → Prop
  | ym2151 (operands : Bytes) : operands.length < 2 → Truncated (0x54 :: operands) .eof
  | wait (operands : Bytes) : operands.length < 2 → Truncated (0x61 :: operands) .eof
  | block (operands : Bytes) : operands.length < 6 → Truncated (0x67 :: operands) .struct
  | pcmRam (operands : Bytes) : operands.length < 11 → Truncated (0x68 :: operands) .struct

/-- The little-endian word at offset `o`. -/
def word (content : Bytes) (o : Nat) : Nat := leValue ((content.drop o).take 4)

/-- The byte at offset `o`. -/
def byteAt (content : Bytes) (o : Nat) : Nat := (content.getD o 0).toNat

/-- The version: the eight BCD digits of the word at 8, most significant byte last. -/
def version (content : Bytes) : Nat :=
  (byteAt content 11 / 16) * 10000000 + (byteAt content 11 % 16) * 1000000 +
  (byteAt content 10 / 16) * 100000 + (byteAt content 10 % 16) * 10000 +
  (byteAt content 9 / 16) * 1000 + (byteAt content 9 % 16) * 100 +
  (byteAt content 8 / 16) * 10 + byteAt content 8 % 16

/-- The YM2151 clock: word at 0x30; before version 1.10 the word at 0x10. -/
def ym2151Clock (content : Bytes) : Nat :=
  if version content < 110 then word content 0x10 else word content 0x30

/-- Where the commands start. -/
def dataStart (content : Bytes) : Nat :=
  if 150 ≤ version content then 0x34 + word content 0x34 else 0x40

/-- Header bytes that must be present. -/
def headerLen (content : Bytes) : Nat := if 150 ≤ version content then 0x38 else 0x34

def vgmMagic : Bytes := [0x56, 0x67, 0x6d, 0x20]
def gzipMagic : Bytes := [0x1f, 0x8b]

end VgmX.Spec
