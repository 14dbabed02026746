import Verif.Spec.Vgm
/-
What consecutive bytes of a file say about a command, if the payloads of commands without a
meaning for the extractor may be cut short.
-/

namespace VgmX.Spec

/-- `Says blk c`: the command `c` is made of the bytes `blk`. Register writes, waits and the end
mark have all their bytes; any other command begins with its opcode and ends with its payload. -/
inductive Says : Bytes → Cmd → Prop
  | ym2151 (reg value : UInt8) : Says [0x54, reg, value] (.ym2151 0x54 reg.toNat value.toNat)
  | wait16 (lo hi : UInt8) : Says [0x61, lo, hi] (.wait 0x61 (some (lo.toNat + 256 * hi.toNat)))
  | wait735 : Says [0x62] (.wait 0x62 (some 735))
  | wait882 : Says [0x63] (.wait 0x63 (some 882))
  | waitShort (op : UInt8) : 0x70 ≤ op.toNat → op.toNat ≤ 0x7F →
      Says [op] (.wait op.toNat (some (op.toNat - 0x70 + 1)))
  | eos : Says [0x66] (.eos 0x66)
  | plain (op : UInt8) (sizes : Bytes) (payload : Option Bytes) :
      isPlainOp op.toNat ∨ op = 0x67 ∨ op = 0x68 →
      (isPlainOp op.toNat → sizes = []) →
      Says (op :: (sizes ++ payload.getD [])) (.plain op.toNat payload)

/-- `p` is the payload `q` cut short: not there, or its beginning only. -/
def CutShort (p : Option Bytes) (q : Bytes) : Prop :=
  p = none ∨ ∃ b r, p = some b ∧ q = b ++ r ∧ r ≠ []

end VgmX.Spec
