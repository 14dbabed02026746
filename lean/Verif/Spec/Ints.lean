import Verif.Model.Ints
/-
Vocabulary of C131: commands made with numbers that may be negative.
-/

namespace VgmX.Spec

/-- The command with bytes that does the same: a register that is not a byte counts as its low byte (the
remainder modulo 256) if that is at least 0x20, and otherwise there is no such register; values count as
their low byte. -/
def byteCall : IntCall → Option Event
  | .write r v =>
    if (r < 0 ∨ 256 ≤ r) ∧ r % 256 < 0x20 then none else some (.write (r % 256).toNat (v % 256).toNat)
  | .wait n => some (.wait n)

/-- The write keeps its value as it is (the LFO frequency; the AM depth, in register 0x19 with bit 7
clear). -/
def keepsWhole (r v : Int) : Prop := r = 0x18 ∨ (r = 0x19 ∧ v / 128 % 2 = 0)

end VgmX.Spec
