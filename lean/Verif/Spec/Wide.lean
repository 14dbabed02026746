import Verif.Spec.Ym2151
/-
Vocabulary of C99: commands made with numbers that are not bytes. (`create(reg, value)` and
`State.apply` take any int; those read from a file are bytes.)
-/

namespace VgmX.Spec

/-- The writes that store their value as it is: the LFO frequency, and the AM depth (register 0x19
with bit 7 clear). -/
def KeptWhole (reg value : Nat) : Prop := reg = 0x18 ∨ (reg = 0x19 ∧ value / 128 % 2 = 0)

instance (reg value : Nat) : Decidable (KeptWhole reg value) := by unfold KeptWhole; infer_instance

/-- The command with bytes that does the same: registers from 256 on count as their low byte if
that is at least 0x20, and otherwise there is no such register; values count as their low byte. -/
def Event.low : Event → Option Event
  | .write r v => if 256 ≤ r ∧ r % 256 < 0x20 then none else some (.write (r % 256) (v % 256))
  | .wait n => some (.wait n)

end VgmX.Spec
