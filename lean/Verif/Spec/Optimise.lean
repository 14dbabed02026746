import Verif.Spec.Ym2151
/-
Recordings from which superfluous register writes have been removed, as VGM optimisers do. Of the
model it uses nothing.
-/

namespace VgmX.Spec

/-- Does register `r` concern the key events of channel `c`? The low frequency oscillator
concerns all channels, the noise generator channel 7; from 0x20 on the low three bits of the
address are the channel. -/
def Concerns (r c : Nat) : Prop :=
  r = 0x18 ∨ r = 0x19 ∨ r = 0x1B ∨ (r = 0x0F ∧ c = 7) ∨ (0x20 ≤ r ∧ r % 8 = c)

instance (r c : Nat) : Decidable (Concerns r c) := by unfold Concerns; infer_instance

/-- Values `v` and `w` written to register `r` go to the same place. (Register 0x19 has two,
selected by bit 7.) -/
def SamePlace (r v w : Nat) : Prop := r ≠ 0x19 ∨ (v < 128 ↔ w < 128)

instance (r v w : Nat) : Decidable (SamePlace r v w) := by unfold SamePlace; infer_instance

/-- After `past`, writing `v` to `r` changes nothing: that is what was written there last. (A
register never written holds 0.) -/
def AlreadyThere (past : List Event) (r v : Nat) : Prop :=
  (writesTo past r (fun w => decide (SamePlace r v w))).getLast?.getD 0 = v

instance (past : List Event) (r v : Nat) : Decidable (AlreadyThere past r v) := by
  unfold AlreadyThere; infer_instance

/-- With `future` to come, the value `v` of `r` is never used: until it is overwritten, or until
the end, there is no key event that it concerns. -/
def NeverUsed (r v : Nat) (future : List Event) : Prop :=
  ∃ m rest, future = m ++ rest ∧
    (∀ u, Event.write 8 u ∈ m → ¬ Concerns r (u % 8)) ∧
    (rest = [] ∨ ∃ w rest', rest = .write r w :: rest' ∧ SamePlace r v w)

/-- `Shrinks h h'`: one after the other, register writes that change nothing or are never used
have been removed from `h`; `h'` is left. Writes of the key register are never removed. -/
inductive Shrinks (h : List Event) : List Event → Prop
  | none : Shrinks h h
  | drop {p q : List Event} {r v : Nat} (before : Shrinks h (p ++ .write r v :: q)) (h8 : r ≠ 8)
      (why : AlreadyThere p r v ∨ NeverUsed r v q) : Shrinks h (p ++ q)

end VgmX.Spec
