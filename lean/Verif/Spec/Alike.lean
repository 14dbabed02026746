import Verif.Spec.Ym2151
/-
Histories that should give the same result, or one that differs in a known way: the same
register writes at the same times, the same writes after some silence, and the same music on
other channels. Of the model it uses nothing.
-/

namespace VgmX.Spec

/-- The register writes of a history as (time, register, value), the clock being at `now`. -/
def timedWrites : Nat → List Event → List (Nat × Nat × Nat)
  | _, [] => []
  | now, .wait n :: h => timedWrites (now + n) h
  | now, .write r v :: h => (now, r, v) :: timedWrites now h

/-- Some key-on happens before any time has passed. -/
def KeyOnAtStart (h : List Event) : Prop :=
  ∃ i v : Nat, h[i]? = some (.write 8 v) ∧ v / 8 % 16 ≠ 0 ∧ time (h.take i) = 0

/-- A note some time later. -/
def later (d : Nat) (n : Note) : Note := { n with sample := n.sample + d }

/-- `f` renames the channels of `h`: it permutes 0..7, and it leaves channel 7 alone, unless
the noise generator, which only that channel has, is never used. -/
structure Renames (f : Nat → Nat) (h : List Event) : Prop where
  lt : ∀ c < 8, f c < 8
  inj : ∀ c < 8, ∀ c' < 8, f c = f c' → c = c'
  noise : f 7 = 7 ∨ ∀ v, Event.write 0x0F v ∉ h

/-- The same event on another channel: the key register has the channel in the low three bits
of its value, registers from 0x20 on in the low three bits of their address; the others are
global. -/
def onChannel (f : Nat → Nat) : Event → Event
  | .wait n => .wait n
  | .write r v =>
    if r = 0x08 then .write 0x08 (v / 8 * 8 + f (v % 8))
    else if 0x20 ≤ r then .write (r / 8 * 8 + f (r % 8)) v
    else .write r v

end VgmX.Spec
