import Verif.Spec.Ym2151
/-
Commands made with numbers that may be negative (`create(reg, value)` and `State.apply` take any int).

Simplifications: the two writes that keep their value as it is (0x18, and 0x19 with bit 7 clear) are
modelled for values that are not negative only; waits are not negative.
-/

namespace VgmX
open Spec

/-- `x & m` for an `m` that is not negative: a negative `x` has the bits of `~(-x - 1)`.
(Python semantics, for src/vgm/ym2151/state.py:35-152.) -/
def pyAnd (x : Int) (m : Nat) : Nat :=
  match x with
  | .ofNat n => n &&& m
  | .negSucc n => m - (n &&& m)

/-- `State.apply` on a command with any numbers, src/vgm/ym2151/state.py:35-152. The two fields of a key
event are handed on together. -/
def State.applyInt (s : State) (reg value : Int) : State :=
  let channel := pyAnd reg 0x07
  let operator := pyAnd (reg >>> 3) 0x03
  if reg = 0x08 then
    s.keyEvent (pyAnd (value >>> 3) 0xF * 8 + pyAnd value 0x07)
  -- Noise, state.py:78-80
  else if reg = 0x0F then
    s.updChannel 7 (fun c =>
      { c with noise := decide (0 < pyAnd value (1 <<< 7)), noiseFreq := pyAnd value 0x1F })
  -- LFO, state.py:83-84
  else if reg = 0x18 then { s with base := { s.base with lfo := value.toNat } }
  -- PMD / AMD, state.py:87-91
  else if reg = 0x19 then
    if 0 < pyAnd value (1 <<< 7) then
      { s with base := { s.base with phsMd := pyAnd value 0x7F } }
    else { s with base := { s.base with ampMd := value.toNat } }
  -- Waveform, state.py:94-95 (`Waveform(value & 3)` never raises)
  else if reg = 0x1B then
    { s with base := { s.base with waveform := (Waveform.ofNat? (pyAnd value 0x3)).getD .saw } }
  -- state.py:97-101
  else if pyAnd reg 0xF8 = 0x20 then
    (s.updNote channel (fun n =>
      { n with right := decide (0 < pyAnd value (1 <<< 7)),
               left := decide (0 < pyAnd value (1 <<< 6)) })).updChannel channel (fun c =>
      { c with fb := pyAnd (value >>> 3) 0x07, connection := pyAnd value 0x07 })
  -- state.py:103-105
  else if pyAnd reg 0xF8 = 0x28 then
    s.updNote channel (fun n =>
      { n with octave := pyAnd (value >>> 4) 0x07, note := pyAnd value 0x0F })
  -- state.py:107-108
  else if pyAnd reg 0xF8 = 0x30 then
    s.updNote channel (fun n => { n with keyFraction := pyAnd (value >>> 2) 0x3F })
  -- state.py:109-111
  else if pyAnd reg 0xF8 = 0x38 then
    s.updChannel channel (fun c =>
      { c with pms := pyAnd (value >>> 4) 0x07, ams := pyAnd value 0x03 })
  -- state.py:113-119
  else if pyAnd reg 0xE0 = 0x40 then
    s.updOperator channel operator (fun o =>
      { o with firstDetune := pyAnd (value >>> 4) 0x07, multiply := pyAnd value 0x0F })
  -- state.py:121-124
  else if pyAnd reg 0xE0 = 0x60 then
    s.updOperator channel operator (fun o => { o with totalLevel := pyAnd value 0x7F })
  -- state.py:125-131
  else if pyAnd reg 0xE0 = 0x80 then
    s.updOperator channel operator (fun o =>
      { o with keyScale := pyAnd (value >>> 6) 0x3, attackRate := pyAnd value 0x1F })
  -- state.py:132-138
  else if pyAnd reg 0xE0 = 0xA0 then
    s.updOperator channel operator (fun o =>
      { o with ase := decide (0 < pyAnd value 0x80), firstDecayRate := pyAnd value 0x1F })
  -- state.py:139-145
  else if pyAnd reg 0xE0 = 0xC0 then
    s.updOperator channel operator (fun o =>
      { o with secondDetune := pyAnd (value >>> 6) 0x03, secondDecayRate := pyAnd value 0x0F })
  -- state.py:146-152
  else if pyAnd reg 0xE0 = 0xE0 then
    s.updOperator channel operator (fun o =>
      { o with firstDecayLevel := pyAnd (value >>> 4) 0x0F, releaseRate := pyAnd value 0x0F })
  else s

/-- A command with any numbers, or a wait. (src/vgm/ym2151/config.py:251-262 and state.py:35, 160.) -/
inductive IntCall where
  | write (reg value : Int)
  | wait (n : Nat)
  deriving DecidableEq, Repr

/-- One call. (src/vgm/ym2151/state.py:35-152 and 160-161.) -/
def State.stepInt (s : State) : IntCall → State
  | .write r v => s.applyInt r v
  | .wait n => s.beat n

/-- The state after such calls, from a fresh `State()`. (src/vgm/ym2151/state.py:17-161.) -/
def runInts (h : List IntCall) : State := h.foldl State.stepInt State.init

end VgmX
