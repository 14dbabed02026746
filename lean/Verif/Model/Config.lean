import Verif.Model.Reader
/-
Model of `src/vgm/ym2151/config.py`: configuration records, their hand-written `__eq__`,
their copy constructors, and `Config.compare`.

Python `int` attributes are `Nat` (register bytes are never negative).
-/

namespace VgmX

/-- `Waveform`, config.py:10-14. -/
inductive Waveform where
  | saw | square | triangle | noise
  deriving DecidableEq, Repr, Inhabited

/-- The `Enum` lookup `Waveform(n)`, config.py:10-14; `none` is `ValueError`. -/
def Waveform.ofNat? : Nat → Option Waveform
  | 0 => some .saw
  | 1 => some .square
  | 2 => some .triangle
  | 3 => some .noise
  | _ => none

/-- `BaseConfig`, config.py:39-44. -/
structure BaseConfig where
  waveform : Waveform := .saw
  lfo : Nat := 0
  ampMd : Nat := 0
  phsMd : Nat := 0
  deriving DecidableEq, Repr, Inhabited

/-- `BaseConfig.__eq__`, config.py:46-54. -/
def BaseConfig.pyEq (a b : BaseConfig) : Bool :=
  a.lfo == b.lfo && a.phsMd == b.phsMd && a.ampMd == b.ampMd && a.waveform == b.waveform

/-- `BaseConfig.__deepcopy__` = `BaseConfig(self)`, config.py:40-44, 57-58. -/
def BaseConfig.copy (o : BaseConfig) : BaseConfig where
  waveform := o.waveform
  lfo := o.lfo
  ampMd := o.ampMd
  phsMd := o.phsMd

/-- `OperatorConfig`, config.py:64-76. -/
structure OperatorConfig where
  totalLevel : Nat := 0
  attackRate : Nat := 0
  firstDecayRate : Nat := 0
  firstDecayLevel : Nat := 0
  secondDecayRate : Nat := 0
  releaseRate : Nat := 0
  keyScale : Nat := 0
  multiply : Nat := 0
  firstDetune : Nat := 0
  secondDetune : Nat := 0
  ase : Bool := false
  deriving DecidableEq, Repr, Inhabited

/-- `OperatorConfig.__eq__`, config.py:78-93. -/
def OperatorConfig.pyEq (a b : OperatorConfig) : Bool :=
  a.firstDetune == b.firstDetune
    && a.secondDetune == b.secondDetune
    && a.multiply == b.multiply
    && a.totalLevel == b.totalLevel
    && a.keyScale == b.keyScale
    && a.attackRate == b.attackRate
    && a.ase == b.ase
    && a.firstDecayRate == b.firstDecayRate
    && a.secondDecayRate == b.secondDecayRate
    && a.firstDecayLevel == b.firstDecayLevel
    && a.releaseRate == b.releaseRate

/-- `OperatorConfig.__deepcopy__` = `OperatorConfig(self)`, config.py:65-76, 96-97. -/
def OperatorConfig.copy (o : OperatorConfig) : OperatorConfig where
  totalLevel := o.totalLevel
  attackRate := o.attackRate
  firstDecayRate := o.firstDecayRate
  firstDecayLevel := o.firstDecayLevel
  secondDecayRate := o.secondDecayRate
  releaseRate := o.releaseRate
  keyScale := o.keyScale
  multiply := o.multiply
  firstDetune := o.firstDetune
  secondDetune := o.secondDetune
  ase := o.ase

/-- `NoteConfig`, config.py:115-121. -/
structure NoteConfig where
  right : Bool := false
  left : Bool := false
  octave : Nat := 0
  note : Nat := 0
  keyFraction : Nat := 0
  deriving DecidableEq, Repr, Inhabited

/-- `ChannelConfig`, config.py:148-163 (four operators by default). -/
structure ChannelConfig where
  operators : List OperatorConfig := [{}, {}, {}, {}]
  fb : Nat := 0
  ams : Nat := 0
  pms : Nat := 0
  connection : Nat := 0
  noise : Bool := false
  noiseFreq : Nat := 0
  deriving DecidableEq, Repr, Inhabited

/-- Python list equality with element-wise `__eq__`. (Python semantics, for config.py:165-176.) -/
def listPyEq {α : Type} (eq : α → α → Bool) : List α → List α → Bool
  | [], [] => true
  | a :: as, b :: bs => eq a b && listPyEq eq as bs
  | _, _ => false

/-- `ChannelConfig.__eq__`, config.py:165-176. -/
def ChannelConfig.pyEq (a b : ChannelConfig) : Bool :=
  a.fb == b.fb
    && a.connection == b.connection
    && a.ams == b.ams
    && a.pms == b.pms
    && listPyEq OperatorConfig.pyEq a.operators b.operators
    && a.noise == b.noise
    && a.noiseFreq == b.noiseFreq

/-- `ChannelConfig.__deepcopy__` = `ChannelConfig(self)`, config.py:149-159, 179-180. -/
def ChannelConfig.copy (o : ChannelConfig) : ChannelConfig where
  operators := o.operators.map OperatorConfig.copy
  fb := o.fb
  ams := o.ams
  pms := o.pms
  connection := o.connection
  noise := o.noise
  noiseFreq := o.noiseFreq

/-- `Config`, config.py:197-208. `operators` is the `Operators` flag value 0..15
(MOD1 = 1, CAR1 = 2, MOD2 = 4, CAR2 = 8; config.py:20-24). -/
structure Config where
  id : Nat
  base : BaseConfig
  operators : Nat
  channel : ChannelConfig
  deriving DecidableEq, Repr

/-- `Config.compare`, config.py:224-229. -/
def Config.compare (c : Config) (base : BaseConfig) (channel : ChannelConfig)
    (operators : Nat) : Bool :=
  c.base.pyEq base && c.channel.pyEq channel && c.operators == operators

end VgmX
