import Verif.Model.Watch
/-
What can be seen of a `State` from outside, and what a thread that looks should see.
-/

namespace VgmX.Spec

/-- The settings of a channel. -/
inductive ChannelField where
  | fb | ams | pms | connection | noise | noiseFreq
  deriving DecidableEq, Repr

/-- The settings of an operator. -/
inductive OperatorField where
  | totalLevel | attackRate | firstDecayRate | firstDecayLevel | secondDecayRate | releaseRate
  | keyScale | multiply | firstDetune | secondDetune | ase
  deriving DecidableEq, Repr

/-- The settings that all channels share, and that a `State` shows as its own attributes. -/
inductive BaseField where
  | lfo | phsMd | ampMd | waveform
  deriving DecidableEq, Repr

/-- One look at a state. -/
inductive Look where
  /-- `st.configs` -/
  | instruments
  /-- `st.key_presses(ch)` -/
  | notes (ch : Nat)
  /-- `st.ticks()` -/
  | ticks
  /-- `st.ticks_per_note()` -/
  | estimate
  /-- `st.channel_config(ch).<name>` -/
  | channel (ch : Nat) (f : ChannelField)
  /-- `st.channel_config(ch).operators[k].<name>` -/
  | operator (ch k : Nat) (f : OperatorField)
  /-- `st.<name>` -/
  | base (f : BaseField)
  deriving DecidableEq, Repr

/-- What is seen. -/
inductive Sight where
  | instruments (l : List Config)
  | notes (l : List Note)
  | ticks (l : List Nat)
  | estimate (r : Except PyErr Nat)
  | number (n : Nat)
  | flag (b : Bool)
  | shape (w : Waveform)

/-- A setting of a channel. -/
def ChannelField.get (c : ChannelConfig) : ChannelField → Sight
  | .fb => .number c.fb
  | .ams => .number c.ams
  | .pms => .number c.pms
  | .connection => .number c.connection
  | .noise => .flag c.noise
  | .noiseFreq => .number c.noiseFreq

/-- A setting of an operator. -/
def OperatorField.get (o : OperatorConfig) : OperatorField → Sight
  | .totalLevel => .number o.totalLevel
  | .attackRate => .number o.attackRate
  | .firstDecayRate => .number o.firstDecayRate
  | .firstDecayLevel => .number o.firstDecayLevel
  | .secondDecayRate => .number o.secondDecayRate
  | .releaseRate => .number o.releaseRate
  | .keyScale => .number o.keyScale
  | .multiply => .number o.multiply
  | .firstDetune => .number o.firstDetune
  | .secondDetune => .number o.secondDetune
  | .ase => .flag o.ase

/-- A setting that all channels share. -/
def BaseField.get (b : BaseConfig) : BaseField → Sight
  | .lfo => .number b.lfo
  | .phsMd => .number b.phsMd
  | .ampMd => .number b.ampMd
  | .waveform => .shape b.waveform

/-- What is seen with a look at this state. -/
def Look.at (s : State) : Look → Sight
  | .instruments => .instruments s.configs
  | .notes ch => .notes (s.keyPressesOf ch)
  | .ticks => .ticks s.ticks
  | .estimate => .estimate s.ticksPerNote
  | .channel ch f => f.get (s.channelConfig ch)
  | .operator ch k f => f.get ((s.channelConfig ch).operators.getD k {})
  | .base f => f.get s.base

/-- The state that the thread is working on, after `n` of its steps, when it gives the commands `h`
to a new state. -/
def moment (h : List Event) (n : Nat) : State := ((Feeder.start h).after n).state

end VgmX.Spec
