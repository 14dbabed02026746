import Verif.Model.Edits
/-
What edits mean, on values: nothing is shared. Uses of the model only the records of settings, the
value-level state (without references) and the names of the edits.
-/

namespace VgmX.Spec

/-- The settings of the channel after an assignment: one of them is the value given. -/
def assignChannel (c : ChannelConfig) : ChanAssign → ChannelConfig
  | .fb v => { c with fb := v }
  | .ams v => { c with ams := v }
  | .pms v => { c with pms := v }
  | .connection v => { c with connection := v }
  | .noise b => { c with noise := b }
  | .noiseFreq v => { c with noiseFreq := v }

/-- The settings of the operator after an assignment. -/
def assignOperator (o : OperatorConfig) : OpAssign → OperatorConfig
  | .totalLevel v => { o with totalLevel := v }
  | .attackRate v => { o with attackRate := v }
  | .firstDecayRate v => { o with firstDecayRate := v }
  | .firstDecayLevel v => { o with firstDecayLevel := v }
  | .secondDecayRate v => { o with secondDecayRate := v }
  | .releaseRate v => { o with releaseRate := v }
  | .keyScale v => { o with keyScale := v }
  | .multiply v => { o with multiply := v }
  | .firstDetune v => { o with firstDetune := v }
  | .secondDetune v => { o with secondDetune := v }
  | .ase b => { o with ase := b }

/-- Assignment to operator `k` of a channel. -/
def inChannel (k : Nat) (a : OpAssign) (c : ChannelConfig) : ChannelConfig :=
  { c with operators := c.operators.modify k (fun o => assignOperator o a) }

/-- Exactly one thing changes, or there is no such thing (`IndexError`). -/
def edited (t : State) : Edit → Option State
  | .channel ch a =>
    if ch < 8 then
      some { t with channelConfigs := t.channelConfigs.modify ch (fun c => assignChannel c a) }
    else none
  | .operator ch k a =>
    if ch < 8 ∧ k < 4 then
      some { t with channelConfigs := t.channelConfigs.modify ch (inChannel k a) }
    else none
  | .instrument i k a =>
    if i < t.configs.length ∧ k < 4 then
      some { t with configs :=
        t.configs.modify i (fun p => { p with channel := inChannel k a p.channel }) }
    else none
  | .notes ch l => if ch < 8 then some { t with keyPresses := t.keyPresses.set ch l } else none
  | .keep positions =>
    if ∀ i ∈ positions, i < t.configs.length then
      some { t with configs := positions.filterMap (fun i => t.configs[i]?) }
    else none

/-- A session on values: which calls raise `IndexError`, and the state in the end. -/
def editSession (t : State) : List EditCall → List (Option PyErr) × State
  | [] => ([], t)
  | .write r v :: cs => (none :: (editSession (t.apply r v) cs).1, (editSession (t.apply r v) cs).2)
  | .wait n :: cs => (none :: (editSession (t.beat n) cs).1, (editSession (t.beat n) cs).2)
  | .edit e :: cs =>
    match edited t e with
    | some t' => (none :: (editSession t' cs).1, (editSession t' cs).2)
    | none => (some .index :: (editSession t cs).1, (editSession t cs).2)

/-- Several edits one after the other, on values. -/
def editedAll (t : State) : List Edit → Option State
  | [] => some t
  | e :: es => (edited t e).bind (fun t' => editedAll t' es)

/-- Sixteen possible values of `Operators`: what a key event switches on. -/
def keyedOps (value : Nat) : Nat := value / 8 % 16

/-- The same sound: the settings of an instrument are the ones given. -/
def sounds (base : BaseConfig) (c : ChannelConfig) (op : Nat) (p : Config) : Prop :=
  p.base = base ∧ p.channel = c ∧ p.operators = op

end VgmX.Spec
