import Verif.Model.Heap
/-
What a caller can change through the objects that `State` hands out: the channel settings
(`channel_config`, state.py:157-158), the operators of a channel and of an instrument (the attribute
`operators`, config.py:150 and 210-222), the list of notes (`key_presses`, state.py:154-155) and the
list `configs` (state.py:22). At reference level.

Simplifications: channels and positions are counted from 0 (no negative indices); the values
assigned are Booleans for `noise` and `ase` and non-negative numbers otherwise; the notes put into a
list are new objects; no list is put in the place of another one.
-/

namespace VgmX

/-- An assignment to an attribute of a `ChannelConfig`, config.py:154-159. -/
inductive ChanAssign where
  | fb (v : Nat)
  | ams (v : Nat)
  | pms (v : Nat)
  | connection (v : Nat)
  | noise (b : Bool)
  | noiseFreq (v : Nat)
  deriving DecidableEq, Repr

/-- An assignment to an attribute of an `OperatorConfig`, config.py:66-76. -/
inductive OpAssign where
  | totalLevel (v : Nat)
  | attackRate (v : Nat)
  | firstDecayRate (v : Nat)
  | firstDecayLevel (v : Nat)
  | secondDecayRate (v : Nat)
  | releaseRate (v : Nat)
  | keyScale (v : Nat)
  | multiply (v : Nat)
  | firstDetune (v : Nat)
  | secondDetune (v : Nat)
  | ase (b : Bool)
  deriving DecidableEq, Repr

/-- What the caller does with an object it was given.
(Through src/vgm/ym2151/state.py:22, 154-158 and config.py:222.) -/
inductive Edit where
  /-- `state.channel_config(ch).<name> = v` -/
  | channel (ch : Nat) (a : ChanAssign)
  /-- `state.channel_config(ch).operators[k].<name> = v` -/
  | operator (ch k : Nat) (a : OpAssign)
  /-- `state.configs[i].operators[k].<name> = v` -/
  | instrument (i k : Nat) (a : OpAssign)
  /-- `state.key_presses(ch)[:] = notes`: what appending, deleting, sorting amount to -/
  | notes (ch : Nat) (l : List Note)
  /-- `state.configs[:] = [state.configs[i] for i in positions]`: deleting, reordering -/
  | keep (positions : List Nat)
  deriving DecidableEq, Repr

/-- The object after the assignment, config.py:154-159. -/
def ChanAssign.onObj (c : ChanObj) : ChanAssign → ChanObj
  | .fb v => { c with fb := v }
  | .ams v => { c with ams := v }
  | .pms v => { c with pms := v }
  | .connection v => { c with connection := v }
  | .noise b => { c with noise := b }
  | .noiseFreq v => { c with noiseFreq := v }

/-- The object after the assignment, config.py:66-76. -/
def OpAssign.onObj (o : OperatorConfig) : OpAssign → OperatorConfig
  | .totalLevel v => { o with totalLevel := v }
  | .attackRate v => { o with attackRate := v }
  | .firstDecayRate v => { o with firstDecayRate := v }
  | .firstDecayLevel v => { o with firstDecayLevel := v }
  | .secondDecayRate v => { o with secondDecayRate := v }
  | .releaseRate v => { o with releaseRate := v }
  | .keyScale v => { o with keyScale := v }
  | .multiply v => { o with multiply := v }
  | .firstDetune v => { o with firstDetune := v }
  | .secondDetune v => { o with secondDetune := v }
  | .ase b => { o with ase := b }

/-- `state.configs[i].operators[k].<name> = v`: `Config.__getattr__` finds `operators` in the
channel object of the instrument (config.py:210-222; state.py:22). -/
def HState.updInstrument (s : HState) (i k : Nat) (f : OperatorConfig → OperatorConfig) :
    Except PyErr HState :=
  match pyIndex s.configs i with
  | .error e => .error e
  | .ok cfg =>
  match deref s.chans cfg.channel with
  | .error e => .error e
  | .ok c =>
  match deref s.opLists c.operators with
  | .error e => .error e
  | .ok l =>
  match pyIndex l k with
  | .error e => .error e
  | .ok r =>
  match deref s.ops r with
  | .error e => .error e
  | .ok o => .ok { s with ops := s.ops.set r (f o) }

/-- The edits; an error leaves everything as it was.
(Through src/vgm/ym2151/state.py:22, 154-158 and config.py:222.) -/
def HState.edit (s : HState) : Edit → Except PyErr HState
  | .channel ch a => s.updChannel ch (fun c => a.onObj c)
  | .operator ch k a => s.updOperator ch k (fun o => a.onObj o)
  | .instrument i k a => s.updInstrument i k (fun o => a.onObj o)
  | .notes ch l =>
    match pyIndex s.pressRefs ch with
    | .error e => .error e
    | .ok r => .ok { s with presses := s.presses.set r l }
  | .keep positions =>
    match readAll (pyIndex s.configs) positions with
    | .error e => .error e
    | .ok cs => .ok { s with configs := cs }

/-- Calls of the interface and edits. (src/vgm/ym2151/state.py:35-161.) -/
inductive EditCall where
  | write (reg value : Nat)
  | wait (n : Nat)
  | edit (e : Edit)
  deriving DecidableEq, Repr

/-- One call or edit. (src/vgm/ym2151/state.py:35-161.) -/
def HState.editCall (s : HState) : EditCall → Except PyErr HState
  | .write r v => s.apply r v
  | .wait n => .ok (s.beat n)
  | .edit e => s.edit e

/-- A caller's session: what each call raised, if it did, and the state in the end. Exceptions are
caught by the caller. (src/vgm/ym2151/state.py:35-161.) -/
def HState.session (s : HState) : List EditCall → List (Option PyErr) × HState
  | [] => ([], s)
  | c :: cs =>
    match s.editCall c with
    | .error e => (some e :: (s.session cs).1, (s.session cs).2)
    | .ok s' => (none :: (s'.session cs).1, (s'.session cs).2)

end VgmX
