import Verif.Model.Edits
import Verif.Model.Ticks
import Verif.Model.Xrns
import Verif.Spec.Ym2151
/-
A `State` that one thread feeds with commands while other threads look at it
(src/vgm/ym2151/state.py:35-161). What a command changes is changed by single assignments, `append`s
and `add`s, one after the other; another thread may look in between. (Each of them is atomic in
CPython; `copy.deepcopy` only reads what is already there.)

Simplification: only one thread calls `apply` and `beat`.
-/

namespace VgmX
open Spec

/-- An assignment to an attribute of a `NoteConfig`, src/vgm/ym2151/config.py:115-121. -/
inductive NoteAssign where
  | right (b : Bool)
  | left (b : Bool)
  | octave (v : Nat)
  | note (v : Nat)
  | keyFraction (v : Nat)
  deriving DecidableEq, Repr

/-- An assignment to an attribute of a `BaseConfig`, src/vgm/ym2151/config.py:39-44. -/
inductive BaseAssign where
  | lfo (v : Nat)
  | phsMd (v : Nat)
  | ampMd (v : Nat)
  | waveform (w : Waveform)
  deriving DecidableEq, Repr

/-- One change of a `State` or of an object that belongs to it. (src/vgm/ym2151/state.py:35-161.) -/
inductive Store where
  /-- `self._channel_configs[ch].<name> = ..` -/
  | channel (ch : Nat) (a : ChanAssign)
  /-- `self._channel_configs[ch].operators[k].<name> = ..` -/
  | operator (ch k : Nat) (a : OpAssign)
  /-- `self._note_configs[ch].<name> = ..` -/
  | noteConfig (ch : Nat) (a : NoteAssign)
  /-- `self._current_base_config.<name> = ..` -/
  | base (a : BaseAssign)
  /-- `self.configs.append(..)` -/
  | append (c : Config)
  /-- `self._current_base_config = copy.deepcopy(self._current_base_config)` -/
  | freshBase
  /-- `self._first_beat = ..` -/
  | firstBeat (n : Nat)
  /-- `self._channel_key_presses[ch].append(..)` -/
  | press (ch : Nat) (n : Note)
  /-- `self._note_beats.add(..)` -/
  | tick (n : Nat)
  /-- `self._samples = ..` -/
  | samples (n : Nat)
  deriving DecidableEq, Repr

/-- The settings after the assignment, src/vgm/ym2151/config.py:148-163. -/
def ChanAssign.put (c : ChannelConfig) : ChanAssign → ChannelConfig
  | .fb v => { c with fb := v }
  | .ams v => { c with ams := v }
  | .pms v => { c with pms := v }
  | .connection v => { c with connection := v }
  | .noise b => { c with noise := b }
  | .noiseFreq v => { c with noiseFreq := v }

/-- The settings after the assignment, src/vgm/ym2151/config.py:115-121. -/
def NoteAssign.put (n : NoteConfig) : NoteAssign → NoteConfig
  | .right b => { n with right := b }
  | .left b => { n with left := b }
  | .octave v => { n with octave := v }
  | .note v => { n with note := v }
  | .keyFraction v => { n with keyFraction := v }

/-- The settings after the assignment, src/vgm/ym2151/config.py:39-44. -/
def BaseAssign.put (b : BaseConfig) : BaseAssign → BaseConfig
  | .lfo v => { b with lfo := v }
  | .phsMd v => { b with phsMd := v }
  | .ampMd v => { b with ampMd := v }
  | .waveform w => { b with waveform := w }

/-- The state after the change. (src/vgm/ym2151/state.py:35-161.) -/
def Store.put (s : State) : Store → State
  | .channel ch a => { s with channelConfigs := s.channelConfigs.modify ch (fun c => a.put c) }
  | .operator ch k a =>
    { s with channelConfigs := s.channelConfigs.modify ch (fun c =>
        { c with operators := c.operators.modify k (fun o => a.onObj o) }) }
  | .noteConfig ch a => { s with noteConfigs := s.noteConfigs.modify ch (fun n => a.put n) }
  | .base a => { s with base := a.put s.base }
  | .append c => { s with configs := s.configs ++ [c] }
  | .freshBase => { s with base := s.base.copy }
  | .firstBeat n => { s with firstBeat := some n }
  | .press ch n => { s with keyPresses := s.keyPresses.modify ch (· ++ [n]) }
  | .tick n => { s with noteBeats := setAdd n s.noteBeats }
  | .samples n => { s with samples := n }

/-- What a key event changes, in this order, src/vgm/ym2151/state.py:40-75. -/
def State.keyStores (s : State) (value : Nat) : List Store :=
  let op := (value >>> 3) &&& 0xF
  let ch := value &&& 0x07
  let channel := s.channelConfigs.getD ch {}
  let found := s.configs.findIdx (fun c => c.compare s.base channel op)
  let isNew := s.configs.length == found
  let configId : Int := if isNew && op == 0 then -1 else found
  -- state.py:54-64
  (if isNew && op != 0 then [.append ⟨found, s.base.copy, op, channel.copy⟩, .freshBase] else [])
    -- state.py:68-69
    ++ (if op != 0 && !truthy s.firstBeat then [.firstBeat s.samples] else [])
    -- state.py:71-73
    ++ (if truthy (if op != 0 && !truthy s.firstBeat then some s.samples else s.firstBeat) then
          [.press (value &&& 0x7) (Note.init configId (s.noteConfigs.getD ch {}) s.samples)]
        else [])
    -- state.py:74-75
    ++ (if configId ≥ 0 then [.tick s.samples] else [])

/-- What `apply` changes, in this order, src/vgm/ym2151/state.py:35-152. -/
def State.stores (s : State) (reg value : Nat) : List Store :=
  let channel := reg &&& 0x07
  let operator := (reg >>> 3) &&& 0x03
  if reg = 0x08 then s.keyStores value
  else if reg = 0x0F then
    [.channel 7 (.noise (decide ((value &&& (1 <<< 7)) > 0))),
     .channel 7 (.noiseFreq (value &&& 0x1F))]
  else if reg = 0x18 then [.base (.lfo value)]
  else if reg = 0x19 then
    if (value &&& (1 <<< 7)) > 0 then [.base (.phsMd (value &&& 0x7F))]
    else [.base (.ampMd value)]
  else if reg = 0x1B then [.base (.waveform ((Waveform.ofNat? (value &&& 0x3)).getD .saw))]
  else if reg &&& 0xF8 = 0x20 then
    [.noteConfig channel (.right (decide ((value &&& (1 <<< 7)) > 0))),
     .noteConfig channel (.left (decide ((value &&& (1 <<< 6)) > 0))),
     .channel channel (.fb ((value >>> 3) &&& 0x07)),
     .channel channel (.connection (value &&& 0x07))]
  else if reg &&& 0xF8 = 0x28 then
    [.noteConfig channel (.octave ((value >>> 4) &&& 0x07)),
     .noteConfig channel (.note (value &&& 0x0F))]
  else if reg &&& 0xF8 = 0x30 then
    [.noteConfig channel (.keyFraction ((value >>> 2) &&& 0x3F))]
  else if reg &&& 0xF8 = 0x38 then
    [.channel channel (.pms ((value >>> 4) &&& 0x07)), .channel channel (.ams (value &&& 0x03))]
  else if reg &&& 0xE0 = 0x40 then
    [.operator channel operator (.firstDetune ((value >>> 4) &&& 0x07)),
     .operator channel operator (.multiply (value &&& 0x0F))]
  else if reg &&& 0xE0 = 0x60 then
    [.operator channel operator (.totalLevel (value &&& 0x7F))]
  else if reg &&& 0xE0 = 0x80 then
    [.operator channel operator (.keyScale ((value >>> 6) &&& 0x3)),
     .operator channel operator (.attackRate (value &&& 0x1F))]
  else if reg &&& 0xE0 = 0xA0 then
    [.operator channel operator (.ase (decide ((value &&& 0x80) > 0))),
     .operator channel operator (.firstDecayRate (value &&& 0x1F))]
  else if reg &&& 0xE0 = 0xC0 then
    [.operator channel operator (.secondDetune ((value >>> 6) &&& 0x03)),
     .operator channel operator (.secondDecayRate (value &&& 0x0F))]
  else if reg &&& 0xE0 = 0xE0 then
    [.operator channel operator (.firstDecayLevel ((value >>> 4) &&& 0x0F)),
     .operator channel operator (.releaseRate (value &&& 0x0F))]
  else []

/-- What a command or a wait changes, src/vgm/ym2151/state.py:35-152 and 160-161. -/
def State.changes (s : State) : Event → List Store
  | .write r v => s.stores r v
  | .wait n => [.samples (s.samples + n)]

/-- The thread that feeds the state: the state, the changes of the current command that are still to
be made, and the commands still to come. (A thread that executes src/main.py:14-18.) -/
structure Feeder where
  state : State
  todo : List Store
  left : List Event

/-- The next step of the thread: the next change, or the beginning of the next command.
(src/main.py:14-18, src/vgm/ym2151/state.py:35-161.) -/
def Feeder.step (f : Feeder) : Feeder :=
  match f.todo, f.left with
  | x :: todo, _ => { f with state := x.put f.state, todo := todo }
  | [], e :: left => { f with todo := f.state.changes e, left := left }
  | [], [] => f

/-- The thread after `n` steps. (src/main.py:14-18.) -/
def Feeder.after (f : Feeder) : Nat → Feeder
  | 0 => f
  | n + 1 => (f.after n).step

/-- A new `State`, and the commands to be given to it. (src/main.py:12-18.) -/
def Feeder.start (h : List Event) : Feeder := ⟨State.init, [], h⟩

/-- `extract_tracks_to_xrns` in another thread up to the point where it opens the file: it takes the
number of instruments first (src/extractors.py:16), and later it goes through the notes of one channel
after the other (src/extractors.py:28-29); `notes ch` is the state when it comes to the end of the list
of channel `ch` (lists only grow). -/
def exportWatching (count : State) (notes : Nat → State) (ticks : Int) : Except PyErr Song :=
  exportSong { count with keyPresses := (List.range 8).map (fun ch => (notes ch).keyPressesOf ch) }
    ticks

end VgmX
