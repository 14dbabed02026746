import Verif.Model.Config
/-
Model of `src/vgm/ym2151/state.py` (except `ticks_per_note`, see Model/Ticks) and of
`process_vgm_file` in `src/main.py`, with immutable values.

Python objects that are mutated in place are values here; that this is faithful (no
aliasing, no index out of range) is proved against the reference-level model in
`Model/Heap.lean`.
-/

namespace VgmX

/-- `Note`, src/vgm/ym2151/note.py:45-53. -/
structure Note where
  configId : Int
  right : Bool
  left : Bool
  octave : Nat
  note : Nat
  keyFraction : Nat
  sample : Nat
  deriving DecidableEq, Repr

/-- `Note.__init__`, note.py:46-53. -/
def Note.init (configId : Int) (nc : NoteConfig) (sample : Nat) : Note where
  configId := configId
  right := nc.right
  left := nc.left
  octave := nc.octave
  note := nc.note
  keyFraction := nc.keyFraction
  sample := sample

/-- `State`, state.py:16-30. -/
structure State where
  keyPresses : List (List Note)
  channelConfigs : List ChannelConfig
  noteConfigs : List NoteConfig
  base : BaseConfig
  configs : List Config
  samples : Nat
  /-- the Python `set` of ints, as a list without duplicates (order is irrelevant) -/
  noteBeats : List Nat
  firstBeat : Option Nat
  deriving DecidableEq, Repr

/-- `State.__init__`, state.py:17-30. -/
def State.init : State where
  keyPresses := List.replicate 8 []
  channelConfigs := List.replicate 8 {}
  noteConfigs := List.replicate 8 {}
  base := {}
  configs := []
  samples := 0
  noteBeats := []
  firstBeat := none

/-- Truthiness of `_first_beat`: `None` and `0` are false. (state.py:68 and 71.) -/
def truthy : Option Nat → Bool
  | some n => n != 0
  | none => false

/-- `set.add`. (state.py:75.) -/
def setAdd (x : Nat) (l : List Nat) : List Nat := if x ∈ l then l else l ++ [x]

/-- The key on/off branch of `State.apply`, state.py:40-75. -/
def State.keyEvent (s : State) (value : Nat) : State :=
  let op := (value >>> 3) &&& 0xF
  let ch := value &&& 0x07
  let channel := s.channelConfigs.getD ch {}
  -- `next((i for (i, c) in enumerate(..) if c.compare(..)), len(self.configs))`
  let found := s.configs.findIdx (fun c => c.compare s.base channel op)
  let isNew := s.configs.length == found
  let configs :=
    if isNew && op != 0 then
      s.configs ++ [⟨found, s.base.copy, op, channel.copy⟩]
    else s.configs
  let base := if isNew && op != 0 then s.base.copy else s.base
  let configId : Int := if isNew && op == 0 then -1 else found
  let firstBeat := if op != 0 && !truthy s.firstBeat then some s.samples else s.firstBeat
  let keyPresses :=
    if truthy firstBeat then
      s.keyPresses.modify (value &&& 0x7)
        (· ++ [Note.init configId (s.noteConfigs.getD ch {}) s.samples])
    else s.keyPresses
  let noteBeats := if configId ≥ 0 then setAdd s.samples s.noteBeats else s.noteBeats
  { s with
    configs := configs, base := base, firstBeat := firstBeat,
    keyPresses := keyPresses, noteBeats := noteBeats }

/-- `self._channel_configs[channel].<fields> = ..`. (state.py:78-80, 97-101, 109-111.) -/
def State.updChannel (s : State) (ch : Nat) (f : ChannelConfig → ChannelConfig) : State :=
  { s with channelConfigs := s.channelConfigs.modify ch f }

/-- `self._channel_configs[channel].operators[operator].<fields> = ..`. (state.py:113-152.) -/
def State.updOperator (s : State) (ch op : Nat) (f : OperatorConfig → OperatorConfig) :
    State :=
  s.updChannel ch (fun c => { c with operators := c.operators.modify op f })

/-- `self._note_configs[channel].<fields> = ..`. (state.py:103-108.) -/
def State.updNote (s : State) (ch : Nat) (f : NoteConfig → NoteConfig) : State :=
  { s with noteConfigs := s.noteConfigs.modify ch f }

/-- `State.apply`, state.py:35-152. -/
def State.apply (s : State) (reg value : Nat) : State :=
  let channel := reg &&& 0x07
  let operator := (reg >>> 3) &&& 0x03
  if reg = 0x08 then s.keyEvent value
  -- Noise, state.py:78-80
  else if reg = 0x0F then
    s.updChannel 7 (fun c =>
      { c with noise := decide ((value &&& (1 <<< 7)) > 0), noiseFreq := value &&& 0x1F })
  -- LFO, state.py:83-84
  else if reg = 0x18 then { s with base := { s.base with lfo := value } }
  -- PMD / AMD, state.py:87-91
  else if reg = 0x19 then
    if (value &&& (1 <<< 7)) > 0 then
      { s with base := { s.base with phsMd := value &&& 0x7F } }
    else { s with base := { s.base with ampMd := value } }
  -- Waveform, state.py:94-95 (`Waveform(value & 3)` never raises)
  else if reg = 0x1B then
    { s with base := { s.base with waveform := (Waveform.ofNat? (value &&& 0x3)).getD .saw } }
  -- state.py:97-101
  else if reg &&& 0xF8 = 0x20 then
    (s.updNote channel (fun n =>
      { n with right := decide ((value &&& (1 <<< 7)) > 0),
               left := decide ((value &&& (1 <<< 6)) > 0) })).updChannel channel (fun c =>
      { c with fb := (value >>> 3) &&& 0x07, connection := value &&& 0x07 })
  -- state.py:103-105
  else if reg &&& 0xF8 = 0x28 then
    s.updNote channel (fun n =>
      { n with octave := (value >>> 4) &&& 0x07, note := value &&& 0x0F })
  -- state.py:107-108
  else if reg &&& 0xF8 = 0x30 then
    s.updNote channel (fun n => { n with keyFraction := (value >>> 2) &&& 0x3F })
  -- state.py:109-111
  else if reg &&& 0xF8 = 0x38 then
    s.updChannel channel (fun c =>
      { c with pms := (value >>> 4) &&& 0x07, ams := value &&& 0x03 })
  -- state.py:113-119
  else if reg &&& 0xE0 = 0x40 then
    s.updOperator channel operator (fun o =>
      { o with firstDetune := (value >>> 4) &&& 0x07, multiply := value &&& 0x0F })
  -- state.py:121-124
  else if reg &&& 0xE0 = 0x60 then
    s.updOperator channel operator (fun o => { o with totalLevel := value &&& 0x7F })
  -- state.py:125-131
  else if reg &&& 0xE0 = 0x80 then
    s.updOperator channel operator (fun o =>
      { o with keyScale := (value >>> 6) &&& 0x3, attackRate := value &&& 0x1F })
  -- state.py:132-138
  else if reg &&& 0xE0 = 0xA0 then
    s.updOperator channel operator (fun o =>
      { o with ase := decide ((value &&& 0x80) > 0), firstDecayRate := value &&& 0x1F })
  -- state.py:139-145
  else if reg &&& 0xE0 = 0xC0 then
    s.updOperator channel operator (fun o =>
      { o with secondDetune := (value >>> 6) &&& 0x03, secondDecayRate := value &&& 0x0F })
  -- state.py:146-152
  else if reg &&& 0xE0 = 0xE0 then
    s.updOperator channel operator (fun o =>
      { o with firstDecayLevel := (value >>> 4) &&& 0x0F, releaseRate := value &&& 0x0F })
  else s

/-- `State.beat`, state.py:160-161. -/
def State.beat (s : State) (n : Nat) : State := { s with samples := s.samples + n }

/-- `State.key_presses`, state.py:154-155 (for `ch` in 0..7). -/
def State.keyPressesOf (s : State) (ch : Nat) : List Note := s.keyPresses.getD ch []

/-- `State.channel_config`, state.py:157-158 (for `ch` in 0..7). -/
def State.channelConfig (s : State) (ch : Nat) : ChannelConfig := s.channelConfigs.getD ch {}

/-- Insert `a` before the first element that is not smaller.
(Python semantics, for state.py:163-164 and 214-220.) -/
def insertStable {α : Type} (lt : α → α → Bool) (a : α) : List α → List α
  | [] => [a]
  | b :: l => if lt b a then b :: insertStable lt a l else a :: b :: l

/-- Python's `sorted`: a stable sort (as insertion sort; a stable sorting function is
unique, so the algorithm does not matter). (Python semantics, for state.py:163-164 and 214-220.) -/
def pySorted {α : Type} (lt : α → α → Bool) : List α → List α
  | [] => []
  | a :: l => insertStable lt a (pySorted lt l)

/-- `State.ticks`, state.py:163-164: `sorted(list(self._note_beats))`. -/
def State.ticks (s : State) : List Nat := pySorted (fun a b => decide (a < b)) s.noteBeats

/-- One iteration of the loop in `process_vgm_file`, src/main.py:14-18.
`st.beat(None)` would be a `TypeError`. -/
def State.process1 (s : State) (c : Cmd) : Except PyErr State :=
  match c with
  | .ym2151 _ reg value => .ok (s.apply reg value)
  | .wait _ (some n) => .ok (s.beat n)
  | .wait _ none => .error .type
  | .plain _ _ => .ok s
  | .eos _ => .ok s

/-- `process_vgm_file`, src/main.py:11-20, over an already decoded command list. -/
def State.process (s : State) : List Cmd → Except PyErr State
  | [] => .ok s
  | c :: cs =>
    match s.process1 c with
    | .error e => .error e
    | .ok s' => s'.process cs

/-- `process_vgm_file` over the reader: commands are applied as they are decoded and an
exception of the reader propagates. `none` only if the bound is hit (never, see
Props/Reader). (src/main.py:11-20.) -/
def processStream : Nat → Stream → State → Option (Except PyErr State)
  | 0, _, _ => none
  | fuel + 1, f, s =>
    match next f with
    | (none, _) => some (.ok s)
    | (some (.error e), _) => some (.error e)
    | (some (.ok c), f') =>
      match s.process1 c with
      | .error e => some (.error e)
      | .ok s' => processStream fuel f' s'

/-- `process_vgm_file` on a reader at `f`, src/main.py:11-20. The default is never taken
(`processVgm_total` in Props/Process). -/
def processVgm (f : Stream) : Except PyErr State :=
  (processStream (f.data.length - f.pos + 1) f State.init).getD (.error .dangling)

end VgmX
