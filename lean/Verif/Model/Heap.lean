import Verif.Model.State
/-
Reference-level model of `src/vgm/ym2151/state.py` and of the copying in
`src/vgm/ym2151/config.py`: objects live in arenas (one per class) and are mutated in
place; attributes hold addresses; `copy.deepcopy` allocates; list indexing and enum lookup
can raise. An address that is not allocated is the model-only error `dangling`.

Objects of different classes cannot alias in Python, hence one arena per class. Nothing is
ever freed (garbage collection is unobservable here).
-/

namespace VgmX

/-- `ChannelConfig` as an object: its `operators` attribute is the address of a list object
(config.py:148-163). -/
structure ChanObj where
  operators : Nat
  fb : Nat := 0
  ams : Nat := 0
  pms : Nat := 0
  connection : Nat := 0
  noise : Bool := false
  noiseFreq : Nat := 0
  deriving DecidableEq, Repr

/-- `Config` as an object (config.py:197-208); `_base` and `_channel` are addresses. -/
structure HConfig where
  id : Nat
  base : Nat
  operators : Nat
  channel : Nat
  deriving DecidableEq, Repr

/-- `State` with its reachable heap (state.py:16-30). -/
structure HState where
  -- arenas
  bases : List BaseConfig
  ops : List OperatorConfig
  opLists : List (List Nat)
  chans : List ChanObj
  notes : List NoteConfig
  presses : List (List Note)
  -- attributes of the `State` object
  pressRefs : List Nat
  chanRefs : List Nat
  noteRefs : List Nat
  baseRef : Nat
  configs : List HConfig
  samples : Nat
  noteBeats : List Nat
  firstBeat : Option Nat
  deriving DecidableEq, Repr

/-- `l[i]` on a Python list, for `i ≥ 0`. (Python semantics, for state.py:35-152.) -/
def pyIndex {α : Type} (l : List α) (i : Nat) : Except PyErr α :=
  match l[i]? with
  | some a => .ok a
  | none => .error .index

/-- Following an address. (Python semantics, for state.py:35-152.) -/
def deref {α : Type} (arena : List α) (r : Nat) : Except PyErr α :=
  match arena[r]? with
  | some a => .ok a
  | none => .error .dangling

/-- `n` fresh `OperatorConfig()` objects appended to the list `l` (config.py:161-163). -/
def allocOps : Nat → List OperatorConfig → List Nat → List OperatorConfig × List Nat
  | 0, arena, l => (arena, l)
  | n + 1, arena, l => allocOps n (arena ++ [{}]) (l ++ [arena.length])

/-- `ChannelConfig()`, config.py:148-163. -/
def HState.newChannel (s : HState) : HState × Nat :=
  let (ops, l) := allocOps 4 s.ops []
  ({ s with
      ops := ops
      opLists := s.opLists ++ [l]
      chans := s.chans ++ [ChanObj.mk s.opLists.length 0 0 0 0 false 0] },
   s.chans.length)

/-- The loop of `State.__init__`, state.py:27-30. -/
def HState.initLoop : Nat → HState → HState
  | 0, s => s
  | n + 1, s =>
    let s := { s with presses := s.presses ++ [[]], pressRefs := s.pressRefs ++ [s.presses.length] }
    let (s, r) := s.newChannel
    let s := { s with chanRefs := s.chanRefs ++ [r] }
    let s := { s with notes := s.notes ++ [NoteConfig.mk false false 0 0 0], noteRefs := s.noteRefs ++ [s.notes.length] }
    HState.initLoop n s

/-- `State.__init__`, state.py:17-30. -/
def HState.init : HState :=
  HState.initLoop 8
    { bases := [{}], ops := [], opLists := [], chans := [], notes := [], presses := [],
      pressRefs := [], chanRefs := [], noteRefs := [], baseRef := 0, configs := [],
      samples := 0, noteBeats := [], firstBeat := none }

/-- `copy.deepcopy` of the list of operators: each element is copied by
`OperatorConfig.__deepcopy__` into a new object (config.py:150-152, 96-97). -/
def copyOps : List Nat → List OperatorConfig → List Nat → Except PyErr (List OperatorConfig × List Nat)
  | [], arena, acc => .ok (arena, acc)
  | r :: rs, arena, acc =>
    match deref arena r with
    | .error e => .error e
    | .ok o => copyOps rs (arena ++ [o.copy]) (acc ++ [arena.length])

/-- `copy.deepcopy(channel)` = `ChannelConfig(channel)`, config.py:149-159, 179-180. -/
def HState.copyChannel (s : HState) (r : Nat) : Except PyErr (HState × Nat) :=
  match deref s.chans r with
  | .error e => .error e
  | .ok c =>
  match deref s.opLists c.operators with
  | .error e => .error e
  | .ok l =>
  match copyOps l s.ops [] with
  | .error e => .error e
  | .ok (ops, l') =>
    .ok ({ s with
            ops := ops
            opLists := s.opLists ++ [l']
            chans := s.chans ++ [{ c with operators := s.opLists.length }] },
         s.chans.length)

/-- `copy.deepcopy(base)` = `BaseConfig(base)`, config.py:40-44, 57-58. -/
def HState.copyBase (s : HState) (r : Nat) : Except PyErr (HState × Nat) :=
  match deref s.bases r with
  | .error e => .error e
  | .ok b => .ok ({ s with bases := s.bases ++ [b.copy] }, s.bases.length)

/-- Apply a reader to every element of a list. (Python semantics, for state.py:35-152.) -/
def readAll {α β : Type} (f : α → Except PyErr β) : List α → Except PyErr (List β)
  | [] => .ok []
  | a :: as =>
    match f a with
    | .error e => .error e
    | .ok b =>
      match readAll f as with
      | .error e => .error e
      | .ok bs => .ok (b :: bs)

/-- The channel object's own attributes together with the values of its operators.
(config.py:148-194.) -/
def ChanObj.withOps (c : ChanObj) (os : List OperatorConfig) : ChannelConfig where
  operators := os
  fb := c.fb
  ams := c.ams
  pms := c.pms
  connection := c.connection
  noise := c.noise
  noiseFreq := c.noiseFreq

/-- The values an attribute chain through a channel object sees. (config.py:148-194.) -/
def HState.readChannel (s : HState) (r : Nat) : Except PyErr ChannelConfig :=
  match deref s.chans r with
  | .error e => .error e
  | .ok c =>
  match deref s.opLists c.operators with
  | .error e => .error e
  | .ok l =>
  match readAll (deref s.ops) l with
  | .error e => .error e
  | .ok os => .ok (c.withOps os)

/-- `Config.compare`, config.py:224-229, through the references (short circuit). -/
def HState.compare (s : HState) (c : HConfig) (base channel : Nat) (op : Nat) : Except PyErr Bool :=
  match deref s.bases c.base with
  | .error e => .error e
  | .ok b =>
  match deref s.bases base with
  | .error e => .error e
  | .ok b' =>
  if !b.pyEq b' then .ok false else
  match s.readChannel c.channel with
  | .error e => .error e
  | .ok ch =>
  match s.readChannel channel with
  | .error e => .error e
  | .ok ch' =>
  if !ch.pyEq ch' then .ok false else .ok (c.operators == op)

/-- The generator expression in state.py:43-52: index of the first equal instrument, else
`len(self.configs)`. `self._channel_configs[ch]` is evaluated in each round. -/
def HState.find (s : HState) (ch op : Nat) : List HConfig → Nat → Except PyErr Nat
  | [], _ => .ok s.configs.length
  | c :: cs, i =>
    match pyIndex s.chanRefs ch with
    | .error e => .error e
    | .ok r =>
    match s.compare c s.baseRef r op with
    | .error e => .error e
    | .ok true => .ok i
    | .ok false => s.find ch op cs (i + 1)

/-- Recording the instrument, state.py:54-67. Returns the state and `config_id`. -/
def HState.record (s : HState) (ch op found : Nat) : Except PyErr (HState × Int) :=
  if s.configs.length = found then
    if op ≠ 0 then
      match s.copyBase s.baseRef with
      | .error e => .error e
      | .ok (s, b) =>
      match pyIndex s.chanRefs ch with
      | .error e => .error e
      | .ok r =>
      match s.copyChannel r with
      | .error e => .error e
      | .ok (s, c) =>
      let s := { s with configs := s.configs ++ [HConfig.mk found b op c] }
      match s.copyBase s.baseRef with
      | .error e => .error e
      | .ok (s, b') => .ok ({ s with baseRef := b' }, found)
    else .ok (s, -1)
  else .ok (s, found)

/-- Appending the note, state.py:71-73. -/
def HState.addNote (s : HState) (ch : Nat) (configId : Int) : Except PyErr HState :=
  match pyIndex s.noteRefs ch with
  | .error e => .error e
  | .ok nr =>
  match deref s.notes nr with
  | .error e => .error e
  | .ok nc =>
  match pyIndex s.pressRefs ch with
  | .error e => .error e
  | .ok pr =>
  match deref s.presses pr with
  | .error e => .error e
  | .ok l => .ok { s with presses := s.presses.set pr (l ++ [Note.init configId nc s.samples]) }

/-- The key on/off branch, state.py:40-75. -/
def HState.keyEvent (s : HState) (value : Nat) : Except PyErr HState :=
  let op := (value >>> 3) &&& 0xF
  let ch := value &&& 0x07
  -- `Operators(n)` raises ValueError outside 0..15 (config.py:20-24)
  if 15 < op then .error .value else
  match s.find ch op s.configs 0 with
  | .error e => .error e
  | .ok found =>
  match s.record ch op found with
  | .error e => .error e
  | .ok (s, configId) =>
  let s := if op != 0 && !truthy s.firstBeat then { s with firstBeat := some s.samples } else s
  match (if truthy s.firstBeat then s.addNote ch configId else .ok s) with
  | .error e => .error e
  | .ok s => .ok (if configId ≥ 0 then { s with noteBeats := setAdd s.samples s.noteBeats } else s)

/-- Assignments to attributes of `self._channel_configs[channel]`.
(state.py:78-80, 97-101, 109-111.) -/
def HState.updChannel (s : HState) (ch : Nat) (f : ChanObj → ChanObj) : Except PyErr HState :=
  match pyIndex s.chanRefs ch with
  | .error e => .error e
  | .ok r =>
  match deref s.chans r with
  | .error e => .error e
  | .ok c => .ok { s with chans := s.chans.set r (f c) }

/-- Assignments to attributes of `self._channel_configs[channel].operators[operator]`.
(state.py:113-152.) -/
def HState.updOperator (s : HState) (ch op : Nat) (f : OperatorConfig → OperatorConfig) :
    Except PyErr HState :=
  match pyIndex s.chanRefs ch with
  | .error e => .error e
  | .ok r =>
  match deref s.chans r with
  | .error e => .error e
  | .ok c =>
  match deref s.opLists c.operators with
  | .error e => .error e
  | .ok l =>
  match pyIndex l op with
  | .error e => .error e
  | .ok k =>
  match deref s.ops k with
  | .error e => .error e
  | .ok o => .ok { s with ops := s.ops.set k (f o) }

/-- Assignments to attributes of `self._note_configs[channel]`. (state.py:103-108.) -/
def HState.updNote (s : HState) (ch : Nat) (f : NoteConfig → NoteConfig) : Except PyErr HState :=
  match pyIndex s.noteRefs ch with
  | .error e => .error e
  | .ok r =>
  match deref s.notes r with
  | .error e => .error e
  | .ok n => .ok { s with notes := s.notes.set r (f n) }

/-- Assignments to attributes of `self._current_base_config`. (state.py:83-95.) -/
def HState.updBase (s : HState) (f : BaseConfig → BaseConfig) : Except PyErr HState :=
  match deref s.bases s.baseRef with
  | .error e => .error e
  | .ok b => .ok { s with bases := s.bases.set s.baseRef (f b) }

/-- `State.apply`, state.py:35-152, at reference level. -/
def HState.apply (s : HState) (reg value : Nat) : Except PyErr HState :=
  let channel := reg &&& 0x07
  let operator := (reg >>> 3) &&& 0x03
  if reg = 0x08 then s.keyEvent value
  else if reg = 0x0F then
    s.updChannel 7 (fun c =>
      { c with noise := decide ((value &&& (1 <<< 7)) > 0), noiseFreq := value &&& 0x1F })
  else if reg = 0x18 then s.updBase (fun b => { b with lfo := value })
  else if reg = 0x19 then
    if (value &&& (1 <<< 7)) > 0 then s.updBase (fun b => { b with phsMd := value &&& 0x7F })
    else s.updBase (fun b => { b with ampMd := value })
  else if reg = 0x1B then
    match Waveform.ofNat? (value &&& 0x3) with
    | none => .error .value
    | some w => s.updBase (fun b => { b with waveform := w })
  else if reg &&& 0xF8 = 0x20 then
    match s.updNote channel (fun n =>
      { n with right := decide ((value &&& (1 <<< 7)) > 0),
               left := decide ((value &&& (1 <<< 6)) > 0) }) with
    | .error e => .error e
    | .ok s => s.updChannel channel (fun c =>
      { c with fb := (value >>> 3) &&& 0x07, connection := value &&& 0x07 })
  else if reg &&& 0xF8 = 0x28 then
    s.updNote channel (fun n =>
      { n with octave := (value >>> 4) &&& 0x07, note := value &&& 0x0F })
  else if reg &&& 0xF8 = 0x30 then
    s.updNote channel (fun n => { n with keyFraction := (value >>> 2) &&& 0x3F })
  else if reg &&& 0xF8 = 0x38 then
    s.updChannel channel (fun c =>
      { c with pms := (value >>> 4) &&& 0x07, ams := value &&& 0x03 })
  else if reg &&& 0xE0 = 0x40 then
    s.updOperator channel operator (fun o =>
      { o with firstDetune := (value >>> 4) &&& 0x07, multiply := value &&& 0x0F })
  else if reg &&& 0xE0 = 0x60 then
    s.updOperator channel operator (fun o => { o with totalLevel := value &&& 0x7F })
  else if reg &&& 0xE0 = 0x80 then
    s.updOperator channel operator (fun o =>
      { o with keyScale := (value >>> 6) &&& 0x3, attackRate := value &&& 0x1F })
  else if reg &&& 0xE0 = 0xA0 then
    s.updOperator channel operator (fun o =>
      { o with ase := decide ((value &&& 0x80) > 0), firstDecayRate := value &&& 0x1F })
  else if reg &&& 0xE0 = 0xC0 then
    s.updOperator channel operator (fun o =>
      { o with secondDetune := (value >>> 6) &&& 0x03, secondDecayRate := value &&& 0x0F })
  else if reg &&& 0xE0 = 0xE0 then
    s.updOperator channel operator (fun o =>
      { o with firstDecayLevel := (value >>> 4) &&& 0x0F, releaseRate := value &&& 0x0F })
  else .ok s

/-- `State.beat`, state.py:160-161. -/
def HState.beat (s : HState) (n : Nat) : HState := { s with samples := s.samples + n }

/-- Reading an instrument through its references, as `extract_instruments` does.
(config.py:231-237, src/extractors.py:118.) -/
def HState.readConfig (s : HState) (c : HConfig) : Except PyErr Config :=
  match deref s.bases c.base with
  | .error e => .error e
  | .ok b =>
  match s.readChannel c.channel with
  | .error e => .error e
  | .ok ch => .ok ⟨c.id, b, c.operators, ch⟩

/-- What is observable of the state: everything read through the references. (state.py:16-30.) -/
def HState.view (s : HState) : Except PyErr State :=
  match readAll (deref s.presses) s.pressRefs, readAll s.readChannel s.chanRefs,
      readAll (deref s.notes) s.noteRefs, deref s.bases s.baseRef, readAll s.readConfig s.configs with
  | .ok kp, .ok cc, .ok nc, .ok b, .ok cs =>
    .ok { keyPresses := kp, channelConfigs := cc, noteConfigs := nc, base := b, configs := cs,
          samples := s.samples, noteBeats := s.noteBeats, firstBeat := s.firstBeat }
  | _, _, _, _, _ => .error .dangling

end VgmX
