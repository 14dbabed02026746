import Verif.Model.State
import Verif.Model.Text
/-
Model of attribute access on the objects that `process_vgm_file` returns: `State.__getattr__`
(state.py:32-33), `Config.__getattr__` (config.py:210-222), the methods `key_presses`,
`channel_config` (state.py:154-158), and what `copy.deepcopy`, `copy.copy` and `pickle.loads` make
of such objects through these `__getattr__`s.

Simplifications: an instance is its `__dict__`; a method is represented by its class and name;
which names every Python object has (`__class__`, `__dict__`, ..) is a parameter. No two names
collide, so the order of lookup in instance and class does not matter.
-/

namespace VgmX

/-- The classes. (src/vgm/ym2151/config.py:39-237, state.py:16-224.) -/
inductive PyClass where
  | state | config | baseConfig | channelConfig
  deriving DecidableEq, Repr

/-- What an attribute can be. (src/vgm/ym2151/config.py:39-237, state.py:16-224.) -/
inductive AttrVal where
  | int (n : Nat)
  | optInt (n : Option Nat)
  | bool (b : Bool)
  | waveform (w : Waveform)
  | flags (n : Nat)
  | intSet (l : List Nat)
  | operators (l : List OperatorConfig)
  | notes (l : List (List Note))
  | channels (l : List ChannelConfig)
  | noteConfigs (l : List NoteConfig)
  | configs (l : List Config)
  | base (b : BaseConfig)
  | channel (c : ChannelConfig)
  | method (c : PyClass) (name : Str)
  | builtin (name : Str)
  deriving DecidableEq, Repr

/-- The `__dict__` of an instance. (Python semantics, for config.py:210-222 and state.py:32-33.) -/
abbrev Dict := List (Str × AttrVal)

/-- `d.get(n)`. (Python semantics, for config.py:210-222 and state.py:32-33.) -/
def Dict.get (d : Dict) (n : Str) : Option AttrVal := (d.find? (fun x => x.1 = n)).map (·.2)

/-- The functions of a class: config.py:39-61, 148-194, 197-240, state.py:16-224. -/
def PyClass.functions : PyClass → List Str
  | .state => ["__init__".toList, "__getattr__".toList, "apply".toList, "key_presses".toList,
      "channel_config".toList, "beat".toList, "ticks".toList, "ticks_per_note".toList]
  | .config => ["__init__".toList, "__getattr__".toList, "compare".toList, "repr_json".toList]
  | .baseConfig => ["__init__".toList, "__eq__".toList, "__deepcopy__".toList, "repr_json".toList]
  | .channelConfig => ["__init__".toList, "__eq__".toList, "__deepcopy__".toList, "repr_json".toList]

/-- `BaseConfig.__init__`, config.py:40-44. -/
def BaseConfig.dict (b : BaseConfig) : Dict :=
  [ ("waveform".toList, .waveform b.waveform), ("lfo".toList, .int b.lfo)
  , ("amp_md".toList, .int b.ampMd), ("phs_md".toList, .int b.phsMd) ]

/-- `ChannelConfig.__init__`, config.py:149-163. -/
def ChannelConfig.dict (c : ChannelConfig) : Dict :=
  [ ("operators".toList, .operators c.operators), ("fb".toList, .int c.fb)
  , ("ams".toList, .int c.ams), ("pms".toList, .int c.pms)
  , ("connection".toList, .int c.connection), ("noise".toList, .bool c.noise)
  , ("noise_freq".toList, .int c.noiseFreq) ]

/-- `Config.__init__`, config.py:198-208. -/
def Config.dict (c : Config) : Dict :=
  [ ("_id".toList, .int c.id), ("_base".toList, .base c.base)
  , ("_operators".toList, .flags c.operators), ("_channel".toList, .channel c.channel) ]

/-- `State.__init__`, state.py:17-30. -/
def State.dict (s : State) : Dict :=
  [ ("_channel_key_presses".toList, .notes s.keyPresses)
  , ("_channel_configs".toList, .channels s.channelConfigs)
  , ("_note_configs".toList, .noteConfigs s.noteConfigs)
  , ("_current_base_config".toList, .base s.base)
  , ("configs".toList, .configs s.configs)
  , ("_samples".toList, .int s.samples)
  , ("_note_beats".toList, .intSet s.noteBeats)
  , ("_first_beat".toList, .optInt s.firstBeat) ]

/-- Lookup in the instance, the class and `object`.
(Python semantics, for config.py:210-222 and state.py:32-33.) -/
def lookup (obj : Str → Bool) (c : PyClass) (d : Dict) (n : Str) : Option AttrVal :=
  match d.get n with
  | some v => some v
  | none =>
    if n ∈ c.functions then some (.method c n)
    else if obj n then some (.builtin n)
    else none

/-- `getattr` of an object whose class has no `__getattr__`.
(Python semantics, for config.py:210-222 and state.py:32-33.) -/
def plainAttr (obj : Str → Bool) (c : PyClass) (d : Dict) (n : Str) : Except PyErr AttrVal :=
  match lookup obj c d n with
  | some v => .ok v
  | none => .error .attribute

/-- `getattr` of what an attribute holds. Only configurations are asked in this code.
(Python semantics, for config.py:210-222 and state.py:32-33.) -/
def AttrVal.attr (obj : Str → Bool) (v : AttrVal) (n : Str) : Except PyErr AttrVal :=
  match v with
  | .base b => plainAttr obj .baseConfig b.dict n
  | .channel c => plainAttr obj .channelConfig c.dict n
  | _ => .error .attribute

/-- `getattr` of a `State` with this `__dict__`; the first argument is how deep calls may nest.
(state.py:32-33.) -/
def stateAttr (obj : Str → Bool) : Nat → Dict → Str → Except PyErr AttrVal
  | 0, _, _ => .error .recursion
  | depth + 1, d, n =>
    match lookup obj .state d n with
    | some v => .ok v
    | none =>
      -- `getattr(self._current_base_config, item)`, state.py:33
      match stateAttr obj depth d "_current_base_config".toList with
      | .ok v => v.attr obj n
      | .error e => .error e

/-- `getattr` of a `Config` with this `__dict__`, config.py:210-222. -/
def configAttr (obj : Str → Bool) : Nat → Dict → Str → Except PyErr AttrVal
  | 0, _, _ => .error .recursion
  | depth + 1, d, n =>
    match lookup obj .config d n with
    | some v => .ok v
    | none =>
      if n = "lfo".toList ∨ n = "phs_md".toList ∨ n = "amp_md".toList ∨ n = "waveform".toList then
        match configAttr obj depth d "_base".toList with
        | .ok v => v.attr obj n
        | .error e => .error e
      else if n = "enabled_operators".toList then configAttr obj depth d "_operators".toList
      else
        match configAttr obj depth d "_channel".toList with
        | .ok v => v.attr obj n
        | .error e => .error e

/-- `l[i]` for a Python list. (Python semantics, for state.py:154-158.) -/
def pyListGet {α : Type} (l : List α) (i : Int) : Except PyErr α :=
  if 0 ≤ i then
    match l[i.toNat]? with
    | some x => .ok x
    | none => .error .index
  else if 0 ≤ i + l.length then
    match l[(i + l.length).toNat]? with
    | some x => .ok x
    | none => .error .index
  else .error .index

/-- `State.key_presses`, state.py:154-155. -/
def State.keyPressesAt (s : State) (ch : Int) : Except PyErr (List Note) := pyListGet s.keyPresses ch

/-- `State.channel_config`, state.py:157-158. -/
def State.channelConfigAt (s : State) (ch : Int) : Except PyErr ChannelConfig :=
  pyListGet s.channelConfigs ch

/-- What a copy is.
(Standard library, applied to the classes with state.py:32-33 and config.py:210-222.) -/
inductive Copy where
  | state (d : Dict) | config (d : Dict) | base (b : BaseConfig) | channel (c : ChannelConfig)
  deriving DecidableEq, Repr

/-- The object `o` that is copied.
(Standard library, applied to the classes with state.py:32-33 and config.py:210-222.) -/
inductive Obj where
  | state (s : State) | config (c : Config)

/-- `getattr` of such an object.
(Standard library, applied to the classes with state.py:32-33 and config.py:210-222.) -/
def Obj.attr (obj : Str → Bool) (depth : Nat) : Obj → Str → Except PyErr AttrVal
  | .state s => stateAttr obj depth s.dict
  | .config c => configAttr obj depth c.dict

/-- `copy._reconstruct` and `pickle`'s `load_build` (CPython 3.11): a new instance without
`__init__`, then `hasattr(y, "__setstate__")` (`getattr` with a default, for pickle), then
`y.__dict__.update(state)`.
(Standard library, applied to the classes with state.py:32-33 and config.py:210-222.) -/
def Obj.reconstruct (obj : Str → Bool) (depth : Nat) (o : Obj) : Except PyErr Copy :=
  let r := match o with
    | .state _ => stateAttr obj depth [] "__setstate__".toList
    | .config _ => configAttr obj depth [] "__setstate__".toList
  match r with
  | .error .attribute =>
    match o with
    | .state s => .ok (.state s.dict)
    | .config c => .ok (.config c.dict)
  | .error e => .error e
  | .ok _ => .error (.other 0)

/-- `copy.deepcopy(o)` (CPython 3.11): `getattr(o, "__deepcopy__", None)`, and if there is one it
is called (config.py:57-58, 179-180); otherwise as `copy.copy`. -/
def Obj.deepcopy (obj : Str → Bool) (depth : Nat) (o : Obj) : Except PyErr Copy :=
  match o.attr obj depth "__deepcopy__".toList with
  | .ok (.method .baseConfig _) =>
    match o with
    | .state s => .ok (.base s.base.copy)
    | .config c => .ok (.base c.base.copy)
  | .ok (.method .channelConfig _) =>
    match o with
    | .config c => .ok (.channel c.channel.copy)
    | .state _ => .error (.other 0)
  | .ok _ => .error (.other 0)
  | .error .attribute => o.reconstruct obj depth
  | .error e => .error e

end VgmX
