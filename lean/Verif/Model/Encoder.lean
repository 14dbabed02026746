import Verif.Model.Json
/-
`json.dumps(value, cls=ConfigEncoder)` on any Python value a caller may have: lists, dicts and
objects that refer to each other in any way. (`ConfigEncoder`, src/vgm/ym2151/config.py:240-245,
and the part of the standard library's `json.encoder._make_iterencode` that calls it.)

Simplifications: no floats and tuples; the keys of dicts are strings; what `repr_json` returns does
not depend on when it is called (it may return the same or other objects, or raise); only the tree
is followed here (the text of it is in Model/JsonText).
-/

namespace VgmX

/-- A Python value: a constant or a reference to something mutable. (src/vgm/ym2151/config.py:240-245.) -/
inductive PyVal where
  | none
  | bool (b : Bool)
  | int (n : Int)
  | str (s : Str)
  | ref (r : Nat)
  deriving DecidableEq, Repr

/-- What a reference refers to: a list, a dict (items in insertion order), an object with a
`repr_json` (and what this returns or raises), or an object without.
(src/vgm/ym2151/config.py:240-245.) -/
inductive PyThing where
  | list (l : List PyVal)
  | dict (l : List (Str × PyVal))
  | object (repr : Except PyErr PyVal)
  | plain
  deriving DecidableEq

/-- Everything there is. (src/vgm/ym2151/config.py:240-245.) -/
abbrev Things := Nat → PyThing

/-- The tree a JSON text describes. (Standard library, for src/vgm/ym2151/config.py:240-245.) -/
inductive Tree where
  | null
  | bool (b : Bool)
  | int (n : Int)
  | str (s : Str)
  | arr (l : List Tree)
  | obj (l : List (Str × Tree))

/-- Encoding some values one after the other, up to the first exception.
(Standard library, for src/vgm/ym2151/config.py:240-245.) -/
def encodeAll (f : PyVal → Except PyErr Tree) : List PyVal → Except PyErr (List Tree)
  | [] => .ok []
  | v :: l =>
    match f v with
    | .error e => .error e
    | .ok t =>
      match encodeAll f l with
      | .error e => .error e
      | .ok ts => .ok (t :: ts)

/-- The same with the items of a dict. (Standard library, for src/vgm/ym2151/config.py:240-245.) -/
def encodeItems (f : PyVal → Except PyErr Tree) : List (Str × PyVal) →
    Except PyErr (List (Str × Tree))
  | [] => .ok []
  | (k, v) :: l =>
    match f v with
    | .error e => .error e
    | .ok t =>
      match encodeItems f l with
      | .error e => .error e
      | .ok ts => .ok ((k, t) :: ts)

/-- `_iterencode(o, _current_indent_level)`. The first argument is how deep it may go before
Python's recursion limit (`RecursionError`); `markers` are the lists, dicts and objects that are
being encoded. (Standard library; `default` is `ConfigEncoder.default`,
src/vgm/ym2151/config.py:240-245.) -/
def encode (things : Things) : Nat → List Nat → PyVal → Except PyErr Tree
  | 0, _, _ => .error .recursion
  | _ + 1, _, .none => .ok .null
  | _ + 1, _, .bool b => .ok (.bool b)
  | _ + 1, _, .int n => .ok (.int n)
  | _ + 1, _, .str s => .ok (.str s)
  | depth + 1, markers, .ref r =>
    match things r with
    | .list l =>
      if l.isEmpty then .ok (.arr [])
      else if r ∈ markers then .error .value
      else
        match encodeAll (encode things depth (r :: markers)) l with
        | .error e => .error e
        | .ok ts => .ok (.arr ts)
    | .dict l =>
      if l.isEmpty then .ok (.obj [])
      else if r ∈ markers then .error .value
      else
        match encodeItems (encode things depth (r :: markers)) l with
        | .error e => .error e
        | .ok ts => .ok (.obj ts)
    | .object repr =>
      if r ∈ markers then .error .value
      else
        -- `if hasattr(o, "repr_json"): return o.repr_json()`
        match repr with
        | .error e => .error e
        | .ok v => encode things depth (r :: markers) v
    | .plain =>
      if r ∈ markers then .error .value
      -- `return json.JSONEncoder.default(self, o)`: not JSON serializable
      else .error .type

/-- `json.dumps(v, cls=ConfigEncoder)`, up to the text. (src/vgm/ym2151/config.py:240-245.) -/
def dumps (things : Things) (limit : Nat) (v : PyVal) : Except PyErr Tree := encode things limit [] v

/-! ### The objects of the package

Where they are, and whether objects are shared, is left open. -/

/-- `v` is an object whose `repr_json` returns a dict with these items.
(src/vgm/ym2151/config.py:60-61, 99-112, 182-194, 231-237.) -/
def HasRepr (things : Things) (v : PyVal) (items : List (Str × PyVal)) : Prop :=
  ∃ r d, v = .ref r ∧ things r = .object (.ok (.ref d)) ∧ things d = .dict items

/-- `v` is the member `w` of `Waveform`: `repr_json`, src/vgm/ym2151/config.py:16-17. -/
def HoldsWaveform (things : Things) (v : PyVal) (w : Waveform) : Prop :=
  ∃ r, v = .ref r ∧ things r = .object (.ok (.str (match w with
    | .saw => "SAW".toList
    | .square => "SQUARE".toList
    | .triangle => "TRIANGLE".toList
    | .noise => "NOISE".toList)))

/-- `v` is the value `o` of `Operators`: `repr_json`, src/vgm/ym2151/config.py:26-36. -/
def HoldsOperators (things : Things) (v : PyVal) (o : Nat) : Prop :=
  ∃ r, v = .ref r ∧ things r = .object (.ok (.str (join ['|']
    ((if o &&& 1 ≠ 0 then ["MOD1".toList] else [])
      ++ (if o &&& 2 ≠ 0 then ["CAR1".toList] else [])
      ++ (if o &&& 4 ≠ 0 then ["MOD2".toList] else [])
      ++ (if o &&& 8 ≠ 0 then ["CAR2".toList] else [])))))

/-- `v` is a `BaseConfig`: `repr_json`, src/vgm/ym2151/config.py:60-61. -/
def HoldsBase (things : Things) (v : PyVal) (b : BaseConfig) : Prop :=
  ∃ w, HoldsWaveform things w b.waveform ∧ HasRepr things v
    [ ("waveform".toList, w)
    , ("lfo".toList, .int b.lfo)
    , ("amp_md".toList, .int b.ampMd)
    , ("phs_md".toList, .int b.phsMd) ]

/-- `v` is an `OperatorConfig`: `repr_json`, src/vgm/ym2151/config.py:99-112. -/
def HoldsOperator (things : Things) (v : PyVal) (o : OperatorConfig) : Prop :=
  HasRepr things v
    [ ("tl".toList, .int o.totalLevel)
    , ("ar".toList, .int o.attackRate)
    , ("d1r".toList, .int o.firstDecayRate)
    , ("d1l".toList, .int o.firstDecayLevel)
    , ("d2r".toList, .int o.secondDecayRate)
    , ("rr".toList, .int o.releaseRate)
    , ("ks".toList, .int o.keyScale)
    , ("mul".toList, .int o.multiply)
    , ("dt1".toList, .int o.firstDetune)
    , ("dt2".toList, .int o.secondDetune)
    , ("ase".toList, .bool o.ase) ]

/-- `v` is a `ChannelConfig` with at least four operators: `repr_json`,
src/vgm/ym2151/config.py:182-194. -/
def HoldsChannel (things : Things) (v : PyVal) (c : ChannelConfig) : Prop :=
  ∃ o0 o1 o2 o3 v0 v1 v2 v3, c.operators[0]? = some o0 ∧ c.operators[1]? = some o1 ∧
    c.operators[2]? = some o2 ∧ c.operators[3]? = some o3 ∧
    HoldsOperator things v0 o0 ∧ HoldsOperator things v1 o1 ∧ HoldsOperator things v2 o2 ∧
    HoldsOperator things v3 o3 ∧ HasRepr things v
    [ ("feedback".toList, .int c.fb)
    , ("connection".toList, .int c.connection)
    , ("ams".toList, .int c.ams)
    , ("pms".toList, .int c.pms)
    , ("noise".toList, .bool c.noise)
    , ("noise_freq".toList, .int c.noiseFreq)
    , ("m1".toList, v0)
    , ("c1".toList, v2)
    , ("m2".toList, v1)
    , ("c2".toList, v3) ]

/-- `v` is a `Config`: `repr_json`, src/vgm/ym2151/config.py:231-237. -/
def HoldsConfig (things : Things) (v : PyVal) (c : Config) : Prop :=
  ∃ b o ch, HoldsBase things b c.base ∧ HoldsOperators things o c.operators ∧
    HoldsChannel things ch c.channel ∧ HasRepr things v
    [ ("id".toList, .int c.id)
    , ("base".toList, b)
    , ("operators".toList, o)
    , ("channel".toList, ch) ]

/-- `v` is the list `s.configs`. (src/extractors.py:118.) -/
def HoldsConfigs (things : Things) (v : PyVal) (cs : List Config) : Prop :=
  ∃ r l, v = .ref r ∧ things r = .list l ∧ l.length = cs.length ∧
    ∀ (i : Nat) x c, l[i]? = some x → cs[i]? = some c → HoldsConfig things x c

end VgmX
