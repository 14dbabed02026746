import Verif.Model.State
import Verif.Model.Text
/-
Model of the instrument export: `extract_instruments` (src/extractors.py:116-121), the
`repr_json` methods and `ConfigEncoder` (src/vgm/ym2151/config.py), and the part of the
standard library's `json.dumps(.., indent="\t")` they use.
-/

namespace VgmX

mutual
/-- What `json.dumps` is given once `ConfigEncoder.default` (config.py:240-245) has been
applied everywhere: non-negative ints, bools, strings, lists and dicts (in insertion order). -/
inductive Json where
  | num (n : Nat)
  | bool (b : Bool)
  | str (s : Str)
  | arr (l : JsonList)
  | obj (l : JsonFields)
/-- The elements of a list. (Standard library, for src/extractors.py:118.) -/
inductive JsonList where
  | nil
  | cons (head : Json) (tail : JsonList)
/-- The items of a dict. (Standard library, for src/extractors.py:118.) -/
inductive JsonFields where
  | nil
  | cons (key : Str) (value : Json) (tail : JsonFields)
end

/-- A Python list as `JsonList`. (Standard library, for src/extractors.py:118.) -/
def JsonList.ofList : List Json → JsonList
  | [] => .nil
  | a :: l => .cons a (JsonList.ofList l)

/-- A Python dict (items in insertion order) as `JsonFields`.
(Standard library, for src/extractors.py:118.) -/
def JsonFields.ofList : List (Str × Json) → JsonFields
  | [] => .nil
  | a :: l => .cons a.1 a.2 (JsonFields.ofList l)

/-- `'\n' + indent * level` of the standard library's `json.encoder._make_iterencode`.
(Standard library, for src/extractors.py:118.) -/
def jsonNewline (level : Nat) : Str := '\n' :: List.replicate level '\t'

/-- A string literal of the encoder. Escaping is not modelled: the strings that occur
contain only letters, digits, `_` and `|` (`Plain` in Lemmas/Json).
(Standard library, for src/extractors.py:118.) -/
def jsonQuote (s : Str) : Str := '"' :: s ++ ['"']

mutual
/-- `json.encoder._make_iterencode` with `indent="\t"` (item separator `,` then a newline
and the indentation, key separator `: `), as called at src/extractors.py:118. -/
def Json.dump (level : Nat) : Json → Str
  | .num n => natStr n
  | .bool true => "true".toList
  | .bool false => "false".toList
  | .str s => jsonQuote s
  | .arr .nil => "[]".toList
  | .arr (.cons a l) =>
    '[' :: jsonNewline (level + 1) ++ a.dump (level + 1) ++ l.dump (level + 1)
      ++ jsonNewline level ++ [']']
  | .obj .nil => "{}".toList
  | .obj (.cons k v l) =>
    '{' :: jsonNewline (level + 1) ++ jsonQuote k ++ ": ".toList ++ v.dump (level + 1)
      ++ l.dump (level + 1) ++ jsonNewline level ++ ['}']
/-- The elements after the first, each preceded by the separator.
(Standard library, for src/extractors.py:118.) -/
def JsonList.dump (level : Nat) : JsonList → Str
  | .nil => []
  | .cons a l => ',' :: jsonNewline level ++ a.dump level ++ l.dump level
/-- The items after the first, each preceded by the separator.
(Standard library, for src/extractors.py:118.) -/
def JsonFields.dump (level : Nat) : JsonFields → Str
  | .nil => []
  | .cons k v l =>
    ',' :: jsonNewline level ++ jsonQuote k ++ ": ".toList ++ v.dump level ++ l.dump level
end

/-- `Waveform.repr_json`, config.py:16-17: the member's name. -/
def Waveform.json : Waveform → Json
  | .saw => .str "SAW".toList
  | .square => .str "SQUARE".toList
  | .triangle => .str "TRIANGLE".toList
  | .noise => .str "NOISE".toList

/-- `Operators.repr_json`, config.py:26-36, on the flag value. -/
def operatorsJson (o : Nat) : Json :=
  .str (join ['|']
    ((if o &&& 1 ≠ 0 then ["MOD1".toList] else [])
      ++ (if o &&& 2 ≠ 0 then ["CAR1".toList] else [])
      ++ (if o &&& 4 ≠ 0 then ["MOD2".toList] else [])
      ++ (if o &&& 8 ≠ 0 then ["CAR2".toList] else [])))

/-- `BaseConfig.repr_json`, config.py:60-61: `__dict__`, in the order of the assignments
config.py:41-44. -/
def BaseConfig.json (b : BaseConfig) : Json :=
  .obj (.ofList
    [ ("waveform".toList, b.waveform.json)
    , ("lfo".toList, .num b.lfo)
    , ("amp_md".toList, .num b.ampMd)
    , ("phs_md".toList, .num b.phsMd) ])

/-- `OperatorConfig.repr_json`, config.py:99-112. -/
def OperatorConfig.json (o : OperatorConfig) : Json :=
  .obj (.ofList
    [ ("tl".toList, .num o.totalLevel)
    , ("ar".toList, .num o.attackRate)
    , ("d1r".toList, .num o.firstDecayRate)
    , ("d1l".toList, .num o.firstDecayLevel)
    , ("d2r".toList, .num o.secondDecayRate)
    , ("rr".toList, .num o.releaseRate)
    , ("ks".toList, .num o.keyScale)
    , ("mul".toList, .num o.multiply)
    , ("dt1".toList, .num o.firstDetune)
    , ("dt2".toList, .num o.secondDetune)
    , ("ase".toList, .bool o.ase) ])

/-- `self.operators[i]`: `IndexError` if there is none. (config.py:190-193.) -/
def ChannelConfig.operator (c : ChannelConfig) (i : Nat) : Except PyErr OperatorConfig :=
  match c.operators[i]? with
  | some o => .ok o
  | none => .error .index

/-- `ChannelConfig.repr_json`, config.py:182-194. -/
def ChannelConfig.json (c : ChannelConfig) : Except PyErr Json := do
  let m1 ← c.operator 0
  let c1 ← c.operator 2
  let m2 ← c.operator 1
  let c2 ← c.operator 3
  .ok (.obj (.ofList
    [ ("feedback".toList, .num c.fb)
    , ("connection".toList, .num c.connection)
    , ("ams".toList, .num c.ams)
    , ("pms".toList, .num c.pms)
    , ("noise".toList, .bool c.noise)
    , ("noise_freq".toList, .num c.noiseFreq)
    , ("m1".toList, m1.json)
    , ("c1".toList, c1.json)
    , ("m2".toList, m2.json)
    , ("c2".toList, c2.json) ]))

/-- `Config.repr_json`, config.py:231-237. -/
def Config.json (c : Config) : Except PyErr Json := do
  let ch ← c.channel.json
  .ok (.obj (.ofList
    [ ("id".toList, .num c.id)
    , ("base".toList, c.base.json)
    , ("operators".toList, operatorsJson c.operators)
    , ("channel".toList, ch) ]))

/-- The elements of `s.configs`, encoded one after the other. (src/extractors.py:118.) -/
def configsJson : List Config → Except PyErr (List Json)
  | [] => .ok []
  | c :: cs => do
    let j ← c.json
    let js ← configsJson cs
    .ok (j :: js)

/-- `js`, src/extractors.py:118. -/
def instrumentsJs (s : State) : Except PyErr Str :=
  match configsJson s.configs with
  | .error e => .error e
  | .ok js => .ok ((Json.arr (.ofList js)).dump 0)

/-- The text `extract_instruments` writes, src/extractors.py:118, 120-121. All of it is
computed before the file is opened. -/
def instrumentsText (s : State) : Except PyErr Str :=
  match instrumentsJs s with
  | .error e => .error e
  | .ok js => .ok (js ++ ['\n'])

end VgmX
