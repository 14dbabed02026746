import Verif.Model.Json
import Verif.Spec.Ym2151
import Verif.Spec.Pitch
/-
How to read an instrument file: a JSON parser (RFC 8259, without escape sequences,
fractions, exponents, signs and null, which are rejected), and the meaning of the fields.
Of the model only the types of JSON values and of the settings are used.
-/

namespace VgmX.Spec

/-- The tokens of JSON. -/
inductive Tok where
  | lbrace | rbrace | lbrack | rbrack | colon | comma
  | str (s : List Char)
  | num (n : Nat)
  | word (s : List Char)
  deriving DecidableEq, Repr

/-- Where the tokenizer stands: between tokens, inside a string or word (characters so far,
last first), or inside a number. -/
inductive Mode where
  | idle
  | inStr (acc : List Char)
  | inNum (n : Nat)
  | inWord (acc : List Char)
  deriving DecidableEq, Repr

/-- A character between tokens. -/
def startTok (c : Char) : Option (List Tok × Mode) :=
  if c = ' ' ∨ c = '\t' ∨ c = '\n' ∨ c = '\r' then some ([], .idle)
  else if c = '{' then some ([.lbrace], .idle)
  else if c = '}' then some ([.rbrace], .idle)
  else if c = '[' then some ([.lbrack], .idle)
  else if c = ']' then some ([.rbrack], .idle)
  else if c = ':' then some ([.colon], .idle)
  else if c = ',' then some ([.comma], .idle)
  else if c = '"' then some ([], .inStr [])
  else if '0' ≤ c ∧ c ≤ '9' then some ([], .inNum (c.toNat - '0'.toNat))
  else if 'a' ≤ c ∧ c ≤ 'z' then some ([], .inWord [c])
  else none

/-- One character. A number must not have leading zeros; control characters, quotes and
backslashes are not allowed inside strings. -/
def lexStep : Mode → Char → Option (List Tok × Mode)
  | .idle, c => startTok c
  | .inStr acc, c =>
    if c = '"' then some ([.str acc.reverse], .idle)
    else if c = '\\' ∨ c.toNat < 0x20 then none
    else some ([], .inStr (c :: acc))
  | .inNum n, c =>
    if '0' ≤ c ∧ c ≤ '9' then
      if n = 0 then none else some ([], .inNum (n * 10 + (c.toNat - '0'.toNat)))
    else (startTok c).map (fun r => (.num n :: r.1, r.2))
  | .inWord acc, c =>
    if 'a' ≤ c ∧ c ≤ 'z' then some ([], .inWord (c :: acc))
    else (startTok c).map (fun r => (.word acc.reverse :: r.1, r.2))

/-- A text, from a mode. -/
def lexRun : Mode → List Char → Option (List Tok × Mode)
  | m, [] => some ([], m)
  | m, c :: s =>
    match lexStep m c with
    | none => none
    | some (ts, m') => (lexRun m' s).map (fun r => (ts ++ r.1, r.2))

/-- The tokens of a whole text. -/
def lex (s : List Char) : Option (List Tok) :=
  match lexRun .idle s with
  | some (ts, .idle) => some ts
  | some (ts, .inNum n) => some (ts ++ [.num n])
  | some (ts, .inWord acc) => some (ts ++ [.word acc.reverse])
  | some (_, .inStr _) => none
  | none => none

mutual
/-- A value at the front of the tokens, and what follows it. The first argument bounds the
depth of the recursion. -/
def pValue : Nat → List Tok → Option (Json × List Tok)
  | 0, _ => none
  | _ + 1, .num n :: r => some (.num n, r)
  | _ + 1, .str s :: r => some (.str s, r)
  | _ + 1, .word w :: r =>
    if w = "true".toList then some (.bool true, r)
    else if w = "false".toList then some (.bool false, r)
    else none
  | _ + 1, .lbrack :: .rbrack :: r => some (.arr .nil, r)
  | k + 1, .lbrack :: r => (pElems k r).map (fun x => (.arr x.1, x.2))
  | _ + 1, .lbrace :: .rbrace :: r => some (.obj .nil, r)
  | k + 1, .lbrace :: r => (pFields k r).map (fun x => (.obj x.1, x.2))
  | _ + 1, _ => none
/-- One or more values separated by commas, up to `]`. -/
def pElems : Nat → List Tok → Option (JsonList × List Tok)
  | 0, _ => none
  | k + 1, ts =>
    match pValue k ts with
    | some (v, .comma :: r) => (pElems k r).map (fun x => (.cons v x.1, x.2))
    | some (v, .rbrack :: r) => some (.cons v .nil, r)
    | _ => none
/-- One or more `"key": value` separated by commas, up to `}`. -/
def pFields : Nat → List Tok → Option (JsonFields × List Tok)
  | 0, _ => none
  | k + 1, .str key :: .colon :: ts =>
    match pValue k ts with
    | some (v, .comma :: r) => (pFields k r).map (fun x => (.cons key v x.1, x.2))
    | some (v, .rbrace :: r) => some (.cons key v .nil, r)
    | _ => none
  | _ + 1, _ => none
end

/-- A JSON text. -/
def parseJson (s : List Char) : Option Json :=
  match lex s with
  | none => none
  | some ts =>
    match pValue (ts.length + 1) ts with
    | some (v, []) => some v
    | _ => none

/-- The value of a key (the first one, should it occur twice). -/
def JsonFields.find (key : List Char) : JsonFields → Option Json
  | .nil => none
  | .cons k v l => if k = key then some v else JsonFields.find key l

/-- `v[key]`. -/
def field (key : String) : Json → Option Json
  | .obj l => JsonFields.find key.toList l
  | _ => none

/-- `v[key]`, a number. -/
def numField (key : String) (v : Json) : Option Nat :=
  match field key v with
  | some (.num n) => some n
  | _ => none

/-- `v[key]`, a Boolean. -/
def boolField (key : String) (v : Json) : Option Bool :=
  match field key v with
  | some (.bool b) => some b
  | _ => none

/-- `v[key]`, a string. -/
def strField (key : String) (v : Json) : Option (List Char) :=
  match field key v with
  | some (.str s) => some s
  | _ => none

/-- A waveform by its name. -/
def readWaveform (s : List Char) : Option Waveform :=
  if s = "SAW".toList then some .saw
  else if s = "SQUARE".toList then some .square
  else if s = "TRIANGLE".toList then some .triangle
  else if s = "NOISE".toList then some .noise
  else none

/-- The part of a text before the first `|`, and the rest. -/
def cutBar : List Char → List Char × Option (List Char)
  | [] => ([], none)
  | c :: s => if c = '|' then ([], some s) else ((c :: (cutBar s).1), (cutBar s).2)

/-- Names separated by `|` (at most `n`). -/
def barNames : Nat → List Char → List (List Char)
  | 0, _ => []
  | n + 1, s =>
    match cutBar s with
    | (a, none) => [a]
    | (a, some r) => a :: barNames n r

/-- The bit of an operator name. -/
def operatorBit (s : List Char) : Option Nat :=
  if s = "MOD1".toList then some 1
  else if s = "CAR1".toList then some 2
  else if s = "MOD2".toList then some 4
  else if s = "CAR2".toList then some 8
  else none

/-- The operator set of a string such as `MOD1|CAR2`, as the sum of the bits. -/
def readOperators (s : List Char) : Option Nat :=
  (barNames 5 s).foldr
    (fun name acc => match operatorBit name, acc with
      | some b, some n => some (b + n)
      | _, _ => none) (some 0)

/-- The settings shared by all channels. -/
def readBaseConfig (v : Json) : Option BaseConfig := do
  let w ← strField "waveform" v
  let waveform ← readWaveform w
  let lfo ← numField "lfo" v
  let ampMd ← numField "amp_md" v
  let phsMd ← numField "phs_md" v
  some { waveform, lfo, ampMd, phsMd }

/-- The settings of one operator. -/
def readOperator (v : Json) : Option OperatorConfig := do
  let totalLevel ← numField "tl" v
  let attackRate ← numField "ar" v
  let firstDecayRate ← numField "d1r" v
  let firstDecayLevel ← numField "d1l" v
  let secondDecayRate ← numField "d2r" v
  let releaseRate ← numField "rr" v
  let keyScale ← numField "ks" v
  let multiply ← numField "mul" v
  let firstDetune ← numField "dt1" v
  let secondDetune ← numField "dt2" v
  let ase ← boolField "ase" v
  some { totalLevel, attackRate, firstDecayRate, firstDecayLevel, secondDecayRate, releaseRate,
         keyScale, multiply, firstDetune, secondDetune, ase }

/-- The settings of a channel; register slots 0, 1, 2, 3 are M1, M2, C1, C2. -/
def readChannel (v : Json) : Option ChannelConfig := do
  let fb ← numField "feedback" v
  let connection ← numField "connection" v
  let ams ← numField "ams" v
  let pms ← numField "pms" v
  let noise ← boolField "noise" v
  let noiseFreq ← numField "noise_freq" v
  let m1 ← (field "m1" v).bind readOperator
  let m2 ← (field "m2" v).bind readOperator
  let c1 ← (field "c1" v).bind readOperator
  let c2 ← (field "c2" v).bind readOperator
  some { operators := [m1, m2, c1, c2], fb, ams, pms, connection, noise, noiseFreq }

/-- An instrument: its number and its patch. -/
def readInstrument (v : Json) : Option (Nat × Patch) := do
  let id ← numField "id" v
  let base ← (field "base" v).bind readBaseConfig
  let ops ← (strField "operators" v).bind readOperators
  let channel ← (field "channel" v).bind readChannel
  some (id, ⟨base, channel, ops⟩)

/-- The elements of a list of instruments. -/
def readInstrumentList : JsonList → Option (List (Nat × Patch))
  | .nil => some []
  | .cons v l => do
    let i ← readInstrument v
    let is ← readInstrumentList l
    some (i :: is)

/-- A whole instrument file. -/
def readInstrumentFile (s : List Char) : Option (List (Nat × Patch)) :=
  match parseJson s with
  | some (.arr l) => readInstrumentList l
  | _ => none

/-- Element `i` of a JSON list. -/
def JsonList.nth : Nat → JsonList → Option Json
  | _, .nil => none
  | 0, .cons v _ => some v
  | i + 1, .cons _ l => JsonList.nth i l

/-- `v[i]`. -/
def item (i : Nat) : Json → Option Json
  | .arr l => JsonList.nth i l
  | _ => none

end VgmX.Spec
