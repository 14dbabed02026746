import Verif.Spec.Ym2151
/-
The lines of the instrument file: which line shows which setting. Does not mention the model of
the program (but for its records of settings).
-/

namespace VgmX.Spec

/-- A setting of an instrument. -/
inductive Setting where
  | num (n : Nat)
  | flag (b : Bool)
  | wave (w : Waveform)
  | ops (o : Nat)
  deriving DecidableEq, Repr

/-- How a waveform is named in the file. -/
def waveName : Waveform → List Char
  | .saw => "SAW".toList
  | .square => "SQUARE".toList
  | .triangle => "TRIANGLE".toList
  | .noise => "NOISE".toList

/-- The names of the operators whose bits are set, with bars between them. -/
def opNames (o : Nat) : List Char :=
  (['|'] : List Char).intercalate
    (([(1, "MOD1"), (2, "CAR1"), (4, "MOD2"), (8, "CAR2")].filter
      (fun p => o / p.1 % 2 = 1)).map (fun p => p.2.toList))

/-- A setting as it is shown: numbers in decimal, words in quotation marks. -/
def Setting.text : Setting → List Char
  | .num n => Nat.toDigits 10 n
  | .flag true => "true".toList
  | .flag false => "false".toList
  | .wave w => '"' :: waveName w ++ ['"']
  | .ops o => '"' :: opNames o ++ ['"']

/-- A line of the file, within an instrument: it shows one setting, or begins or ends a group.
`depth` is the number of tabs it begins with, `more` if it ends with a comma. -/
inductive Row where
  | start
  | opening (depth : Nat) (name : String)
  | setting (depth : Nat) (name : String) (value : Nat → Patch → Setting) (more : Bool)
  | closing (depth : Nat) (more : Bool)

/-- A comma, or none. -/
def comma (more : Bool) : List Char := if more then [','] else []

/-- The line, for instrument number `k` with settings `p`. -/
def Row.text (k : Nat) (p : Patch) : Row → List Char
  | .start => ['\t', '{']
  | .opening d name => List.replicate d '\t' ++ '"' :: name.toList ++ "\": {".toList
  | .setting d name value more =>
    List.replicate d '\t' ++ '"' :: name.toList ++ "\": ".toList ++ (value k p).text ++ comma more
  | .closing d more => List.replicate d '\t' ++ '}' :: comma more

/-- The operator settings of a register slot. -/
def slot (p : Patch) (s : Nat) : OperatorConfig := p.channel.operators[s]?.getD {}

/-- The lines of an operator. -/
def slotRows (name : String) (s : Nat) (more : Bool) : List Row :=
  [ .opening 3 name,
    .setting 4 "tl" (fun _ p => .num (slot p s).totalLevel) true,
    .setting 4 "ar" (fun _ p => .num (slot p s).attackRate) true,
    .setting 4 "d1r" (fun _ p => .num (slot p s).firstDecayRate) true,
    .setting 4 "d1l" (fun _ p => .num (slot p s).firstDecayLevel) true,
    .setting 4 "d2r" (fun _ p => .num (slot p s).secondDecayRate) true,
    .setting 4 "rr" (fun _ p => .num (slot p s).releaseRate) true,
    .setting 4 "ks" (fun _ p => .num (slot p s).keyScale) true,
    .setting 4 "mul" (fun _ p => .num (slot p s).multiply) true,
    .setting 4 "dt1" (fun _ p => .num (slot p s).firstDetune) true,
    .setting 4 "dt2" (fun _ p => .num (slot p s).secondDetune) true,
    .setting 4 "ase" (fun _ p => .flag (slot p s).ase) false,
    .closing 3 more ]

/-- The lines of an instrument; `more` if another one follows. -/
def instrumentRows (more : Bool) : List Row :=
  [ .start,
    .setting 2 "id" (fun k _ => .num k) true,
    .opening 2 "base",
    .setting 3 "waveform" (fun _ p => .wave p.base.waveform) true,
    .setting 3 "lfo" (fun _ p => .num p.base.lfo) true,
    .setting 3 "amp_md" (fun _ p => .num p.base.ampMd) true,
    .setting 3 "phs_md" (fun _ p => .num p.base.phsMd) false,
    .closing 2 true,
    .setting 2 "operators" (fun _ p => .ops p.operators) true,
    .opening 2 "channel",
    .setting 3 "feedback" (fun _ p => .num p.channel.fb) true,
    .setting 3 "connection" (fun _ p => .num p.channel.connection) true,
    .setting 3 "ams" (fun _ p => .num p.channel.ams) true,
    .setting 3 "pms" (fun _ p => .num p.channel.pms) true,
    .setting 3 "noise" (fun _ p => .flag p.channel.noise) true,
    .setting 3 "noise_freq" (fun _ p => .num p.channel.noiseFreq) true ]
  ++ slotRows "m1" 0 true ++ slotRows "c1" 2 true ++ slotRows "m2" 1 true
  ++ slotRows "c2" 3 false
  ++ [ .closing 2 false, .closing 1 more ]

/-- The lines of the instruments from number `k` on. -/
def instrumentLines : Nat → List Patch → List (List Char)
  | _, [] => []
  | k, p :: ps =>
    (instrumentRows (!ps.isEmpty)).map (fun r => r.text k p) ++ instrumentLines (k + 1) ps

/-- The lines of the file: a bracket, seventy lines for every instrument, a bracket. (Without
instruments the two brackets are in one line.) -/
def fileLines (ps : List Patch) : List (List Char) :=
  if ps.isEmpty then ["[]".toList] else ['['] :: instrumentLines 0 ps ++ [[']']]

end VgmX.Spec
