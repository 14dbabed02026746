import Verif.Model.Main
/-
Model of the last part of `src/main.py` (lines 52-67): the argument parser, and the call of
`main`. The parser's behaviour is that of the standard library's `argparse` (CPython 3.11,
Lib/argparse.py, cited as argparse.py by function) for these four options and one operand.

Simplifications: usage and help texts are not modelled (how the program exits is); positions in
the argument list are represented by the rest of the list. Characters outside ASCII that are
decimal digits, and `int` of texts that contain characters outside ASCII, are parameters.
-/

namespace VgmX

/-- The options, src/main.py:49-61, and `-h`. -/
inductive Opt where
  | help | instr | track | ticks
  deriving DecidableEq, Repr

/-- `parser._option_string_actions`: in the order in which the options are added.
(src/main.py:49-61.) -/
def optionTable : List (Str × Opt) :=
  [ ("-h".toList, .help), ("--help".toList, .help)
  , ("-i".toList, .instr), ("--instrument".toList, .instr)
  , ("-t".toList, .track), ("--track".toList, .track)
  , ("-tn".toList, .ticks), ("--ticks-per-note".toList, .ticks) ]

/-- What depends on Unicode tables. (Standard library, for src/main.py:63.) -/
structure Uni where
  /-- decimal digits (`\d`) outside ASCII -/
  digit : Char → Bool
  /-- `int(s)` for a text that is not all ASCII; `none` if it raises `ValueError` -/
  int : Str → Option Int

/-- `namespace`. (The result of src/main.py:63.) -/
structure Args where
  file : Option Str
  instr : Option Str
  track : Option Str
  ticks : Option Int
  deriving DecidableEq, Repr

/-- How parsing ends if not with a namespace: with the help text (status 0) or with a usage
message (status 2). (Standard library, for src/main.py:63.) -/
inductive Exit where
  | help | usage
  deriving DecidableEq, Repr

/-- A tuple of `_parse_optional`: the action (`none`: unknown option), the option string, the
separator and the explicit argument. (Standard library, for src/main.py:63.) -/
structure OptTuple where
  action : Option Opt
  name : Str
  sep : Option Str
  explicit : Option Str
  deriving DecidableEq, Repr

/-- `s.partition("=")`: the text before the first `=` and, if there is one, the text after.
(Standard library, for src/main.py:63.) -/
def partitionEq : Str → Str × Option Str
  | [] => ([], none)
  | c :: s =>
    if c = '=' then ([], some s) else (c :: (partitionEq s).1, (partitionEq s).2)

/-- `_option_string_actions[name]`. (Standard library, for src/main.py:63.) -/
def optionOf (name : Str) : Option Opt := (optionTable.find? (fun x => x.1 = name)).map (·.2)

/-- `_get_option_tuples` (argparse.py), for an argument of at least two characters that starts
with `-`. (Standard library, for src/main.py:63.) -/
def optionTuples (arg : Str) : List OptTuple :=
  if arg[1]? = some '-' then
    let prefix_ := (partitionEq arg).1
    let explicit := (partitionEq arg).2
    (optionTable.filter (fun x => prefix_.isPrefixOf x.1)).map
      (fun x => ⟨some x.2, x.1, explicit.map (fun _ => ['=']), explicit⟩)
  else
    optionTable.filterMap (fun x =>
      if x.1 = arg.take 2 then some ⟨some x.2, x.1, some [], some (arg.drop 2)⟩
      else if arg.isPrefixOf x.1 then some ⟨some x.2, x.1, none, none⟩
      else none)

/-- `\d`. (Standard library, for src/main.py:63.) -/
def Uni.isDigit (u : Uni) (c : Char) : Bool := decide ('0' ≤ c ∧ c ≤ '9') || (decide (128 ≤ c.toNat) && u.digit c)

/-- `_negative_number_matcher`: `^-\d+$|^-\d*\.\d+$`; `$` also matches before a final newline.
(Standard library, for src/main.py:63.) -/
def negativeNumber (u : Uni) (arg : Str) : Bool :=
  match arg with
  | '-' :: s =>
    let s := if s.getLast? = some '\n' then s.dropLast else s
    let rest := s.dropWhile u.isDigit
    (rest = [] && s ≠ []) ||
    (match rest with
     | '.' :: t => t ≠ [] && t.all u.isDigit
     | _ => false)
  | _ => false

/-- `_parse_optional` (argparse.py): `none` if the argument is positional.
(Standard library, for src/main.py:63.) -/
def parseOptional (u : Uni) (arg : Str) : Except Exit (Option OptTuple) :=
  match arg with
  | [] => .ok none
  | c :: cs =>
    if c ≠ '-' then .ok none
    else
      match optionOf arg with
      | some o => .ok (some ⟨some o, arg, none, none⟩)
      | none =>
        if cs = [] then .ok none
        else
          match (partitionEq arg).2, optionOf (partitionEq arg).1 with
          | some explicit, some o =>
            .ok (some ⟨some o, (partitionEq arg).1, some ['='], some explicit⟩)
          | _, _ =>
            match optionTuples arg with
            | [t] => .ok (some t)
            | _ :: _ :: _ => .error .usage
            | [] =>
              if negativeNumber u arg then .ok none
              else if ' ' ∈ arg then .ok none
              else .ok (some ⟨none, arg, none, none⟩)

/-- A character of `arg_strings_pattern`: `A`, `-` or `O`.
(Standard library, for src/main.py:63.) -/
inductive Tag where
  | arg | dashes | opt (t : OptTuple)
  deriving DecidableEq, Repr

/-- `O` or `A`. (Standard library, for src/main.py:63.) -/
def tagOf : Option OptTuple → Tag
  | some t => .opt t
  | none => .arg

/-- `arg_strings_pattern` and `option_string_indices`, together with the arguments
(`_parse_known_args`, argparse.py). (Standard library, for src/main.py:63.) -/
def tagArgs (u : Uni) : List Str → Except Exit (List (Str × Tag))
  | [] => .ok []
  | a :: as =>
    if a = ['-', '-'] then .ok ((a, .dashes) :: as.map (fun b => (b, .arg)))
    else
      match parseOptional u a with
      | .error e => .error e
      | .ok t =>
        match tagArgs u as with
        | .error e => .error e
        | .ok ts => .ok ((a, tagOf t) :: ts)

/-- White space of C's `isspace`. (Built-in, for `type=int`, src/main.py:59.) -/
def cSpace (c : Char) : Bool :=
  c = ' ' || c = '\t' || c = '\n' || c = '\r' || c = '\x0b' || c = '\x0c'

/-- The digits of `int(s)`: value and number of digits; underscores may stand between digits.
The first argument says whether the last character was a digit.
(Built-in, for `type=int`, src/main.py:59.) -/
def pyDigits : Bool → Nat → Nat → Str → Option (Nat × Nat)
  | prev, acc, n, [] => if prev then some (acc, n) else none
  | prev, acc, n, c :: s =>
    if '0' ≤ c ∧ c ≤ '9' then pyDigits true (acc * 10 + (c.toNat - '0'.toNat)) (n + 1) s
    else if c = '_' ∧ prev then pyDigits false acc n s
    else none

/-- `int(s)`; `none` if it raises `ValueError`. More than 4300 digits do.
(Built-in, for `type=int`, src/main.py:59.) -/
def pyInt (u : Uni) (s : Str) : Option Int :=
  if s.all (fun c => c.toNat < 128) then
    let s := ((s.dropWhile cSpace).reverse.dropWhile cSpace).reverse
    let digits (s : Str) : Option Nat :=
      match pyDigits false 0 0 s with
      | some (v, n) => if n ≤ 4300 then some v else none
      | none => none
    match s with
    | '-' :: s => (digits s).map (fun (v : Nat) => -(v : Int))
    | '+' :: s => (digits s).map (fun (v : Nat) => (v : Int))
    | s => (digits s).map (fun (v : Nat) => (v : Int))
  else u.int s

/-- `take_action` for an option with its arguments (argparse.py: `_get_values`, `_StoreAction`,
`_HelpAction`). (Standard library, for src/main.py:63.) -/
def takeOption (u : Uni) (ns : Args) : Opt × Str → Except Exit Args
  | (.help, _) => .error .help
  | (.instr, v) => .ok { ns with instr := some v }
  | (.track, v) => .ok { ns with track := some v }
  | (.ticks, v) =>
    match pyInt u v with
    | some n => .ok { ns with ticks := some n }
    | none => .error .usage

/-- The `while True` loop of `consume_optional` (argparse.py): the options in the argument
(several if they take no arguments themselves, which only `-h` does), with their arguments, what
is not understood, and the rest of the arguments. (Standard library, for src/main.py:63.) -/
def consumeLoop : Nat → Opt → Str → Option Str → Option Str → List (Str × Tag) →
    Except Exit (List (Opt × Str) × List Str × List (Str × Tag))
  | 0, _, _, _, _, _ => .error .usage
  | fuel + 1, action, name, sep, explicit, rest =>
    match explicit with
    | some explicit =>
      if action = .help then
        if name[1]? ≠ some '-' ∧ explicit ≠ [] then
          if (sep ≠ none ∧ sep ≠ some []) ∨ explicit.head? = some '-' then .error .usage
          else
            match optionOf ('-' :: explicit.take 1) with
            | some action' =>
              let more :=
                match explicit.drop 1 with
                | [] => consumeLoop fuel action' ('-' :: explicit.take 1) none none rest
                | '=' :: e => consumeLoop fuel action' ('-' :: explicit.take 1) (some ['=']) (some e) rest
                | e => consumeLoop fuel action' ('-' :: explicit.take 1) (some []) (some e) rest
              match more with
              | .error e => .error e
              | .ok (acts, extra, rest) => .ok ((action, []) :: acts, extra, rest)
            | none => .ok ([(action, [])], ['-' :: explicit], rest)
        else .error .usage
      else .ok ([(action, explicit)], [], rest)
    | none =>
      if action = .help then .ok ([(action, [])], [], rest)
      else
        match rest with
        | (a, .arg) :: rest => .ok ([(action, a)], [], rest)
        | _ => .error .usage

/-- `consume_optional` (argparse.py) on an argument and what follows it.
(Standard library, for src/main.py:63.) -/
def consumeOptional (u : Uni) (arg : Str) (t : OptTuple) (rest : List (Str × Tag)) (ns : Args)
    (extras : List Str) : Except Exit (List (Str × Tag) × Args × List Str) :=
  match t.action with
  | none => .ok (rest, ns, extras ++ [arg])
  | some o =>
    match consumeLoop (arg.length + 1) o t.name t.sep t.explicit rest with
    | .error e => .error e
    | .ok (acts, extra, rest) =>
      match acts.foldlM (takeOption u) ns with
      | .error e => .error e
      | .ok ns => .ok (rest, ns, extras ++ extra)

/-- `consume_positionals` (argparse.py) if the operand is still missing: `(-*A-*)` at the front
of the pattern, of which `--` is then removed; the operand and what follows. (There is at most
one `--` in the pattern.) (Standard library, for src/main.py:63.) -/
def matchPositional : List (Str × Tag) → Option (Str × List (Str × Tag))
  | (_, .dashes) :: (a, .arg) :: rest => some (a, rest)
  | (a, .arg) :: (_, .dashes) :: rest => some (a, rest)
  | (a, .arg) :: rest => some (a, rest)
  | _ => none

/-- `start_index not in option_string_indices`. (Standard library, for src/main.py:63.) -/
def notOption (x : Str × Tag) : Bool := match x.2 with | .opt _ => false | _ => true

/-- Whether an option is left in the list: `start_index <= max_option_string_index`.
(Standard library, for src/main.py:63.) -/
def hasOption (l : List (Str × Tag)) : Bool := l.any fun x => !notOption x

/-- The loop of `_parse_known_args` (argparse.py) that consumes operands and options in turn,
and what comes after it. (`consume_positionals` is not called if an option is next;
`matchPositional` is `none` then, and nothing is skipped.)
(Standard library, for src/main.py:63.) -/
def parseLoop (u : Uni) : Nat → List (Str × Tag) → Args → List Str →
    Except Exit (Args × List Str)
  | 0, _, _, _ => .error .usage
  | fuel + 1, l, ns, extras =>
    if hasOption l then
      match (if ns.file = none then matchPositional l else none) with
      | some (a, rest) => parseLoop u fuel rest { ns with file := some a } extras
      | none =>
        match l.dropWhile notOption with
        | (a, .opt t) :: rest =>
          match consumeOptional u a t rest ns (extras ++ (l.takeWhile notOption).map (·.1)) with
          | .error e => .error e
          | .ok (rest, ns, extras) => parseLoop u fuel rest ns extras
        | _ => .error .usage
    else
      match (if ns.file = none then matchPositional l else none) with
      | some (a, rest) => .ok ({ ns with file := some a }, extras ++ rest.map (·.1))
      | none => .ok (ns, extras ++ l.map (·.1))

/-- `parser.parse_args()`, src/main.py:63: the operand is required, and there must be nothing
left over. -/
def parseArgs (u : Uni) (argv : List Str) : Except Exit Args :=
  match tagArgs u argv with
  | .error e => .error e
  | .ok l =>
    match parseLoop u (l.length + 1) l ⟨none, none, none, none⟩ [] with
    | .error e => .error e
    | .ok (ns, extras) =>
      if ns.file = none then .error .usage else if extras ≠ [] then .error .usage else .ok ns

/-- How the script ends: it exits before `main` is called, or as `main` does.
(src/main.py:63-65.) -/
inductive ScriptEnd where
  | exit (e : Exit)
  | main (r : Except PyErr Unit)
  deriving Repr

/-- The script, src/main.py:47-65: `args` is a global, so `main` finds it. -/
def script (u : Uni) (env : Env) (argv : List Str) (w : World) : ScriptEnd × World :=
  match parseArgs u argv with
  | .error e => (.exit e, w)
  | .ok ns =>
    let r := main { env with argsFile := ns.file } ns.file ns.instr ns.track ns.ticks w
    (.main r.1, r.2)

end VgmX
