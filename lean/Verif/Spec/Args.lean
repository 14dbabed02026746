import Verif.Model.Args
import Verif.Spec.Pitch
/-
What the command line means, from the user's side. Of the model only types are used.
-/

namespace VgmX.Spec

/-- `-h`, `-i`, `-t`, `-tn`. -/
def shortName : Opt → List Char
  | .help => "-h".toList
  | .instr => "-i".toList
  | .track => "-t".toList
  | .ticks => "-tn".toList

/-- The long names. -/
def longName : Opt → List Char
  | .help => "--help".toList
  | .instr => "--instrument".toList
  | .track => "--track".toList
  | .ticks => "--ticks-per-note".toList

/-- `a` names the option `o`: its short name, or a beginning of its long name that is longer than
`--` and not a beginning of another long name. -/
def Names (a : List Char) (o : Opt) : Prop :=
  a = shortName o ∨ (3 ≤ a.length ∧ a <+: longName o ∧ ∀ o', a <+: longName o' → o' = o)

/-- `a` is the option `o` and its value `v` in one argument: `name=v`, or `-iv` or `-tv` (unless
that can be read as `-tn`, or as a name with `=`). -/
def Joined (a : List Char) (o : Opt) (v : List Char) : Prop :=
  (∃ name, Names name o ∧ a = name ++ '=' :: v) ∨
  ((o = .instr ∨ o = .track) ∧ a = shortName o ++ v ∧ v ≠ [] ∧ v.head? ≠ some '=' ∧
    a ≠ "-tn".toList ∧ ¬ "-tn=".toList <+: a)

/-- A decimal digit. -/
def Digit (u : Uni) (c : Char) : Prop :=
  ('0' ≤ c ∧ c ≤ '9') ∨ (128 ≤ c.toNat ∧ u.digit c = true)

/-- A negative number: `-5`, `-5.5`, `-.5`; possibly with a line end. -/
def NegativeNumber (u : Uni) (a : List Char) : Prop :=
  ∃ ds nl, (∀ c ∈ ds, Digit u c) ∧ (nl = [] ∨ nl = ['\n']) ∧
    ((ds ≠ [] ∧ a = '-' :: ds ++ nl) ∨
     (∃ fs, fs ≠ [] ∧ (∀ c ∈ fs, Digit u c) ∧ a = '-' :: ds ++ '.' :: fs ++ nl))

/-- `a` begins like an option: `-h`, `-i` or `-t`, or, before any `=`, a beginning of a long name
with its two dashes. -/
def BeginsLikeOption (a : List Char) : Prop :=
  a.take 2 ∈ ["-h".toList, "-i".toList, "-t".toList] ∨
  ∃ o name, 2 ≤ name.length ∧ name <+: longName o ∧ (a = name ∨ ∃ v, a = name ++ '=' :: v)

/-- `a` is taken as an operand or as the value of the option before it: it does not begin with
`-`, or is `-`, or is a negative number or contains a space and does not begin like an option. -/
def OperandLike (u : Uni) (a : List Char) : Prop :=
  a.head? ≠ some '-' ∨ a = ['-'] ∨
    ((NegativeNumber u a ∨ ' ' ∈ a) ∧ ¬ BeginsLikeOption a)

/-- White space around a number. -/
def Blank (s : List Char) : Prop :=
  ∀ c ∈ s, c = ' ' ∨ c = '\t' ∨ c = '\n' ∨ c = '\r' ∨ c = '\x0b' ∨ c = '\x0c'

/-- Groups of digits with `_` between them. -/
def underscored (groups : List (List Char)) : List Char := ['_'].intercalate groups

/-- `s` is a whole number in decimal notation, as Python reads it: blanks around it, a sign, up
to 4300 digits, single underscores between digits. (Texts with other characters than ASCII: as
the parameter says.) -/
def IntText (u : Uni) (s : List Char) (n : Int) : Prop :=
  if ∀ c ∈ s, c.toNat < 128 then
    ∃ before after sign groups v, Blank before ∧ Blank after ∧
      s = before ++ sign ++ underscored groups ++ after ∧ groups ≠ [] ∧
      (∀ g ∈ groups, g ≠ [] ∧ ∀ c ∈ g, isDec c = true) ∧
      groups.flatten.length ≤ 4300 ∧ readBase 10 groups.flatten = some v ∧
      ((sign = ['-'] ∧ n = -(v : Int)) ∨ ((sign = [] ∨ sign = ['+']) ∧ n = v))
  else u.int s = some n

/-- Giving the option `o` the value `v` changes the settings from `s` to `s'`. -/
def Sets (u : Uni) (o : Opt) (v : List Char) (s s' : Args) : Prop :=
  match o with
  | .help => False
  | .instr => s' = { s with instr := some v }
  | .track => s' = { s with track := some v }
  | .ticks => ∃ n, IntText u v n ∧ s' = { s with ticks := some n }

/-- The arguments are options with their values; they change the settings from `s` to `s'`, the
later ones over the earlier ones. -/
inductive Options (u : Uni) : List (List Char) → Args → Args → Prop
  | nil (s : Args) : Options u [] s s
  | separate {a v : List Char} {o : Opt} {rest : List (List Char)} {s s1 s2 : Args} :
      Names a o → OperandLike u v → Sets u o v s s1 → Options u rest s1 s2 →
      Options u (a :: v :: rest) s s2
  | joined {a v : List Char} {o : Opt} {rest : List (List Char)} {s s1 s2 : Args} :
      Joined a o v → Sets u o v s s1 → Options u rest s1 s2 → Options u (a :: rest) s s2

/-- The command line `argv` means `ns`: options and one operand, the file, in any order; or the
file at the end with `--` before or behind it, in which case (before) the file may look like an
option. -/
def Means (u : Uni) (argv : List (List Char)) (ns : Args) : Prop :=
  ∃ (before after : List (List Char)) (f : List Char) (s1 s2 : Args),
    Options u before ⟨none, none, none, none⟩ s1 ∧ Options u after s1 s2 ∧
    ns = { s2 with file := some f } ∧
    ((argv = before ++ f :: after ∧ OperandLike u f) ∨
     (argv = before ++ [f, ['-', '-']] ∧ after = [] ∧ OperandLike u f) ∨
     (argv = before ++ [['-', '-'], f] ∧ after = []))

end VgmX.Spec
