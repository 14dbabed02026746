import Verif.Model.Encoder
/-
The text `json.dumps(value, cls=ConfigEncoder, indent=..)` returns, for any Python value (the tree
is in Model/Encoder): what the standard library's `json.encoder` writes by default
(`ensure_ascii=True`), without an indentation or with one, as `extract_instruments` asks for
(src/extractors.py:118).

Simplification: strings are made of Unicode scalar values (a Python string may also have lone
surrogates).
-/

namespace VgmX

/-- One digit of `'{0:04x}'.format(n)`. (Standard library, for src/extractors.py:118.) -/
def jsonHex (n : Nat) : Char :=
  if n % 16 < 10 then Char.ofNat (48 + n % 16) else Char.ofNat (87 + n % 16)

/-- `'\\u{0:04x}'.format(n)`. (Standard library, for src/extractors.py:118.) -/
def jsonU (n : Nat) : Str :=
  ['\\', 'u', jsonHex (n / 4096), jsonHex (n / 256), jsonHex (n / 16), jsonHex n]

/-- One character in `py_encode_basestring_ascii`: `ESCAPE_DCT` and the replacement of whatever
is not between a space and a tilde. (Standard library, for src/extractors.py:118.) -/
def jsonEscape (c : Char) : Str :=
  if c = '\\' then ['\\', '\\']
  else if c = '"' then ['\\', '"']
  else if c = Char.ofNat 8 then ['\\', 'b']
  else if c = Char.ofNat 12 then ['\\', 'f']
  else if c = '\n' then ['\\', 'n']
  else if c = '\r' then ['\\', 'r']
  else if c = '\t' then ['\\', 't']
  else if ' ' ≤ c ∧ c ≤ '~' then [c]
  else if c.toNat < 0x10000 then jsonU c.toNat
  else
    let n := c.toNat - 0x10000
    jsonU (0xd800 ||| ((n >>> 10) &&& 0x3ff)) ++ jsonU (0xdc00 ||| (n &&& 0x3ff))

/-- `py_encode_basestring_ascii(s)`. (Standard library, for src/extractors.py:118.) -/
def jsonString (s : Str) : Str := '"' :: s.flatMap jsonEscape ++ ['"']

/-- `newline_indent`, or nothing if `indent=None`. (Standard library, for src/extractors.py:118.) -/
def textNewline (indent : Option Str) (level : Nat) : Str :=
  match indent with
  | none => []
  | some i => '\n' :: (List.replicate level i).flatten

/-- The separator of items: `', '` if `indent=None`, otherwise `','` and `newline_indent`.
(Standard library, for src/extractors.py:118.) -/
def textComma (indent : Option Str) (level : Nat) : Str :=
  match indent with
  | none => [',', ' ']
  | some _ => ',' :: textNewline indent level

mutual
/-- `_iterencode(o, _current_indent_level)`, the text. (Standard library, for
src/extractors.py:118 and src/vgm/ym2151/config.py:240-245.) -/
def Tree.text (indent : Option Str) : Nat → Tree → Str
  | _, .null => "null".toList
  | _, .bool true => "true".toList
  | _, .bool false => "false".toList
  | _, .int n => intStr n
  | _, .str s => jsonString s
  | _, .arr [] => "[]".toList
  | level, .arr (t :: l) =>
    '[' :: textNewline indent (level + 1) ++ t.text indent (level + 1)
      ++ treesText indent (level + 1) l ++ textNewline indent level ++ [']']
  | _, .obj [] => "{}".toList
  | level, .obj ((k, t) :: l) =>
    '{' :: textNewline indent (level + 1) ++ jsonString k ++ ": ".toList ++ t.text indent (level + 1)
      ++ itemsText indent (level + 1) l ++ textNewline indent level ++ ['}']
/-- The elements after the first. (Standard library, for src/extractors.py:118.) -/
def treesText (indent : Option Str) : Nat → List Tree → Str
  | _, [] => []
  | level, t :: l => textComma indent level ++ t.text indent level ++ treesText indent level l
/-- The items after the first. (Standard library, for src/extractors.py:118.) -/
def itemsText (indent : Option Str) : Nat → List (Str × Tree) → Str
  | _, [] => []
  | level, (k, t) :: l =>
    textComma indent level ++ jsonString k ++ ": ".toList ++ t.text indent level
      ++ itemsText indent level l
end

/-- `json.dumps(v, cls=ConfigEncoder, indent=indent)`. (src/vgm/ym2151/config.py:240-245,
src/extractors.py:118.) -/
def dumpsText (things : Things) (limit : Nat) (indent : Option Str) (v : PyVal) : Except PyErr Str :=
  match dumps things limit v with
  | .error e => .error e
  | .ok t => .ok (t.text indent 0)

end VgmX
