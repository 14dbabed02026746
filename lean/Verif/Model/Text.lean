/-
Python `str` as a list of characters, and the integer formats the code uses.
-/

namespace VgmX

/-- A Python `str`.
(Python semantics, for src/extractors.py:14-44, note.py:55-75 and state.py:223.) -/
abbrev Str := List Char

/-- Digits of `n` in base `b ≥ 2`, most significant first, at least one. `fuel > n` is
always enough. (Python semantics, for src/extractors.py:14-44, note.py:55-75 and state.py:223.) -/
def digits (b : Nat) : (fuel n : Nat) → List Nat
  | 0, _ => []
  | fuel + 1, n => if n < b then [n] else digits b fuel (n / b) ++ [n % b]

/-- The digit characters of `str` and of the `X` format.
(Python semantics, for src/extractors.py:14-44, note.py:55-75 and state.py:223.) -/
def digitChar : Nat → Char
  | 0 => '0' | 1 => '1' | 2 => '2' | 3 => '3' | 4 => '4' | 5 => '5' | 6 => '6' | 7 => '7'
  | 8 => '8' | 9 => '9' | 10 => 'A' | 11 => 'B' | 12 => 'C' | 13 => 'D' | 14 => 'E' | _ => 'F'

/-- `str(n)` for `n ≥ 0`.
(Python semantics, for src/extractors.py:14-44, note.py:55-75 and state.py:223.) -/
def natStr (n : Nat) : Str := (digits 10 (n + 1) n).map digitChar

/-- `str(z)`. (Python semantics, for src/extractors.py:14-44, note.py:55-75 and state.py:223.) -/
def intStr : Int → Str
  | .ofNat n => natStr n
  | .negSucc n => '-' :: natStr (n + 1)

/-- Right-align in a field of at least `w` characters, filled with `c` (`{:c>w}`).
(Python semantics, for src/extractors.py:14-44, note.py:55-75 and state.py:223.) -/
def padLeft (c : Char) (w : Nat) (s : Str) : Str := List.replicate (w - s.length) c ++ s

/-- `f"{n:0>2X}"` for `n ≥ 0`, src/extractors.py:35. -/
def hex2 (n : Nat) : Str := padLeft '0' 2 ((digits 16 (n + 1) n).map digitChar)

/-- `sep.join(parts)`. (Python semantics, for src/extractors.py:87 and config.py:36.) -/
def join (sep : Str) : List Str → Str
  | [] => []
  | [s] => s
  | s :: rest => s ++ sep ++ join sep rest

end VgmX
