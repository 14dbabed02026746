import Verif.Model.Reader
import Verif.Model.Text
/-
A caller that calls `next(reader)` again and again, whatever comes back, and the printed form of
the commands.
-/

namespace VgmX

/-- What `n` calls of `Vgm.__next__` give, src/vgm/core.py:78-82, one after the other; the caller
catches what they raise (`none` is `StopIteration`). -/
def nextCalls : Nat → Stream → List (Option (Except PyErr Cmd))
  | 0, _ => []
  | n + 1, s => (next s).1 :: nextCalls n (next s).2

/-- A `for` loop over the reader (src/vgm/core.py:75-82) that is left by `break` when `k` commands
have been seen (no later than at the end): the commands, how the loop ended, `none` if by the
`break`, and where the reader is. -/
def loopBreak : Nat → Stream → List Cmd × Option Outcome × Stream
  | 0, s => ([], none, s)
  | k + 1, s =>
    match next s with
    | (none, s') => ([], some .stop, s')
    | (some (.error e), s') => ([], some (.raised e), s')
    | (some (.ok c), s') =>
      match loopBreak k s' with
      | (cs, o, s'') => (c :: cs, o, s'')

/-- The hexadecimal digits of `hex`. (Python semantics, for src/vgm/command.py:20 and
src/vgm/ym2151/config.py:257.) -/
def hexChar (d : Nat) : Char := "0123456789abcdef".toList.getD d '?'

/-- `hex(n)` for `n ≥ 0`. (Python semantics, for src/vgm/command.py:20 and
src/vgm/ym2151/config.py:257.) -/
def pyHex (n : Nat) : Str := ['0', 'x'] ++ (digits 16 (n + 1) n).map hexChar

/-- `str(cmd)`: src/vgm/command.py:19-20, 26-27, 39-40 and src/vgm/ym2151/config.py:256-257. -/
def Cmd.str : Cmd → Str
  | .plain i _ => "VgmCommand(".toList ++ pyHex i ++ [')']
  | .eos _ => "VgmCommand(EOS)".toList
  | .wait _ (some n) => "VgmCommand(Wait: ".toList ++ natStr n ++ [')']
  | .wait _ none => "VgmCommand(Wait: None)".toList
  | .ym2151 _ reg value =>
    "YM2151Command(Reg: ".toList ++ pyHex reg ++ ", Data: ".toList ++ pyHex value ++ [')']

end VgmX
