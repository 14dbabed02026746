import Verif.Model.Main
import Verif.Model.Csv
/-
What a text file opened by `smart_open` (src/tools.py:8, `open(filename, "w")`) does to the
strings written to it, on any system: `io.TextIOWrapper` with `newline=None` and the encoding of
the locale. (Model/Main has the case of a system with `\n` as line end.)
-/

namespace VgmX

/-- `TextIOWrapper.write` with `newline=None`: every `\n` becomes `os.linesep`.
(Standard library, for src/tools.py:8 and src/extractors.py:69, 87, 98, 120-121.) -/
def withLinesep (linesep s : Str) : Str := s.flatMap (fun c => if c = '\n' then linesep else [c])

/-- The bytes of a string, with the encoding of the file given by characters.
(Standard library, for src/tools.py:8.) -/
def encodeText (enc : Char → Bytes) (s : Str) : Bytes := s.flatMap enc

/-- The bytes that the strings of several `write` calls become, one after the other.
(Standard library, for src/tools.py:8 and src/extractors.py:69, 87, 98, 120-121.) -/
def textBytes (linesep : Str) (enc : Char → Bytes) (pieces : List Str) : Bytes :=
  pieces.flatMap (fun s => encodeText enc (withLinesep linesep s))

/-- The strings that `extract_instruments` writes, src/extractors.py:118-121. -/
def instrumentPieces (s : State) : Except PyErr (List Str) :=
  match instrumentsJs s with
  | .error e => .error e
  | .ok js => .ok [js, ['\n']]

end VgmX
