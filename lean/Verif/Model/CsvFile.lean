import Verif.Model.Csv
import Verif.Model.Main
/-
Model of `extract_tracks` in `src/extractors.py` with the file it writes. (`main` does not call
it; it is there for users of the module.)
-/

namespace VgmX

/-- How a call ends: it returns, or raises. (For src/extractors.py:53-113.) -/
def endsWith : Option PyErr → Except PyErr Unit
  | none => .ok ()
  | some e => .error e

/-- `extract_tracks`, src/extractors.py:53-113: the message, `smart_open`, and the lines one after
the other until the loop ends or raises. (What is computed before the file is opened, lines 55-63,
does not raise.) The default is never taken, see `c45_terminates`. -/
def extractTracksFile (env : Env) (s : State) (trackFilename : Option Str) (ticks : Int)
    (w : World) : Except PyErr Unit × World :=
  let w := w.print ("Writing tracks to ".toList ++ nameStr trackFilename ++ "...\n".toList)
  smartOpen env trackFilename ['w']
    (fun fo w =>
      let r := (extractTracks s ticks).getD ([], none)
      (endsWith r.2,
        r.1.foldl (fun w line => w.write fo line) w)) w

end VgmX
