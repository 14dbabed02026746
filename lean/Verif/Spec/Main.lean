import Verif.Spec.History
import Verif.Spec.Json
import Verif.Spec.Song
import Verif.Model.Main
/-
Vocabulary for the properties of the whole program: readable inputs, balanced opening and
closing of files. Of the model it uses the types, and `Runs` (the `for` loop over the
commands) for what it means to read a command stream to its end.
-/

namespace VgmX.Spec

/-- `content` is a VGM file, or a gzip file of one, with a complete header, whose commands
`cs` are read to the end of the file. -/
def Readable (gunzip : Bytes → Except PyErr Bytes) (content : Bytes) (cs : List Cmd) : Prop :=
  ∃ plain : Bytes,
    ((content.take 2 ≠ gzipMagic ∧ plain = content) ∨
      (content.take 2 = gzipMagic ∧ gunzip content = .ok plain)) ∧
    plain.take 4 = vgmMagic ∧ headerLen plain ≤ plain.length ∧
    Runs ⟨plain, dataStart plain⟩ cs .stop

/-- The ticks-per-note that the command line means: the given number unless it is missing or
zero, else the estimate. -/
def TicksInUse (given : Option Int) (estimate : Except PyErr Nat) (t : Int) : Prop :=
  (∃ g, given = some g ∧ g ≠ 0 ∧ t = g) ∨
  ((given = none ∨ given = some 0) ∧ ∃ n : Nat, estimate = .ok n ∧ t = n)

/-- `name` is the name of an output file: the track file's name is used as it is, the
instrument file's name only if it is not `-`; empty names mean no output. -/
def IsOutput (instr track : Option Str) (name : Str) : Prop :=
  (instr = some name ∧ name ≠ [] ∧ name ≠ ['-']) ∨ (track = some name ∧ name ≠ [])

/-- Files after some were written, the later over the earlier. -/
def writeFiles (fs : Str → Option Bytes) (updates : List (Str × Bytes)) : Str → Option Bytes :=
  updates.foldl (fun fs u n => if n = u.1 then some u.2 else fs n) fs

/-- Every file opened is closed, once, after everything that happened while it was open. -/
inductive Nested : List Action → Prop
  | nil : Nested []
  | wrap (id : Nat) (name mode : Str) {t : List Action} :
      Nested t → Nested (.opened id name mode :: t ++ [.closed id])
  | append {t u : List Action} : Nested t → Nested u → Nested (t ++ u)

/-- The files opened. -/
def openedIds (t : List Action) : List Nat :=
  t.filterMap fun | .opened id _ _ => some id | .closed _ => none

/-- The files closed. -/
def closedIds (t : List Action) : List Nat :=
  t.filterMap fun | .opened _ _ _ => none | .closed id => some id

/-- ASCII bytes as a text. -/
def asciiText (b : Bytes) : List Char := b.map (fun x => Char.ofNat x.toNat)

/-- `d` is the song of the input file. -/
def SongOf (env : Env) (vgm : Option Str) (ticks : Option Int) (w : World) (d : DaoSong) : Prop :=
  ∃ name content cs t, vgm = some name ∧ w.fs name = some content ∧
    Readable env.gunzip content cs ∧ TicksInUse ticks (run (history cs)).ticksPerNote t ∧
    exportXrns (run (history cs)) t = .ok d

end VgmX.Spec
