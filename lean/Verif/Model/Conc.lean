import Verif.Model.Crash
/-
Several runs of the program at the same time, in one file system: any number of processes, each
making steps at any time. A process opens its input and reads it in pieces, of the content the
file has at that moment; when it has come to the end it does what `main` does with what it has
read, operation by operation (Model/Crash); it may stop at any point.

Simplification: a process reads its input to the end, also if it would stop earlier (because of
an error; what is then read in addition has no effect).
-/

namespace VgmX

/-- A run of the program: its arguments and its environment.
(Arguments and effects of `main`, src/main.py:23-44.) -/
structure Job where
  env : Env
  vgm : Option Str
  instr : Option Str
  track : Option Str
  ticks : Option Int

/-- What the job does to the file system if started in `w` (Model/Crash).
(Arguments and effects of `main`, src/main.py:23-44.) -/
def Job.ops (j : Job) (w : World) : List FsOp := mainOps j.env j.vgm j.instr j.track j.ticks w

/-- Where a process is. (Processes that execute src/main.py:47-65.) -/
inductive Phase where
  /-- not started -/
  | idle
  /-- this much of the input is read -/
  | reading (part : Bytes)
  /-- these operations are left to do -/
  | writing (ops : List FsOp)

/-- The file system and the processes. (Processes that execute src/main.py:47-65.) -/
structure Sys where
  fs : Str → Option Bytes
  phase : Nat → Phase

/-- Process `i` gets to another phase. (Processes that execute src/main.py:47-65.) -/
def Sys.go (s : Sys) (i : Nat) (p : Phase) : Sys :=
  { s with phase := fun n => if n = i then p else s.phase n }

/-- A step of one of the processes that run the jobs `J`. (`w` is the rest of a process's world at
its start.) (Processes that execute src/main.py:47-65.) -/
inductive Step (J : Nat → Job) (w : World) (s : Sys) : Sys → Prop
  /-- there is no input file that can be opened: src/tools.py:6-14 -/
  | fail {i} (h : s.phase i = .idle)
      (hn : ∀ name, (J i).vgm = some name → name ≠ [] → name ≠ ['-'] →
        (J i).env.openErr name false ≠ none ∨ s.fs name = none) :
      Step J w s (s.go i (.writing ((J i).ops { w with fs := s.fs })))
  /-- the input file is opened -/
  | start {i name c} (h : s.phase i = .idle) (hv : (J i).vgm = some name) (h1 : name ≠ [])
      (h2 : name ≠ ['-']) (ho : (J i).env.openErr name false = none) (hc : s.fs name = some c) :
      Step J w s (s.go i (.reading []))
  /-- up to `m` more bytes are read -/
  | read {i name part} (m : Nat) (h : s.phase i = .reading part) (hv : (J i).vgm = some name) :
      Step J w s (s.go i
        (.reading (part ++ (((s.fs name).getD []).drop part.length).take m)))
  /-- the end of the input has been reached: src/main.py:29-44 -/
  | finish {i name part} (h : s.phase i = .reading part) (hv : (J i).vgm = some name)
      (he : ((s.fs name).getD []).length ≤ part.length) :
      Step J w s (s.go i (.writing ((J i).ops { w with fs := setFile s.fs name part })))
  /-- the next operation -/
  | write {i o ops} (h : s.phase i = .writing (o :: ops)) :
      Step J w s { s.go i (.writing ops) with fs := o.apply s.fs }

/-- What can come about, if no process is running at first.
(Processes that execute src/main.py:47-65.) -/
inductive Reach (J : Nat → Job) (w : World) : Sys → Prop
  | init : Reach J w ⟨w.fs, fun _ => .idle⟩
  | step {s s'} : Reach J w s → Step J w s s' → Reach J w s'

end VgmX
