import Verif.Model.SharedReader
import Verif.Model.Feeders
/-
Several threads that run the loop of `process_vgm_file` (src/main.py:14-18) with one reader and one
state between them, without a lock: each takes a command from the reader and gives it to the state.

Simplifications: those of Model/SharedReader and Model/Feeders.
-/

namespace VgmX

/-- Where a thread is. (src/main.py:14-18.) -/
inductive LoopStage where
  /-- about to call `next` on the reader, or within that call -/
  | reading (call : Option NextCall)
  /-- within `st.apply` or `st.beat` -/
  | feeding (p : Prog)
  /-- the loop has ended, or an exception has ended it -/
  | over

/-- A thread: where it is, and what its calls of `next` gave. (src/main.py:14-18.) -/
structure Worker where
  stage : LoopStage
  got : List (Option (Except PyErr Cmd))

/-- The reader's file, the state, the threads. (src/main.py:11-20.) -/
structure Workers where
  file : Stream
  shared : Shared
  threads : List Worker

/-- `n` threads at the beginning of the loop. (src/main.py:11-14.) -/
def Workers.start (f : Stream) (n : Nat) : Workers :=
  ⟨f, Shared.init, List.replicate n ⟨.reading none, []⟩⟩

/-- What a thread does with what `next` gave. `st.beat(None)` is a `TypeError`. (src/main.py:14-18.) -/
def LoopStage.take : Option (Except PyErr Cmd) → LoopStage
  | none => .over
  | some (.error _) => .over
  | some (.ok (.ym2151 _ reg value)) => .feeding (callProg (.write reg value))
  | some (.ok (.wait _ (some n))) => .feeding (callProg (.wait n))
  | some (.ok (.wait _ none)) => .over
  | some (.ok (.plain _ _)) => .reading none
  | some (.ok (.eos _)) => .reading none

/-- Thread `i` makes its next step. (src/main.py:14-18.) -/
def Workers.step (w : Workers) (i : Nat) : Workers :=
  match w.threads[i]? with
  | none => w
  | some t =>
    match t.stage with
    | .over => w
    | .reading c =>
      match c.getD nextReads with
      | .read n k =>
        { w with
          file := (w.file.read n).2
          threads := w.threads.set i { t with stage := .reading (some (k (w.file.read n).1)) } }
      | .back r => { w with threads := w.threads.set i ⟨.take r, t.got ++ [r]⟩ }
    | .feeding .done => { w with threads := w.threads.set i { t with stage := .reading none } }
    | .feeding p =>
      { w with
        shared := (p.step w.shared).1
        threads := w.threads.set i { t with stage := .feeding (p.step w.shared).2 } }

/-- After the threads have made steps in this order. (src/main.py:14-18.) -/
def Workers.after (w : Workers) (order : List Nat) : Workers := order.foldl Workers.step w

end VgmX
