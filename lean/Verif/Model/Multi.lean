import Verif.Model.Heap
import Verif.Spec.Ym2151
/-
Several `State` objects in one process: they share one heap, and calls on them come in any order.
Uses the functions of Model/Heap; what is new is that `State()` allocates in a heap that holds
other objects already.
-/

namespace VgmX
open Spec

/-- All objects of a process, one arena per class, as in Model/Heap.
(Objects of state.py:16-30 and config.py:39-208.) -/
structure Heap where
  bases : List BaseConfig
  ops : List OperatorConfig
  opLists : List (List Nat)
  chans : List ChanObj
  notes : List NoteConfig
  presses : List (List Note)
  deriving DecidableEq, Repr

/-- The attributes of one `State` object (state.py:17-25). -/
structure StateObj where
  pressRefs : List Nat
  chanRefs : List Nat
  noteRefs : List Nat
  baseRef : Nat
  configs : List HConfig
  samples : Nat
  noteBeats : List Nat
  firstBeat : Option Nat
  deriving DecidableEq, Repr

/-- One `State` object in the heap of the process.
(Objects of state.py:16-30 and config.py:39-208.) -/
def Heap.with (h : Heap) (o : StateObj) : HState :=
  ⟨h.bases, h.ops, h.opLists, h.chans, h.notes, h.presses, o.pressRefs, o.chanRefs, o.noteRefs,
    o.baseRef, o.configs, o.samples, o.noteBeats, o.firstBeat⟩

/-- (Objects of state.py:16-30 and config.py:39-208.) -/
def HState.heap (s : HState) : Heap := ⟨s.bases, s.ops, s.opLists, s.chans, s.notes, s.presses⟩

/-- (Objects of state.py:16-30 and config.py:39-208.) -/
def HState.obj (s : HState) : StateObj :=
  ⟨s.pressRefs, s.chanRefs, s.noteRefs, s.baseRef, s.configs, s.samples, s.noteBeats, s.firstBeat⟩

/-- The process: the heap and the `State` objects in the order of their creation.
(A process that calls state.py:17-30, 35-152 and 160-161.) -/
structure Proc where
  heap : Heap
  states : List StateObj
  deriving DecidableEq, Repr

/-- A process before any call. (The default arguments of `Config`, config.py:201-202, are objects
too, but `State` never uses them.) -/
def Proc.start : Proc := ⟨⟨[], [], [], [], [], []⟩, []⟩

/-- `State()` in a process, state.py:17-30. -/
def HState.new (h : Heap) : HState :=
  HState.initLoop 8
    (Heap.with { h with bases := h.bases ++ [{}] }
      ⟨[], [], [], h.bases.length, [], 0, [], none⟩)

/-- A call by the program. (A process that calls state.py:17-30, 35-152 and 160-161.) -/
inductive Call where
  /-- `State()` -/
  | new
  /-- `apply` or `beat` on the `k`-th `State` object -/
  | on (k : Nat) (e : Event)
  deriving DecidableEq, Repr

/-- One API call on a state, state.py:35-152 and 160-161. -/
def HState.call (s : HState) : Event → Except PyErr HState
  | .write r v => s.apply r v
  | .wait n => .ok (s.beat n)

/-- One call in the process. A call on an object that does not exist is not possible in the
program; here it does nothing. (A process that calls state.py:17-30, 35-152 and 160-161.) -/
def Proc.step (p : Proc) : Call → Except PyErr Proc
  | .new =>
    let s := HState.new p.heap
    .ok ⟨s.heap, p.states ++ [s.obj]⟩
  | .on k e =>
    match p.states[k]? with
    | none => .ok p
    | some o =>
      match (p.heap.with o).call e with
      | .error e => .error e
      | .ok s => .ok ⟨s.heap, p.states.set k s.obj⟩

/-- A sequence of calls; stops at the first exception.
(A process that calls state.py:17-30, 35-152 and 160-161.) -/
def Proc.steps (p : Proc) : List Call → Except PyErr Proc
  | [] => .ok p
  | c :: cs =>
    match p.step c with
    | .error e => .error e
    | .ok p => p.steps cs

/-- What can be read of the `k`-th state object. (state.py:16-30.) -/
def Proc.view (p : Proc) (k : Nat) : Option (Except PyErr State) :=
  p.states[k]?.map fun o => (p.heap.with o).view

end VgmX
