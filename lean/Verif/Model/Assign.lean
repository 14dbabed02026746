import Verif.Model.Attr
/-
Model of assigning and deleting attributes on a `State` and on the instruments in its `configs`
(`state.lfo = 5`, `del state.lfo`, `state.configs[0].fb = 7`), between calls of `apply` and `beat`.
The classes define `__getattr__` (state.py:32-33, config.py:210-222) but not `__setattr__`, so an
assignment goes to the instance's own `__dict__`; the methods, too, read and assign attributes of
that `__dict__`.

Simplifications: as in Model/Attr. The `__dict__` of an instrument is that of Config.__init__
followed by what was assigned; instruments are addressed by their place in `configs`, which in
these sessions does not change. (So it does not cover assigning and deleting an instrument's `_id`,
`_base`, `_operators` and `_channel`.)
-/

namespace VgmX

/-- `d[n] = v`. (Python semantics, for state.py:16-33 and config.py:197-222.) -/
def Dict.set (d : Dict) (n : Str) (v : AttrVal) : Dict :=
  if d.any (fun x => x.1 = n) then d.map (fun x => if x.1 = n then (n, v) else x) else d ++ [(n, v)]

/-- `del d[n]`. (Python semantics, for state.py:16-33 and config.py:197-222.) -/
def Dict.del (d : Dict) (n : Str) : Dict := d.filter (fun x => ¬ x.1 = n)

/-- What the methods find as `self._channel_key_presses` and so on; nothing if one is missing or of
another kind. (state.py:16-224.) -/
def stateOf (d : Dict) : Option State :=
  match d.get "_channel_key_presses".toList, d.get "_channel_configs".toList,
      d.get "_note_configs".toList, d.get "_current_base_config".toList, d.get "configs".toList,
      d.get "_samples".toList, d.get "_note_beats".toList, d.get "_first_beat".toList with
  | some (.notes kp), some (.channels cc), some (.noteConfigs nc), some (.base b),
      some (.configs cs), some (.int n), some (.intSet nb), some (.optInt fb) =>
    some ⟨kp, cc, nc, b, cs, n, nb, fb⟩
  | _, _, _, _, _, _, _, _ => none

/-- The attributes after a method has run. (state.py:16-224.) -/
def putState (d : Dict) (s : State) : Dict := s.dict.foldl (fun d x => d.set x.1 x.2) d

/-- A `State`: its `__dict__`, and what was assigned to attributes of its instruments, by their place.
(state.py:16-33, config.py:197-222.) -/
structure AObj where
  dict : Dict
  extras : Nat → Dict

/-- `State()`, state.py:17-30. -/
def AObj.fresh : AObj := ⟨State.init.dict, fun _ => []⟩

/-- What a caller can do. (state.py:32-35, 160, config.py:210-222.) -/
inductive ACall where
  | apply (reg value : Nat)
  | beat (samples : Nat)
  | get (name : Str)
  | set (name : Str) (v : AttrVal)
  | del (name : Str)
  | getInstr (i : Nat) (name : Str)
  | setInstr (i : Nat) (name : Str) (v : AttrVal)
  | delInstr (i : Nat) (name : Str)

/-- `state.configs[i]`. (state.py:22.) -/
def AObj.instr (o : AObj) (i : Nat) : Except PyErr Config :=
  match o.dict.get "configs".toList with
  | some (.configs l) =>
    match l[i]? with
    | some c => .ok c
    | none => .error .index
  | _ => .error (.other 0)

/-- A method call: it reads and assigns the attributes of `self`. (state.py:35-152, 160-161.) -/
def AObj.method (o : AObj) (f : State → State) : Except PyErr (Option AttrVal) × AObj :=
  match stateOf o.dict with
  | some s => (.ok none, { o with dict := putState o.dict (f s) })
  | none => (.error (.other 0), o)

/-- One call: its result (a value for reads) or exception, and the object afterwards; `depth` is how
deep calls may nest. (state.py:32-35, 160, config.py:210-222.) -/
def AObj.call (obj : Str → Bool) (depth : Nat) (o : AObj) : ACall → Except PyErr (Option AttrVal) × AObj
  | .apply r v => o.method (fun s => s.apply r v)
  | .beat n => o.method (fun s => s.beat n)
  | .get n => ((stateAttr obj depth o.dict n).map some, o)
  | .set n v => (.ok none, { o with dict := o.dict.set n v })
  | .del n =>
    if (o.dict.get n).isSome then (.ok none, { o with dict := o.dict.del n })
    else (.error .attribute, o)
  | .getInstr i n =>
    match o.instr i with
    | .ok c => ((configAttr obj depth (c.dict ++ o.extras i) n).map some, o)
    | .error e => (.error e, o)
  | .setInstr i n v =>
    match o.instr i with
    | .ok _ => (.ok none, { o with extras := fun j =>
        if j = i then (o.extras i).set n v else o.extras j })
    | .error e => (.error e, o)
  | .delInstr i n =>
    match o.instr i with
    | .ok _ =>
      if ((o.extras i).get n).isSome then
        (.ok none, { o with extras := fun j => if j = i then (o.extras i).del n else o.extras j })
      else (.error .attribute, o)
    | .error e => (.error e, o)

/-- The object after some calls (whose exceptions the caller catches). (state.py:32-35, 160.) -/
def AObj.session (obj : Str → Bool) (depth : Nat) (o : AObj) (cs : List ACall) : AObj :=
  cs.foldl (fun o c => (o.call obj depth c).2) o

end VgmX
