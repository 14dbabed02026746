import Verif.Model.Config
import Verif.Model.Text
/-
The classes of src/vgm/ym2151/config.py used by a caller directly: making, copying, comparing and
changing `BaseConfig`, `OperatorConfig`, `NoteConfig`, `ChannelConfig` and `Config` objects, with
all the sharing that Python has (attributes and lists hold references).

Simplifications: the attributes are assigned values of their own kind; assigning several attributes
of one object is one call here; the operators of a `Config` are always given as an `Operators` (the
default `0` is none, and equal to none of them); lists of operators are changed by assigning to an index, `append`
and `del`.
-/

namespace VgmX

/-- A `ChannelConfig`: its attribute `operators` is (a reference to) a list.
(src/vgm/ym2151/config.py:148-163.) -/
structure PChan where
  ops : Nat
  fb : Nat := 0
  ams : Nat := 0
  pms : Nat := 0
  connection : Nat := 0
  noise : Bool := false
  noiseFreq : Nat := 0
  deriving DecidableEq, Repr

/-- A `Config`: `_base` and `_channel` are references. (src/vgm/ym2151/config.py:205-208.) -/
structure PConf where
  id : Nat
  base : Nat
  operators : Nat
  channel : Nat
  deriving DecidableEq, Repr

/-- All objects there are, by class, and the caller's variables that refer to operators.
(src/vgm/ym2151/config.py:39-237.) -/
structure Pool where
  ops : List OperatorConfig
  lists : List (List Nat)
  chans : List PChan
  bases : List BaseConfig
  notes : List NoteConfig
  confs : List PConf
  vars : List Nat
  deriving DecidableEq, Repr

/-- After the import: the objects that are the default arguments of `Config.__init__`, made once.
(src/vgm/ym2151/config.py:201-202.) -/
def Pool.start : Pool where
  ops := [{}, {}, {}, {}]
  lists := [[0, 1, 2, 3]]
  chans := [{ ops := 0 }]
  bases := [{}]
  notes := []
  confs := []
  vars := []

/-- What the caller does. A channel, base, note or instrument is given by its number in the order in
which they were made (number 0 of the channels and bases: the default arguments), an operator by
the variable that refers to it. (src/vgm/ym2151/config.py:39-237.) -/
inductive PCall where
  /-- `OperatorConfig(other)`, `OperatorConfig()`; also `copy.deepcopy(other)`. -/
  | newOp (other : Option Nat)
  | newNote (other : Option Nat)
  | newBase (other : Option Nat)
  | newChan (other : Option Nat)
  /-- `Config(id, base, chan, Operators(operators))`, base and channel may be left out -/
  | newConf (id : Nat) (base chan : Option Nat) (operators : Nat)
  /-- `x = c.operators[i]` -/
  | getOp (c : Nat) (i : Nat)
  /-- `x = conf.operators[i]` -/
  | getConfOp (k : Nat) (i : Nat)
  /-- assign the attributes -/
  | editOp (x : Nat) (v : OperatorConfig)
  | editNote (n : Nat) (v : NoteConfig)
  | editBase (b : Nat) (v : BaseConfig)
  | editChan (c : Nat) (fb ams pms connection : Nat) (noise : Bool) (noiseFreq : Nat)
  /-- `c.operators = d.operators` -/
  | setOps (c d : Nat)
  /-- `c.operators[i] = x` -/
  | setItem (c i x : Nat)
  /-- `c.operators.append(x)` -/
  | append (c x : Nat)
  /-- `del c.operators[i]` -/
  | delItem (c i : Nat)
  /-- `a == b` -/
  | eqOp (x y : Nat)
  | eqNote (n m : Nat)
  | eqBase (a b : Nat)
  | eqChan (c d : Nat)
  /-- `conf.compare(base, chan, operators)` -/
  | compare (k b c operators : Nat)
  deriving DecidableEq, Repr

/-- What a call gives: nothing, a new object or variable (its number), a truth value, an exception;
`unbound` if it names something that there is not (not a call that can be made).
(src/vgm/ym2151/config.py:39-237.) -/
inductive PGot where
  | done
  | made (n : Nat)
  | truth (b : Bool)
  | raised (e : PyErr)
  | unbound
  deriving DecidableEq, Repr

/-- `copy.deepcopy` of a list of operators: an element that occurs again is looked up in the `memo`,
any other is copied by `OperatorConfig.__deepcopy__`. (Standard library, for
src/vgm/ym2151/config.py:150-152, 96-97.) -/
def copyMemo : List Nat → List OperatorConfig → List (Nat × Nat) → List OperatorConfig × List Nat
  | [], arena, _ => (arena, [])
  | r :: rs, arena, memo =>
    match memo.lookup r with
    | some r' => ((copyMemo rs arena memo).1, r' :: (copyMemo rs arena memo).2)
    | none =>
      let rest := copyMemo rs (arena ++ [((arena[r]?).getD {}).copy]) ((r, arena.length) :: memo)
      (rest.1, arena.length :: rest.2)

/-- `NoteConfig.__init__` with `other`, `NoteConfig.__deepcopy__`: src/vgm/ym2151/config.py:116-121,
134-136. -/
def NoteConfig.copied (o : NoteConfig) : NoteConfig where
  right := o.right
  left := o.left
  octave := o.octave
  note := o.note
  keyFraction := o.keyFraction

/-- `NoteConfig.__eq__`, src/vgm/ym2151/config.py:123-132. -/
def NoteConfig.equal (a b : NoteConfig) : Bool :=
  a.right == b.right && a.left == b.left && a.octave == b.octave && a.note == b.note
    && a.keyFraction == b.keyFraction

/-- The list that `c.operators` is. (src/vgm/ym2151/config.py:150.) -/
def Pool.opList (p : Pool) (c : Nat) : Option (List Nat) :=
  match p.chans[c]? with
  | none => none
  | some o => p.lists[o.ops]?

/-- `xs == ys` for lists of operators: identical elements are equal without asking them.
(Python semantics, for src/vgm/ym2151/config.py:172.) -/
def Pool.listsEqual (p : Pool) : List Nat → List Nat → Bool
  | [], [] => true
  | a :: as, b :: bs =>
    (a == b || ((p.ops[a]?).getD {}).pyEq ((p.ops[b]?).getD {})) && p.listsEqual as bs
  | _, _ => false

/-- `ChannelConfig.__eq__`, src/vgm/ym2151/config.py:165-176. -/
def Pool.chansEqual (p : Pool) (a b : PChan) : Bool :=
  a.fb == b.fb
    && a.connection == b.connection
    && a.ams == b.ams
    && a.pms == b.pms
    && p.listsEqual ((p.lists[a.ops]?).getD []) ((p.lists[b.ops]?).getD [])
    && a.noise == b.noise
    && a.noiseFreq == b.noiseFreq

/-- `ChannelConfig.__init__`, src/vgm/ym2151/config.py:149-163 (`__deepcopy__`: 178-180). -/
def Pool.newChan (p : Pool) (other : Option Nat) : PGot × Pool :=
  match other with
  | none =>
    let n := p.ops.length
    (.made p.chans.length,
      { p with
        ops := p.ops ++ [{}, {}, {}, {}]
        lists := p.lists ++ [[n, n + 1, n + 2, n + 3]]
        chans := p.chans ++ [{ ops := p.lists.length }] })
  | some c =>
    match p.chans[c]? with
    | none => (.unbound, p)
    | some o =>
      let copied := copyMemo ((p.lists[o.ops]?).getD []) p.ops []
      (.made p.chans.length,
        { p with
          ops := copied.1
          lists := p.lists ++ [copied.2]
          chans := p.chans ++
            [⟨p.lists.length, o.fb, o.ams, o.pms, o.connection, o.noise, o.noiseFreq⟩] })

/-- `x = l[i]`: a new variable. (Python semantics, for src/vgm/ym2151/config.py:150.) -/
def Pool.bind (p : Pool) (l : Option (List Nat)) (i : Nat) : PGot × Pool :=
  match l with
  | none => (.unbound, p)
  | some l =>
    match l[i]? with
    | none => (.raised .index, p)
    | some a => (.made p.vars.length, { p with vars := p.vars ++ [a] })

/-- One call. (src/vgm/ym2151/config.py:39-237.) -/
def Pool.call (p : Pool) : PCall → PGot × Pool
  | .newOp none =>
    (.made p.vars.length, { p with ops := p.ops ++ [{}], vars := p.vars ++ [p.ops.length] })
  | .newOp (some x) =>
    match p.vars[x]? with
    | none => (.unbound, p)
    | some a =>
      (.made p.vars.length,
        { p with ops := p.ops ++ [((p.ops[a]?).getD {}).copy], vars := p.vars ++ [p.ops.length] })
  | .newNote none => (.made p.notes.length, { p with notes := p.notes ++ [{}] })
  | .newNote (some n) =>
    match p.notes[n]? with
    | none => (.unbound, p)
    | some o => (.made p.notes.length, { p with notes := p.notes ++ [o.copied] })
  | .newBase none => (.made p.bases.length, { p with bases := p.bases ++ [{}] })
  | .newBase (some b) =>
    match p.bases[b]? with
    | none => (.unbound, p)
    | some o => (.made p.bases.length, { p with bases := p.bases ++ [o.copy] })
  | .newChan other => p.newChan other
  | .newConf id base chan operators =>
    -- `base: BaseConfig = BaseConfig(), channel: ChannelConfig = ChannelConfig()`
    let b := base.getD 0
    let c := chan.getD 0
    if b < p.bases.length ∧ c < p.chans.length then
      (.made p.confs.length, { p with confs := p.confs ++ [⟨id, b, operators, c⟩] })
    else (.unbound, p)
  | .getOp c i => p.bind (p.opList c) i
  | .getConfOp k i =>
    match p.confs[k]? with
    | none => (.unbound, p)
    | some f => p.bind (p.opList f.channel) i
  | .editOp x v =>
    match p.vars[x]? with
    | none => (.unbound, p)
    | some a => (.done, { p with ops := p.ops.set a v })
  | .editNote n v => if n < p.notes.length then (.done, { p with notes := p.notes.set n v }) else (.unbound, p)
  | .editBase b v => if b < p.bases.length then (.done, { p with bases := p.bases.set b v }) else (.unbound, p)
  | .editChan c fb ams pms connection noise noiseFreq =>
    match p.chans[c]? with
    | none => (.unbound, p)
    | some o =>
      (.done, { p with chans := p.chans.set c ⟨o.ops, fb, ams, pms, connection, noise, noiseFreq⟩ })
  | .setOps c d =>
    match p.chans[c]?, p.chans[d]? with
    | some o, some o' => (.done, { p with chans := p.chans.set c { o with ops := o'.ops } })
    | _, _ => (.unbound, p)
  | .setItem c i x =>
    match p.chans[c]?, p.vars[x]? with
    | some o, some a =>
      let l := (p.lists[o.ops]?).getD []
      if i < l.length then (.done, { p with lists := p.lists.set o.ops (l.set i a) })
      else (.raised .index, p)
    | _, _ => (.unbound, p)
  | .append c x =>
    match p.chans[c]?, p.vars[x]? with
    | some o, some a =>
      (.done, { p with lists := p.lists.set o.ops ((p.lists[o.ops]?).getD [] ++ [a]) })
    | _, _ => (.unbound, p)
  | .delItem c i =>
    match p.chans[c]? with
    | some o =>
      let l := (p.lists[o.ops]?).getD []
      if i < l.length then (.done, { p with lists := p.lists.set o.ops (l.eraseIdx i) })
      else (.raised .index, p)
    | none => (.unbound, p)
  | .eqOp x y =>
    match p.vars[x]?, p.vars[y]? with
    | some a, some b => (.truth (((p.ops[a]?).getD {}).pyEq ((p.ops[b]?).getD {})), p)
    | _, _ => (.unbound, p)
  | .eqNote n m =>
    match p.notes[n]?, p.notes[m]? with
    | some a, some b => (.truth (a.equal b), p)
    | _, _ => (.unbound, p)
  | .eqBase n m =>
    match p.bases[n]?, p.bases[m]? with
    | some a, some b => (.truth (a.pyEq b), p)
    | _, _ => (.unbound, p)
  | .eqChan c d =>
    match p.chans[c]?, p.chans[d]? with
    | some a, some b => (.truth (p.chansEqual a b), p)
    | _, _ => (.unbound, p)
  | .compare k b c operators =>
    match p.confs[k]?, p.bases[b]?, p.chans[c]? with
    | some f, some base, some chan =>
      (.truth (((p.bases[f.base]?).getD {}).pyEq base
        && (match p.chans[f.channel]? with
            | some own => p.chansEqual own chan
            | none => false)
        && f.operators == operators), p)
    | _, _, _ => (.unbound, p)

/-- Some calls, one after the other. (src/vgm/ym2151/config.py:39-237.) -/
def Pool.calls (p : Pool) : List PCall → Pool
  | [] => p
  | c :: cs => (p.call c).2.calls cs

end VgmX
