import Verif.Model.Pool
/-
What the objects of a caller say, as values: no references, no sharing.
-/

namespace VgmX.Spec

/-- The operators at these places; `none` if one of them is not there. -/
def operatorsAt (ops : List OperatorConfig) : List Nat → Option (List OperatorConfig)
  | [] => some []
  | a :: l =>
    match ops[a]?, operatorsAt ops l with
    | some o, some r => some (o :: r)
    | _, _ => none

/-- The operator a variable refers to. -/
def operatorOf (p : Pool) (x : Nat) : Option OperatorConfig :=
  match p.vars[x]? with
  | none => none
  | some a => p.ops[a]?

/-- A channel: its settings and those of its operators, in order. -/
def channelOf (p : Pool) (c : Nat) : Option ChannelConfig :=
  match p.chans[c]? with
  | none => none
  | some o =>
    match p.lists[o.ops]? with
    | none => none
    | some l =>
      match operatorsAt p.ops l with
      | none => none
      | some v => some ⟨v, o.fb, o.ams, o.pms, o.connection, o.noise, o.noiseFreq⟩

/-- An instrument. -/
def instrumentOf (p : Pool) (k : Nat) : Option Config :=
  match p.confs[k]? with
  | none => none
  | some f =>
    match p.bases[f.base]?, channelOf p f.channel with
    | some b, some c => some ⟨f.id, b, f.operators, c⟩
    | _, _ => none

/-- The call changes channel `c`, or gives somebody else a way to change it: assigns to it or to its
list, takes an operator or the list out of it, or makes an instrument of it. (Copying and
comparing do not.) -/
def touches (c : Nat) : PCall → Bool
  | .getOp d _ => d = c
  | .newConf _ _ chan _ => chan = some c
  | .editChan d _ _ _ _ _ _ => d = c
  | .setOps d e => d = c ∨ e = c
  | .setItem d _ _ => d = c
  | .append d _ => d = c
  | .delItem d _ => d = c
  | _ => false

/-- The call changes at most channel `c` and operators of variables from `n` on, and what it puts
into `c` are operators of such variables. -/
def onlyWithin (c n : Nat) : PCall → Bool
  | .editOp x _ => n ≤ x
  | .editChan d _ _ _ _ _ _ => d = c
  | .setItem d _ x => d = c ∧ n ≤ x
  | .append d x => d = c ∧ n ≤ x
  | .delItem d _ => d = c
  | .getOp d _ => d = c
  | .newOp _ => true
  | _ => false

/-- The call changes the operator of variable `x`, or puts it where somebody else can change it. -/
def touchesVar (x : Nat) : PCall → Bool
  | .editOp y _ => y = x
  | .setItem _ _ y => y = x
  | .append _ y => y = x
  | _ => false

/-- The call assigns to base `b`. -/
def editsBase (b : Nat) : PCall → Bool
  | .editBase a _ => a = b
  | _ => false

/-- The call assigns to note `n`. -/
def editsNote (n : Nat) : PCall → Bool
  | .editNote m _ => m = n
  | _ => false

end VgmX.Spec
