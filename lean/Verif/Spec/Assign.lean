import Verif.Model.Assign
import Verif.Spec.Ym2151
/-
Vocabulary for C112: what was assigned to attributes of a state and of its instruments. Of the model
it uses the types only.
-/

namespace VgmX.Spec.Assign
open VgmX.Spec

/-- The register writes and waits among the calls. -/
def events (cs : List ACall) : List Event :=
  cs.filterMap (fun
    | .apply r v => some (.write r v)
    | .beat n => some (.wait n)
    | _ => none)

/-- The value that was last assigned to an attribute of the state, unless it was deleted since. -/
def onState (n : List Char) : List ACall → Option AttrVal → Option AttrVal
  | [], cur => cur
  | .set m v :: cs, cur => onState n cs (if m = n then some v else cur)
  | .del m :: cs, cur => onState n cs (if m = n then none else cur)
  | _ :: cs, cur => onState n cs cur

/-- The same for the `i`-th instrument; an assignment counts if there was such an instrument by
then. `past`: the calls before. -/
def onInstr (i : Nat) (n : List Char) :
    (past : List ACall) → List ACall → Option AttrVal → Option AttrVal
  | _, [], cur => cur
  | past, .setInstr j m v :: cs, cur =>
    onInstr i n (past ++ [.setInstr j m v]) cs
      (if j = i ∧ m = n ∧ i < (instruments (events past)).length then some v else cur)
  | past, .delInstr j m :: cs, cur =>
    onInstr i n (past ++ [.delInstr j m]) cs (if j = i ∧ m = n then none else cur)
  | past, c :: cs, cur => onInstr i n (past ++ [c]) cs cur

/-- Names of a state that are taken by what it consists of. -/
def reservedOnState : List (List Char) :=
  ["configs", "apply", "key_presses", "channel_config", "beat", "ticks", "ticks_per_note"].map
    String.toList

/-- Names of an instrument that are taken. -/
def reservedOnInstr : List (List Char) := ["compare", "repr_json"].map String.toList

/-- A public name that is not taken. -/
def Free (reserved : List (List Char)) (n : List Char) : Prop :=
  n.head? ≠ some '_' ∧ n ∉ reserved

/-- The calls assign and delete only such names, and write only bytes. -/
def Ok : ACall → Prop
  | .apply r v => r < 256 ∧ v < 256
  | .set n _ | .del n => Free reservedOnState n
  | .setInstr _ n _ | .delInstr _ n => Free reservedOnInstr n
  | _ => True

/-- The object behaves, for all further calls, like one that was never assigned to, where nothing was
assigned; and where something was, reads give it. -/
structure Masked (obj : List Char → Bool) (depth : Nat) (o : AObj) (s : State)
    (a : List Char → Option AttrVal) (b : Nat → List Char → Option AttrVal) : Prop where
  /-- what methods and exports see -/
  seen : stateOf o.dict = some s
  /-- reads of the state -/
  get : ∀ n, (o.call obj depth (.get n)).1 =
    match a n with
    | some v => .ok (some v)
    | none => (stateAttr obj depth s.dict n).map some
  /-- reads of instruments -/
  getInstr : ∀ i n, (o.call obj depth (.getInstr i n)).1 =
    match s.configs[i]? with
    | none => .error .index
    | some c =>
      match b i n with
      | some v => .ok (some v)
      | none => (configAttr obj depth c.dict n).map some
  /-- assignments never fail -/
  set : ∀ n v, (o.call obj depth (.set n v)).1 = .ok none
  setInstr : ∀ i n v, (o.call obj depth (.setInstr i n v)).1 =
    if i < s.configs.length then .ok none else .error .index
  /-- deleting fails if nothing was assigned -/
  del : ∀ n, Free reservedOnState n →
    (o.call obj depth (.del n)).1 = if (a n).isSome then .ok none else .error .attribute
  delInstr : ∀ i n, Free reservedOnInstr n → (o.call obj depth (.delInstr i n)).1 =
    if i < s.configs.length then (if (b i n).isSome then .ok none else .error .attribute)
    else .error .index

end VgmX.Spec.Assign
