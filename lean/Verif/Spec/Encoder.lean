import Verif.Model.Encoder
import Verif.Spec.Json
/-
What a JSON text of a Python value should say: the value with every object replaced by what its
`repr_json` returns.
-/

namespace VgmX.Spec

mutual
/-- `v` stands for the tree `t`. -/
inductive StandsFor (things : Things) : PyVal → Tree → Prop
  | none : StandsFor things .none .null
  | bool (b : Bool) : StandsFor things (.bool b) (.bool b)
  | int (n : Int) : StandsFor things (.int n) (.int n)
  | str (s : Str) : StandsFor things (.str s) (.str s)
  | list {r l ts} : things r = .list l → ListStandsFor things l ts →
      StandsFor things (.ref r) (.arr ts)
  | dict {r l ts} : things r = .dict l → ItemsStandFor things l ts →
      StandsFor things (.ref r) (.obj ts)
  | object {r v t} : things r = .object (.ok v) → StandsFor things v t → StandsFor things (.ref r) t
/-- Elements and trees, one by one. -/
inductive ListStandsFor (things : Things) : List PyVal → List Tree → Prop
  | nil : ListStandsFor things [] []
  | cons {v t l ts} : StandsFor things v t → ListStandsFor things l ts →
      ListStandsFor things (v :: l) (t :: ts)
/-- Items and trees, one by one, with the same keys in the same order. -/
inductive ItemsStandFor (things : Things) : List (Str × PyVal) → List (Str × Tree) → Prop
  | nil : ItemsStandFor things [] []
  | cons {k v t l ts} : StandsFor things v t → ItemsStandFor things l ts →
      ItemsStandFor things ((k, v) :: l) ((k, t) :: ts)
end

/-- What `r` refers to refers to `r'` directly: as an element, a value, or as what `repr_json`
returns. -/
def Refers (things : Things) (r r' : Nat) : Prop :=
  match things r with
  | .list l => .ref r' ∈ l
  | .dict l => .ref r' ∈ l.map Prod.snd
  | .object (.ok v) => v = .ref r'
  | .object (.error _) => False
  | .plain => False

/-- `r'` can be reached from `r` in any number of steps (also none). -/
inductive Reaches (things : Things) : Nat → Nat → Prop
  | here (r) : Reaches things r r
  | step {r r' r''} : Refers things r r' → Reaches things r' r'' → Reaches things r r''

/-- `r` contains itself, directly or not. -/
def Circular (things : Things) (r : Nat) : Prop := ∃ r', Refers things r r' ∧ Reaches things r' r

/-- `r` can be reached from `v`. -/
def Within (things : Things) (v : PyVal) (r : Nat) : Prop := ∃ r0, v = .ref r0 ∧ Reaches things r0 r

/-- What stops the encoder at `r`, and the exception. -/
def Stops (things : Things) (r : Nat) (e : PyErr) : Prop :=
  (things r = .plain ∧ e = .type) ∨ (Circular things r ∧ e = .value) ∨ things r = .object (.error e)

mutual
/-- A tree of numbers, Booleans, strings, lists and dicts, as `Json`. -/
def jsonTree : Json → Tree
  | .num n => .int n
  | .bool b => .bool b
  | .str s => .str s
  | .arr l => .arr (jsonTrees l)
  | .obj l => .obj (jsonItems l)
def jsonTrees : JsonList → List Tree
  | .nil => []
  | .cons j l => jsonTree j :: jsonTrees l
def jsonItems : JsonFields → List (Str × Tree)
  | .nil => []
  | .cons k j l => (k, jsonTree j) :: jsonItems l
end

end VgmX.Spec
