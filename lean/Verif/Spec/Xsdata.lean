import Verif.Model.Xsdata
import Verif.Spec.Xml
import Mathlib.Data.List.Forall2
/-
What it means that an element shows a data object. Of the model it uses the types of objects and
elements, and the tables of the fields of the classes.
-/

namespace VgmX.Spec.Dao
open VgmX.Spec

/-- The value of a field: as given to the constructor, or `None`. -/
def given : DFields → String → DVal
  | .nil, _ => .none
  | .cons py v rest, n => if py = n then v else given rest n

mutual
/-- The things that a value consists of: none for `None`, the items of a list, or itself. -/
def items : DVal → List DVal
  | .none => []
  | .text t => [.text t]
  | .obj c fs => [.obj c fs]
  | .list l => itemsOfAll l
/-- The things that the values in a list consist of. -/
def itemsOfAll : DVals → List DVal
  | .nil => []
  | .cons v rest => items v ++ itemsOfAll rest
end

/-- The attributes of an element are those that its class fixes and those that were given. -/
structure AttrsShown (c : DaoClass) (fs : DFields) (a : List (List Char × List Char)) : Prop where
  once : (a.map Prod.fst).Nodup
  iff : ∀ n t, (n, t) ∈ a ↔ ∃ d ∈ c.attrs, d.name.toList = n ∧
    ((∃ s, d.default = some s ∧ s.toList = t) ∨ (d.default = none ∧ given fs d.name = .text t))

/-- An element shows a text as its text. It shows an object if it has the attributes of the object;
if for each field of its class, the child elements with the name of the field show the items of the
field, one each, in their order; if it has no other child elements; and, except among the devices of
a track, if the child elements of each field come before those of the next. -/
inductive Displays : DVal → Xml → Prop
  | text (t n : List Char) : Displays (.text t) (.leaf n [] t)
  | obj (c : DaoClass) (fs : DFields) (x : Xml)
      (isNode : ∃ n a l, x = .node n a l)
      (attrs : AttrsShown c fs (attrs x))
      (fields : ∀ f ∈ c.elems, List.Forall₂ Displays (items (given fs f.py)) (named f.name x))
      (noOther : ∀ k ∈ kids x, ∃ f ∈ c.elems, tagName k = f.name.toList)
      (order : c ≠ .trackFilterDeviceChainDevices →
        kids x = c.elems.flatMap (fun f => named f.name x)) :
      Displays (.obj c fs) x

end VgmX.Spec.Dao
