import Verif.Spec.Layout

/-!
The types that a `set_layout` places before it panics, from the families of the layout alone.
-/

set_option autoImplicit false

namespace Sparsey

/-- The types of a family in its groups of at most 15 types: the groups are added from the smallest on, and 16 types are too
many (src/component/component_storage.rs:47-88, src/component/storage_mask.rs:12-16). -/
def GroupFamily.fitting (f : GroupFamily) : List TypeId :=
  f.components.take ((f.arities.filter (· < 16)).getLast?.getD 0)

/-- The types placed after `n` groups: families are added one after the other; nothing of one with which there are more than 63
groups, and only the types of the fitting groups of one with a group of 16 types or more
(src/component/component_storage.rs:40-89, src/component/group_mask.rs:23-29). -/
def placedFrom (n : Nat) : List GroupFamily → List TypeId
  | [] => []
  | f :: fs =>
    if 64 ≤ n + f.arities.length then []
    else if f.components.length < 16 then f.components ++ placedFrom (n + f.arities.length) fs
    else f.fitting

/-- The types that `set_layout` places before it panics (src/component/component_storage.rs:37-89). -/
def placedTypes (l : GroupLayout) : List TypeId := placedFrom 0 l.families

/-- A `set_layout` with this layout keeps the rows of a type: it is not twice in the layout; if the layout is not below the maxima,
it is placed, and once (src/component/component_storage.rs:37-103). -/
def GroupLayout.Keeps (l : GroupLayout) (t : TypeId) : Prop :=
  if LayoutFits l then (layoutTypes l).count t ≤ 1 else (placedTypes l).count t = 1

instance (l : GroupLayout) (t : TypeId) : Decidable (l.Keeps t) := inferInstanceAs (Decidable (ite _ _ _))

end Sparsey
