import Verif.Spec.Map
import Verif.Model.Swaps

/-!
Series of calls that keep clear of the known defects.
-/

set_option autoImplicit false

namespace Sparsey
variable {V : Type}

/-- Grouping and ungrouping during the call exchange only entities of the same version. -/
def World.Even (w : World V) (op : Op V) : Prop := EvenPairs (w.swaps op)

instance (w : World V) (op : Op V) : Decidable (w.Even op) := inferInstanceAs (Decidable (EvenPairs _))

/-- Every call, made one after the other on the world and on the map, is `Fine` and `Even`. -/
def GoodFrom : World V → MapWorld V → List (Op V) → Prop
  | _, _, [] => True
  | w, s, op :: ops =>
    s.Fine op ∧ w.Even op ∧
      match step w op with
      | some (_, w') => GoodFrom w' (s.next op) ops
      | none => True

instance decGoodFrom : ∀ (ops : List (Op V)) (w : World V) (s : MapWorld V), Decidable (GoodFrom w s ops)
  | [], _, _ => inferInstanceAs (Decidable True)
  | op :: ops, w, s => by
    unfold GoodFrom
    cases step w op with
    | none => infer_instance
    | some p =>
      have := decGoodFrom ops p.2 (s.next op)
      infer_instance

/-- The calls on a new world keep clear of the known defects: each is `Fine`, and no grouping or ungrouping exchanges
entities of different versions. -/
def Good (ops : List (Op V)) : Prop := GoodFrom World.empty .init ops

instance (ops : List (Op V)) : Decidable (Good ops) := inferInstanceAs (Decidable (GoodFrom _ _ _))

/-- Every call, made one after the other on the world and on the map, is `Fair` and `Even`. -/
def FairFrom : World V → MapWorld V → List (Op V) → Prop
  | _, _, [] => True
  | w, s, op :: ops =>
    s.Fair op ∧ w.Even op ∧
      match step w op with
      | some (_, w') => FairFrom w' (s.next op) ops
      | none => True

instance decFairFrom : ∀ (ops : List (Op V)) (w : World V) (s : MapWorld V), Decidable (FairFrom w s ops)
  | [], _, _ => inferInstanceAs (Decidable True)
  | op :: ops, w, s => by
    unfold FairFrom
    cases step w op with
    | none => infer_instance
    | some p =>
      have := decFairFrom ops p.2 (s.next op)
      infer_instance

/-- As `Good`, but interrupted calls may leave entities outside of groups they belong to. This is enough for all that does
not look at groups. -/
def Fair (ops : List (Op V)) : Prop := FairFrom World.empty .init ops

instance (ops : List (Op V)) : Decidable (Fair ops) := inferInstanceAs (Decidable (FairFrom _ _ _))

/-- At every moment, entities sharing a component type of a group have the same version. -/
def MapWorld.AllUniform (s : MapWorld V) : List (Op V) → Prop
  | [] => True
  | op :: ops => (s.next op).table.Uniform (s.next op).groups ∧ (s.next op).AllUniform ops

instance decAllUniform : ∀ (ops : List (Op V)) (s : MapWorld V), Decidable (s.AllUniform ops)
  | [], _ => inferInstanceAs (Decidable True)
  | op :: ops, s =>
    have := decAllUniform ops (s.next op)
    inferInstanceAs (Decidable (_ ∧ _))

/-- A call that adds or removes components of one entity. -/
def SingleCall : Op V → Prop
  | .create _ | .insert _ _ | .remove _ _ | .delete _ _ | .destroy _ => True
  | _ => False

/-- A call that groups several entities. -/
def BulkCall : Op V → Prop
  | .setLayout _ _ | .extend _ _ => True
  | _ => False

instance (op : Op V) : Decidable (SingleCall op) := by
  cases op <;> unfold SingleCall <;> infer_instance

instance (op : Op V) : Decidable (BulkCall op) := by
  cases op <;> unfold BulkCall <;> infer_instance

/-- The groups of a call that sets a layout. -/
def Op.layout : Op V → Option (List (List TypeId))
  | .setLayout _ gs => some gs
  | _ => none

/-- The groups with which the layout was set last. -/
def lastLayout (ops : List (Op V)) : Option (List (List TypeId)) := ops.reverse.findSome? Op.layout

/-- The layout set last, if any, is well formed and stays below the documented maxima. Nothing else is asked of the calls. -/
def Settled (ops : List (Op V)) : Prop :=
  ∀ gs ∈ lastLayout ops, LayoutOK (GroupLayout.build gs).2 ∧ LayoutFits (GroupLayout.build gs).2

instance (ops : List (Op V)) : Decidable (Settled ops) := by
  unfold Settled
  cases lastLayout ops with
  | none => exact .isTrue (by simp)
  | some gs => exact decidable_of_iff (LayoutOK (GroupLayout.build gs).2 ∧ LayoutFits (GroupLayout.build gs).2) (by simp)

end Sparsey
