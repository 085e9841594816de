import Verif.Spec.Map
import Verif.Spec.Layout
import Verif.Model.SwapsOf

/-!
Histories that keep one component type out of all groups.
-/

set_option autoImplicit false

namespace Sparsey
variable {V : Type}

/-- The call does not put type `t` into a group and does not write to it by position; if it sets a layout it does not
panic. -/
def Op.Spares (t : TypeId) : Op V → Ret V → Prop
  | .setLayout _ gs, r => t ∉ gs.flatten ∧ r = .unit
  | .writeAt t' _ _, _ => t' ≠ t
  | _, _ => True

instance [DecidableEq V] (t : TypeId) (op : Op V) (r : Ret V) : Decidable (op.Spares t r) := by
  unfold Op.Spares
  cases op <;> infer_instance

/-- Type `t` was never part of a group. Nothing is demanded of other types. -/
def NeverGrouped (t : TypeId) (h : History V) : Prop := ∀ p ∈ h, p.1.Spares t p.2

instance [DecidableEq V] (t : TypeId) (h : History V) : Decidable (NeverGrouped t h) :=
  inferInstanceAs (Decidable (∀ p ∈ h, _))

/-- The call does not write to type `t` by position; if it sets a layout it does not panic, and the layout has `t` at most
once. -/
def Op.SparesAt (t : TypeId) : Op V → Ret V → Prop
  | .setLayout _ gs, r => (layoutTypes (GroupLayout.build gs).2).count t ≤ 1 ∧ r = .unit
  | .writeAt t' _ _, _ => t' ≠ t
  | _, _ => True

instance [DecidableEq V] (t : TypeId) (op : Op V) (r : Ret V) : Decidable (op.SparesAt t r) := by
  unfold Op.SparesAt
  cases op <;> infer_instance

/-- Every call leaves type `t` at one place (`SparesAt`), and every exchange in the set of `t` is between entities of the
same version. Nothing is demanded of other types, which may be in the same groups as `t`. -/
def EvenForFrom (t : TypeId) : World V → History V → Prop
  | _, [] => True
  | w, (op, r) :: h =>
    op.SparesAt t r ∧ EvenPairs (w.swapsOf t op) ∧
      match step w op with
      | some (_, w') => EvenForFrom t w' h
      | none => True

instance decEvenForFrom [DecidableEq V] (t : TypeId) : ∀ (h : History V) (w : World V), Decidable (EvenForFrom t w h)
  | [], _ => inferInstanceAs (Decidable True)
  | (op, r) :: h, w => by
    unfold EvenForFrom
    cases step w op with
    | none => infer_instance
    | some p =>
      have := decEvenForFrom t h p.2
      infer_instance

/-- The history exchanges components of type `t` only between entities of the same version. -/
def EvenFor (t : TypeId) (h : History V) : Prop := EvenForFrom t World.empty h

instance [DecidableEq V] (t : TypeId) (h : History V) : Decidable (EvenFor t h) :=
  inferInstanceAs (Decidable (EvenForFrom _ _ _))

/-- Entities that have a component of type `t` have the same version. -/
def Table.UniformAt (t : TypeId) (tb : Table V) : Prop :=
  ∀ p ∈ tb, ∀ q ∈ tb, p.1.1 = t → q.1.1 = t → p.1.2.version = q.1.2.version

instance (t : TypeId) (tb : Table V) : Decidable (tb.UniformAt t) := inferInstanceAs (Decidable (∀ p ∈ tb, _))

/-- Every call leaves type `t` at one place, and after every call all entities of the map that have a component of type
`t` have the same version. -/
def MapWorld.UniformFor (t : TypeId) (s : MapWorld V) : History V → Prop
  | [] => True
  | (op, r) :: h => op.SparesAt t r ∧ (s.next op).table.UniformAt t ∧ (s.next op).UniformFor t h

instance decUniformFor [DecidableEq V] (t : TypeId) : ∀ (h : History V) (s : MapWorld V), Decidable (s.UniformFor t h)
  | [], _ => inferInstanceAs (Decidable True)
  | (op, _) :: h, s =>
    have := decUniformFor t h (s.next op)
    inferInstanceAs (Decidable (_ ∧ _ ∧ _))

/-- The components of type `t` are not mixed up: exchanges in its set are between entities of the same version, or all
entities having type `t` have the same version at every moment. -/
def Unmixed (t : TypeId) (h : History V) : Prop := EvenFor t h ∨ MapWorld.init.UniformFor t h

instance [DecidableEq V] (t : TypeId) (h : History V) : Decidable (Unmixed t h) := inferInstanceAs (Decidable (_ ∨ _))

/-- Two answers to a call are the same as far as components of type `t` are concerned: components of other types
returned by `remove` may differ, and whether there was something to write to. -/
def SameFor (t : TypeId) : Op V → Ret V → Ret V → Prop
  | .remove _ ts, .values vs, .values vs' => vs.length = vs'.length ∧ ∀ i : Nat, ts[i]? = some t → vs[i]? = vs'[i]?
  | .write t' _ _, .bool b, .bool b' => t' = t → b = b'
  | .writeAt _ _ _, _, _ => True
  | _, r, r' => r = r'

/-- What the world shows of type `t` is what the map has: a view finds exactly the components of the map, and its slices
list every entity that has one once, with its component at the same position. -/
def World.ShowsAs (t : TypeId) (w : World V) (s : MapWorld V) : Prop :=
  w.isRegistered t = true → ∃ x, w.borrow t = .ok x ∧
    (∀ e, w.viewGet t e = .ok (s.table.get t e)) ∧
    x.entities.Nodup ∧ x.entities.length = x.components.length ∧
    (∀ e, e ∈ x.entities ↔ (s.table.get t e).isSome) ∧
    ∀ (i : Nat) e, x.entities[i]? = some e → x.components[i]? = s.table.get t e

end Sparsey
