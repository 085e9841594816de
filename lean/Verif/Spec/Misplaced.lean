import Verif.Spec.Rows
import Verif.Spec.Good

/-!
Calls that leave a row behind (C71): a call that takes components of an entity some view finds, after which a view still
has a row of the entity's index but does not find the entity.
-/

set_option autoImplicit false

namespace Sparsey
variable {V : Type}

/-- The view of `t` finds `e` (src/component/view.rs:76-80 `View::get`). -/
def World.Finds (w : World V) (t : TypeId) (e : Entity) : Prop :=
  match w.viewGet t e with
  | .ok (some _) => True
  | _ => False

instance (w : World V) (t : TypeId) (e : Entity) : Decidable (w.Finds t e) := by
  unfold World.Finds
  split <;> infer_instance

/-- The view of `t` has a row of the index of `e` but does not find `e`. -/
def World.Overlooks (w : World V) (t : TypeId) (e : Entity) : Prop :=
  (∃ p ∈ w.rows t, p.1.index = e.index) ∧ ¬ w.Finds t e

instance (w : World V) (t : TypeId) (e : Entity) : Decidable (w.Overlooks t e) :=
  inferInstanceAs (Decidable (_ ∧ _))

/-- The entity of which a call takes components (src/world/mod.rs:115-122 `World::destroy`, 164-181 `World::remove` and
`World::delete`). -/
def Op.takesOf : Op V → Option Entity
  | .remove e _ | .delete e _ | .destroy e => some e
  | _ => none

/-- The call succeeds in taking components of an entity, some view finds the entity before, and some view overlooks it
afterwards. -/
def World.Misplaces (w : World V) (op : Op V) : Prop :=
  ∃ e ∈ op.takesOf, (∃ t, w.Finds t e) ∧
    match step w op with
    | some (.panicked _, _) => False
    | some (.bool false, _) => False
    | some (_, w') => ∃ t, w'.Overlooks t e
    | none => False

theorem World.finds_key {w : World V} {t : TypeId} {e : Entity} (h : w.Finds t e) :
    t ∈ w.components.metadata.map Prod.fst := by
  unfold World.Finds World.viewGet World.borrow at h
  unfold ComponentStorage.meta? at h
  cases hm : w.components.metadata.lookup t with
  | none => simp [hm] at h
  | some m =>
    obtain ⟨l1, l2, h1, _⟩ := List.lookup_eq_some_iff.1 hm
    rw [h1]
    simp

theorem World.overlooks_key {w : World V} {t : TypeId} {e : Entity} (h : w.Overlooks t e) :
    t ∈ w.components.metadata.map Prod.fst := by
  obtain ⟨⟨p, h, _⟩, _⟩ := h
  unfold World.rows World.borrow at h
  unfold ComponentStorage.meta? at h
  cases hm : w.components.metadata.lookup t with
  | none => simp [hm] at h
  | some m =>
    obtain ⟨l1, l2, h1, _⟩ := List.lookup_eq_some_iff.1 hm
    rw [h1]
    simp

instance (w : World V) (e : Entity) : Decidable (∃ t, w.Finds t e) :=
  decidable_of_iff (∃ t ∈ w.components.metadata.map Prod.fst, w.Finds t e)
    ⟨fun ⟨t, _, h⟩ => ⟨t, h⟩, fun ⟨t, h⟩ => ⟨t, World.finds_key h, h⟩⟩

instance (w : World V) (e : Entity) : Decidable (∃ t, w.Overlooks t e) :=
  decidable_of_iff (∃ t ∈ w.components.metadata.map Prod.fst, w.Overlooks t e)
    ⟨fun ⟨t, _, h⟩ => ⟨t, h⟩, fun ⟨t, h⟩ => ⟨t, World.overlooks_key h, h⟩⟩

instance (w : World V) (op : Op V) : Decidable (w.Misplaces op) := by
  unfold World.Misplaces
  cases op.takesOf with
  | none => exact .isFalse (by simp)
  | some e =>
    refine @decidable_of_iff _ ((∃ t, w.Finds t e) ∧
      match step w op with
      | some (.panicked _, _) => False
      | some (.bool false, _) => False
      | some (_, w') => ∃ t, w'.Overlooks t e
      | none => False) (by simp) (@instDecidableAnd _ _ _ ?_)
    split <;> infer_instance

/-- The call sorts all sets anew or empties them (src/world/mod.rs:43-46 `World::set_layout`, 248-259 `World::clear` and
`World::reset`). -/
def Op.Rebuilds : Op V → Prop
  | .setLayout _ _ | .clear | .reset => True
  | _ => False

instance (op : Op V) : Decidable op.Rebuilds := by
  unfold Op.Rebuilds
  split <;> infer_instance

/-- No call of the history leaves a row behind, except before a call that sorts or empties the sets. -/
def CleanFrom : World V → History V → Prop
  | _, [] => True
  | w, (op, _) :: h =>
    ((∃ x ∈ h, x.1.Rebuilds) ∨ ¬ w.Misplaces op) ∧
      match step w op with
      | some (_, w') => CleanFrom w' h
      | none => True

instance decCleanFrom : ∀ (h : History V) (w : World V), Decidable (CleanFrom w h)
  | [], _ => inferInstanceAs (Decidable True)
  | (op, r) :: h, w => by
    unfold CleanFrom
    cases step w op with
    | none => infer_instance
    | some p =>
      have := decCleanFrom h p.2
      infer_instance

/-- `CleanFrom` of a history of the empty world. -/
def Clean (h : History V) : Prop := CleanFrom World.empty h

instance (h : History V) : Decidable (Clean h) := inferInstanceAs (Decidable (CleanFrom _ _))

end Sparsey
