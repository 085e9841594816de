import Verif.Spec.Lone
import Verif.Spec.Labels

/-!
Histories after each call of which every row of a view is found (C70).
-/

set_option autoImplicit false

namespace Sparsey
variable {V : Type}

/-- A call that takes components of type `t` names a living entity, or exchanges no rows of `t` that belong to different
versions. -/
def World.Handled (t : TypeId) (w : World V) (s : MapWorld V) (op : Op V) : Prop :=
  match op with
  | .remove e ts | .delete e ts => t ∉ ts ∨ e ∈ s.life.alive ∨ EvenPairs (w.swapsOf t op)
  | _ => True

instance (t : TypeId) (w : World V) (s : MapWorld V) (op : Op V) : Decidable (w.Handled t s op) := by
  unfold World.Handled
  cases op <;> infer_instance

/-- Every call leaves type `t` at one place (`SparesAt`) and is `Handled`. -/
def HandledFrom (t : TypeId) : World V → MapWorld V → History V → Prop
  | _, _, [] => True
  | w, s, (op, r) :: h =>
    op.SparesAt t r ∧ w.Handled t s op ∧
      match step w op with
      | some (_, w') => HandledFrom t w' (s.next op) h
      | none => True

instance decHandledFrom [DecidableEq V] (t : TypeId) : ∀ (h : History V) (w : World V) (s : MapWorld V),
    Decidable (HandledFrom t w s h)
  | [], _, _ => inferInstanceAs (Decidable True)
  | (op, r) :: h, w, s => by
    unfold HandledFrom
    cases step w op with
    | none => infer_instance
    | some p =>
      have := decHandledFrom t h p.2 (s.next op)
      infer_instance

/-- The calls of a history leave type `t` at one place and take its components only from living entities, or without
exchanging rows of different versions. -/
def HandledFor (t : TypeId) (h : History V) : Prop := HandledFrom t World.empty MapWorld.init h

instance [DecidableEq V] (t : TypeId) (h : History V) : Decidable (HandledFor t h) :=
  inferInstanceAs (Decidable (HandledFrom _ _ _ _))

/-- After every call of the history, every row of the view of `t` is found. -/
def FoundAlong (t : TypeId) (h : History V) : Prop :=
  ∀ (a : History V) (w : World V), a <+: h → Reach World.empty a w → w.FindsAll t

/-- After every call of the history, the view of `t` shows what the map has. -/
def ShownAlong (t : TypeId) (h : History V) : Prop :=
  ∀ (a : History V) (w : World V), a <+: h → Reach World.empty a w → w.ShowsAs t (mapOf (a.map (·.1)))

end Sparsey
