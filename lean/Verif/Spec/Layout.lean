import Verif.Model.Layout
import Mathlib.Data.List.Dedup

/-!
What a group layout means, in terms of the families that `GroupLayout::families` shows
(src/component/group_layout.rs:63-68, 86-98).
-/

set_option autoImplicit false

namespace Sparsey

/-- The groups of a layout: for each family and each of its arities the first components of the family. -/
def layoutGroups (l : GroupLayout) : List (List TypeId) :=
  l.families.flatMap fun f => f.arities.map fun a => f.components.take a

/-- The component types of a layout. -/
def layoutTypes (l : GroupLayout) : List TypeId := l.families.flatMap (·.components)

/-- A family is well formed: strictly increasing arities of at least 2, the last one covering the family. -/
def FamilyOK (f : GroupFamily) : Prop :=
  f.arities.Pairwise (· < ·) ∧ (∀ a ∈ f.arities, 2 ≤ a) ∧ f.arities.getLast? = some f.components.length

instance (f : GroupFamily) : Decidable (FamilyOK f) := inferInstanceAs (Decidable (_ ∧ _ ∧ _))

/-- A layout is well formed: well formed families, no type occurs twice. -/
def LayoutOK (l : GroupLayout) : Prop :=
  (∀ f ∈ l.families, FamilyOK f) ∧ (layoutTypes l).Nodup

instance (l : GroupLayout) : Decidable (LayoutOK l) := inferInstanceAs (Decidable (_ ∧ _))

/-- The layout stays one below the documented maxima. -/
def LayoutFits (l : GroupLayout) : Prop :=
  (∀ f ∈ l.families, f.components.length ≤ 15) ∧ (layoutGroups l).length ≤ 63

instance (l : GroupLayout) : Decidable (LayoutFits l) := inferInstanceAs (Decidable (_ ∧ _))

/-- The same component types, in whatever order and however often. -/
def SameTypes (a b : List TypeId) : Prop := ∀ t, t ∈ a ↔ t ∈ b

/-- The same groups, in whatever order. -/
def SameGroups (gs hs : List (List TypeId)) : Prop :=
  (∀ g ∈ gs, ∃ h ∈ hs, SameTypes g h) ∧ ∀ h ∈ hs, ∃ g ∈ gs, SameTypes g h

/-- Two groups with a component type in common. -/
def Meet (a b : List TypeId) : Prop := ∃ t ∈ a, t ∈ b

/-- A list of types that names at least `MIN_GROUP_ARITY` = 2 types; others are ignored by `add_group`. -/
def IsGroup (g : List TypeId) : Prop := 2 ≤ g.dedup.length

/-- When a group can join other groups so that groups with common types are nested in each other, in one chain: it is
one of them, or it contains all those it meets and these meet each other. -/
def Joins (gs : List (List TypeId)) (g : List TypeId) : Prop :=
  (∃ h ∈ gs, SameTypes h g) ∨
    (∀ h ∈ gs, Meet h g → ∀ t ∈ h, t ∈ g) ∧ ∀ h ∈ gs, ∀ k ∈ gs, Meet h g → Meet k g → Meet h k

/-- The documented maxima: groups of at most 16 types, at most 64 groups (src/component/group_layout.rs:9-14). -/
def WithinLimits (l : GroupLayout) : Prop :=
  (∀ g ∈ layoutGroups l, g.length ≤ 16) ∧ (layoutGroups l).length ≤ 64

instance (a b : List TypeId) : Decidable (SameTypes a b) :=
  decidable_of_iff ((∀ t ∈ a, t ∈ b) ∧ ∀ t ∈ b, t ∈ a)
    ⟨fun h t => ⟨h.1 t, h.2 t⟩, fun h => ⟨fun t => (h t).1, fun t => (h t).2⟩⟩
instance (gs hs : List (List TypeId)) : Decidable (SameGroups gs hs) := inferInstanceAs (Decidable (_ ∧ _))
instance (g : List TypeId) : Decidable (IsGroup g) := inferInstanceAs (Decidable (_ ≤ _))
instance (a b : List TypeId) : Decidable (Meet a b) := inferInstanceAs (Decidable (∃ t ∈ a, t ∈ b))
instance (gs : List (List TypeId)) (g : List TypeId) : Decidable (Joins gs g) := by
  unfold Joins
  infer_instance
instance (l : GroupLayout) : Decidable (WithinLimits l) := inferInstanceAs (Decidable (_ ∧ _))

end Sparsey
