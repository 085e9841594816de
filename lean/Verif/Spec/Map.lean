import Verif.Spec.Life
import Verif.Spec.Layout

/-!
The world as a plain map: life spans of entities, registered types, declared groups and a table of components. Every
call has a determined answer and effect. Nothing here refers to the data structures of the model; a layout enters only
through its families (`Verif/Spec/Layout.lean`).
-/

set_option autoImplicit false

namespace Sparsey
variable {V : Type}

/-- A table of components. -/
abbrev Table (V : Type) := List ((TypeId × Entity) × V)

namespace Table

/-- The component of type `t` of `e`. -/
def get (tb : Table V) (t : TypeId) (e : Entity) : Option V := tb.lookup (t, e)

/-- Stores a component, replacing an old one. -/
def set (tb : Table V) (t : TypeId) (e : Entity) (v : V) : Table V :=
  ((t, e), v) :: tb.filter fun p => p.1 ≠ (t, e)

/-- Stores components one after the other. -/
def setAll (tb : Table V) (e : Entity) : List (TypeId × V) → Table V
  | [] => tb
  | (t, v) :: vs => setAll (tb.set t e v) e vs

/-- Removes a component. -/
def erase (tb : Table V) (t : TypeId) (e : Entity) : Table V := tb.filter fun p => p.1 ≠ (t, e)

/-- Removes components one after the other. -/
def eraseAll (tb : Table V) (e : Entity) : List TypeId → Table V
  | [] => tb
  | t :: ts => eraseAll (tb.erase t e) e ts

/-- What removing components one after the other returns. -/
def removed (tb : Table V) (e : Entity) : List TypeId → List (Option V)
  | [] => []
  | t :: ts => tb.get t e :: removed (tb.erase t e) e ts

/-- Removes all components of an entity. -/
def strip (tb : Table V) (e : Entity) : Table V := tb.filter fun p => p.1.2 ≠ e

/-- Stores the components of several entities. -/
def setItems (tb : Table V) (ts : List TypeId) : List (Entity × List V) → Table V
  | [] => tb
  | (e, vs) :: rest => setItems (tb.setAll e (ts.zip vs)) ts rest

/-- Entities that share a component type of a group have the same version. -/
def Uniform (tb : Table V) (groups : List (List TypeId)) : Prop :=
  ∀ p ∈ tb, ∀ q ∈ tb, p.1.1 = q.1.1 → p.1.1 ∈ groups.flatten → p.1.2.version = q.1.2.version

instance (tb : Table V) (groups : List (List TypeId)) : Decidable (tb.Uniform groups) :=
  inferInstanceAs (Decidable (∀ p ∈ tb, _))

end Table

instance (l : Life) : Decidable l.exhausted := inferInstanceAs (Decidable (_ ∧ _))

/-- The entities handed out by up to `n` creations, less if the indexes are exhausted before. -/
def Life.makes (l : Life) : Nat → List Entity
  | 0 => []
  | n + 1 =>
    if l.exhausted then [] else l.nextEntity :: (l.step (.made l.nextEntity)).makes n

/-- The world as a map. -/
structure MapWorld (V : Type) where
  life : Life
  /-- registered types -/
  reg : List TypeId
  /-- groups of the current layout -/
  groups : List (List TypeId)
  table : Table V

namespace MapWorld

/-- A new world. -/
def init : MapWorld V := ⟨.init, [], [], []⟩

/-- All types are registered. -/
def knows (s : MapWorld V) (ts : List TypeId) : Prop := ∀ t ∈ ts, t ∈ s.reg

instance (s : MapWorld V) (ts : List TypeId) : Decidable (s.knows ts) := inferInstanceAs (Decidable (∀ t ∈ ts, _))

/-- The components in front of the first one of unregistered type. -/
def known (s : MapWorld V) (vs : List (TypeId × V)) : List (TypeId × V) :=
  vs.takeWhile fun p => decide (p.1 ∈ s.reg)

/-- The entities made by `extend` with these types and items. -/
def extendMakes (s : MapWorld V) (ts : List TypeId) (it : Items V) : List Entity :=
  if s.knows ts then s.life.makes it.items.length else []

/-- What a call returns. -/
def answer (s : MapWorld V) : Op V → Ret V
  | .register t => .bool (decide (t ∉ s.reg))
  | .setLayout _ _ => .unit
  | .create vs =>
    if s.life.exhausted then .panicked []
    else if s.knows (vs.map (·.1)) then .entity s.life.nextEntity
    else .panicked [s.life.nextEntity]
  | .extend ts it =>
    if s.knows ts ∧ (s.extendMakes ts it).length = it.items.length ∧ it.thenPanics = false then
      .entities (s.extendMakes ts it)
    else .panicked (s.extendMakes ts it)
  | .destroy e => .bool (decide (e ∈ s.life.alive))
  | .createAtomic => if s.life.exhausted then .panicked [] else .entity s.life.nextEntity
  | .maintain => .unit
  | .insert e vs =>
    if e ∉ s.life.alive then .bool false
    else if s.knows (vs.map (·.1)) then .bool true
    else .panicked []
  | .remove e ts => if s.knows ts then .values (s.table.removed e ts) else .panicked []
  | .delete _ ts => if s.knows ts then .unit else .panicked []
  | .clear => .unit
  | .reset => .unit
  | .write t e _ => if t ∈ s.reg then .bool (s.table.get t e).isSome else .panicked []
  | .writeAt _ _ _ => .unit

/-- The registered types after a call. -/
def regAfter (s : MapWorld V) : Op V → List TypeId
  | .register t => t :: s.reg
  | .setLayout _ gs => layoutTypes (GroupLayout.build gs).2 ++ s.reg
  | _ => s.reg

/-- The groups after a call. -/
def groupsAfter (s : MapWorld V) : Op V → List (List TypeId)
  | .setLayout _ gs => layoutGroups (GroupLayout.build gs).2
  | _ => s.groups

/-- The components after a call. -/
def tableAfter (s : MapWorld V) : Op V → Table V
  | .create vs => if s.life.exhausted then s.table else s.table.setAll s.life.nextEntity (s.known vs)
  | .extend ts it => s.table.setItems ts ((s.extendMakes ts it).zip it.items)
  | .destroy e => if e ∈ s.life.alive then s.table.strip e else s.table
  | .insert e vs => if e ∈ s.life.alive then s.table.setAll e (s.known vs) else s.table
  | .remove e ts => if s.knows ts then s.table.eraseAll e ts else s.table
  | .delete e ts => if s.knows ts then s.table.eraseAll e ts else s.table
  | .clear => []
  | .reset => []
  | .write t e v => if (s.table.get t e).isSome then s.table.set t e v else s.table
  | _ => s.table

/-- Effect of a call. -/
def next (s : MapWorld V) (op : Op V) : MapWorld V where
  life := s.life.run (events op (s.answer op))
  reg := s.regAfter op
  groups := s.groupsAfter op
  table := s.tableAfter op

/-- Storing these components for `e` completes no group that `e` was not part of before. -/
def NoNewGroup (s : MapWorld V) (e : Entity) (vs : List (TypeId × V)) : Prop :=
  ∀ g ∈ s.groups, (∀ t ∈ g, ((s.table.setAll e vs).get t e).isSome) → ∀ t ∈ g, (s.table.get t e).isSome

instance (s : MapWorld V) (e : Entity) (vs : List (TypeId × V)) : Decidable (s.NoNewGroup e vs) :=
  inferInstanceAs (Decidable (∀ g ∈ s.groups, _))

/-- The call keeps clear of two of the defects listed in DESIGN.md:
* `maintain` is not called after destroying an entity made since the last `maintain`/`clear`/`reset`,
* a layout has disjoint nested families and stays below the maxima.
The map knows no positions, so writes by position are not described. -/
def Fair (s : MapWorld V) (op : Op V) : Prop :=
  match op with
  | .maintain => s.life.freshKilled = false
  | .setLayout _ gs => LayoutOK (GroupLayout.build gs).2 ∧ LayoutFits (GroupLayout.build gs).2
  | .writeAt _ _ _ => False
  | _ => True

instance (s : MapWorld V) (op : Op V) : Decidable (s.Fair op) := by
  unfold Fair
  cases op <;> infer_instance

/-- The call keeps clear of three of the defects listed in DESIGN.md:
* `maintain` is not called after destroying an entity made since the last `maintain`/`clear`/`reset`,
* a layout has disjoint nested families and stays below the maxima,
* an interrupted `create`, `insert` or `extend` completes no group for an entity.

A map has no positions. A write to a position is therefore not `Fine`; it is to be replaced by the write to the entity at
this position, which has the same effect (`C21_at_partial`). -/
def Fine (s : MapWorld V) (op : Op V) : Prop :=
  match op with
  | .maintain => s.life.freshKilled = false
  | .setLayout _ gs => LayoutOK (GroupLayout.build gs).2 ∧ LayoutFits (GroupLayout.build gs).2
  | .create vs => s.life.exhausted ∨ s.knows (vs.map (·.1)) ∨ s.NoNewGroup s.life.nextEntity (s.known vs)
  | .insert e vs => e ∉ s.life.alive ∨ s.knows (vs.map (·.1)) ∨ s.NoNewGroup e (s.known vs)
  | .extend ts it => s.extendMakes ts it = [] ∨
      (s.extendMakes ts it).length = it.items.length ∧ it.thenPanics = false ∨
      ∀ g ∈ s.groups, ∃ t ∈ g, t ∉ ts
  | .writeAt _ _ _ => False
  | _ => True

instance (s : MapWorld V) (op : Op V) : Decidable (s.Fine op) := by
  unfold Fine
  cases op <;> infer_instance

/-- Runs a series of calls. -/
def run (s : MapWorld V) (ops : List (Op V)) : MapWorld V := ops.foldl next s

/-- The answers to a series of calls. -/
def answers (s : MapWorld V) : List (Op V) → List (Ret V)
  | [] => []
  | op :: ops => s.answer op :: (s.next op).answers ops

/-- Every call of the series is `Fine`. -/
def AllFine (s : MapWorld V) : List (Op V) → Prop
  | [] => True
  | op :: ops => s.Fine op ∧ (s.next op).AllFine ops

instance decAllFine : ∀ (ops : List (Op V)) (s : MapWorld V), Decidable (s.AllFine ops)
  | [], _ => inferInstanceAs (Decidable True)
  | op :: ops, s =>
    have := decAllFine ops (s.next op)
    inferInstanceAs (Decidable (_ ∧ _))

/-- Every call of the series is `Fair`. -/
def AllFair (s : MapWorld V) : List (Op V) → Prop
  | [] => True
  | op :: ops => s.Fair op ∧ (s.next op).AllFair ops

instance decAllFair : ∀ (ops : List (Op V)) (s : MapWorld V), Decidable (s.AllFair ops)
  | [], _ => inferInstanceAs (Decidable True)
  | op :: ops, s =>
    have := decAllFair ops (s.next op)
    inferInstanceAs (Decidable (_ ∧ _))

end MapWorld

/-- The calls that build a world: `register` and `set_layout`. -/
def Op.isSetup : Op V → Bool
  | .register _ => true
  | .setLayout _ _ => true
  | _ => false

/-- The map after a series of calls on a new world. -/
def mapOf (ops : List (Op V)) : MapWorld V := MapWorld.init.run ops

end Sparsey
