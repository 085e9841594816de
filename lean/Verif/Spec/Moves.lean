import Verif.Spec.Rows

/-!
How far a call changes what is at each position of a view (C67).
-/

set_option autoImplicit false

namespace Sparsey
variable {V : Type}

/-- The lists have the same elements at all positions, except for at most `n` positions. Positions behind the end count. -/
def DiffersAt {α : Type} (n : Nat) (l l' : List α) : Prop := ∃ ps : List Nat, ps.length ≤ n ∧ ∀ i, i ∉ ps → l'[i]? = l[i]?

/-- The number of groups that contain the type. -/
def groupsWith (groups : List (List TypeId)) (t : TypeId) : Nat := groups.countP fun ts => decide (t ∈ ts)

/-- Positions taken in turn by an entity that enters or leaves `k` groups one after the other. -/
def slide (k : Nat) : Nat := if k = 0 then 0 else k + 1

/-- The groups of `t` a call may visit for one entity. Removing and deleting visit the groups in which `t` is together with one of
the types named. Creating and inserting visit all groups of `t`, if one of them contains a type named. Destroying and setting a
layout visit all. -/
def Op.visits (groups : List (List TypeId)) (t : TypeId) : Op V → Nat
  | .create vs => together (vs.map (·.1))
  | .insert _ vs => together (vs.map (·.1))
  | .extend ts _ => together ts
  | .remove _ ts => groups.countP fun g => decide (t ∈ g ∧ ∃ x ∈ ts, x ∈ g)
  | .delete _ ts => groups.countP fun g => decide (t ∈ g ∧ ∃ x ∈ ts, x ∈ g)
  | .destroy _ | .setLayout _ _ => groupsWith groups t
  | .register _ | .createAtomic | .maintain | .clear | .reset | .write _ _ _ | .writeAt _ _ _ => 0
where
  /-- The groups of `t`, if one of them contains one of the types. -/
  together (ts : List TypeId) : Nat := if ∃ g ∈ groups, t ∈ g ∧ ∃ x ∈ ts, x ∈ g then groupsWith groups t else 0

/-- At how many positions a view of `t` may change, if the call visits `k` groups of `t` and `alive` entities are alive: an entity
entering or leaving `k` groups changes places with at most one other for each of them; one more position changes if a component is
put, and one more if one is taken away (the last row fills the gap). -/
def Op.mayMove (t : TypeId) (k alive : Nat) : Op V → Ret V → Nat
  | .create vs, _ => if t ∈ vs.map (·.1) then k + 1 else slide k
  | .insert _ vs, _ => if t ∈ vs.map (·.1) then k + 1 else slide k
  | .extend ts it, .entities es => (if t ∈ ts then it.items.length else 0) + es.length * slide k
  | .extend ts it, _ => if t ∈ ts then it.items.length else 0
  | .remove _ ts, _ => if t ∈ ts then k + 2 else slide k
  | .delete _ ts, _ => if t ∈ ts then k + 2 else slide k
  | .destroy _, _ => k + 2
  | .write t' _ _, _ => if t' = t then 1 else 0
  | .writeAt t' _ _, _ => if t' = t then 1 else 0
  | .setLayout _ _, _ => alive * slide k
  | .register _, _ | .createAtomic, _ | .maintain, _ | .clear, _ | .reset, _ => 0

/-- The call empties all views. -/
def Op.empties : Op V → Prop
  | .clear | .reset => True
  | _ => False

/-- The call is about one entity. -/
def Op.single : Op V → Prop
  | .create _ | .insert _ _ | .remove _ _ | .delete _ _ | .destroy _ | .write _ _ _ | .writeAt _ _ _ => True
  | .register _ | .createAtomic | .maintain => True
  | .extend _ _ | .setLayout _ _ | .clear | .reset => False

end Sparsey
