import Verif.Spec.Query

/-!
Entities left outside of groups they belong to. A call interrupted by a panic may leave an entity with all component types
of a group outside of this group. Which entities and groups these are follows from the calls alone.
-/

set_option autoImplicit false

namespace Sparsey
variable {V : Type}

namespace MapWorld

/-- Among the pairs of an entity and the number of a group, one is of `e` and of a group of exactly these types. -/
def LeftOut (s : MapWorld V) (h : List (Entity × Nat)) (ts : List TypeId) (e : Entity) : Prop :=
  ∃ p ∈ h, p.1 = e ∧ ∃ g ∈ s.groups[p.2]?, SameTypes ts g

instance (s : MapWorld V) (h : List (Entity × Nat)) (ts : List TypeId) (e : Entity) : Decidable (s.LeftOut h ts e) :=
  inferInstanceAs (Decidable (∃ p ∈ h, p.1 = e ∧ ∃ g ∈ s.groups[p.2]?, SameTypes ts g))

/-- No entity is left out of the group of the required types, nor, if there is such a group, of the group of the required
and excluded types. -/
def NoneLeftOut (s : MapWorld V) (h : List (Entity × Nat)) (g i x : Query) : Prop :=
  ∀ p ∈ h, ¬ s.LeftOut h (required g ++ required i) p.1 ∧
    ((∃ a ∈ s.groups, SameTypes (required g ++ required i) a) →
      ¬ s.LeftOut h (required g ++ required i ++ required x) p.1)

instance (s : MapWorld V) (h : List (Entity × Nat)) (g i x : Query) : Decidable (s.NoneLeftOut h g i x) :=
  inferInstanceAs (Decidable (∀ p ∈ h, _))

/-- `e` has all component types of the `k`-th group. -/
def Full (s : MapWorld V) (e : Entity) (k : Nat) : Prop := ∃ ts ∈ s.groups[k]?, ∀ t ∈ ts, (s.table.get t e).isSome

instance (s : MapWorld V) (e : Entity) (k : Nat) : Decidable (s.Full e k) :=
  inferInstanceAs (Decidable (∃ ts ∈ s.groups[k]?, _))

/-- One of the types is in the `k`-th group. -/
def InGroup (s : MapWorld V) (ts : List TypeId) (k : Nat) : Prop := ∃ g ∈ s.groups[k]?, ∃ t ∈ ts, t ∈ g

instance (s : MapWorld V) (ts : List TypeId) (k : Nat) : Decidable (s.InGroup ts k) :=
  inferInstanceAs (Decidable (∃ g ∈ s.groups[k]?, _))

/-- One of the types is in the family of the `k`-th group: in a group sharing a type with it. -/
def InFamily (s : MapWorld V) (ts : List TypeId) (k : Nat) : Prop :=
  ∃ g ∈ s.groups[k]?, ∃ g' ∈ s.groups, (∃ t ∈ ts, t ∈ g') ∧ ∃ u ∈ g', u ∈ g

instance (s : MapWorld V) (ts : List TypeId) (k : Nat) : Decidable (s.InFamily ts k) :=
  inferInstanceAs (Decidable (∃ g ∈ s.groups[k]?, _))

/-- The groups that some of the entities have completely in `s'`, but not in `s`. -/
def newlyFull (s s' : MapWorld V) (es : List Entity) : List (Entity × Nat) :=
  es.flatMap fun e => ((List.range s.groups.length).filter fun k => s'.Full e k ∧ ¬ s.Full e k).map (e, ·)

/-- The entities that are outside of a group they belong to, after a call; `h` are those before. -/
def hiddenAfter (s : MapWorld V) (h : List (Entity × Nat)) (op : Op V) : List (Entity × Nat) :=
  match op with
  | .setLayout _ _ => []
  | .clear => []
  | .reset => []
  | .create vs =>
    if s.life.exhausted ∨ s.knows (vs.map (·.1)) then h
    else s.newlyFull (s.next (.create vs)) [s.life.nextEntity] ++ h
  | .insert e vs =>
    if e ∉ s.life.alive then h
    else if s.knows (vs.map (·.1)) then h.filter fun p => ¬ (p.1 = e ∧ s.InFamily (vs.map (·.1)) p.2)
    else s.newlyFull (s.next (.insert e vs)) [e] ++ h
  | .extend ts it =>
    if s.knows ts ∧ (s.extendMakes ts it).length = it.items.length ∧ it.thenPanics = false then h
    else s.newlyFull (s.next (.extend ts it)) (s.extendMakes ts it) ++ h
  | .destroy e => h.filter fun p => p.1 ≠ e
  | .remove e ts => if s.knows ts then h.filter fun p => ¬ (p.1 = e ∧ s.InGroup ts p.2) else h
  | .delete e ts => if s.knows ts then h.filter fun p => ¬ (p.1 = e ∧ s.InGroup ts p.2) else h
  | _ => h

/-- The entities that are outside of a group they belong to, after a series of calls. -/
def hiddenFrom (s : MapWorld V) (h : List (Entity × Nat)) : List (Op V) → List (Entity × Nat)
  | [] => h
  | op :: ops => (s.next op).hiddenFrom (s.hiddenAfter h op) ops

/-- The entities that iterating over the query `G` including `I` excluding `X` yields, when the pairs `h` are outside of
groups they belong to. With a group (`Grouped`), entities having some of the excluded components are yielded as well, those
left out of the group are missing, and those left out of the larger group are yielded. Without a group, excluding anything
but `&T` and `&mut T` excludes all entities. Nothing is yielded if nothing is required. -/
def Yields (s : MapWorld V) (h : List (Entity × Nat)) (g i x : Query) (e : Entity) : Prop :=
  required g ++ required i ≠ [] ∧ s.Has (required g ++ required i) e ∧
  (Grouped s.groups (required g ++ required i) (required x) →
    ¬ s.LeftOut h (required g ++ required i) e ∧
      (required x = [] ∨ (∃ t ∈ required x, s.table.get t e = none) ∨
        s.LeftOut h (required g ++ required i ++ required x) e)) ∧
  (¬ Grouped s.groups (required g ++ required i) (required x) →
    (∀ p ∈ x, p.required.isSome) ∧ ∀ t ∈ required x, s.table.get t e = none)

instance (s : MapWorld V) (ts : List TypeId) (e : Entity) : Decidable (s.Has ts e) :=
  inferInstanceAs (Decidable (∀ t ∈ ts, _))

instance [DecidableEq V] (s : MapWorld V) (h : List (Entity × Nat)) (g i x : Query) (e : Entity) :
    Decidable (s.Yields h g i x e) :=
  inferInstanceAs (Decidable (_ ∧ _))

end MapWorld

/-- The pairs of an entity and the number of a group such that the entity has all types of the group and is not in it,
after a series of calls on a new world. -/
def hidden (ops : List (Op V)) : List (Entity × Nat) := MapWorld.init.hiddenFrom [] ops

end Sparsey
