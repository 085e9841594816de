import Verif.Model.Query
import Verif.Spec.Map

/-!
What a query has to give, in terms of the world as a map (`Verif/Spec/Map.lean`): the matching entities and the values
of an item. Of the query model, only the syntax of queries and the shape of items are used.
-/

set_option autoImplicit false

namespace Sparsey
variable {V : Type}

/-- The component type without which an entity has no such part. -/
def Part.required : Part → Option TypeId
  | .ref t => some t
  | .refMut t => some t
  | _ => none

/-- The component type a part reads, and whether it may write. -/
def Part.access : Part → Option (TypeId × Bool)
  | .entity => none
  | .ref t => some (t, false)
  | .refMut t => some (t, true)
  | .opt t => some (t, false)
  | .optMut t => some (t, true)

/-- The component types without which an entity has no such item. -/
def required (q : Query) : List TypeId := q.filterMap Part.required

/-- The component types of a query with the kind of access. -/
def accesses (q : Query) : List (TypeId × Bool) := q.filterMap Part.access

/-- All parts are `&T` or `&mut T`. -/
def AllRequired (q : Query) : Prop := ∀ p ∈ q, p.required.isSome

instance (q : Query) : Decidable (AllRequired q) := inferInstanceAs (Decidable (∀ p ∈ q, _))

/-- What a part of an item shows. -/
inductive Shown (V : Type) where
  | entity (e : Entity)
  | comp (v : V)
  | maybe (v : Option V)
deriving DecidableEq, Repr

/-- What the part shows of `e`, if `e` has it. -/
def Part.shows (tb : Table V) (e : Entity) : Part → Option (Shown V)
  | .entity => some (.entity e)
  | .ref t => (tb.get t e).map .comp
  | .refMut t => (tb.get t e).map .comp
  | .opt t => some (.maybe (tb.get t e))
  | .optMut t => some (.maybe (tb.get t e))

/-- What the item of `e` shows, if `e` has all required components. -/
def shows (tb : Table V) (e : Entity) : Query → Option (List (Shown V))
  | [] => some []
  | p :: ps => (p.shows tb e).bind fun x => (shows tb e ps).map (x :: ·)

/-- What a part of an item shows. -/
def ItemPart.shown : ItemPart V → Shown V
  | .entity e => .entity e
  | .ref _ _ v => .comp v
  | .opt r => .maybe (r.map (·.2.2))

/-- What an item shows. -/
def Item.shown (x : Item V) : List (Shown V) := x.map ItemPart.shown

/-- `e` has all component types in `ts`. -/
def MapWorld.Has (s : MapWorld V) (ts : List TypeId) (e : Entity) : Prop := ∀ t ∈ ts, (s.table.get t e).isSome

/-- `e` matches the query `G` including `I` excluding `X`. -/
def MapWorld.Matches (s : MapWorld V) (g i x : Query) (e : Entity) : Prop :=
  e ∈ s.life.alive ∧ s.Has (required g) e ∧ s.Has (required i) e ∧
    ∀ t ∈ required x, s.table.get t e = none

/-- No two different excluded types complete a group to a larger one (see finding 2 in DESIGN.md). -/
def SingleExclude (groups : List (List TypeId)) (g i x : Query) : Prop :=
  ∀ a ∈ groups, ∀ b ∈ groups, SameTypes (required g ++ required i) a →
    SameTypes (required g ++ required i ++ required x) b → ∀ t ∈ required x, ∀ t' ∈ required x, t = t'

/-- The group `b` contains the group `a`, and no other group is between them. -/
def NextGroup (groups : List (List TypeId)) (a b : List TypeId) : Prop :=
  (∀ t ∈ a, t ∈ b) ∧ ∀ c ∈ groups, (∀ t ∈ a, t ∈ c) → (∀ t ∈ c, t ∈ b) → SameTypes c a ∨ SameTypes c b

/-- When a query that requires the types `R` and excludes the types `X` is answered by a prefix of one set or a range of
positions of a group: it requires one type; or exactly the types of a group; or it requires exactly the types of a group
and excludes exactly those that the next larger group adds. -/
def Grouped (groups : List (List TypeId)) (R X : List TypeId) : Prop :=
  (X = [] ∧ (R.length = 1 ∨ ∃ a ∈ groups, SameTypes R a)) ∨
  (X ≠ [] ∧ ∃ a ∈ groups, ∃ b ∈ groups, SameTypes R a ∧ NextGroup groups a b ∧
    (∀ t ∈ X, t ∈ b ∧ t ∉ a) ∧ ∀ t ∈ b, t ∉ a → t ∈ X)

instance (groups : List (List TypeId)) (a b : List TypeId) : Decidable (NextGroup groups a b) :=
  inferInstanceAs (Decidable (_ ∧ _))

instance (groups : List (List TypeId)) (R X : List TypeId) : Decidable (Grouped groups R X) :=
  inferInstanceAs (Decidable (_ ∨ _))

end Sparsey
