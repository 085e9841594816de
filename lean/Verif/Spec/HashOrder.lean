import Verif.Model.Query
import Verif.Model.History

/-!
What callers can see of a world (C64). The position of a set in `ComponentStorage::components` is not visible.
-/

set_option autoImplicit false

namespace Sparsey
variable {V : Type}

/-- The same call; two `set_layout` calls may go through the hash map in different orders. -/
def Op.SameCall : Op V → Op V → Prop
  | .setLayout _ gs, .setLayout _ gs' => gs = gs'
  | a, b => a = b

/-- A part of an item without the position of the set. -/
def ItemPart.bare : ItemPart V → ItemPart V
  | .entity e => .entity e
  | .ref _ dense v => .ref 0 dense v
  | .opt r => .opt (r.map fun p => (0, p.2))

/-- A part of a slice without the position of the set. -/
def SlicePart.bare : SlicePart V → SlicePart V
  | .entities es => .entities es
  | .comps _ first vs => .comps 0 first vs
  | .unit => .unit

/-- What `query_all` shows while the views `held` are alive: whether it is iterated by position, the items in order, the
slices. -/
def seeAll (w : World V) (held g i x : Query) : Res (Bool × List (Item V) × Option (List (SlicePart V))) := do
  let (_, _, h) ← borrowParts w.components [] held
  let (q, _) ← QueryAll.new w h g i x
  let it ← q.iter
  let items ← it.fold
  let slice ← q.slice
  pure (it.isDense, items.map (·.map ItemPart.bare), slice.map (·.map SlicePart.bare))

/-- What `query_one` shows of `e` while the views `held` are alive. -/
def seeOne (w : World V) (held g i x : Query) (e : Entity) : Res (Bool × Option (Item V)) := do
  let (_, _, h) ← borrowParts w.components [] held
  let (q, _) ← QueryOne.new w h g i x
  let item ← q.getItem e
  pure (q.contains e, item.map (·.map ItemPart.bare))

/-- Two worlds show the same: entities (and those to come), registered types, views with their order, queries. -/
structure SameSight (w w' : World V) : Prop where
  entities : w'.entities = w.entities
  registered : ∀ t, w'.isRegistered t = w.isRegistered t
  views : ∀ t, w'.borrow t = w.borrow t
  all : ∀ held g i x, seeAll w' held g i x = seeAll w held g i x
  one : ∀ held g i x e, seeOne w' held g i x e = seeOne w held g i x e

end Sparsey
