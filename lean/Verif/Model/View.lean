import Verif.Model.Query

/-!
Model of `src/component/view.rs` and of the functions of `World` and `QueryOne` that are shortcuts for a view or query.
A view is the set that it borrows (`borrowSet`, Query.lean; `World.borrow`, World.lean).
-/

set_option autoImplicit false

namespace Sparsey
variable {V : Type}

namespace CompSet

/-- src/component/view.rs:78-80 `get` is `CompSet.get`. This is src/component/view.rs:129-131 `Index::index`: `unwrap`. -/
def index (s : CompSet V) (e : Entity) : Res V := do
  let r ← s.get e
  Res.checked r

/-- src/component/view.rs:96-98 `is_empty` (src/component/component_sparse_set.rs:201-203). `contains` (84-86) and `len`
(90-92) are `CompSet.contains` and `CompSet.len`; `entities` (102-104) is the field (component_sparse_set.rs:162-164). -/
def isEmpty (s : CompSet V) : Bool := s.len == 0

/-- src/component/view.rs:108-110 `as_slice` (src/component/component_sparse_set.rs:168-173): a slice of `len` components
made from the raw pointer. -/
def asSlice (s : CompSet V) : Res (List V) :=
  if s.len ≤ s.components.length then .ok (s.components.take s.len) else .ub

end CompSet

namespace World

/-- src/world/mod.rs:272-277 `World::borrow_mut`, then src/component/view.rs:65-67 `IndexMut::index_mut` and a write of `v`
through the reference: `view[e] = v`. -/
def writeIndex (w : World V) (t : TypeId) (e : Entity) (v : V) : Res (World V) := do
  let (found, w') ← w.writeView t e v
  if found then pure w' else .panic

/-- src/world/mod.rs:200-206 `World::contains`; `h` are the borrows held before. -/
def contains (w : World V) (h : Borrows) (g : Query) (e : Entity) : Res Bool := do
  let (q, _) ← QueryOne.new w h g [] []
  pure (q.contains e)

/-- src/world/mod.rs:209-214 `World::for_each`: the items that the closure is called with, in order. -/
def forEach (w : World V) (h : Borrows) (g : Query) : Res (List (Item V)) := do
  let (q, _) ← QueryAll.new w h g [] []
  q.items

end World

/-- src/query/query_one.rs:107-112 `QueryOne::map`. -/
def QueryOne.mapItem {α : Type} (q : QueryOne V) (e : Entity) (f : Item V → α) : Res (Option α) := do
  let r ← q.getItem e
  pure (r.map f)

/-- src/query/iter/mod.rs:32-34 `Iter::is_sparse`. -/
def Iter.isSparse : Iter V → Bool
  | .sparse _ => true
  | .dense _ => false

end Sparsey
