import Verif.Model.World

/-!
What `fmt::Debug` prints: the entries given to the formatter. How they are written is up to `core`.
-/

set_option autoImplicit false

namespace Sparsey
variable {V : Type}

/-- src/entity/sparse_vec.rs:123-137 `Debug for SparseVec`: the entries of the map that is printed. -/
def SparseVec.debugEntries (s : SparseVec) : List (Entity × Nat) :=
  s.slots.zipIdx.filterMap fun (slot, i) => slot.map fun sl => (⟨asU32 i, sl.version⟩, sl.index)

/-- src/entity/entity_sparse_set.rs:85-89 `Debug for EntitySparseSet`: the elements of the set that is printed. -/
def EntitySparseSet.debugEntries (s : EntitySparseSet) : List Entity := s.entities

/-- src/component/component_sparse_set.rs:362-368 `Debug for ComponentSparseSet`: the field `entities` that is printed. -/
def CompSet.debugEntries (s : CompSet V) : List Entity := s.entities

/-- src/component/view.rs:134-142 `Debug for View` and `ViewMut`: the entries of the map that is printed. -/
def World.viewDebug (w : World V) (t : TypeId) : Res (List (Entity × V)) := do
  let s ← w.borrow t
  pure (s.entities.zip s.components)

end Sparsey
