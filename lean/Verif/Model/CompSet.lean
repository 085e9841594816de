import Verif.Model.Entity

/-!
Model of `src/component/component_sparse_set.rs` at the level of its contents. The two buffers are lists
whose common length is `len`; capacity, growth, moves and drops are modelled in `RawSet.lean`.
-/

set_option autoImplicit false

namespace Sparsey

/-- src/component/component_sparse_set.rs:7-14. `len` is the length of the lists. -/
structure CompSet (V : Type) where
  sparse : SparseVec
  entities : List Entity
  components : List V
deriving DecidableEq, Repr

namespace CompSet
variable {V : Type}

/-- src/component/component_sparse_set.rs:18-30 `new`. -/
def new : CompSet V := ⟨SparseVec.new, [], []⟩

/-- src/component/component_sparse_set.rs:32-64 `insert`. In the occupied case entity and component are
replaced, the slot (and its version) is left as it is. -/
def insert (s : CompSet V) (e : Entity) (v : V) : Res (Option V × CompSet V) := do
  let sparse := s.sparse.allocateAt e.sparse
  let slot ← Res.unchecked (sparse.slots[e.sparse]?)
  match slot with
  | some sl =>
    let _ ← Res.unchecked (s.entities[sl.index]?)
    let old ← Res.unchecked (s.components[sl.index]?)
    pure (some old, ⟨sparse, s.entities.set sl.index e, s.components.set sl.index v⟩)
  | none =>
    let sparse ← sparse.setUnchecked e.sparse (some ⟨asU32 s.entities.length, e.version⟩)
    pure (none, ⟨sparse, s.entities ++ [e], s.components ++ [v]⟩)

/-- src/component/component_sparse_set.rs:66-91 `remove`. `self.len -= 1` underflows (and the following raw
reads are out of bounds) when the set is empty. -/
def remove (s : CompSet V) (e : Entity) : Res (Option V × CompSet V) :=
  match s.sparse.remove e with
  | (none, _) => .ok (none, s)
  | (some index, sparse) => do
    let len := s.entities.length - 1
    let lastEntity ← Res.unchecked (s.entities[len]?)
    let _ ← Res.unchecked (s.entities[index]?)
    let entities := s.entities.set index lastEntity
    let sparse ←
      if index < len then sparse.setUnchecked lastEntity.sparse (some ⟨index, lastEntity.version⟩)
      else pure sparse
    let component ← Res.unchecked (s.components[index]?)
    let last ← Res.unchecked (s.components[len]?)
    let components := s.components.set index last
    pure (some component, ⟨sparse, entities.take len, components.take len⟩)

/-- src/component/component_sparse_set.rs:93-119 `delete` (the component is dropped in place instead of being
returned). -/
def delete (s : CompSet V) (e : Entity) : Res (CompSet V) :=
  match s.sparse.remove e with
  | (none, _) => .ok s
  | (some index, sparse) => do
    let len := s.entities.length - 1
    let lastEntity ← Res.unchecked (s.entities[len]?)
    let _ ← Res.unchecked (s.entities[index]?)
    let entities := s.entities.set index lastEntity
    let sparse ←
      if index < len then sparse.setUnchecked lastEntity.sparse (some ⟨index, lastEntity.version⟩)
      else pure sparse
    let _dropped ← Res.unchecked (s.components[index]?)
    let last ← Res.unchecked (s.components[len]?)
    let components := s.components.set index last
    pure ⟨sparse, entities.take len, components.take len⟩

/-- src/component/component_sparse_set.rs:130-136 `get`. -/
def get (s : CompSet V) (e : Entity) : Res (Option V) :=
  match s.sparse.get e with
  | none => .ok none
  | some dense => do
    let v ← Res.unchecked (s.components[dense]?)
    pure (some v)

/-- src/component/component_sparse_set.rs:140-146 `get_mut`, followed by a write of `v` through the returned
reference. Returns whether there was a reference to write to. -/
def setMut (s : CompSet V) (e : Entity) (v : V) : Res (Bool × CompSet V) :=
  match s.sparse.get e with
  | none => .ok (false, s)
  | some dense => do
    let _ ← Res.unchecked (s.components[dense]?)
    pure (true, { s with components := s.components.set dense v })

/-- src/component/component_sparse_set.rs:176-182 `as_mut_slice`, followed by `slice[pos] = v`. The slice has `len`
elements; the checked index of the caller panics outside. -/
def setAt (s : CompSet V) (pos : Nat) (v : V) : Res (CompSet V) := do
  let _ ← Res.checked (s.components[pos]?)
  pure { s with components := s.components.set pos v }

/-- src/component/component_sparse_set.rs:150-152 `contains`. -/
def contains (s : CompSet V) (e : Entity) : Bool := s.sparse.contains e

/-- src/component/component_sparse_set.rs:195-197 `len`. -/
def len (s : CompSet V) : Nat := s.entities.length

/-- src/component/component_sparse_set.rs:206-210 and 275-294 `swap`/`swap_typed`: swaps the sparse slots of the
two entities, the entities and the components. Out of bounds or equal positions are rejected (they are
debug-asserted and otherwise undefined behaviour).

`swap_nonoverlapping` swaps the whole slots of the two sparse indexes, i.e. dense index *and version*: if the
two entities have different versions, both slots end up with the version of the other entity. -/
def swap (s : CompSet V) (a b : Nat) : Res (CompSet V) := do
  let ea ← Res.unchecked (s.entities[a]?)
  let eb ← Res.unchecked (s.entities[b]?)
  let sparse ← s.sparse.swapNonoverlapping ea.sparse eb.sparse
  let va ← Res.unchecked (s.components[a]?)
  let vb ← Res.unchecked (s.components[b]?)
  pure ⟨sparse, (s.entities.set a eb).set b ea, (s.components.set a vb).set b va⟩

/-- src/component/component_sparse_set.rs:213-217 and 296-311 `clear`. -/
def clear (s : CompSet V) : CompSet V := ⟨s.sparse.clear, [], []⟩

end CompSet
end Sparsey
