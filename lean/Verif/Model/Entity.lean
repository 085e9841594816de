import Verif.Model.Basic

/-!
Model of `src/entity/`: entities, versions, sparse vectors, the entity sparse set, the allocator
and the entity storage.
-/

set_option autoImplicit false

namespace Sparsey

/-- `2^32`, the number of `u32` values (src/entity/entity_allocator.rs:21, 97). -/
def u32Size : Nat := 4294967296

/-- `as u32` (truncating cast) (src/entity/entity_allocator.rs:65, src/entity/entity_sparse_set.rs:24). -/
def asU32 (n : Nat) : Nat := n % u32Size

/-- src/entity/mod.rs:22-28 and 84. `index : u32` and `version : NonZeroU32` are natural numbers here;
that handed out entities stay in range is a theorem (C10). -/
structure Entity where
  index : Nat
  version : Nat
deriving DecidableEq, Repr

/-- src/entity/mod.rs:88 `Version::FIRST`. -/
def Version.first : Nat := 1

/-- src/entity/mod.rs:91 `Version::LAST`. -/
def Version.last : Nat := u32Size - 1

/-- src/entity/mod.rs:96-101 `Version::next` (`NonZeroU32::checked_add(1)`). -/
def Version.next (v : Nat) : Option Nat :=
  if v + 1 < u32Size then some (v + 1) else none

/-- src/entity/mod.rs:42-47 `Entity::with_index`. -/
def Entity.withIndex (index : Nat) : Entity := ⟨index, Version.first⟩

/-- src/entity/mod.rs:52-54 `Entity::sparse`. -/
def Entity.sparse (e : Entity) : Nat := e.index

/-- src/entity/mod.rs:64-71 `Ord for Entity`: version first, then index. -/
def Entity.cmp (a b : Entity) : Ordering :=
  (compare a.version b.version).then (compare a.index b.index)

/-! ### `SparseVec` (src/entity/sparse_vec.rs) -/

/-- src/entity/sparse_vec.rs:142-148 `SparseVecSlot`. -/
structure Slot where
  index : Nat
  version : Nat
deriving DecidableEq, Repr

/-- src/entity/sparse_vec.rs:7-9 `SparseVec`. -/
structure SparseVec where
  slots : List (Option Slot)
deriving DecidableEq, Repr

namespace SparseVec

/-- src/entity/sparse_vec.rs:15-17 `SparseVec::new`. -/
def new : SparseVec := ⟨[]⟩

/-- src/entity/sparse_vec.rs:22-27 `SparseVec::get`. -/
def get (s : SparseVec) (e : Entity) : Option Nat :=
  match s.slots[e.sparse]? with
  | none => none
  | some slot => (slot.filter (fun sl => sl.version == e.version)).map (·.index)

/-- src/entity/sparse_vec.rs:32-37 `SparseVec::contains`. -/
def contains (s : SparseVec) (e : Entity) : Bool :=
  match s.slots[e.sparse]? with
  | some (some sl) => sl.version == e.version
  | _ => false

/-- src/entity/sparse_vec.rs:43-48 `SparseVec::remove` (`take_if` empties the slot when the version
matches). -/
def remove (s : SparseVec) (e : Entity) : Option Nat × SparseVec :=
  match s.slots[e.sparse]? with
  | some (some sl) =>
    if sl.version == e.version then (some sl.index, ⟨s.slots.set e.sparse none⟩) else (none, s)
  | _ => (none, s)

/-- src/entity/sparse_vec.rs:53-55 `SparseVec::get_sparse`. -/
def getSparse (s : SparseVec) (i : Nat) : Option Nat :=
  match s.slots[i]? with
  | none => none
  | some slot => slot.map (·.index)

/-- src/entity/sparse_vec.rs:61-63 `SparseVec::get_sparse_unchecked`. -/
def getSparseUnchecked (s : SparseVec) (i : Nat) : Res Nat :=
  match s.slots[i]? with
  | some (some sl) => .ok sl.index
  | _ => .ub

/-- src/entity/sparse_vec.rs:68-70 `SparseVec::contains_sparse`. -/
def containsSparse (s : SparseVec) (i : Nat) : Bool :=
  match s.slots[i]? with
  | some (some _) => true
  | _ => false

/-- src/entity/sparse_vec.rs:76-78 `SparseVec::remove_sparse`. -/
def removeSparse (s : SparseVec) (i : Nat) : Option Slot × SparseVec :=
  match s.slots[i]? with
  | some (some sl) => (some sl, ⟨s.slots.set i none⟩)
  | _ => (none, s)

/-- Write through src/entity/sparse_vec.rs:83-85 `SparseVec::get_unchecked_mut`. -/
def setUnchecked (s : SparseVec) (i : Nat) (slot : Option Slot) : Res SparseVec :=
  if i < s.slots.length then .ok ⟨s.slots.set i slot⟩ else .ub

/-- `usize::checked_next_power_of_two` (64-bit), as in `core`: `1` for `n ≤ 1`, otherwise
`(MAX >> (n-1).leading_zeros()) + 1`, `None` on overflow (used in src/entity/sparse_vec.rs:118). -/
def checkedNextPowerOfTwo (n : Nat) : Option Nat :=
  if n ≤ 1 then some 1
  else if n ≤ 2 ^ 63 then some (2 ^ (Nat.log2 (n - 1) + 1))
  else none

/-- src/entity/sparse_vec.rs:117-120 `SparseVec::extend_to_index`. The subtraction is on `usize`;
C40 shows that it never underflows. -/
def extendToIndex (s : SparseVec) (index : Nat) : SparseVec :=
  let extraLen := (checkedNextPowerOfTwo index).getD index - s.slots.length + 1
  ⟨s.slots ++ List.replicate extraLen none⟩

/-- src/entity/sparse_vec.rs:89-95 `SparseVec::get_mut_or_allocate_at`: grow if necessary; the caller then
uses the slot at `index` of the result. -/
def allocateAt (s : SparseVec) (index : Nat) : SparseVec :=
  if s.slots.length ≤ index then s.extendToIndex index else s

/-- src/entity/sparse_vec.rs:100-108 `SparseVec::swap_nonoverlapping`. -/
def swapNonoverlapping (s : SparseVec) (a b : Nat) : Res SparseVec :=
  match s.slots[a]?, s.slots[b]? with
  | some x, some y => if a = b then .ub else .ok ⟨(s.slots.set a y).set b x⟩
  | _, _ => .ub

/-- src/entity/sparse_vec.rs:112-114 `SparseVec::clear`. -/
def clear (_s : SparseVec) : SparseVec := ⟨[]⟩

end SparseVec

/-! ### `EntitySparseSet` (src/entity/entity_sparse_set.rs) -/

/-- `Vec::swap_remove` on an index that is in bounds: the last element moves into the hole.
(used in src/entity/entity_sparse_set.rs:40) -/
def swapRemove {α : Type} (l : List α) (i : Nat) : List α :=
  match l.getLast? with
  | none => l
  | some x => (l.set i x).dropLast

/-- src/entity/entity_sparse_set.rs:6-9. -/
structure EntitySparseSet where
  sparse : SparseVec
  entities : List Entity
deriving DecidableEq, Repr

namespace EntitySparseSet

/-- `Default` (src/entity/entity_sparse_set.rs:5). -/
def empty : EntitySparseSet := ⟨SparseVec.new, []⟩

/-- src/entity/entity_sparse_set.rs:12-32 `insert`. In the occupied case the dense entity is replaced but
the slot, including its version, is left as it is. -/
def insert (s : EntitySparseSet) (e : Entity) : Res (Option Entity × EntitySparseSet) := do
  let sparse := s.sparse.allocateAt e.sparse
  let slot ← Res.unchecked (sparse.slots[e.sparse]?)
  match slot with
  | some sl =>
    let old ← Res.unchecked (s.entities[sl.index]?)
    pure (some old, ⟨sparse, s.entities.set sl.index e⟩)
  | none =>
    let sparse ← sparse.setUnchecked e.sparse (some ⟨asU32 s.entities.length, e.version⟩)
    pure (none, ⟨sparse, s.entities ++ [e]⟩)

/-- src/entity/entity_sparse_set.rs:34-52 `remove` (`Vec::swap_remove` panics when out of bounds). -/
def remove (s : EntitySparseSet) (e : Entity) : Res (Bool × EntitySparseSet) :=
  match s.sparse.remove e with
  | (none, _) => .ok (false, s)
  | (some dense, sparse) => do
    Res.assert (dense < s.entities.length)
    let entities := swapRemove s.entities dense
    match entities[dense]? with
    | some moved =>
      let sparse ← sparse.setUnchecked moved.sparse (some ⟨dense, moved.version⟩)
      pure (true, ⟨sparse, entities⟩)
    | none => pure (true, ⟨sparse, entities⟩)

/-- src/entity/entity_sparse_set.rs:56-58 `contains`. -/
def contains (s : EntitySparseSet) (e : Entity) : Bool := s.sparse.contains e

/-- src/entity/entity_sparse_set.rs:79-82 `clear`. -/
def clear (s : EntitySparseSet) : EntitySparseSet := ⟨s.sparse.clear, []⟩

end EntitySparseSet

/-! ### `EntityAllocator` (src/entity/entity_allocator.rs) -/

/-- src/entity/entity_allocator.rs:6-11. The atomics are plain numbers here: these functions run with
`&mut self`, or (for `allocateAtomic`) as one uninterrupted call; interleavings are in
`Verif/Model/Atomic.lean`. `recycled` is the deque from front to back. -/
structure EntityAllocator where
  nextIndexToAllocate : Nat
  lastMaintainedIndex : Nat
  recycled : List Entity
  recycledSinceMaintain : Nat
deriving DecidableEq, Repr

namespace EntityAllocator

/-- `Default` (src/entity/entity_allocator.rs:5). -/
def empty : EntityAllocator := ⟨0, 0, [], 0⟩

/-- src/entity/entity_allocator.rs:15-27 `allocate`. -/
def allocate (a : EntityAllocator) : Res (Option Entity × EntityAllocator) :=
  if a.recycledSinceMaintain < a.recycled.length then do
    let e ← Res.checked (a.recycled[a.recycled.length - a.recycledSinceMaintain - 1]?)
    pure (some e, { a with recycledSinceMaintain := a.recycledSinceMaintain + 1 })
  else if a.nextIndexToAllocate < u32Size then
    .ok (some (Entity.withIndex a.nextIndexToAllocate),
      { a with nextIndexToAllocate := a.nextIndexToAllocate + 1 })
  else
    .ok (none, a)

/-- src/entity/entity_allocator.rs:75-92 `increment_recycled_since_maintain`, run without interference
(the first compare-exchange succeeds). -/
def incrementRecycledSinceMaintain (a : EntityAllocator) : Option Nat × EntityAllocator :=
  if a.recycledSinceMaintain < a.recycled.length then
    (some a.recycledSinceMaintain, { a with recycledSinceMaintain := a.recycledSinceMaintain + 1 })
  else (none, a)

/-- src/entity/entity_allocator.rs:94-110 `increment_next_index_to_allocate`, run without interference. -/
def incrementNextIndexToAllocate (a : EntityAllocator) : Option Nat × EntityAllocator :=
  if a.nextIndexToAllocate < u32Size then
    (some a.nextIndexToAllocate, { a with nextIndexToAllocate := a.nextIndexToAllocate + 1 })
  else (none, a)

/-- src/entity/entity_allocator.rs:30-40 `allocate_atomic`, run without interference. -/
def allocateAtomic (a : EntityAllocator) : Res (Option Entity × EntityAllocator) :=
  match a.incrementRecycledSinceMaintain with
  | (some r, a') => do
    let e ← Res.checked (a.recycled[a.recycled.length - r - 1]?)
    pure (some e, a')
  | (none, a') =>
    match a'.incrementNextIndexToAllocate with
    | (some i, a'') => .ok (some (Entity.withIndex i), a'')
    | (none, a'') => .ok (none, a'')

/-- src/entity/entity_allocator.rs:42-47 `recycle`. -/
def recycle (a : EntityAllocator) (e : Entity) : EntityAllocator :=
  match Version.next e.version with
  | some v => { a with recycled := ⟨e.index, v⟩ :: a.recycled }
  | none => a

/-- src/entity/entity_allocator.rs:49-66 `maintain`: the drained entities in iteration order, and the new
allocator. The subtraction `len - recycled_since_maintain` and the drain range panic when out of order. -/
def maintain (a : EntityAllocator) : Res (List Entity × EntityAllocator) := do
  Res.assert (a.recycledSinceMaintain ≤ a.recycled.length)
  let start := a.recycled.length - a.recycledSinceMaintain
  let newIndexes := List.range' a.lastMaintainedIndex (a.nextIndexToAllocate - a.lastMaintainedIndex)
  pure (a.recycled.drop start ++ newIndexes.map (fun i => Entity.withIndex (asU32 i)),
    { nextIndexToAllocate := a.nextIndexToAllocate
      lastMaintainedIndex := a.nextIndexToAllocate
      recycled := a.recycled.take start
      recycledSinceMaintain := 0 })

/-- src/entity/entity_allocator.rs:68-73 `reset`. -/
def reset (_a : EntityAllocator) : EntityAllocator := ⟨0, 0, [], 0⟩

end EntityAllocator

/-! ### `EntityStorage` (src/entity/entity_storage.rs) -/

/-- src/entity/entity_storage.rs:4-7. -/
structure EntityStorage where
  allocator : EntityAllocator
  entities : EntitySparseSet
deriving DecidableEq, Repr

namespace EntityStorage

/-- `Default` (src/entity/entity_storage.rs:3). -/
def empty : EntityStorage := ⟨EntityAllocator.empty, EntitySparseSet.empty⟩

/-- src/entity/entity_storage.rs:11-19 `create` (`expect` panics; nothing is modified in that case). -/
def create (s : EntityStorage) : Res (Entity × EntityStorage) := do
  let (e?, allocator) ← s.allocator.allocate
  let e ← Res.checked e?
  let (_, entities) ← s.entities.insert e
  pure (e, ⟨allocator, entities⟩)

/-- src/entity/entity_storage.rs:22-26 `create_atomic`. -/
def createAtomic (s : EntityStorage) : Res (Entity × EntityStorage) := do
  let (e?, allocator) ← s.allocator.allocateAtomic
  let e ← Res.checked e?
  pure (e, { s with allocator })

/-- The `for_each` of src/entity/entity_storage.rs:29-31. -/
def insertAll (s : EntitySparseSet) : List Entity → Res EntitySparseSet
  | [] => .ok s
  | e :: es => do
    let (_, s) ← s.insert e
    insertAll s es

/-- src/entity/entity_storage.rs:28-32 `maintain`. -/
def maintain (s : EntityStorage) : Res EntityStorage := do
  let (es, allocator) ← s.allocator.maintain
  let entities ← insertAll s.entities es
  pure ⟨allocator, entities⟩

/-- src/entity/entity_storage.rs:35-37 `contains`. -/
def contains (s : EntityStorage) (e : Entity) : Bool := s.entities.contains e

/-- src/entity/entity_storage.rs:40-42 `len`. -/
def len (s : EntityStorage) : Nat := s.entities.entities.length

/-- src/entity/entity_storage.rs:45-47 `is_empty`. -/
def isEmpty (s : EntityStorage) : Bool := s.entities.entities.isEmpty

/-- src/entity/entity_storage.rs:50-52 `as_slice`. -/
def asSlice (s : EntityStorage) : List Entity := s.entities.entities

/-- src/entity/entity_storage.rs:54-61 `remove`. -/
def remove (s : EntityStorage) (e : Entity) : Res (Bool × EntityStorage) := do
  let (removed, entities) ← s.entities.remove e
  if removed then pure (true, ⟨s.allocator.recycle e, entities⟩)
  else pure (false, ⟨s.allocator, entities⟩)

/-- src/entity/entity_storage.rs:63-66 `clear`: the iterator returned by `maintain` is dropped at once, which
still removes the drained range. -/
def clear (s : EntityStorage) : Res EntityStorage := do
  let (_, allocator) ← s.allocator.maintain
  pure ⟨allocator, s.entities.clear⟩

/-- src/entity/entity_storage.rs:68-71 `reset`. -/
def reset (s : EntityStorage) : EntityStorage := ⟨s.allocator.reset, s.entities.clear⟩

end EntityStorage
end Sparsey
