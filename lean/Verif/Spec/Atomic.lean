import Verif.Model.Atomic

/-! What concurrent `create_atomic` calls may return, stated without the loops of the code. -/

set_option autoImplicit false

namespace Sparsey

/-- The `k`-th entity that an allocator can still hand out before the next `maintain`: first the destroyed indexes that
wait, then new indexes with version 1, then nothing. The fields are those of src/entity/entity_allocator.rs:6-11. -/
def supply (a : EntityAllocator) (k : Nat) : Option Entity :=
  let left := a.recycled.reverse.drop a.recycledSinceMaintain
  if k < left.length then left[k]?
  else
    let i := a.nextIndexToAllocate + (k - left.length)
    if i < 2 ^ 32 then some ⟨i, 1⟩ else none

/-- What the caller of `create_atomic` sees (src/entity/entity_storage.rs:21-26). -/
def atomicRet {V : Type} : Option Entity → Ret V
  | some e => .entity e
  | none => .panicked []

/-- The world after the calls (all of them) have returned: only the two atomics have changed
(src/entity/entity_allocator.rs:7, 10). -/
def World.afterAtomic {V : Type} (w : World V) (m : AtomicMem) : World V :=
  { w with entities := { w.entities with allocator :=
    { w.entities.allocator with
      recycledSinceMaintain := m.since.getLast?.getD 0
      nextIndexToAllocate := m.next.getLast?.getD 0 } } }

end Sparsey
