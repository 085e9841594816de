import Verif.Model.History

/-!
Model of concurrent `create_atomic` calls (src/entity/entity_allocator.rs:30-40, 75-110): any number of calls on a shared
world, step by step.

All atomic operations of the code are `Relaxed`. A location is modelled by its modification order, the list of all values
it has had since the calls began. A load, and the load of a failed `compare_exchange_weak`, may return *any* of these
values (C++/Rust memory model: coherence would allow fewer, no order between the two locations is assumed). A successful
`compare_exchange_weak` reads the last value of the modification order and appends to it; it may fail although the value
is the expected one.

While calls run on `&World`, nothing else changes the allocator: `recycled` is constant, all other functions that change
it take `&mut self`.
-/

set_option autoImplicit false

namespace Sparsey

/-- Where a running `allocate_atomic` call is (src/entity/entity_allocator.rs:29-40, 75-110). -/
inductive AtomicPc where
  /-- before the load of `recycled_since_maintain` (src/entity/entity_allocator.rs:77) -/
  | start
  /-- at the loop condition of `increment_recycled_since_maintain` (79), with `prev` -/
  | recLoop (prev : Nat)
  /-- before the load of `next_index_to_allocate` (95) -/
  | nextStart
  /-- at the loop condition of `increment_next_index_to_allocate` (97), with `prev` -/
  | nextLoop (prev : Nat)
  /-- `allocate_atomic` returned -/
  | done (r : Option Entity)
  /-- `allocate_atomic` panicked: `self.recycled[..]` (33) out of bounds -/
  | failed
deriving DecidableEq, Repr

/-- The two atomics (src/entity/entity_allocator.rs:7, 10): their modification orders, oldest value first. -/
structure AtomicMem where
  since : List Nat
  next : List Nat
deriving DecidableEq, Repr

/-- One step of an `allocate_atomic` call; `recycled` is the deque (src/entity/entity_allocator.rs:29-40, 75-110). -/
inductive AtomicStep (recycled : List Entity) : AtomicMem × AtomicPc → AtomicMem × AtomicPc → Prop where
  /-- src/entity/entity_allocator.rs:77 -/
  | loadSince {m : AtomicMem} {v : Nat} : v ∈ m.since → AtomicStep recycled (m, .start) (m, .recLoop v)
  /-- 79-86 and 33: success; the element of the immutable deque is read in the same step -/
  | casSince {m : AtomicMem} {prev : Nat} : prev < recycled.length → m.since.getLast? = some prev →
      AtomicStep recycled (m, .recLoop prev)
        ({ m with since := m.since ++ [prev + 1] },
          match recycled[recycled.length - prev - 1]? with
          | some e => .done (some e)
          | none => .failed)
  /-- 79-85, 87: failure, with or without reason -/
  | casSinceFail {m : AtomicMem} {prev v : Nat} : prev < recycled.length → v ∈ m.since →
      AtomicStep recycled (m, .recLoop prev) (m, .recLoop v)
  /-- 79, 91, 35-38: nothing to recycle -/
  | noSince {m : AtomicMem} {prev : Nat} : ¬ prev < recycled.length →
      AtomicStep recycled (m, .recLoop prev) (m, .nextStart)
  /-- 95 -/
  | loadNext {m : AtomicMem} {v : Nat} : v ∈ m.next → AtomicStep recycled (m, .nextStart) (m, .nextLoop v)
  /-- 97-104 and 37: success -/
  | casNext {m : AtomicMem} {prev : Nat} : prev < u32Size → m.next.getLast? = some prev →
      AtomicStep recycled (m, .nextLoop prev)
        ({ m with next := m.next ++ [prev + 1] }, .done (some (Entity.withIndex prev)))
  /-- 97-103, 105: failure, with or without reason -/
  | casNextFail {m : AtomicMem} {prev v : Nat} : prev < u32Size → v ∈ m.next →
      AtomicStep recycled (m, .nextLoop prev) (m, .nextLoop v)
  /-- 97, 109: no index left -/
  | noNext {m : AtomicMem} {prev : Nat} : ¬ prev < u32Size →
      AtomicStep recycled (m, .nextLoop prev) (m, .done none)

/-- The calls running on a shared allocator; call `i` is at `pc i` (src/entity/entity_allocator.rs:6-11). -/
structure AtomicConf where
  mem : AtomicMem
  pc : Nat → AtomicPc

/-- The calls begin (src/entity/entity_allocator.rs:30-31). -/
def AtomicConf.init (a : EntityAllocator) : AtomicConf :=
  ⟨⟨[a.recycledSinceMaintain], [a.nextIndexToAllocate]⟩, fun _ => .start⟩

/-- The returned value, if the step to this place is the end of a call (src/entity/entity_allocator.rs:31-39). -/
def AtomicPc.result : AtomicPc → Option (Option Entity)
  | .done r => some r
  | _ => none

/-- `AtomicRun recycled c tr c'`: an interleaving leads from `c` to `c'`; the calls `tr` returned, in this order, each
with its result (`None` is turned into a panic by `create_atomic`, src/entity/entity_storage.rs:22-26). -/
inductive AtomicRun (recycled : List Entity) (c : AtomicConf) : List (Nat × Option Entity) → AtomicConf → Prop where
  | nil : AtomicRun recycled c [] c
  | snoc {tr : List (Nat × Option Entity)} {c' : AtomicConf} {i : Nat} {m : AtomicMem} {p : AtomicPc} :
      AtomicRun recycled c tr c' → AtomicStep recycled (c'.mem, c'.pc i) (m, p) →
      AtomicRun recycled c (tr ++ (p.result.map fun r => (i, r)).toList)
        ⟨m, fun j => if j = i then p else c'.pc j⟩

end Sparsey
