import Verif.Spec.RawSet

/-!
Growth of the memory of a component set (C69): the capacity and the blocks allocated and freed are determined by the largest
number of components that the set ever had.
-/

set_option autoImplicit false

namespace Sparsey
variable {V : Type}

/-- The blocks allocated in a log, in order. -/
def allocsOf : List (Effect V) → List MemLayout
  | [] => []
  | .alloc b :: l => b :: allocsOf l
  | _ :: l => allocsOf l

/-- The blocks freed in a log, in order. -/
def freesOf : List (Effect V) → List MemLayout
  | [] => []
  | .dealloc b :: l => b :: freesOf l
  | _ :: l => freesOf l

/-- Calls in memory one after the other, going on after panics: the largest number of components between the calls and the set at
the end. `none` if there is undefined behaviour. -/
def RawSet.trace (ty : MemLayout) (bomb : V → Bool) (s : RawSet V) : List (SetOp V) → Option (Nat × RawSet V)
  | [] => some (s.len, s)
  | op :: ops =>
    match s.act ty bomb op with
    | .ok _ s' => (s'.trace ty bomb ops).map fun p => (max s.len p.1, p.2)
    | .panic s' => (s'.trace ty bomb ops).map fun p => (max s.len p.1, p.2)
    | .ub => none

/-- The blocks for 4, 8, 16, … entities and components of type `ty`, `k` of them. -/
def growthBlocks (ty : MemLayout) (k : Nat) : List (Option MemLayout) :=
  (List.range k).map fun i => (computeLayout ty (4 * 2 ^ i)).map Prod.fst

/-- The memory of a set that had at most `peak` components: none if there were none, else the first of 4, 8, 16, … that is enough;
all blocks up to this one have been allocated, and all but this one freed. -/
def RawSet.GrownTo (ty : MemLayout) (peak : Nat) (s : RawSet V) : Prop :=
  (peak = 0 ∧ s.cap = 0 ∧ allocsOf s.log = [] ∧ freesOf s.log = []) ∨
  ∃ k, 0 < peak ∧ s.cap = 4 * 2 ^ k ∧ peak ≤ s.cap ∧ (k = 0 ∨ s.cap < 2 * peak) ∧
    (allocsOf s.log).map some = growthBlocks ty (k + 1) ∧ (freesOf s.log).map some = growthBlocks ty k

end Sparsey
