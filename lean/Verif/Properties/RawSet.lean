import Verif.Proofs.RawSet
import Verif.Properties.Components

/-!
C36 at the level of memory: the block behind a component set.
-/

set_option autoImplicit false
set_option linter.unusedSimpArgs false

namespace Sparsey
variable {V : Type}

/-- C36, layout: `compute_layout` places the entities (8 bytes each, from offset 0) and the components (from `offset`)
disjointly, aligned and inside a block that `alloc` accepts. -/
theorem C36_layout {ty : MemLayout} {cap offset : Nat} {block : MemLayout} (ha : 0 < ty.align)
    (h : computeLayout ty cap = some (block, offset)) :
    8 * cap ≤ offset ∧ offset % ty.align = 0 ∧ offset + ty.size * cap = block.size ∧
      block.align = max 8 ty.align ∧ block.size ≤ isizeMax + 1 - block.align :=
  computeLayout_parts ha h

example : computeLayout ⟨24, 16⟩ 3 = some (⟨104, 16⟩, 32) ∧ computeLayout ⟨0, 1⟩ 4 = some (⟨32, 8⟩, 32) := by decide

/-- C36, one set: any calls on a new set that are fine by contents are fine in memory (no uninitialised, stale or foreign
cell is touched, growth included), with the same answers; the destructors called so far are those of the dropped values,
in order; dropping the set then calls the destructor of each stored value once and frees the only block. What was given is
what came back, what was dropped and what is stored. Growth beyond the largest layout panics: `hf`. -/
theorem C36_set {ops : List (SetOp V)} {ret dr : List V} {s : CompSet V} (h : SetRun ops ret dr s) (ty : MemLayout)
    (hf : ∀ n < ops.length, (computeLayout ty (nextCap n)).isSome) :
    (ops.flatMap SetOp.given).Perm (ret ++ (dr ++ s.components)) ∧
    ∃ raw, RawSet.new.acts ty (fun _ => false) ops = .ok ret raw ∧ Represents ty raw s ∧ dropsOf raw.log = dr ∧
      ∃ raw', raw.dropAll ty (fun _ => false) = .ok () raw' ∧ heapAfter [] raw'.log = some [] ∧
        dropsOf raw'.log = dr ++ s.components := by
  obtain ⟨raw, h1, h2, h3⟩ := h.raw ty (fun _ => false) (by simp) hf
  have h4 := h2.dropAll (fun _ => false)
  rw [if_neg (by simp)] at h4
  obtain ⟨raw', h5, h6, h7⟩ := h4
  exact ⟨h.ledger.2.2, raw, h1, h2, h3, raw', h5, h6, by rw [h7, h3]⟩

/-- C36 in memory: in every reachable world each set is backed by memory that a series of calls on a new set has brought
about without undefined behaviour or panic; it holds exactly the contents that the theorems about worlds speak of, and
dropping it calls the destructor of each stored component once and leaves nothing allocated. For components of at most
half a gigabyte (`C36_grow_false` shows what happens with absurdly large ones). -/
theorem C36_raw {ty : MemLayout} (ha : 0 < ty.align) (ha' : ty.align ≤ 2 ^ 29) (hs : ty.size ≤ 2 ^ 29)
    {h : History V} {w : World V} (hr : Reach World.empty h w) {s : CompSet V} (hm : s ∈ w.components.components) :
    ∃ ops ret raw, RawSet.new.acts ty (fun _ => false) ops = .ok ret raw ∧ Represents ty raw s ∧
      (ops.flatMap SetOp.given).Perm (ret ++ (dropsOf raw.log ++ s.components)) ∧
      ∃ raw', raw.dropAll ty (fun _ => false) = .ok () raw' ∧ heapAfter [] raw'.log = some [] ∧
        dropsOf raw'.log = dropsOf raw.log ++ s.components := by
  obtain ⟨ops, ret, dr, raw, h1, h2, h3, h4⟩ := reach_backed ha ha' hs hr s hm
  have h5 := h3.dropAll (fun _ => false)
  rw [if_neg (by simp)] at h5
  obtain ⟨raw', h6, h7, h8⟩ := h5
  exact ⟨ops, ret, raw, h2, h3, by rw [h4]; exact h1.ledger.2.2, raw', h6, h7, h8⟩

/-- Calls for the examples: growth from 4 to 8, replacement, removal from the middle, a swap, a write. -/
def rawOps : List (SetOp Nat) :=
  [.insert ⟨3, 1⟩ 10, .insert ⟨0, 1⟩ 11, .insert ⟨5, 2⟩ 12, .insert ⟨1, 1⟩ 13, .insert ⟨2, 7⟩ 14, .insert ⟨0, 1⟩ 15,
    .remove ⟨0, 1⟩, .delete ⟨3, 1⟩, .swap 0 2, .replace ⟨2, 7⟩ 16, .delete ⟨9, 1⟩]

/-- Non-vacuity: the calls in memory for a 12 byte component; blocks for 4 and 8. -/
example : ∃ raw : RawSet Nat, RawSet.new.acts ⟨12, 4⟩ (fun _ => false) rawOps = .ok [11, 15, 14] raw ∧ raw.cap = 8 ∧
    raw.len = 3 ∧ raw.log = [.alloc ⟨80, 8⟩, .alloc ⟨160, 8⟩, .dealloc ⟨80, 8⟩, .dropped 10] ∧
    raw.components.take 3 = [some 12, some 16, some 13] := by
  refine ⟨_, (by decide +kernel : RawSet.new.acts ⟨12, 4⟩ (fun _ => false) rawOps = .ok [11, 15, 14]
    ⟨⟨[none, some ⟨2, 2⟩, some ⟨1, 7⟩, none, none, some ⟨0, 1⟩, none, none, none]⟩,
      [some ⟨5, 2⟩, some ⟨2, 7⟩, some ⟨1, 1⟩, some ⟨1, 1⟩, some ⟨2, 7⟩, none, none, none],
      [some 12, some 16, some 13, some 13, some 14, none, none, none], 3, 8,
      [.alloc ⟨80, 8⟩, .alloc ⟨160, 8⟩, .dealloc ⟨80, 8⟩, .dropped 10]⟩), rfl, rfl, rfl, rfl⟩

/-- C36/C38, memory: `insert` writes the slot of the entity before it grows the block. When the growth panics (here: a
type for which not even 4 components fit) and the panic is caught, the slot points outside the block and a read is out
of bounds. No program can own such a component, so this is of interest only for the order of the statements. -/
theorem C36_grow_false : ∃ (ty : MemLayout) (raw : RawSet Nat), 0 < ty.align ∧ ty.size < 2 ^ 61 ∧
    RawSet.new.insert ty ⟨0, 1⟩ 7 = .panic raw ∧ raw.get ⟨0, 1⟩ = .ub :=
  ⟨⟨2 ^ 61 - 8, 8⟩, ⟨⟨[some ⟨0, 1⟩, none]⟩, [], [], 0, 0, []⟩, by decide, by decide, by decide +kernel, by decide⟩

end Sparsey
