import Verif.Model.CompSet

/-!
Model of `src/component/component_sparse_set.rs` at the level of its memory: one heap block with room for `cap` entities
and `cap` components, of which the first `len` are in use; growth, moves, destructor calls that may panic, and
deallocation. `CompSet.lean` models the same functions by their contents only; `Proofs/RawSet.lean` relates the two.

A cell is `none` as long as it is uninitialised. A value that is moved out of a cell or dropped in place leaves its bits
behind, so the cell keeps it; whether a value has already been dropped can be seen in the log.
-/

set_option autoImplicit false

namespace Sparsey
variable {V : Type}

/-! ### Memory layout -/

/-- `usize::MAX` (64 bit) (used in src/component/component_sparse_set.rs:228-249). -/
def usizeMax : Nat := 2 ^ 64 - 1

/-- `isize::MAX` (64 bit) (used by `Layout`, src/component/component_sparse_set.rs:331-342). -/
def isizeMax : Nat := 2 ^ 63 - 1

/-- Size and alignment of a type or block (`core::alloc::Layout`) (src/component/component_sparse_set.rs:331-342). -/
structure MemLayout where
  size : Nat
  align : Nat
deriving DecidableEq, Repr

namespace MemLayout

/-- src/entity/mod.rs:20-28: `Entity` is `repr(align(8))` on 64 bit and holds two `u32`. -/
def entity : MemLayout := ⟨8, 8⟩

/-- `Layout::max_size_for_align` of `core` (used by src/component/component_sparse_set.rs:333-334). -/
def maxSize (align : Nat) : Nat := isizeMax + 1 - align

/-- `Layout::array` of `core` for elements with the given layout (src/component/component_sparse_set.rs:333-334). -/
def array (t : MemLayout) (n : Nat) : Option MemLayout :=
  if t.size * n ≤ maxSize t.align then some ⟨t.size * n, t.align⟩ else none

/-- Rounds up to a multiple of `align` (`Layout::size_rounded_up_to_custom_align` of `core`; alignments are powers of
two, so its bit operations compute this) (used by src/component/component_sparse_set.rs:335). -/
def roundUp (size align : Nat) : Nat := (size + align - 1) / align * align

/-- `Layout::extend` of `core`: the layout of both parts and the offset of the second.
(src/component/component_sparse_set.rs:335) -/
def extend (a b : MemLayout) : Option (MemLayout × Nat) :=
  let align := max a.align b.align
  let offset := roundUp a.size b.align
  if offset + b.size ≤ maxSize align then some (⟨offset + b.size, align⟩, offset) else none

end MemLayout

/-- src/component/component_sparse_set.rs:331-342 `compute_layout`; `none` stands for the panic of line 340. -/
def computeLayout (ty : MemLayout) (cap : Nat) : Option (MemLayout × Nat) :=
  match MemLayout.entity.array cap, ty.array cap with
  | some es, some cs => es.extend cs
  | _, _ => none

/-! ### Cells -/

/-- Reads an initialised cell; anything else is undefined behaviour (src/component/component_sparse_set.rs:88, 275-294). -/
def readCell {α : Type} (l : List (Option α)) (i : Nat) : Res α :=
  match l[i]? with
  | some (some a) => .ok a
  | _ => .ub

/-- `ptr::write` to a cell of the block (src/component/component_sparse_set.rs:57-58). -/
def writeCell {α : Type} (l : List (Option α)) (i : Nat) (a : α) : Res (List (Option α)) :=
  if i < l.length then .ok (l.set i (some a)) else .ub

/-- `ptr::copy_to` of one cell (src/component/component_sparse_set.rs:89, 118). -/
def copyCell {α : Type} (l : List (Option α)) (src dst : Nat) : Res (List (Option α)) :=
  match l[src]? with
  | some c => if dst < l.length then .ok (l.set dst c) else .ub
  | none => .ub

/-! ### The set -/

/-- What the functions do to the world outside (src/component/component_sparse_set.rs:228-329). -/
inductive Effect (V : Type) where
  /-- A destructor is called. -/
  | dropped (v : V)
  /-- `alloc::alloc` -/
  | alloc (block : MemLayout)
  /-- `alloc::dealloc` -/
  | dealloc (block : MemLayout)
deriving DecidableEq, Repr

/-- src/component/component_sparse_set.rs:7-14. The two pointers are the cells they point to; `log` is a ghost field, the
effects so far. The vtable (370-392) is the component type, see the parameters of the functions. -/
structure RawSet (V : Type) where
  sparse : SparseVec
  entities : List (Option Entity)
  components : List (Option V)
  len : Nat
  cap : Nat
  log : List (Effect V)
deriving DecidableEq, Repr

namespace RawSet

/-- src/component/component_sparse_set.rs:18-30 `new`. -/
def new : RawSet V := ⟨SparseVec.new, [], [], 0, 0, []⟩

/-- src/component/component_sparse_set.rs:226-273 `grow_typed`. Lines 237-239: `assert_ne` and saturating addition;
`compute_layout` can panic for the new capacity (242) and, formally, for the old one (263). A failing allocation ends the
process (244-246, not modelled). -/
def grow (ty : MemLayout) (s : RawSet V) : Outcome (RawSet V) Unit :=
  let newCap := if s.cap = 0 then 4 else min (s.cap + s.cap) usizeMax
  if newCap = s.cap then .panic s
  else
    match computeLayout ty newCap with
    | none => .panic s
    | some (block, _) =>
      let s₁ := { s with log := s.log ++ [.alloc block] }
      if s.entities.length < s.len ∨ s.components.length < s.len then .ub
      else
        let s₂ (log : List (Effect V)) : RawSet V :=
          { s₁ with
            entities := s.entities.take s.len ++ List.replicate (newCap - s.len) none
            components := s.components.take s.len ++ List.replicate (newCap - s.len) none
            cap := newCap
            log := s₁.log ++ log }
        if s.cap = 0 then .ok () (s₂ [])
        else
          match computeLayout ty s.cap with
          | none => .panic s₁
          | some (old, _) => .ok () (s₂ [.dealloc old])

/-- src/component/component_sparse_set.rs:32-64 `insert`. In the vacant case the slot is written (47-50) before the block
grows (52-54). -/
def insert (ty : MemLayout) (s : RawSet V) (e : Entity) (v : V) : Outcome (RawSet V) (Option V) :=
  let s := { s with sparse := s.sparse.allocateAt e.sparse }
  Outcome.ofRes s (Res.unchecked (s.sparse.slots[e.sparse]?)) fun slot =>
  match slot with
  | some sl =>
    Outcome.ofRes s (readCell s.entities sl.index) fun _ =>
    Outcome.ofRes s (writeCell s.entities sl.index e) fun entities =>
    Outcome.ofRes s (readCell s.components sl.index) fun old =>
    Outcome.ofRes s (writeCell s.components sl.index v) fun components =>
    .ok (some old) { s with entities, components }
  | none =>
    Outcome.ofRes s (s.sparse.setUnchecked e.sparse (some ⟨asU32 s.len, e.version⟩)) fun sparse =>
    let s := { s with sparse }
    (if s.len = s.cap then grow ty s else .ok () s).bind fun _ s =>
    Outcome.ofRes s (writeCell s.entities s.len e) fun entities =>
    Outcome.ofRes s (writeCell s.components s.len v) fun components =>
    .ok none { s with entities, components, len := s.len + 1 }

/-- src/component/component_sparse_set.rs:71-82 and 97-110, common to `remove` and `delete`: the sparse slot is already
empty; the entity in the last position moves to `index`. -/
def unlink (s : RawSet V) (index : Nat) (sparse : SparseVec) : Res (RawSet V) :=
  if s.len = 0 then .ub
  else do
    let len := s.len - 1
    let last ← readCell s.entities len
    let _ ← readCell s.entities index
    let entities ← writeCell s.entities index last
    let sparse ←
      if index < len then sparse.setUnchecked last.sparse (some ⟨index, last.version⟩) else pure sparse
    pure { s with sparse, entities, len }

/-- src/component/component_sparse_set.rs:66-91 `remove`. -/
def remove (s : RawSet V) (e : Entity) : Outcome (RawSet V) (Option V) :=
  match s.sparse.remove e with
  | (none, _) => .ok none s
  | (some index, sparse) =>
    Outcome.ofRes s (s.unlink index sparse) fun s =>
    Outcome.ofRes s (readCell s.components index) fun component =>
    Outcome.ofRes s (copyCell s.components s.len index) fun components =>
    .ok (some component) { s with components }

/-- `drop_in_place` of a component: the destructor runs and panics if the value is a bomb.
(src/component/component_sparse_set.rs:115, 305, 320) -/
def dropAt (bomb : V → Bool) (s : RawSet V) (i : Nat) : Outcome (RawSet V) Unit :=
  Outcome.ofRes s (readCell s.components i) fun v =>
    let s := { s with log := s.log ++ [.dropped v] }
    if bomb v then .panic s else .ok () s

/-- src/component/component_sparse_set.rs:93-119 `delete`: the component is dropped in place (114) after everything but
the last component has been moved. -/
def delete (bomb : V → Bool) (s : RawSet V) (e : Entity) : Outcome (RawSet V) Unit :=
  match s.sparse.remove e with
  | (none, _) => .ok () s
  | (some index, sparse) =>
    Outcome.ofRes s (s.unlink index sparse) fun s =>
    (s.dropAt bomb index).bind fun _ s =>
    Outcome.ofRes s (copyCell s.components s.len index) fun components =>
    .ok () { s with components }

/-- src/component/component_sparse_set.rs:130-136 `get`. -/
def get (s : RawSet V) (e : Entity) : Res (Option V) :=
  match s.sparse.get e with
  | none => .ok none
  | some dense => do
    let v ← readCell s.components dense
    pure (some v)

/-- src/component/component_sparse_set.rs:140-146 `get_mut`, followed by `mem::replace` of the component. Returns the
old value. -/
def replaceMut (s : RawSet V) (e : Entity) (v : V) : Outcome (RawSet V) (Option V) :=
  match s.sparse.get e with
  | none => .ok none s
  | some dense =>
    Outcome.ofRes s (readCell s.components dense) fun old =>
    Outcome.ofRes s (writeCell s.components dense v) fun components =>
    .ok (some old) { s with components }

/-- src/component/component_sparse_set.rs:176-182 `as_mut_slice`, followed by `mem::replace` of one element. The index is
checked against the length of the slice. Returns the old value. -/
def replaceAt (s : RawSet V) (pos : Nat) (v : V) : Outcome (RawSet V) V :=
  if pos < s.len then
    Outcome.ofRes s (readCell s.components pos) fun old =>
    Outcome.ofRes s (writeCell s.components pos v) fun components =>
    .ok old { s with components }
  else .panic s

/-- src/component/component_sparse_set.rs:275-294 `swap_typed`. Equal positions are rejected by `swap_nonoverlapping`. -/
def swap (s : RawSet V) (a b : Nat) : Outcome (RawSet V) Unit :=
  Outcome.ofRes s (readCell s.entities a) fun ea =>
  Outcome.ofRes s (readCell s.entities b) fun eb =>
  Outcome.ofRes s (s.sparse.swapNonoverlapping ea.sparse eb.sparse) fun sparse =>
  Outcome.ofRes s (readCell s.components a) fun va =>
  Outcome.ofRes s (readCell s.components b) fun vb =>
  .ok () { s with
    sparse
    entities := (s.entities.set a (some eb)).set b (some ea)
    components := (s.components.set a (some vb)).set b (some va) }

/-- src/component/component_sparse_set.rs:302-308 and 317-323: the loop over the components, `n` of them left from `i`. -/
def dropFrom (bomb : V → Bool) : Nat → Nat → RawSet V → Outcome (RawSet V) Unit
  | _, 0, s => .ok () s
  | i, n + 1, s => (s.dropAt bomb i).bind fun _ s => dropFrom bomb (i + 1) n s

/-- src/component/component_sparse_set.rs:296-311 `clear_typed`: `len` is reset after the loop. (For types without
destructor the loop is skipped; their drops are drops that do nothing here.) -/
def clear (bomb : V → Bool) (s : RawSet V) : Outcome (RawSet V) Unit :=
  (dropFrom bomb 0 s.len { s with sparse := s.sparse.clear }).bind fun _ s => .ok () { s with len := 0 }

/-- src/component/component_sparse_set.rs:313-329 `drop_typed`, called by `Drop` (353-360). The set is gone afterwards;
the state that is returned only carries the log. -/
def dropAll (ty : MemLayout) (bomb : V → Bool) (s : RawSet V) : Outcome (RawSet V) Unit :=
  (dropFrom bomb 0 s.len s).bind fun _ s =>
    if s.cap = 0 then .ok () s
    else
      match computeLayout ty s.cap with
      | none => .panic s
      | some (block, _) => .ok () { s with log := s.log ++ [.dealloc block] }

end RawSet
end Sparsey
