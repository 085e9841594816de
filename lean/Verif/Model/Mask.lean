import Verif.Model.Basic

/-!
Model of `src/component/group_mask.rs` and `src/component/storage_mask.rs`.
-/

set_option autoImplicit false

namespace Sparsey

/-- src/component/group_layout.rs:7 `MIN_GROUP_ARITY`. -/
def minGroupArity : Nat := 2
/-- src/component/group_layout.rs:10 `MAX_GROUP_ARITY`. -/
def maxGroupArity : Nat := 16
/-- src/component/group_layout.rs:14 `MAX_GROUP_COUNT`. -/
def maxGroupCount : Nat := 64

/-- src/component/group_mask.rs:6 `GroupMask(u64)`. -/
abbrev GroupMask := BitVec 64

/-- src/component/storage_mask.rs:5 `StorageMask(u16)`; also `NonZeroStorageMask` (storage_mask.rs:29). -/
abbrev StorageMask := BitVec 16

/-- src/component/group_mask.rs:13-19 `GroupMask::from_to`. -/
def GroupMask.fromTo (start stop : Nat) : Res GroupMask := do
  Res.assert (start < maxGroupCount)
  Res.assert (stop < maxGroupCount)
  Res.assert (start ≤ stop)
  pure (((1#64 <<< (stop - start)) - 1#64) <<< start)

/-- src/component/group_mask.rs:23-29 `GroupMask::skip_from_to`. -/
def GroupMask.skipFromTo (start stop : Nat) : Res GroupMask := do
  Res.assert (start < maxGroupCount)
  Res.assert (stop < maxGroupCount)
  Res.assert (start ≤ stop)
  pure (~~~ (((1#64 <<< (stop - start)) - 1#64) <<< start))

/-- src/component/storage_mask.rs:12-18 `StorageMask::from_to`. -/
def StorageMask.fromTo (start stop : Nat) : Res StorageMask := do
  Res.assert (start < maxGroupArity)
  Res.assert (stop < maxGroupArity)
  Res.assert (start ≤ stop)
  pure (((1#16 <<< (stop - start)) - 1#16) <<< start)

/-- src/component/storage_mask.rs:34-37 `NonZeroStorageMask::single`. -/
def StorageMask.single (index : Nat) : Res StorageMask := do
  Res.assert (index < maxGroupArity)
  let m := 1#16 <<< index
  Res.assert (m != 0#16)
  pure m

/-- src/component/group_mask.rs:77-80 `QueryMask`. -/
structure QueryMask where
  includeMask : StorageMask
  excludeMask : StorageMask
deriving DecidableEq, Repr

/-- src/component/group_mask.rs:85-90 `QueryMask::include`. -/
def QueryMask.include (arity : Nat) : Res QueryMask := do
  let m ← StorageMask.fromTo 0 arity
  pure ⟨m, 0#16⟩

/-- src/component/group_mask.rs:94-99 `QueryMask::exclude`. -/
def QueryMask.exclude (prevArity arity : Nat) : Res QueryMask := do
  let i ← StorageMask.fromTo 0 prevArity
  let e ← StorageMask.fromTo prevArity arity
  pure ⟨i, e⟩

/-- `u64::trailing_zeros` (64 for zero) (used in src/component/group_mask.rs:115). -/
def trailingZeros (m : BitVec 64) : Nat :=
  ((List.range 64).find? (fun i => m.getLsbD i)).getD 64

/-- `u64::leading_zeros` (64 for zero) (used in src/component/group_mask.rs:128). -/
def leadingZeros (m : BitVec 64) : Nat :=
  ((List.range 64).find? (fun i => m.getLsbD (63 - i))).getD 64

/-- src/component/group_mask.rs:110-118 `BitIndexIter::next`. -/
def bitNext (m : BitVec 64) : Option (Nat × BitVec 64) :=
  if m = 0#64 then none
  else
    let i := trailingZeros m
    some (i, m &&& ~~~ (1#64 <<< i))

/-- src/component/group_mask.rs:123-131 `BitIndexIter::next_back`. -/
def bitNextBack (m : BitVec 64) : Option (Nat × BitVec 64) :=
  if m = 0#64 then none
  else
    let i := 63 - leadingZeros m
    some (i, m &&& ~~~ (1#64 <<< i))

end Sparsey
