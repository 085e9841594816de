import Verif.Model.CompSet
import Verif.Model.Layout

/-!
Model of `src/component/group.rs`, `src/component/component_storage.rs` and `src/component/group_info.rs`.
-/

set_option autoImplicit false

namespace Sparsey
variable {V : Type}

/-- `as u8` (truncating cast) (src/component/component_storage.rs:73-74). -/
def asU8 (n : Nat) : Nat := n % 256

/-- src/component/group.rs:7-35 `Group` and `GroupMetadata`. -/
structure Group where
  storageStart : Nat
  newStorageStart : Nat
  storageEnd : Nat
  skipMask : GroupMask
  includeMask : QueryMask
  excludeMask : QueryMask
  len : Nat
deriving DecidableEq, Repr

/-- src/component/group_info.rs:84-88 `GroupInfo`. -/
structure GroupInfo where
  groupStart : Nat
  groupEnd : Nat
  storageMask : StorageMask
deriving DecidableEq, Repr

/-- src/component/component_storage.rs:317-322 `ComponentMetadata`. -/
structure ComponentMetadata where
  storageIndex : Nat
  insertMask : GroupMask
  deleteMask : GroupMask
  groupInfo : Option GroupInfo
deriving DecidableEq, Repr

/-- src/component/component_storage.rs:19-23 `ComponentStorage`. The hash map is an association list; its
iteration order is supplied where it matters (`setLayout`). -/
structure ComponentStorage (V : Type) where
  groups : List Group
  metadata : List (TypeId × ComponentMetadata)
  components : List (CompSet V)
deriving DecidableEq, Repr

/-! ### Grouping (src/component/group.rs) -/

/-- src/component/group.rs:131-136 `GroupStatus`. -/
inductive GroupStatus where
  | incomplete
  | ungrouped
  | grouped
deriving DecidableEq, Repr

/-- `&mut components[start..stop]`: panics when out of order or out of bounds.
(src/component/group.rs:63, 74, 94, 101, 116, 123) -/
def compRange (comps : List (CompSet V)) (start stop : Nat) : Res (List (CompSet V)) :=
  if start ≤ stop ∧ stop ≤ comps.length then .ok ((comps.drop start).take (stop - start)) else .panic

/-- src/component/group.rs:138-166 `get_group_status`; `components` is the slice. -/
def getGroupStatus (components : List (CompSet V)) (groupLen : Nat) (e : Entity) : Res GroupStatus :=
  match components with
  | [] => .ub
  | first :: others =>
    match first.sparse.get e with
    | none => .ok .incomplete
    | some dense =>
      if others.all (fun s => s.sparse.containsSparse e.sparse) then
        .ok (if dense < groupLen then .grouped else .ungrouped)
      else .ok .incomplete

/-- The body of the `for_each` in src/component/group.rs:180-186 and 204-210. -/
def swapTo (s : CompSet V) (swapIndex : Nat) (sparse : Nat) : Res (CompSet V) := do
  let dense ← s.sparse.getSparseUnchecked sparse
  if dense ≠ swapIndex then s.swap dense swapIndex else pure s

/-- `swapTo` for every set of a slice (src/component/group.rs:177-186, 201-210). -/
def swapAllTo (swapIndex sparse : Nat) : List (CompSet V) → Res (List (CompSet V))
  | [] => .ok []
  | s :: ss => do
    let s' ← swapTo s swapIndex sparse
    let ss' ← swapAllTo swapIndex sparse ss
    pure (s' :: ss')

/-- Runs `swapAllTo` on the sub-slice `start..stop` of all sets (src/component/group.rs:73-77, 100-104, 122-126). -/
def swapRange (comps : List (CompSet V)) (start stop swapIndex sparse : Nat) :
    Res (List (CompSet V)) := do
  let seg ← compRange comps start stop
  let seg' ← swapAllTo swapIndex sparse seg
  pure (comps.take start ++ seg' ++ comps.drop stop)

/-- src/component/group.rs:169-189 `group_components`. -/
def groupComponents (comps : List (CompSet V)) (g : Group) (e : Entity) :
    Res (List (CompSet V) × Group) := do
  let comps ← swapRange comps g.storageStart g.storageEnd g.len e.sparse
  pure (comps, { g with len := g.len + 1 })

/-- src/component/group.rs:192-211 `ungroup_components`. `*group_len -= 1` underflows for an empty group; the
index used afterwards would be out of bounds. -/
def ungroupComponents (comps : List (CompSet V)) (g : Group) (e : Entity) :
    Res (List (CompSet V) × Group) :=
  if g.len = 0 then .ub
  else do
    let comps ← swapRange comps g.storageStart g.storageEnd (g.len - 1) e.sparse
    pure (comps, { g with len := g.len - 1 })

/-- Sets together with groups, the two `&mut` arguments of the functions of src/component/group.rs. -/
abbrev Sets (V : Type) := List (CompSet V) × List Group

/-- src/component/group.rs:51-82 `group`: the `while let` loop. Every iteration clears the lowest bit of the
mask, so 64 iterations are enough (`bitNext_fuel` in the proofs); running out of fuel with bits left is
reported as `ub`, hence every `ok` result is the result of the complete loop. -/
def groupLoop (e : Entity) : Nat → BitVec 64 → Sets V → Res (Sets V)
  | fuel, mask, (comps, groups) =>
    match bitNext mask with
    | none => .ok (comps, groups)
    | some (i, mask) =>
      match fuel with
      | 0 => .ub
      | fuel + 1 => do
        let g ← Res.unchecked (groups[i]?)
        let seg ← compRange comps g.newStorageStart g.storageEnd
        match ← getGroupStatus seg g.len e with
        | .incomplete => groupLoop e fuel (mask &&& g.skipMask) (comps, groups)
        | .ungrouped =>
          let (comps, g) ← groupComponents comps g e
          groupLoop e fuel mask (comps, groups.set i g)
        | .grouped => groupLoop e fuel mask (comps, groups)

/-- src/component/group.rs:51-82 `group`. -/
def group (s : Sets V) (mask : GroupMask) (e : Entity) : Res (Sets V) := groupLoop e 64 mask s

/-- One iteration of src/component/group.rs:90-106 and 114-128. -/
def ungroupStep (e : Entity) (i : Nat) : Sets V → Res (Sets V)
  | (comps, groups) => do
    let g ← Res.unchecked (groups[i]?)
    let seg ← compRange comps g.newStorageStart g.storageEnd
    match ← getGroupStatus seg g.len e with
    | .grouped =>
      let (comps, g) ← ungroupComponents comps g e
      pure (comps, groups.set i g)
    | _ => pure (comps, groups)

/-- src/component/group.rs:84-107 `ungroup`: the `for` loop over the bits from the highest; fuel as in
`groupLoop`. -/
def ungroupLoop (e : Entity) : Nat → BitVec 64 → Sets V → Res (Sets V)
  | fuel, mask, s =>
    match bitNextBack mask with
    | none => .ok s
    | some (i, mask) =>
      match fuel with
      | 0 => .ub
      | fuel + 1 => do
        let s ← ungroupStep e i s
        ungroupLoop e fuel mask s

/-- src/component/group.rs:84-107 `ungroup`. -/
def ungroup (s : Sets V) (mask : GroupMask) (e : Entity) : Res (Sets V) := ungroupLoop e 64 mask s

/-- src/component/group.rs:114-128, the loop of `ungroup_all` over the first `n` groups in reverse order. -/
def ungroupAllLoop (e : Entity) : Nat → Sets V → Res (Sets V)
  | 0, s => .ok s
  | n + 1, s => do
    let s ← ungroupStep e n s
    ungroupAllLoop e n s

/-- src/component/group.rs:109-129 `ungroup_all`. -/
def ungroupAll (s : Sets V) (e : Entity) : Res (Sets V) := ungroupAllLoop e s.2.length s

/-! ### Group infos (src/component/group_info.rs) -/

/-- src/component/group_info.rs:75-80 `ViewGroupInfo`. -/
structure ViewGroupInfo where
  info : Option GroupInfo
  len : Nat
deriving DecidableEq, Repr

/-- src/component/group_info.rs:6-14 `QueryGroupInfo`. -/
inductive QueryGroupInfo where
  | empty
  | one (v : ViewGroupInfo)
  | many (g : GroupInfo)
deriving DecidableEq, Repr

/-- src/component/group_info.rs:96-106 `GroupInfo::add_group`. -/
def GroupInfo.addGroup (a b : GroupInfo) : Option GroupInfo :=
  if a.groupStart ≠ b.groupStart then none
  else some ⟨a.groupStart, max a.groupEnd b.groupEnd, a.storageMask ||| b.storageMask⟩

namespace QueryGroupInfo

/-- src/component/group_info.rs:64-70 `QueryGroupInfo::group_info`. -/
def groupInfo : QueryGroupInfo → Option GroupInfo
  | .empty => none
  | .one v => v.info
  | .many g => some g

/-- src/component/group_info.rs:22-34 `QueryGroupInfo::add_query`. -/
def addQuery (a b : QueryGroupInfo) : Option QueryGroupInfo :=
  match a, b with
  | .empty, .empty => some .empty
  | q, .empty => some q
  | .empty, q => some q
  | a, b => do
    let a ← a.groupInfo
    let b ← b.groupInfo
    let g ← a.addGroup b
    pure (.many g)

/-- src/component/group_info.rs:41-59 `QueryGroupInfo::add_view`. -/
def addView (q : QueryGroupInfo) (v : ViewGroupInfo) : Option QueryGroupInfo :=
  match q with
  | .empty => some (.one v)
  | .one old =>
    match old.info, v.info with
    | some a, some b => (a.addGroup b).map .many
    | _, _ => none
  | .many old =>
    match v.info with
    | some b => (old.addGroup b).map .many
    | none => none

end QueryGroupInfo

/-! ### `ComponentStorage` -/

namespace ComponentStorage

/-- `Default` (src/component/component_storage.rs:18). -/
def empty : ComponentStorage V := ⟨[], [], []⟩

/-- `metadata.get(&type_id)` (src/component/component_storage.rs:163, 181, 199, 219). -/
def meta? (c : ComponentStorage V) (t : TypeId) : Option ComponentMetadata := c.metadata.lookup t

/-- `metadata.insert(type_id, m)`: replaces an existing entry (src/component/component_storage.rs:66, 92). -/
def insertMeta (md : List (TypeId × ComponentMetadata)) (t : TypeId) (m : ComponentMetadata) :
    List (TypeId × ComponentMetadata) :=
  (t, m) :: md.filter (fun p => p.1 != t)

/-- src/component/component_storage.rs:114-130 `register_dyn`. -/
def register (c : ComponentStorage V) (t : TypeId) : Bool × ComponentStorage V :=
  match c.meta? t with
  | some _ => (false, c)
  | none =>
    (true,
      { c with
        metadata := insertMeta c.metadata t ⟨c.components.length, 0#64, 0#64, none⟩
        components := c.components ++ [CompSet.new] })

/-- src/component/component_storage.rs:134-136 `is_registered_dyn`. -/
def isRegistered (c : ComponentStorage V) (t : TypeId) : Bool := (c.meta? t).isSome

/-- The loop of src/component/component_storage.rs:143-145. -/
def deleteAll (e : Entity) : List (CompSet V) → Res (List (CompSet V))
  | [] => .ok []
  | s :: ss => do
    let s' ← s.delete e
    let ss' ← deleteAll e ss
    pure (s' :: ss')

/-- src/component/component_storage.rs:138-146 `strip`. -/
def strip (c : ComponentStorage V) (e : Entity) : Res (ComponentStorage V) := do
  let (comps, groups) ← ungroupAll (c.components, c.groups) e
  let comps ← deleteAll e comps
  pure { c with groups, components := comps }

/-- src/component/component_storage.rs:148-156 `clear`. -/
def clear (c : ComponentStorage V) : ComponentStorage V :=
  { c with
    groups := c.groups.map (fun g => { g with len := 0 })
    components := c.components.map CompSet.clear }

/-- The closure of src/component/component_storage.rs:299-306 over the drained metadata: takes the set out and
leaves an empty one. (`self.components[..]` is a checked access.) -/
def takeSets : List (TypeId × ComponentMetadata) → List (CompSet V) →
    Res (List (TypeId × CompSet V) × List (CompSet V))
  | [], comps => .ok ([], comps)
  | (t, m) :: rest, comps => do
    let s ← Res.checked (comps[m.storageIndex]?)
    let (sets, comps) ← takeSets rest (comps.set m.storageIndex CompSet.new)
    pure ((t, s) :: sets, comps)

/-- src/component/component_storage.rs:295-313 `extract_sparse_sets`. `components` keeps its (now empty)
entries. -/
def extractSparseSets (c : ComponentStorage V) :
    Res (List (TypeId × CompSet V) × ComponentStorage V) := do
  let (sets, comps) ← takeSets c.metadata c.components
  pure (sets, ⟨[], [], comps⟩)

/-- `sparse_sets.remove(&type_id)` (src/component/component_storage.rs:80-82). -/
def removeSet (sets : List (TypeId × CompSet V)) (t : TypeId) :
    Option (CompSet V) × List (TypeId × CompSet V) :=
  (sets.lookup t, sets.filter (fun p => p.1 != t))

/-- State of the layout loops: the storage that is being built and the sets not placed yet.
(src/component/component_storage.rs:38-89) -/
abbrev Building (V : Type) := ComponentStorage V × List (TypeId × CompSet V)

/-- src/component/component_storage.rs:63-85, the loop over `local_storage_index` (here: `idx`, with `n`
iterations left). `newGroupStart`, `groupStart`, `groupEnd` as in the code; `self.groups.len()` is constant. -/
def addComponents (family : GroupFamily) (groupStart newGroupStart groupEnd : Nat) :
    Nat → Nat → Building V → Outcome (Building V) Unit
  | _, 0, b => .ok () b
  | idx, n + 1, (c, sets) =>
    let r : Res (TypeId × ComponentMetadata) := do
      let t ← Res.checked (family.components[idx]?)
      let insertMask ← GroupMask.fromTo groupStart groupEnd
      let deleteMask ← GroupMask.fromTo newGroupStart groupEnd
      let storageMask ← StorageMask.single idx
      pure (t, ⟨c.components.length, insertMask, deleteMask,
        some ⟨asU8 groupStart, asU8 c.groups.length, storageMask⟩⟩)
    Outcome.ofRes (c, sets) r fun (t, m) =>
      let (s?, sets) := removeSet sets t
      addComponents family groupStart newGroupStart groupEnd (idx + 1) n
        ({ c with
            metadata := insertMeta c.metadata t m
            components := c.components ++ [s?.getD CompSet.new] }, sets)

/-- src/component/component_storage.rs:47-88, the loop over the arities of a family. -/
def addGroups (family : GroupFamily) (storageStart groupStart groupEnd : Nat) :
    Nat → List Nat → Building V → Outcome (Building V) Unit
  | _, [], b => .ok () b
  | prevArity, arity :: rest, (c, sets) =>
    let newGroupStart := c.groups.length
    let r : Res Group := do
      let skipMask ← GroupMask.skipFromTo newGroupStart groupEnd
      let includeMask ← QueryMask.include arity
      let excludeMask ← QueryMask.exclude prevArity arity
      pure ⟨storageStart, storageStart + prevArity, storageStart + arity, skipMask, includeMask,
        excludeMask, 0⟩
    Outcome.ofRes (c, sets) r fun g =>
      (addComponents family groupStart newGroupStart groupEnd prevArity (arity - prevArity)
        ({ c with groups := c.groups ++ [g] }, sets)).bind fun _ b =>
          addGroups family storageStart groupStart groupEnd arity rest b

/-- src/component/component_storage.rs:40-89, the loop over the families. -/
def addFamilies : List GroupFamily → Building V → Outcome (Building V) Unit
  | [], b => .ok () b
  | f :: fs, (c, sets) =>
    (addGroups f c.components.length c.groups.length (c.groups.length + f.arities.length) 0 f.arities
      (c, sets)).bind fun _ b => addFamilies fs b

/-- One insertion step of `sortByRank` (src/component/component_storage.rs:91). -/
def insertByRank (rank : TypeId → Nat) (p : TypeId × CompSet V) :
    List (TypeId × CompSet V) → List (TypeId × CompSet V)
  | [] => [p]
  | q :: qs => if rank p.1 ≤ rank q.1 then p :: q :: qs else q :: insertByRank rank p qs

/-- Iteration order of the `sparse_sets` hash map: any order is obtained for a suitable `rank`.
(src/component/component_storage.rs:91) -/
def sortByRank (rank : TypeId → Nat) : List (TypeId × CompSet V) → List (TypeId × CompSet V)
  | [] => []
  | p :: ps => insertByRank rank p (sortByRank rank ps)

/-- src/component/component_storage.rs:91-103: the sets of types outside the layout. -/
def addUngrouped : List (TypeId × CompSet V) → ComponentStorage V → ComponentStorage V
  | [], c => c
  | (t, s) :: rest, c =>
    addUngrouped rest
      { c with
        metadata := insertMeta c.metadata t ⟨c.components.length, 0#64, 0#64, none⟩
        components := c.components ++ [s] }

/-- src/component/component_storage.rs:107-111. -/
def groupEntities (mask : GroupMask) : List Entity → Sets V → Res (Sets V)
  | [], s => .ok s
  | e :: es, s => do
    let s ← group s mask e
    groupEntities mask es s

/-- src/component/component_storage.rs:37-112 `set_layout`; `rank` is the iteration order of the hash map.
A panic while the families are being added drops the sets that were not placed yet. -/
def setLayout (rank : TypeId → Nat) (c : ComponentStorage V) (layout : GroupLayout)
    (entities : List Entity) : Outcome (ComponentStorage V) Unit :=
  match c.extractSparseSets with
  | .panic => .panic c
  | .ub => .ub
  | .ok (sets, c) =>
    match addFamilies layout.families (c, sets) with
    | .panic (c, _) => .panic c
    | .ub => .ub
    | .ok _ (c, sets) =>
      let c := addUngrouped (sortByRank rank sets) c
      match GroupMask.fromTo 0 c.groups.length with
      | .panic => .panic c
      | .ub => .ub
      | .ok mask =>
        match groupEntities mask entities (c.components, c.groups) with
        | .ok (comps, groups) => .ok () { c with components := comps, groups }
        | .panic => .panic c
        | .ub => .ub

/-- src/component/component_storage.rs:27-35 `ComponentStorage::new`. -/
def new (rank : TypeId → Nat) (layout : GroupLayout) : Outcome (ComponentStorage V) Unit :=
  setLayout rank empty layout []

/-- src/component/component_storage.rs:254-266 `include_group_range`. -/
def includeGroupRange (c : ComponentStorage V) (inc : GroupInfo) : Res (Option (Nat × Nat)) := do
  Res.assert (1 ≤ inc.groupEnd)
  let g ← Res.unchecked (c.groups[inc.groupEnd - 1]?)
  pure (if (⟨inc.storageMask, 0#16⟩ : QueryMask) = g.includeMask then some (0, g.len) else none)

/-- src/component/component_storage.rs:269-292 `exclude_group_range`. -/
def excludeGroupRange (c : ComponentStorage V) (inc exc : GroupInfo) : Res (Option (Nat × Nat)) :=
  if inc.groupStart ≠ exc.groupStart then .ok none
  else do
    let groupEnd := max inc.groupEnd exc.groupEnd
    Res.assert (1 ≤ groupEnd)
    let child ← Res.unchecked (c.groups[groupEnd - 1]?)
    if (⟨inc.storageMask, exc.storageMask⟩ : QueryMask) ≠ child.excludeMask then pure none
    else do
      Res.assert (2 ≤ groupEnd)
      let parent ← Res.unchecked (c.groups[groupEnd - 2]?)
      pure (some (child.len, parent.len))

/-- src/component/component_storage.rs:235-251 `group_range`. -/
def groupRange (c : ComponentStorage V) (inc exc : QueryGroupInfo) : Res (Option (Nat × Nat)) :=
  match inc, exc with
  | .one view, .empty => .ok (some (0, view.len))
  | .many inc, .empty => c.includeGroupRange inc
  | inc, exc =>
    match inc.groupInfo, exc.groupInfo with
    | some inc, some exc => c.excludeGroupRange inc exc
    | _, _ => .ok none

end ComponentStorage
end Sparsey
