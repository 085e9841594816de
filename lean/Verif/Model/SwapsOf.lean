import Verif.Model.Swaps

/-!
The exchanges made in the set of one component type: as `Swaps.lean`, restricted to one position of `components`. Exchanges
in one set do not depend on what is in the other sets otherwise than through the decision which entities are grouped.
-/

set_option autoImplicit false

namespace Sparsey
variable {V : Type}

/-- The loops of src/component/group.rs:176-187 and 200-211, at position `k`. -/
def swapRangePairsAt (k : Nat) (comps : List (CompSet V)) (start stop swapIndex sparse : Nat) : List (Entity × Entity) :=
  if start ≤ k ∧ k < stop then
    match comps[k]? with
    | some s => swapToPairs s swapIndex sparse
    | none => []
  else []

/-- src/component/group.rs:51-82, the loop of `group`, at position `k`. -/
def groupLoopPairsAt (k : Nat) (e : Entity) : Nat → BitVec 64 → Sets V → List (Entity × Entity)
  | fuel, mask, (comps, groups) =>
    match bitNext mask with
    | none => []
    | some (i, mask) =>
      match fuel with
      | 0 => []
      | fuel + 1 =>
        match groups[i]? with
        | none => []
        | some g =>
          match compRange comps g.newStorageStart g.storageEnd with
          | .ok seg =>
            match getGroupStatus seg g.len e with
            | .ok .incomplete => groupLoopPairsAt k e fuel (mask &&& g.skipMask) (comps, groups)
            | .ok .ungrouped =>
              swapRangePairsAt k comps g.storageStart g.storageEnd g.len e.sparse ++
                match groupComponents comps g e with
                | .ok (comps, g) => groupLoopPairsAt k e fuel mask (comps, groups.set i g)
                | _ => []
            | .ok .grouped => groupLoopPairsAt k e fuel mask (comps, groups)
            | _ => []
          | _ => []

/-- One iteration of src/component/group.rs:90-106 and 114-128, at position `k`. -/
def ungroupStepPairsAt (k : Nat) (e : Entity) (i : Nat) : Sets V → List (Entity × Entity)
  | (comps, groups) =>
    match groups[i]? with
    | none => []
    | some g =>
      match compRange comps g.newStorageStart g.storageEnd with
      | .ok seg =>
        match getGroupStatus seg g.len e with
        | .ok .grouped => swapRangePairsAt k comps g.storageStart g.storageEnd (g.len - 1) e.sparse
        | _ => []
      | _ => []

/-- src/component/group.rs:84-107, the loop of `ungroup`, at position `k`. -/
def ungroupLoopPairsAt (k : Nat) (e : Entity) : Nat → BitVec 64 → Sets V → List (Entity × Entity)
  | fuel, mask, s =>
    match bitNextBack mask with
    | none => []
    | some (i, mask) =>
      match fuel with
      | 0 => []
      | fuel + 1 =>
        ungroupStepPairsAt k e i s ++
          match ungroupStep e i s with
          | .ok s => ungroupLoopPairsAt k e fuel mask s
          | _ => []

/-- src/component/group.rs:114-128, the loop of `ungroup_all`, at position `k`. -/
def ungroupAllLoopPairsAt (k : Nat) (e : Entity) : Nat → Sets V → List (Entity × Entity)
  | 0, _ => []
  | n + 1, s =>
    ungroupStepPairsAt k e n s ++
      match ungroupStep e n s with
      | .ok s => ungroupAllLoopPairsAt k e n s
      | _ => []

namespace ComponentStorage

/-- src/component/component_storage.rs:107-111 and src/component/component_set.rs:118-126, at position `k`. -/
def groupEntitiesPairsAt (k : Nat) (mask : GroupMask) : List Entity → Sets V → List (Entity × Entity)
  | [], _ => []
  | e :: es, s =>
    groupLoopPairsAt k e 64 mask s ++
      match group s mask e with
      | .ok s => groupEntitiesPairsAt k mask es s
      | _ => []

/-- The exchanges in the set of type `t`, given those at each position.
(about the calls of `swap`, src/component/group.rs:183-185) -/
def atType (c : ComponentStorage V) (t : TypeId) (f : Nat → List (Entity × Entity)) : List (Entity × Entity) :=
  match c.meta? t with
  | some m => f m.storageIndex
  | none => []

/-- src/component/component_set.rs:44-76 `ComponentSet::insert`, in the set of type `t`. -/
def insertPairsOf (c : ComponentStorage V) (t : TypeId) (e : Entity) (vs : List (TypeId × V)) : List (Entity × Entity) :=
  match insertEach e vs 0#64 c with
  | .ok mask c => if mask = 0#64 then [] else c.atType t fun k => groupLoopPairsAt k e 64 mask (c.components, c.groups)
  | _ => []

/-- src/component/component_set.rs:132-167 and 169-204 `ComponentSet::remove`, `ComponentSet::delete`, in the set of type
`t`. -/
def removePairsOf (c : ComponentStorage V) (t : TypeId) (e : Entity) (ts : List TypeId) : List (Entity × Entity) :=
  match c.lookupAll (·.deleteMask) ts with
  | .ok (_, mask) =>
    if mask = 0#64 then [] else c.atType t fun k => ungroupLoopPairsAt k e 64 mask (c.components, c.groups)
  | _ => []

/-- src/component/component_storage.rs:37-112 `set_layout`, in the set of type `t`. -/
def setLayoutPairsOf (rank : TypeId → Nat) (c : ComponentStorage V) (t : TypeId) (layout : GroupLayout)
    (entities : List Entity) : List (Entity × Entity) :=
  match c.extractSparseSets with
  | .ok (sets, c) =>
    match addFamilies layout.families (c, sets) with
    | .ok _ (c, sets) =>
      let c := addUngrouped (sortByRank rank sets) c
      match GroupMask.fromTo 0 c.groups.length with
      | .ok mask => c.atType t fun k => groupEntitiesPairsAt k mask entities (c.components, c.groups)
      | _ => []
    | _ => []
  | _ => []

end ComponentStorage

namespace World

/-- src/component/component_set.rs:78-130 `ComponentSet::extend`, in the set of type `t`. -/
def extendPairsOf (w : World V) (t : TypeId) (ts : List TypeId) (it : Items V) : List (Entity × Entity) :=
  match w.components.lookupAll (·.insertMask) ts with
  | .ok (idxs, mask) =>
    match extendEach idxs it.items w with
    | .ok _ w' =>
      if it.thenPanics then []
      else if mask = 0#64 then []
      else
        w'.components.atType t fun k => ComponentStorage.groupEntitiesPairsAt k mask
          (w'.entities.asSlice.drop w.entities.len) (w'.components.components, w'.components.groups)
    | _ => []
  | _ => []

/-- src/world/mod.rs: the pairs of entities that change places in the set of type `t` during a call. -/
def swapsOf (w : World V) (t : TypeId) : Op V → List (Entity × Entity)
  | .setLayout rank gs => w.components.setLayoutPairsOf rank t (GroupLayout.build gs).2 w.entities.asSlice
  | .create vs =>
    match w.entities.create with
    | .ok (e, _) => w.components.insertPairsOf t e vs
    | _ => []
  | .extend ts it => w.extendPairsOf t ts it
  | .destroy e =>
    match w.entities.remove e with
    | .ok (true, _) => w.components.atType t fun k =>
        ungroupAllLoopPairsAt k e w.components.groups.length (w.components.components, w.components.groups)
    | _ => []
  | .insert e vs => if w.entities.contains e then w.components.insertPairsOf t e vs else []
  | .remove e ts => w.components.removePairsOf t e ts
  | .delete e ts => w.components.removePairsOf t e ts
  | _ => []

end World
end Sparsey
