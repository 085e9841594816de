import Verif.Model.History

/-!
The exchanges made by grouping and ungrouping: which pairs of entities change places in a component set during a call.
`ComponentSparseSet::swap` (src/component/component_sparse_set.rs:275-294) exchanges their whole sparse slots, including
the versions in them (src/entity/sparse_vec.rs:100-108), so that an exchange of entities of different versions leaves
wrong versions behind.

The functions follow the control flow of the functions of the same name in `Storage.lean` and `World.lean`; where those
panic or end in undefined behaviour the rest of the list has no meaning.
-/

set_option autoImplicit false

namespace Sparsey
variable {V : Type}

/-- The exchanges are between entities of the same version (about the calls of `swap`, src/component/group.rs:183-185). -/
def EvenPairs (l : List (Entity × Entity)) : Prop := ∀ p ∈ l, p.1.version = p.2.version

instance (l : List (Entity × Entity)) : Decidable (EvenPairs l) := inferInstanceAs (Decidable (∀ p ∈ l, _))

/-- The body of the `for_each` in src/component/group.rs:180-186 and 204-210. -/
def swapToPairs (s : CompSet V) (swapIndex sparse : Nat) : List (Entity × Entity) :=
  match s.sparse.getSparseUnchecked sparse with
  | .ok dense =>
    if dense = swapIndex then []
    else
      match s.entities[dense]?, s.entities[swapIndex]? with
      | some a, some b => [(a, b)]
      | _, _ => []
  | _ => []

/-- The loops of src/component/group.rs:176-187 and 200-211. -/
def swapRangePairs (comps : List (CompSet V)) (start stop swapIndex sparse : Nat) : List (Entity × Entity) :=
  ((comps.drop start).take (stop - start)).flatMap (swapToPairs · swapIndex sparse)

/-- src/component/group.rs:51-82, the loop of `group`. -/
def groupLoopPairs (e : Entity) : Nat → BitVec 64 → Sets V → List (Entity × Entity)
  | fuel, mask, (comps, groups) =>
    match bitNext mask with
    | none => []
    | some (i, mask) =>
      match fuel with
      | 0 => []
      | fuel + 1 =>
        match groups[i]? with
        | none => []
        | some g =>
          match compRange comps g.newStorageStart g.storageEnd with
          | .ok seg =>
            match getGroupStatus seg g.len e with
            | .ok .incomplete => groupLoopPairs e fuel (mask &&& g.skipMask) (comps, groups)
            | .ok .ungrouped =>
              swapRangePairs comps g.storageStart g.storageEnd g.len e.sparse ++
                match groupComponents comps g e with
                | .ok (comps, g) => groupLoopPairs e fuel mask (comps, groups.set i g)
                | _ => []
            | .ok .grouped => groupLoopPairs e fuel mask (comps, groups)
            | _ => []
          | _ => []

/-- src/component/group.rs:51-82 `group`. -/
def groupPairs (s : Sets V) (mask : GroupMask) (e : Entity) : List (Entity × Entity) := groupLoopPairs e 64 mask s

/-- One iteration of src/component/group.rs:90-106 and 114-128. -/
def ungroupStepPairs (e : Entity) (i : Nat) : Sets V → List (Entity × Entity)
  | (comps, groups) =>
    match groups[i]? with
    | none => []
    | some g =>
      match compRange comps g.newStorageStart g.storageEnd with
      | .ok seg =>
        match getGroupStatus seg g.len e with
        | .ok .grouped => swapRangePairs comps g.storageStart g.storageEnd (g.len - 1) e.sparse
        | _ => []
      | _ => []

/-- src/component/group.rs:84-107, the loop of `ungroup`. -/
def ungroupLoopPairs (e : Entity) : Nat → BitVec 64 → Sets V → List (Entity × Entity)
  | fuel, mask, s =>
    match bitNextBack mask with
    | none => []
    | some (i, mask) =>
      match fuel with
      | 0 => []
      | fuel + 1 =>
        ungroupStepPairs e i s ++
          match ungroupStep e i s with
          | .ok s => ungroupLoopPairs e fuel mask s
          | _ => []

/-- src/component/group.rs:84-107 `ungroup`. -/
def ungroupPairs (s : Sets V) (mask : GroupMask) (e : Entity) : List (Entity × Entity) := ungroupLoopPairs e 64 mask s

/-- src/component/group.rs:114-128, the loop of `ungroup_all`. -/
def ungroupAllLoopPairs (e : Entity) : Nat → Sets V → List (Entity × Entity)
  | 0, _ => []
  | n + 1, s =>
    ungroupStepPairs e n s ++
      match ungroupStep e n s with
      | .ok s => ungroupAllLoopPairs e n s
      | _ => []

/-- src/component/group.rs:109-129 `ungroup_all`. -/
def ungroupAllPairs (s : Sets V) (e : Entity) : List (Entity × Entity) := ungroupAllLoopPairs e s.2.length s

namespace ComponentStorage

/-- src/component/component_storage.rs:107-111 and src/component/component_set.rs:118-126. -/
def groupEntitiesPairs (mask : GroupMask) : List Entity → Sets V → List (Entity × Entity)
  | [], _ => []
  | e :: es, s =>
    groupPairs s mask e ++
      match group s mask e with
      | .ok s => groupEntitiesPairs mask es s
      | _ => []

/-- src/component/component_set.rs:44-76 `ComponentSet::insert`. -/
def insertPairs (c : ComponentStorage V) (e : Entity) (vs : List (TypeId × V)) : List (Entity × Entity) :=
  match insertEach e vs 0#64 c with
  | .ok mask c => if mask = 0#64 then [] else groupPairs (c.components, c.groups) mask e
  | _ => []

/-- src/component/component_set.rs:132-167 and 169-204 `ComponentSet::remove`, `ComponentSet::delete`. -/
def removePairs (c : ComponentStorage V) (e : Entity) (ts : List TypeId) : List (Entity × Entity) :=
  match c.lookupAll (·.deleteMask) ts with
  | .ok (_, mask) => if mask = 0#64 then [] else ungroupPairs (c.components, c.groups) mask e
  | _ => []

/-- src/component/component_storage.rs:37-112 `set_layout`. -/
def setLayoutPairs (rank : TypeId → Nat) (c : ComponentStorage V) (layout : GroupLayout) (entities : List Entity) :
    List (Entity × Entity) :=
  match c.extractSparseSets with
  | .ok (sets, c) =>
    match addFamilies layout.families (c, sets) with
    | .ok _ (c, sets) =>
      let c := addUngrouped (sortByRank rank sets) c
      match GroupMask.fromTo 0 c.groups.length with
      | .ok mask => groupEntitiesPairs mask entities (c.components, c.groups)
      | _ => []
    | _ => []
  | _ => []

end ComponentStorage

namespace World

/-- src/component/component_set.rs:78-130 `ComponentSet::extend`. -/
def extendPairs (w : World V) (ts : List TypeId) (it : Items V) : List (Entity × Entity) :=
  match w.components.lookupAll (·.insertMask) ts with
  | .ok (idxs, mask) =>
    match extendEach idxs it.items w with
    | .ok _ w' =>
      if it.thenPanics then []
      else if mask = 0#64 then []
      else
        ComponentStorage.groupEntitiesPairs mask (w'.entities.asSlice.drop w.entities.len)
          (w'.components.components, w'.components.groups)
    | _ => []
  | _ => []

/-- src/world/mod.rs: the pairs of entities that change places during a call. -/
def swaps (w : World V) : Op V → List (Entity × Entity)
  | .setLayout rank gs => w.components.setLayoutPairs rank (GroupLayout.build gs).2 w.entities.asSlice
  | .create vs =>
    match w.entities.create with
    | .ok (e, _) => w.components.insertPairs e vs
    | _ => []
  | .extend ts it => w.extendPairs ts it
  | .destroy e =>
    match w.entities.remove e with
    | .ok (true, _) => ungroupAllPairs (w.components.components, w.components.groups) e
    | _ => []
  | .insert e vs => if w.entities.contains e then w.components.insertPairs e vs else []
  | .remove e ts => w.components.removePairs e ts
  | .delete e ts => w.components.removePairs e ts
  | _ => []

end World
end Sparsey
