import Verif.Model.History

/-!
The destructor calls of the code: which component values are dropped during a call. The functions follow the control
flow of the functions of the same name in `Storage.lean` and `World.lean` and only collect the dropped values; where
those end in undefined behaviour the result here has no meaning.

Panicking destructors are in `RawSet.lean`; here destructors return.
-/

set_option autoImplicit false

namespace Sparsey
variable {V : Type}

/-- src/component/component_sparse_set.rs:93-119 `delete`: line 114 drops the component in place. -/
def CompSet.deleteDrops (s : CompSet V) (e : Entity) : List V :=
  match s.sparse.remove e with
  | (none, _) => []
  | (some index, _) => (s.components[index]?).toList

/-- src/component/component_sparse_set.rs:296-311 `clear_typed` and 313-329 `drop_typed`: all components, in order. -/
def CompSet.clearDrops (s : CompSet V) : List V := s.components

namespace ComponentStorage

/-- src/component/component_set.rs:47-64: the replaced component returned by `ComponentSparseSet::insert` is a temporary
that is dropped at once (line 62). When a type is missing the components not inserted yet are dropped by unwinding. -/
def insertEachDrops (e : Entity) : List (TypeId × V) → ComponentStorage V → List V
  | [], _ => []
  | (t, v) :: rest, c =>
    match c.meta? t with
    | none => v :: rest.map (·.2)
    | some m =>
      match c.components[m.storageIndex]? with
      | none => []
      | some s =>
        match s.insert e v with
        | .ok (old, s) =>
          old.toList ++ insertEachDrops e rest { c with components := c.components.set m.storageIndex s }
        | _ => []

/-- src/component/component_set.rs:107-109: replaced components, as in `insertEachDrops`. -/
def insertAtDrops (e : Entity) : List (Nat × V) → ComponentStorage V → List V
  | [], _ => []
  | (i, v) :: rest, c =>
    match c.components[i]? with
    | none => []
    | some s =>
      match s.insert e v with
      | .ok (old, s) => old.toList ++ insertAtDrops e rest { c with components := c.components.set i s }
      | _ => []

/-- src/component/component_set.rs:200-202. -/
def deleteEachDrops (e : Entity) : List Nat → ComponentStorage V → List V
  | [], _ => []
  | i :: is, c =>
    match c.components[i]? with
    | none => []
    | some s =>
      match s.delete e with
      | .ok s' => s.deleteDrops e ++ deleteEachDrops e is { c with components := c.components.set i s' }
      | _ => []

/-- src/component/component_set.rs:169-204 `ComponentSet::delete`. -/
def deleteDrops (c : ComponentStorage V) (e : Entity) (ts : List TypeId) : List V :=
  match c.lookupAll (·.deleteMask) ts with
  | .ok (idxs, mask) =>
    match c.withMask mask (ungroup · mask e) with
    | .ok c => deleteEachDrops e idxs c
    | _ => []
  | _ => []

/-- src/component/component_storage.rs:143-145. -/
def deleteAllDrops (e : Entity) (comps : List (CompSet V)) : List V := comps.flatMap (·.deleteDrops e)

/-- src/component/component_storage.rs:138-146 `strip`. -/
def stripDrops (c : ComponentStorage V) (e : Entity) : List V :=
  match ungroupAll (c.components, c.groups) e with
  | .ok (comps, _) => deleteAllDrops e comps
  | _ => []

/-- src/component/component_storage.rs:153-155; also the drop of the storage (line 22, a `Vec` drops its elements in
order). -/
def clearDrops (c : ComponentStorage V) : List V := c.components.flatMap (·.clearDrops)

/-- src/component/component_storage.rs:37-112 `set_layout`: a panic while the families are added drops the hash map
`sparse_sets` with the sets not placed yet. -/
def setLayoutDrops (c : ComponentStorage V) (layout : GroupLayout) : List V :=
  match c.extractSparseSets with
  | .ok (sets, c) =>
    match addFamilies layout.families (c, sets) with
    | .panic (_, sets) => sets.flatMap (·.2.clearDrops)
    | _ => []
  | _ => []

end ComponentStorage

namespace World

/-- src/component/component_set.rs:104-110. When no entity is left the current item is dropped by unwinding and the
iterator is dropped with the items it did not yield. -/
def extendEachDrops (idxs : List Nat) : List (List V) → World V → List V
  | [], _ => []
  | vs :: rest, w =>
    match w.entities.create with
    | .ok (e, es) =>
      match w.components.insertAt e (idxs.zip vs) with
      | .ok c =>
        w.components.insertAtDrops e (idxs.zip vs) ++ extendEachDrops idxs rest { w with entities := es, components := c }
      | _ => []
    | _ => (vs :: rest).flatMap (·.take idxs.length)

/-- src/world/mod.rs: the values dropped during a call. Arguments that are not stored are dropped by the call (`insert` on
a missing entity, 150-152; a panic before the values are stored). A write (`*r = v` in the code of the caller) drops the
old value; without something to write to the caller drops the new one. -/
def drops (w : World V) : Op V → List V
  | .register _ => []
  | .setLayout _ gs => w.components.setLayoutDrops (GroupLayout.build gs).2
  | .create vs =>
    match w.entities.create with
    | .ok (e, _) => w.components.insertEachDrops e vs
    | _ => vs.map (·.2)
  | .extend ts it =>
    match w.components.lookupAll (·.insertMask) ts with
    | .ok (idxs, _) => extendEachDrops idxs it.items w
    | _ => it.items.flatMap (·.take ts.length)
  | .destroy e =>
    match w.entities.remove e with
    | .ok (true, _) => w.components.stripDrops e
    | _ => []
  | .createAtomic => []
  | .maintain => []
  | .insert e vs => if !w.entities.contains e then vs.map (·.2) else w.components.insertEachDrops e vs
  | .remove _ _ => []
  | .delete e ts => w.components.deleteDrops e ts
  | .clear =>
    match w.entities.clear with
    | .ok _ => w.components.clearDrops
    | _ => []
  | .reset => w.components.clearDrops
  | .write t e v =>
    match w.components.meta? t with
    | none => [v]
    | some m =>
      match w.components.components[m.storageIndex]? with
      | none => []
      | some s =>
        match s.sparse.get e with
        | none => [v]
        | some dense => (s.components[dense]?).toList
  | .writeAt t pos v =>
    match w.components.meta? t with
    | none => [v]
    | some m =>
      match w.components.components[m.storageIndex]? with
      | none => []
      | some s =>
        match s.components[pos]? with
        | none => [v]
        | some old => [old]

/-- Drop of a `World` (src/world/mod.rs:16-19, src/component/component_storage.rs:19-23,
src/component/component_sparse_set.rs:353-360). -/
def finalDrops (w : World V) : List V := w.components.clearDrops

end World
end Sparsey
