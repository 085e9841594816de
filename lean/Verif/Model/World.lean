import Verif.Model.Storage

/-!
Model of `src/component/component_set.rs` and `src/world/`.

A tuple of components is a list of type/value pairs, a tuple of types a list of type ids. The trait
implementations exist for tuples of up to 16 types; the model allows any length.
-/

set_option autoImplicit false

namespace Sparsey
variable {V : Type}

/-- src/world/mod.rs:16-19 `World`. -/
structure World (V : Type) where
  entities : EntityStorage
  components : ComponentStorage V
deriving DecidableEq, Repr

/-! ### `ComponentSet` (src/component/component_set.rs) -/

namespace ComponentStorage

/-- src/component/component_set.rs:47-64: inserts the components one after the other, collecting the group mask.
A missing type panics after the components before it have been inserted. -/
def insertEach (e : Entity) : List (TypeId × V) → GroupMask → ComponentStorage V →
    Outcome (ComponentStorage V) GroupMask
  | [], mask, c => .ok mask c
  | (t, v) :: rest, mask, c =>
    match c.meta? t with
    | none => .panic c
    | some m =>
      Outcome.ofRes c (Res.unchecked (c.components[m.storageIndex]?)) fun s =>
      Outcome.ofRes c (s.insert e v) fun (_, s) =>
      insertEach e rest (mask ||| m.insertMask)
        { c with components := c.components.set m.storageIndex s }

/-- Runs a grouping function on sets and groups if the mask is not empty
(src/component/component_set.rs:66-75, 116-127, 154-161, 191-198). -/
def withMask (c : ComponentStorage V) (mask : GroupMask) (f : Sets V → Res (Sets V)) :
    Res (ComponentStorage V) :=
  if mask = 0#64 then .ok c
  else do
    let (comps, groups) ← f (c.components, c.groups)
    pure { c with components := comps, groups }

/-- src/component/component_set.rs:44-76 `ComponentSet::insert` (and 213-215 for the empty tuple). -/
def insert (c : ComponentStorage V) (e : Entity) (vs : List (TypeId × V)) :
    Outcome (ComponentStorage V) Unit :=
  (insertEach e vs 0#64 c).bind fun mask c =>
    Outcome.ofRes c (c.withMask mask (group · mask e)) fun c => .ok () c

/-- src/component/component_set.rs:84-100, 135-151 and 172-188: looks the types up, collecting storage indexes and
the union of the masks selected by `f`. -/
def lookupAll (c : ComponentStorage V) (f : ComponentMetadata → GroupMask) :
    List TypeId → Res (List Nat × GroupMask)
  | [] => .ok ([], 0#64)
  | t :: ts =>
    match c.meta? t with
    | none => .panic
    | some m => do
      let (idxs, mask) ← lookupAll c f ts
      let _ ← Res.unchecked (c.components[m.storageIndex]?)
      pure (m.storageIndex :: idxs, f m ||| mask)

/-- src/component/component_set.rs:163-165: removes from each set in turn. -/
def removeEach (e : Entity) : List Nat → ComponentStorage V → Res (List (Option V) × ComponentStorage V)
  | [], c => .ok ([], c)
  | i :: is, c => do
    let s ← Res.unchecked (c.components[i]?)
    let (v, s) ← s.remove e
    let (vs, c) ← removeEach e is { c with components := c.components.set i s }
    pure (v :: vs, c)

/-- src/component/component_set.rs:200-202: deletes from each set in turn. -/
def deleteEach (e : Entity) : List Nat → ComponentStorage V → Res (ComponentStorage V)
  | [], c => .ok c
  | i :: is, c => do
    let s ← Res.unchecked (c.components[i]?)
    let s ← s.delete e
    deleteEach e is { c with components := c.components.set i s }

/-- src/component/component_set.rs:132-167 `ComponentSet::remove` (231-233 for the empty tuple). A panic happens
before anything is modified. -/
def remove (c : ComponentStorage V) (e : Entity) (ts : List TypeId) :
    Res (List (Option V) × ComponentStorage V) := do
  let (idxs, mask) ← c.lookupAll (·.deleteMask) ts
  let c ← c.withMask mask (ungroup · mask e)
  removeEach e idxs c

/-- src/component/component_set.rs:169-204 `ComponentSet::delete` (236-238 for the empty tuple). -/
def delete (c : ComponentStorage V) (e : Entity) (ts : List TypeId) : Res (ComponentStorage V) := do
  let (idxs, mask) ← c.lookupAll (·.deleteMask) ts
  let c ← c.withMask mask (ungroup · mask e)
  deleteEach e idxs c

/-- src/component/component_set.rs:107-109: inserts the values of one item into the sets found beforehand. -/
def insertAt (e : Entity) : List (Nat × V) → ComponentStorage V → Res (ComponentStorage V)
  | [], c => .ok c
  | (i, v) :: rest, c => do
    let s ← Res.unchecked (c.components[i]?)
    let (_, s) ← s.insert e v
    insertAt e rest { c with components := c.components.set i s }

end ComponentStorage

/-- The iterator given to `extend`: it yields items, then ends or panics (src/world/mod.rs:102-108). -/
structure Items (V : Type) where
  items : List (List V)
  thenPanics : Bool
deriving Repr

namespace World

/-- `Default` (src/world/mod.rs:15). -/
def empty : World V := ⟨EntityStorage.empty, ComponentStorage.empty⟩

/-- src/world/mod.rs:31-36 `World::new`. -/
def new (rank : TypeId → Nat) (layout : GroupLayout) : Outcome (World V) Unit :=
  match ComponentStorage.new rank layout with
  | .ok _ c => .ok () ⟨EntityStorage.empty, c⟩
  | .panic c => .panic ⟨EntityStorage.empty, c⟩
  | .ub => .ub

/-- src/world/mod.rs:43-47 `World::set_layout`. -/
def setLayout (rank : TypeId → Nat) (w : World V) (layout : GroupLayout) : Outcome (World V) Unit :=
  match w.components.setLayout rank layout w.entities.asSlice with
  | .ok _ c => .ok () { w with components := c }
  | .panic c => .panic { w with components := c }
  | .ub => .ub

/-- src/world/mod.rs:63-65 `World::register_dyn`. -/
def register (w : World V) (t : TypeId) : Bool × World V :=
  let (b, c) := w.components.register t
  (b, { w with components := c })

/-- src/world/mod.rs:79-81 `World::is_registered_dyn`. -/
def isRegistered (w : World V) (t : TypeId) : Bool := w.components.isRegistered t

/-- `C::insert(self, entity, components)` on the world (src/world/mod.rs:154-156). -/
def insertSet (w : World V) (e : Entity) (vs : List (TypeId × V)) : Outcome (World V) Unit :=
  match w.components.insert e vs with
  | .ok _ c => .ok () { w with components := c }
  | .panic c => .panic { w with components := c }
  | .ub => .ub

/-- src/world/mod.rs:86-97 `World::create`. -/
def create (w : World V) (vs : List (TypeId × V)) : Outcome (World V) Entity :=
  Outcome.ofRes w w.entities.create fun (e, es) =>
    (insertSet { w with entities := es } e vs).bind fun _ w => .ok e w

/-- src/component/component_set.rs:104-110 and 221-223: the `for_each` of `extend`. -/
def extendEach (idxs : List Nat) : List (List V) → World V → Outcome (World V) Unit
  | [], w => .ok () w
  | vs :: rest, w =>
    Outcome.ofRes w w.entities.create fun (e, es) =>
    let w := { w with entities := es }
    Outcome.ofRes w (w.components.insertAt e (idxs.zip vs)) fun c =>
    extendEach idxs rest { w with components := c }

/-- src/component/component_set.rs:78-130 `ComponentSet::extend` (217-228 for the empty tuple), called by
src/world/mod.rs:102-108 `World::extend`. The type tuple `ts` fixes the length of the items. -/
def extend (w : World V) (ts : List TypeId) (it : Items V) : Outcome (World V) (List Entity) :=
  Outcome.ofRes w (w.components.lookupAll (·.insertMask) ts) fun (idxs, mask) =>
  let startEntity := w.entities.len
  (extendEach idxs it.items w).bind fun _ w =>
  if it.thenPanics then .panic w
  else if w.entities.asSlice.length < startEntity then .ub
  else
    let newEntities := w.entities.asSlice.drop startEntity
    Outcome.ofRes w
      (w.components.withMask mask (ComponentStorage.groupEntities mask newEntities)) fun c =>
    .ok newEntities { w with components := c }

/-- src/world/mod.rs:115-122 `World::destroy`. -/
def destroy (w : World V) (e : Entity) : Res (Bool × World V) := do
  let (removed, es) ← w.entities.remove e
  if removed then
    let c ← w.components.strip e
    pure (true, ⟨es, c⟩)
  else pure (false, { w with entities := es })

/-- src/world/mod.rs:130-132 `World::create_atomic`. -/
def createAtomic (w : World V) : Res (Entity × World V) := do
  let (e, es) ← w.entities.createAtomic
  pure (e, { w with entities := es })

/-- src/world/mod.rs:137-139 `World::maintain`. -/
def maintain (w : World V) : Res (World V) := do
  let es ← w.entities.maintain
  pure { w with entities := es }

/-- src/world/mod.rs:146-159 `World::insert`. -/
def insert (w : World V) (e : Entity) (vs : List (TypeId × V)) : Outcome (World V) Bool :=
  if !w.entities.contains e then .ok false w
  else (insertSet w e vs).bind fun _ w => .ok true w

/-- src/world/mod.rs:164-169 `World::remove`. -/
def remove (w : World V) (e : Entity) (ts : List TypeId) : Res (List (Option V) × World V) := do
  let (vs, c) ← w.components.remove e ts
  pure (vs, { w with components := c })

/-- src/world/mod.rs:174-181 `World::delete`. -/
def delete (w : World V) (e : Entity) (ts : List TypeId) : Res (World V) := do
  let c ← w.components.delete e ts
  pure { w with components := c }

/-- src/world/mod.rs:228-230 `World::contains_entity`. -/
def containsEntity (w : World V) (e : Entity) : Bool := w.entities.contains e

/-- src/world/mod.rs:235-237 `World::entities`. -/
def entitiesSlice (w : World V) : List Entity := w.entities.asSlice

/-- src/world/mod.rs:242-244 `World::is_empty`. -/
def isEmpty (w : World V) : Bool := w.entities.isEmpty

/-- src/world/mod.rs:248-251 `World::clear`. -/
def clear (w : World V) : Res (World V) := do
  let es ← w.entities.clear
  pure ⟨es, w.components.clear⟩

/-- src/world/mod.rs:256-259 `World::reset`. -/
def reset (w : World V) : World V := ⟨w.entities.reset, w.components.clear⟩

/-- src/world/mod.rs:272-277 `World::borrow_mut` (component_storage.rs:177-192), then
src/component/view.rs:50-52 `ViewMut::get_mut` and a write of `v` through the returned reference. Returns whether
there was something to write to. -/
def writeView (w : World V) (t : TypeId) (e : Entity) (v : V) : Res (Bool × World V) :=
  match w.components.meta? t with
  | none => .panic
  | some m => do
    let s ← Res.unchecked (w.components.components[m.storageIndex]?)
    let (b, s) ← s.setMut e v
    pure (b, { w with components :=
      { w.components with components := w.components.components.set m.storageIndex s } })

/-- src/world/mod.rs:272-277 `World::borrow_mut`, then src/component/view.rs:56-58 `ViewMut::as_mut_slice` and a write
of `v` to position `pos` of the slice. A write through a mutable item or slice of a query is a write to a position, too
(src/query/query_part.rs:326-340, 484-501). -/
def writeAt (w : World V) (t : TypeId) (pos : Nat) (v : V) : Res (World V) :=
  match w.components.meta? t with
  | none => .panic
  | some m => do
    let s ← Res.unchecked (w.components.components[m.storageIndex]?)
    let s ← s.setAt pos v
    pure { w with components :=
      { w.components with components := w.components.components.set m.storageIndex s } }

/-- src/world/mod.rs:263-268 `World::borrow` (component_storage.rs:159-174): the set behind the view. -/
def borrow (w : World V) (t : TypeId) : Res (CompSet V) :=
  match w.components.meta? t with
  | none => .panic
  | some m => Res.unchecked (w.components.components[m.storageIndex]?)

end World

/-! ### `WorldBuilder` (src/world/builder.rs) -/

/-- src/world/builder.rs:8-11 `WorldBuilder`. -/
structure WorldBuilder where
  layout : GroupLayout
  components : List TypeId
deriving DecidableEq, Repr

namespace WorldBuilder

/-- `Default` (src/world/builder.rs:7), `World::builder` (src/world/mod.rs:24-26). -/
def empty : WorldBuilder := ⟨GroupLayout.empty, []⟩

/-- src/world/builder.rs:16-19 `WorldBuilder::set_layout`. -/
def setLayout (b : WorldBuilder) (l : GroupLayout) : WorldBuilder := { b with layout := l }

/-- src/world/builder.rs:31-34 `WorldBuilder::add_group_dyn`. -/
def addGroup (b : WorldBuilder) (g : List TypeId) : Outcome WorldBuilder Unit :=
  match b.layout.addGroup g with
  | .ok _ l => .ok () { b with layout := l }
  | .panic l => .panic { b with layout := l }
  | .ub => .ub

/-- src/world/builder.rs:46-49 `WorldBuilder::register_dyn`. -/
def register (b : WorldBuilder) (t : TypeId) : WorldBuilder :=
  { b with components := b.components ++ [t] }

/-- The loop of src/world/builder.rs:58-60. -/
def registerAll (w : World V) : List TypeId → World V
  | [] => w
  | t :: ts => registerAll (w.register t).2 ts

/-- src/world/builder.rs:55-63 `WorldBuilder::build`. -/
def build (rank : TypeId → Nat) (b : WorldBuilder) : Outcome (World V) Unit :=
  (World.new rank b.layout).bind fun _ w => .ok () (registerAll w b.components)

end WorldBuilder
end Sparsey
