import Verif.Model.Drops

/-!
Destructors that panic. `bomb v` says that the destructor of the component value `v` panics (after having been called).
The functions follow those of the same name in `CompSet.lean`, `Storage.lean` and `World.lean`; their state also carries
the values whose destructor has been called so far. A panic leaves the state behind as it is at that moment.

`RawSet.lean` has the same at the level of memory, see `Represents.delete` and `Represents.clear` for the relation.
Components that are replaced (`insert`, `create`, `extend`, writes) are dropped by the call, too; their destructors
interrupt the loops over the components. A second panic while unwinding from the first ends the process and is modelled
for the drop of a world only.
-/

set_option autoImplicit false

namespace Sparsey
variable {V : Type}

/-- A loop that drops the values in order: up to and including the first bomb.
(src/component/component_sparse_set.rs:303-307) -/
def upToBomb (bomb : V → Bool) : List V → List V
  | [] => []
  | v :: l => if bomb v then [v] else v :: upToBomb bomb l

namespace CompSet

/-- src/component/component_sparse_set.rs:93-119 `delete`, interrupted in line 114: everything is as after a completed
`delete` (`s'`), but the last component has not been copied over the dropped one. -/
def afterBomb (s s' : CompSet V) : CompSet V := { s' with components := s.components.take s'.entities.length }

/-- src/component/component_sparse_set.rs:93-119 `delete`. -/
def deleteB (bomb : V → Bool) (s : CompSet V) (e : Entity) : Outcome (CompSet V × List V) Unit :=
  Outcome.ofRes (s, []) (s.delete e) fun s' =>
    if (s.deleteDrops e).any bomb then .panic (s.afterBomb s', s.deleteDrops e) else .ok () (s', s.deleteDrops e)

/-- src/component/component_sparse_set.rs:296-311 `clear_typed`: the sparse slots are cleared first (300), `len` is reset
last (310). -/
def clearB (bomb : V → Bool) (s : CompSet V) : Outcome (CompSet V × List V) Unit :=
  if s.components.any bomb then .panic ({ s with sparse := s.sparse.clear }, upToBomb bomb s.components)
  else .ok () (s.clear, s.components)

end CompSet

namespace ComponentStorage

/-- src/component/component_set.rs:200-202: deletes from each set in turn. -/
def deleteEachB (bomb : V → Bool) (e : Entity) : List Nat → ComponentStorage V → List V →
    Outcome (ComponentStorage V × List V) Unit
  | [], c, ds => .ok () (c, ds)
  | i :: is, c, ds =>
    Outcome.ofRes (c, ds) (Res.unchecked (c.components[i]?)) fun s =>
      match s.deleteB bomb e with
      | .ok _ (s, d) => deleteEachB bomb e is { c with components := c.components.set i s } (ds ++ d)
      | .panic (s, d) => .panic ({ c with components := c.components.set i s }, ds ++ d)
      | .ub => .ub

/-- src/component/component_set.rs:169-204 `ComponentSet::delete`. -/
def deleteB (bomb : V → Bool) (c : ComponentStorage V) (e : Entity) (ts : List TypeId) :
    Outcome (ComponentStorage V × List V) Unit :=
  Outcome.ofRes (c, []) (c.lookupAll (·.deleteMask) ts) fun (idxs, mask) =>
  Outcome.ofRes (c, []) (c.withMask mask (ungroup · mask e)) fun c => deleteEachB bomb e idxs c []

/-- src/component/component_storage.rs:143-145: the sets after the interrupted one are left as they are. -/
def deleteAllB (bomb : V → Bool) (e : Entity) : List (CompSet V) → Outcome (List (CompSet V) × List V) Unit
  | [] => .ok () ([], [])
  | s :: ss =>
    match s.deleteB bomb e with
    | .ok _ (s, d) =>
      match deleteAllB bomb e ss with
      | .ok _ (ss, ds) => .ok () (s :: ss, d ++ ds)
      | .panic (ss, ds) => .panic (s :: ss, d ++ ds)
      | .ub => .ub
    | .panic (s, d) => .panic (s :: ss, d)
    | .ub => .ub

/-- src/component/component_storage.rs:138-146 `strip`. -/
def stripB (bomb : V → Bool) (c : ComponentStorage V) (e : Entity) : Outcome (ComponentStorage V × List V) Unit :=
  Outcome.ofRes (c, []) (ungroupAll (c.components, c.groups) e) fun (comps, groups) =>
    match deleteAllB bomb e comps with
    | .ok _ (comps, ds) => .ok () ({ c with components := comps, groups }, ds)
    | .panic (comps, ds) => .panic ({ c with components := comps, groups }, ds)
    | .ub => .ub

/-- src/component/component_storage.rs:153-155. -/
def clearAllB (bomb : V → Bool) : List (CompSet V) → Outcome (List (CompSet V) × List V) Unit
  | [] => .ok () ([], [])
  | s :: ss =>
    match s.clearB bomb with
    | .ok _ (s, d) =>
      match clearAllB bomb ss with
      | .ok _ (ss, ds) => .ok () (s :: ss, d ++ ds)
      | .panic (ss, ds) => .panic (s :: ss, d ++ ds)
      | .ub => .ub
    | .panic (s, d) => .panic (s :: ss, d)
    | .ub => .ub

/-- src/component/component_storage.rs:148-156 `clear`. -/
def clearB (bomb : V → Bool) (c : ComponentStorage V) : Outcome (ComponentStorage V × List V) Unit :=
  let groups := c.groups.map fun g => { g with len := 0 }
  match clearAllB bomb c.components with
  | .ok _ (comps, ds) => .ok () ({ c with components := comps, groups }, ds)
  | .panic (comps, ds) => .panic ({ c with components := comps, groups }, ds)
  | .ub => .ub

/-- src/component/component_set.rs:47-64, interrupted: the replaced component that `ComponentSparseSet::insert` returned is
dropped in line 62, after the new one has been stored. If it is a bomb the components not inserted yet are dropped by
unwinding, and the groups (66-75) are left as they are. `none` if no bomb is met before the loop ends (in any way). -/
def insertBomb (bomb : V → Bool) (e : Entity) : List (TypeId × V) → ComponentStorage V →
    Option (ComponentStorage V × List V)
  | [], _ => none
  | (t, v) :: rest, c =>
    match c.meta? t with
    | none => none
    | some m =>
      match c.components[m.storageIndex]? with
      | none => none
      | some s =>
        match s.insert e v with
        | .ok (old, s) =>
          let c := { c with components := c.components.set m.storageIndex s }
          if old.any bomb then some (c, old.toList ++ rest.map (·.2))
          else (insertBomb bomb e rest c).map fun (c, ds) => (c, old.toList ++ ds)
        | _ => none

/-- src/component/component_set.rs:107-109, interrupted: as `insertBomb`. -/
def insertAtBomb (bomb : V → Bool) (e : Entity) : List (Nat × V) → ComponentStorage V →
    Option (ComponentStorage V × List V)
  | [], _ => none
  | (i, v) :: rest, c =>
    match c.components[i]? with
    | none => none
    | some s =>
      match s.insert e v with
      | .ok (old, s) =>
        let c := { c with components := c.components.set i s }
        if old.any bomb then some (c, old.toList ++ rest.map (·.2))
        else (insertAtBomb bomb e rest c).map fun (c, ds) => (c, old.toList ++ ds)
      | _ => none

end ComponentStorage

namespace World

/-- src/component/component_set.rs:104-110, interrupted: the world, the dropped values (the iterator is dropped with the
items it did not yield), the entities made. -/
def extendBomb (bomb : V → Bool) (idxs : List Nat) : List (List V) → World V → Option (World V × List V × List Entity)
  | [], _ => none
  | vs :: rest, w =>
    match w.entities.create with
    | .ok (e, es) =>
      match w.components.insertAtBomb bomb e (idxs.zip vs) with
      | some (c, ds) => some (⟨es, c⟩, ds ++ rest.flatMap (·.take idxs.length), [e])
      | none =>
        match w.components.insertAt e (idxs.zip vs) with
        | .ok c => (extendBomb bomb idxs rest ⟨es, c⟩).map fun (w', ds, made) =>
            (w', w.components.insertAtDrops e (idxs.zip vs) ++ ds, e :: made)
        | _ => none
    | _ => none

/-- src/world/mod.rs:146-159 `World::insert`, interrupted by the destructor of a replaced component, or by that of an
argument if the entity is missing (150-152; drop glue goes on with the other fields of the tuple). -/
def insertBomb (bomb : V → Bool) (w : World V) (e : Entity) (vs : List (TypeId × V)) : Option (World V × List V) :=
  if w.entities.contains e then
    (w.components.insertBomb bomb e vs).map fun (c, ds) => ({ w with components := c }, ds)
  else if (vs.map (·.2)).any bomb then some (w, vs.map (·.2)) else none

/-- src/world/mod.rs:86-97 `World::create`, interrupted. -/
def createBomb (bomb : V → Bool) (w : World V) (vs : List (TypeId × V)) : Option (World V × List V × List Entity) :=
  match w.entities.create with
  | .ok (e, es) => (w.components.insertBomb bomb e vs).map fun (c, ds) => (⟨es, c⟩, ds, [e])
  | _ => none

/-- src/component/component_set.rs:78-130 `ComponentSet::extend`, interrupted. -/
def extendBombs (bomb : V → Bool) (w : World V) (ts : List TypeId) (items : List (List V)) :
    Option (World V × List V × List Entity) :=
  match w.components.lookupAll (·.insertMask) ts with
  | .ok (idxs, _) => extendBomb bomb idxs items w
  | _ => none

/-- Puts a storage back into a world (src/world/mod.rs: the fields `entities` and `components` of `World`, 16-19). -/
def withStorage (es : EntityStorage) : Outcome (ComponentStorage V × List V) Unit → Outcome (World V × List V) Unit
  | .ok _ (c, ds) => .ok () (⟨es, c⟩, ds)
  | .panic (c, ds) => .panic (⟨es, c⟩, ds)
  | .ub => .ub

/-- src/world/mod.rs:174-181 `World::delete`. -/
def deleteB (bomb : V → Bool) (w : World V) (e : Entity) (ts : List TypeId) : Outcome (World V × List V) Unit :=
  withStorage w.entities (w.components.deleteB bomb e ts)

/-- src/world/mod.rs:115-122 `World::destroy`: the entity is removed before its components. -/
def destroyB (bomb : V → Bool) (w : World V) (e : Entity) : Outcome (World V × List V) Bool :=
  Outcome.ofRes (w, []) (w.entities.remove e) fun (removed, es) =>
    if removed then (withStorage es (w.components.stripB bomb e)).bind fun _ s => .ok true s
    else .ok false ({ w with entities := es }, [])

/-- src/world/mod.rs:248-251 `World::clear`. -/
def clearB (bomb : V → Bool) (w : World V) : Outcome (World V × List V) Unit :=
  Outcome.ofRes (w, []) w.entities.clear fun es => withStorage es (w.components.clearB bomb)

/-- src/world/mod.rs:256-259 `World::reset`. -/
def resetB (bomb : V → Bool) (w : World V) : Outcome (World V × List V) Unit :=
  withStorage w.entities.reset (w.components.clearB bomb)

/-- Drop of the sets of a `World` one by one (src/component/component_storage.rs:22): a `Vec` goes on with its other
elements when the drop of one panics (`panicking`), but a second panic ends the process (second component of the result).
The loop over the components of a set (src/component/component_sparse_set.rs:317-328) does not go on, and the block
leaks. -/
def dropSetsB (bomb : V → Bool) (panicking : Bool) : List (CompSet V) → List V × Bool
  | [] => ([], false)
  | s :: ss =>
    if s.components.any bomb then
      if panicking then (upToBomb bomb s.components, true)
      else
        let (ds, aborted) := dropSetsB bomb true ss
        (upToBomb bomb s.components ++ ds, aborted)
    else
      let (ds, aborted) := dropSetsB bomb panicking ss
      (s.components ++ ds, aborted)

/-- Drop of a `World`: the values whose destructor is called (src/component/component_sparse_set.rs:313-329, 353-360). -/
def finalDropsB (bomb : V → Bool) (w : World V) : List V := (dropSetsB bomb false w.components.components).1

/-- Drop of a `World`: whether the process is aborted (src/component/component_sparse_set.rs:313-329, 353-360). -/
def abortsB (bomb : V → Bool) (w : World V) : Bool := (dropSetsB bomb false w.components.components).2

end World

/-- Converts the result of a call with bombs (no code of its own; the calls of src/world/mod.rs:43-260). -/
def retB {α : Type} (r : Outcome (World V × List V) α) (f : α → Ret V) : Option (Ret V × World V × List V) :=
  match r with
  | .ok a (w, ds) => some (f a, w, ds)
  | .panic (w, ds) => some (.panicked [], w, ds)
  | .ub => none

/-- A call of which no destructor panics: the answer, the world afterwards and the dropped values (History.lean,
Drops.lean) (src/world/mod.rs:43-260). -/
def stepCalm (w : World V) (op : Op V) : Option (Ret V × World V × List V) :=
  (step w op).map fun (r, w') => (r, w', w.drops op)

/-- One call (as `step`, History.lean) when some destructors panic: the answer, the world afterwards and the values
dropped by the call. An assignment `*r = v` in the code of the caller stores the new value even if the destructor of the
old one panics (src/world/mod.rs:43-260). -/
def stepB (bomb : V → Bool) (w : World V) : Op V → Option (Ret V × World V × List V)
  | .destroy e => retB (w.destroyB bomb e) .bool
  | .delete e ts => retB (w.deleteB bomb e ts) fun _ => .unit
  | .clear => retB (w.clearB bomb) fun _ => .unit
  | .reset => retB (w.resetB bomb) fun _ => .unit
  | .insert e vs =>
    match w.insertBomb bomb e vs with
    | some (w', ds) => some (.panicked [], w', ds)
    | none => stepCalm w (.insert e vs)
  | .create vs =>
    match w.createBomb bomb vs with
    | some (w', ds, made) => some (.panicked made, w', ds)
    | none => stepCalm w (.create vs)
  | .extend ts it =>
    match w.extendBombs bomb ts it.items with
    | some (w', ds, made) => some (.panicked made, w', ds)
    | none => stepCalm w (.extend ts it)
  | .write t e v =>
    (stepCalm w (.write t e v)).map fun (r, w', ds) => (if ds.any bomb then .panicked [] else r, w', ds)
  | .writeAt t pos v =>
    (stepCalm w (.writeAt t pos v)).map fun (r, w', ds) => (if ds.any bomb then .panicked [] else r, w', ds)
  | op => stepCalm w op

/-- Runs calls when some destructors panic: answers, final world, all dropped values (src/world/mod.rs:43-260). -/
def runB (bomb : V → Bool) (w : World V) : List (Op V) → Option (List (Ret V) × World V × List V)
  | [] => some ([], w, [])
  | op :: ops =>
    match stepB bomb w op with
    | none => none
    | some (r, w', ds) =>
      match runB bomb w' ops with
      | none => none
      | some (rs, w'', ds') => some (r :: rs, w'', ds ++ ds')

end Sparsey
