import Verif.Model.World

/-!
Histories of calls on a `World`.

One call is an `Op`; `step` runs it and yields what the caller sees (`Ret`) and the new world. A call that panics
is treated as caught by the caller (`std::panic::catch_unwind`), so that the history can go on with the state the
panic left behind. `none` stands for undefined behaviour, after which nothing can be said.
-/

set_option autoImplicit false

namespace Sparsey
variable {V : Type}

/-- Builds a layout by a series of `GroupLayout::add_group_dyn` calls (src/component/group_layout.rs:33-61),
starting from `l`. A panicking call is caught; the flag tells whether one panicked. -/
def GroupLayout.addGroups (l : GroupLayout) : List (List TypeId) → Bool × GroupLayout
  | [] => (false, l)
  | g :: gs =>
    match l.addGroup g with
    | .ok _ l' => GroupLayout.addGroups l' gs
    | .panic l' => (true, (GroupLayout.addGroups l' gs).2)
    | .ub => (true, (GroupLayout.addGroups l gs).2)

/-- `GroupLayout::default()` followed by a series of `add_group` calls (src/component/group_layout.rs:25-61). -/
def GroupLayout.build (gs : List (List TypeId)) : Bool × GroupLayout := GroupLayout.addGroups .empty gs

/-- Calls that change a world (`src/world/mod.rs`). `World::new(layout)` (31-36) is `World.empty` followed by
`setLayout`, see `World.new_eq_setLayout`. -/
inductive Op (V : Type) where
  /-- `World::register` (52-65) -/
  | register (t : TypeId)
  /-- `World::set_layout` (43-47) with a layout built from the given groups; `rank` is the iteration order of
  the hash map in `ComponentStorage::set_layout`. -/
  | setLayout (rank : TypeId → Nat) (gs : List (List TypeId))
  /-- `World::create` (86-97) -/
  | create (vs : List (TypeId × V))
  /-- `World::extend` (102-108) -/
  | extend (ts : List TypeId) (it : Items V)
  /-- `World::destroy` (115-122) -/
  | destroy (e : Entity)
  /-- `World::create_atomic` (130-132) -/
  | createAtomic
  /-- `World::maintain` (137-139) -/
  | maintain
  /-- `World::insert` (146-159) -/
  | insert (e : Entity) (vs : List (TypeId × V))
  /-- `World::remove` (164-169) -/
  | remove (e : Entity) (ts : List TypeId)
  /-- `World::delete` (174-181) -/
  | delete (e : Entity) (ts : List TypeId)
  /-- `World::clear` (248-251) -/
  | clear
  /-- `World::reset` (256-259) -/
  | reset
  /-- `World::borrow_mut` (272-277), `ViewMut::get_mut` and a write through the reference -/
  | write (t : TypeId) (e : Entity) (v : V)
  /-- `World::borrow_mut` (272-277), `ViewMut::as_mut_slice` and a write to one position; also a write through a mutable
  item or slice of a query -/
  | writeAt (t : TypeId) (pos : Nat) (v : V)

/-- What the caller sees. For a panicked call `made` are the entities that the interrupted `create` or `extend`
had already made (the caller does not get them but they are alive and appear in `entities()`).
(the return types of src/world/mod.rs:43-260) -/
inductive Ret (V : Type) where
  | unit
  | bool (b : Bool)
  | entity (e : Entity)
  | entities (es : List Entity)
  | values (vs : List (Option V))
  | panicked (made : List Entity)
deriving DecidableEq, Repr

/-- The entities made by up to `n` successive calls of `EntityStorage::create` (src/entity/entity_storage.rs:11-19),
up to the first panic. -/
def EntityStorage.createUpTo : EntityStorage → Nat → List Entity
  | _, 0 => []
  | s, n + 1 =>
    match s.create with
    | .ok (e, s') => e :: createUpTo s' n
    | _ => []

/-- Converts the result of a call without partial effects (no code of its own; the calls of src/world/mod.rs:43-260). -/
def retRes {α : Type} (w : World V) (r : Res α) (f : α → Ret V × World V) : Option (Ret V × World V) :=
  match r with
  | .ok a => some (f a)
  | .panic => some (.panicked [], w)
  | .ub => none

/-- Converts the result of a call that can be interrupted (no code of its own; the calls of src/world/mod.rs:43-260). -/
def retOutcome {α : Type} (made : List Entity) (r : Outcome (World V) α) (f : α → Ret V) :
    Option (Ret V × World V) :=
  match r with
  | .ok a w => some (f a, w)
  | .panic w => some (.panicked made, w)
  | .ub => none

/-- The entities an interrupted `extend` has made: none if the type lookup (src/component/component_set.rs:84-100)
panics, otherwise one per item until the allocator is exhausted. -/
def extendMade (w : World V) (ts : List TypeId) (it : Items V) : List Entity :=
  match w.components.lookupAll (·.insertMask) ts with
  | .ok _ => w.entities.createUpTo it.items.length
  | _ => []

/-- One call (src/world/mod.rs:43-260). -/
def step (w : World V) : Op V → Option (Ret V × World V)
  | .register t => some (.bool (w.register t).1, (w.register t).2)
  | .setLayout rank gs => retOutcome [] (w.setLayout rank (GroupLayout.build gs).2) fun _ => .unit
  | .create vs => retOutcome (w.entities.createUpTo 1) (w.create vs) .entity
  | .extend ts it => retOutcome (extendMade w ts it) (w.extend ts it) .entities
  | .destroy e => retRes w (w.destroy e) fun (b, w) => (.bool b, w)
  | .createAtomic => retRes w w.createAtomic fun (e, w) => (.entity e, w)
  | .maintain => retRes w w.maintain fun w => (.unit, w)
  | .insert e vs => retOutcome [] (w.insert e vs) .bool
  | .remove e ts => retRes w (w.remove e ts) fun (vs, w) => (.values vs, w)
  | .delete e ts => retRes w (w.delete e ts) fun w => (.unit, w)
  | .clear => retRes w w.clear fun w => (.unit, w)
  | .reset => some (.unit, w.reset)
  | .write t e v => retRes w (w.writeView t e v) fun (b, w) => (.bool b, w)
  | .writeAt t pos v => retRes w (w.writeAt t pos v) fun w => (.unit, w)

/-- A history: the calls with what they returned, oldest first (calls of src/world/mod.rs:43-260). -/
abbrev History (V : Type) := List (Op V × Ret V)

/-- `Reach w h w'`: running the calls of `h` on `w` gives the recorded answers and ends in `w'`.
(calls of src/world/mod.rs:43-260) -/
inductive Reach (w : World V) : History V → World V → Prop where
  | nil : Reach w [] w
  | snoc {h : History V} {w₁ w₂ : World V} {op : Op V} {r : Ret V} :
      Reach w h w₁ → step w₁ op = some (r, w₂) → Reach w (h ++ [(op, r)]) w₂

/-- Runs calls, `none` on undefined behaviour (calls of src/world/mod.rs:43-260). -/
def run (w : World V) : List (Op V) → Option (List (Ret V) × World V)
  | [] => some ([], w)
  | op :: ops =>
    match step w op with
    | none => none
    | some (r, w') =>
      match run w' ops with
      | none => none
      | some (rs, w'') => some (r :: rs, w'')

/-- `World::new(layout)` is the default world followed by `set_layout` (src/world/mod.rs:31-36,
src/component/component_storage.rs:27-35). -/
theorem World.new_eq_setLayout (rank : TypeId → Nat) (l : GroupLayout) :
    (World.new rank l : Outcome (World V) Unit) = World.setLayout rank World.empty l := by
  rfl

/-- `World::borrow` and `View::get` (src/component/view.rs:16-27): reads one component. -/
def World.viewGet (w : World V) (t : TypeId) (e : Entity) : Res (Option V) := do
  let s ← w.borrow t
  s.get e

end Sparsey
