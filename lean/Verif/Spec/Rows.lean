import Verif.Model.History
import Verif.Spec.Layout

/-!
What a view lists, entity by entity, and what each call does to it (C65). Nothing here depends on how sets are kept: a call
replaces or takes away the row of one index, or adds one.
-/

set_option autoImplicit false

namespace Sparsey
variable {V : Type}

/-- The rows of a view: entities with their components, in the order of `View::entities` and `View::as_slice`
(src/component/view.rs:101-110). -/
def World.rows (w : World V) (t : TypeId) : List (Entity × V) :=
  match w.borrow t with
  | .ok s => s.entities.zip s.components
  | _ => []

/-- The rows of other indexes. -/
def others (e : Entity) (l : List (Entity × V)) : List (Entity × V) := l.filter fun p => p.1.index != e.index

/-- One component is put: the row of the index is replaced, or a row is added. -/
def putRow (l : List (Entity × V)) (p : Entity × V) : List (Entity × V) := p :: others p.1 l

/-- Components are put one after the other. -/
def putRows (l : List (Entity × V)) (ps : List (Entity × V)) : List (Entity × V) := ps.foldl putRow l

/-- What is meant for `t`, in order. -/
def partFor {α : Type} (t : TypeId) (vs : List (TypeId × α)) : List α := (vs.filter fun p => p.1 == t).map Prod.snd

/-- The entities that the next `n` calls that make entities get: what `World::create_atomic` would answer. -/
def World.upcoming (w : World V) (n : Nat) : List Entity :=
  match run w (List.replicate n .createAtomic) with
  | some (rs, _) => rs.filterMap fun r =>
    match r with
    | .entity e => some e
    | _ => none
  | none => []

/-- The rows for `t` that a call puts. `create` and `insert` put components up to the first type that is not registered (and
panic there), `extend` puts nothing if one is not registered. -/
def World.puts (w : World V) (t : TypeId) : Op V → List (Entity × V)
  | .create vs => (w.upcoming 1).flatMap fun e => (partFor t (vs.takeWhile fun p => w.isRegistered p.1)).map fun v => (e, v)
  | .insert e vs =>
    if w.containsEntity e then (partFor t (vs.takeWhile fun p => w.isRegistered p.1)).map fun v => (e, v) else []
  | .extend ts it =>
    if ts.all w.isRegistered then
      ((w.upcoming it.items.length).zip it.items).flatMap fun p => (partFor t (ts.zip p.2)).map fun v => (p.1, v)
    else []
  | _ => []

/-- The write happened. -/
def Ret.wrote : Ret V → Bool
  | .unit => true
  | .bool b => b
  | _ => false

/-- The rows `l` of the view of `t` after a call, by the rows before, the call and its answer. The order of rows is not
fixed where sets may be regrouped. -/
def World.Turns (w : World V) (t : TypeId) (op : Op V) (r : Ret V) (l : List (Entity × V)) : Prop :=
  match op with
  | .create _ | .insert _ _ | .extend _ _ => l.Perm (putRows (w.rows t) (w.puts t op))
  | .remove e ts =>
    match r with
    | .values vs =>
      -- at most one row goes, and its value is given back
      match (partFor t (ts.zip vs)).filterMap id with
      | [] => l.Perm (w.rows t)
      | [v] => (∃ x, (x, v) ∈ w.rows t ∧ x.index = e.index) ∧ l.Perm (others e (w.rows t))
      | _ => False
    | _ => l = w.rows t
  | .delete e ts => l.Perm (w.rows t) ∨ t ∈ ts ∧ r = .unit ∧ l.Perm (others e (w.rows t))
  | .destroy e => l.Perm (w.rows t) ∨ r = .bool true ∧ l.Perm (others e (w.rows t))
  | .clear | .reset => r = .unit ∧ l = []
  | .write t' e v =>
    if t' = t ∧ r.wrote then ∃ x old i, (w.rows t)[i]? = some (x, old) ∧ x.index = e.index ∧ l = (w.rows t).set i (x, v)
    else l = w.rows t
  | .writeAt t' pos v =>
    if t' = t ∧ r.wrote then ∃ x old, (w.rows t)[pos]? = some (x, old) ∧ l = (w.rows t).set pos (x, v)
    else l = w.rows t
  | .register _ | .createAtomic | .maintain => l = w.rows t
  | .setLayout _ gs =>
    match r with
    | .unit => l.Perm (if (layoutTypes (GroupLayout.build gs).2).count t ≤ 1 then w.rows t else [])
    | _ => l.Perm (w.rows t) ∨ l = []

/-- The call writes `v` to a component of type `t`, by an entity with the index of `e` or by a position. -/
def Op.writes (t : TypeId) (e : Entity) (v : V) : Op V → Prop
  | .write t' e' v' => t' = t ∧ e'.index = e.index ∧ v' = v
  | .writeAt t' _ v' => t' = t ∧ v' = v
  | _ => False

/-- The component types a call names; all of them for calls that change whole entities, the world or the layout. -/
def Op.names (t : TypeId) : Op V → Prop
  | .create vs => t ∈ vs.map (·.1)
  | .insert _ vs => t ∈ vs.map (·.1)
  | .extend ts _ => t ∈ ts
  | .remove _ ts => t ∈ ts
  | .delete _ ts => t ∈ ts
  | .write t' _ _ => t' = t
  | .writeAt t' _ _ => t' = t
  | .register _ | .createAtomic | .maintain => False
  | .setLayout _ _ | .destroy _ | .clear | .reset => True

end Sparsey
