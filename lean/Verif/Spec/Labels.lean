import Verif.Spec.Rows

/-!
The versions under which a view finds its rows (C68). A view lists rows (C65); looking up an entity finds the row of its index
if the version asked for is the one kept for that row, its label. Regrouping exchanges rows but leaves the labels where they
are, so that a row can end up with the label of another one.
-/

set_option autoImplicit false

namespace Sparsey
variable {V : Type}

/-- The rows of a view and the version under which each of them is found. -/
structure Sheet (V : Type) where
  rows : List (Entity × V)
  labels : List Nat
deriving DecidableEq, Repr

namespace Sheet

/-- A view of nothing. -/
def empty : Sheet V := ⟨[], []⟩

/-- The position of the row of an index. -/
def pos (s : Sheet V) (e : Entity) : Option Nat := s.rows.findIdx? fun p => p.1.index == e.index

/-- What a lookup finds: the row of the index, if its label is the version asked for. -/
def get (s : Sheet V) (e : Entity) : Option V :=
  match s.pos e with
  | none => none
  | some i => if s.labels[i]? = some e.version then (s.rows[i]?).map Prod.snd else none

/-- A component is put: the row of the index is replaced and keeps its label; a new row is added at the end, with the version of
its entity as its label. -/
def put (s : Sheet V) (p : Entity × V) : Sheet V :=
  match s.pos p.1 with
  | some i => ⟨s.rows.set i p, s.labels⟩
  | none => ⟨s.rows ++ [p], s.labels ++ [p.1.version]⟩

/-- A component is taken away, if the lookup finds it: the last row moves into the gap and gets the version of its entity as its
label. -/
def take (s : Sheet V) (e : Entity) : Sheet V :=
  match s.pos e with
  | none => s
  | some i =>
    if s.labels[i]? = some e.version then
      match s.rows.getLast? with
      | none => s
      | some last => ⟨(s.rows.set i last).dropLast, (s.labels.set i last.1.version).dropLast⟩
    else s

/-- A component is written to, if the lookup finds it. -/
def write (s : Sheet V) (e : Entity) (v : V) : Sheet V :=
  match s.pos e with
  | none => s
  | some i => if s.labels[i]? = some e.version then ⟨s.rows.modify i fun p => (p.1, v), s.labels⟩ else s

/-- Rows change places, labels stay. -/
def Shuffled (s s' : Sheet V) : Prop := s'.rows.Perm s.rows ∧ s'.labels = s.labels

/-- What `n` removals of the same component give back. -/
def given (s : Sheet V) (e : Entity) : Nat → List (Option V)
  | 0 => []
  | n + 1 => s.get e :: List.replicate n none

end Sheet

/-- The rows of the view of `t` with their labels: for each entity of `View::entities` (src/component/view.rs:101-104) the
version in its slot (src/entity/sparse_vec.rs:7-9), which is the one `View::get` compares with. -/
def World.sheet (w : World V) (t : TypeId) : Sheet V :=
  match w.borrow t with
  | .ok s => ⟨s.entities.zip s.components,
      s.entities.map fun e => match s.sparse.slots[e.index]? with
        | some (some sl) => sl.version
        | _ => 0⟩
  | _ => .empty

/-- The rows and labels `s` of the view of `t` after a call, by those before, the call and its answer. -/
def World.Relabels (w : World V) (t : TypeId) (op : Op V) (r : Ret V) (s : Sheet V) : Prop :=
  match op with
  | .create _ | .insert _ _ | .extend _ _ => ((w.puts t op).foldl Sheet.put (w.sheet t)).Shuffled s
  | .remove e ts =>
    match r with
    | .values vs => ∃ s1, (w.sheet t).Shuffled s1 ∧ s = (if t ∈ ts then s1.take e else s1) ∧
        partFor t (ts.zip vs) = s1.given e (ts.count t)
    | _ => s = w.sheet t
  | .delete e ts =>
    match r with
    | .unit => ∃ s1, (w.sheet t).Shuffled s1 ∧ s = (if t ∈ ts then s1.take e else s1)
    | _ => s = w.sheet t
  | .destroy e =>
    match r with
    | .bool true => ∃ s1, (w.sheet t).Shuffled s1 ∧ s = s1.take e
    | _ => s = w.sheet t
  | .clear | .reset => s = .empty
  | .write t' e v =>
    if t' = t then s = (w.sheet t).write e v ∧ (w.isRegistered t → r = .bool ((w.sheet t).get e).isSome) else s = w.sheet t
  | .writeAt t' i v => s = if t' = t then ⟨(w.sheet t).rows.modify i fun p => (p.1, v), (w.sheet t).labels⟩ else w.sheet t
  | .register _ | .createAtomic | .maintain => s = w.sheet t
  | .setLayout _ gs =>
    match r with
    | .unit => if (layoutTypes (GroupLayout.build gs).2).count t ≤ 1 then (w.sheet t).Shuffled s else s = .empty
    | _ => (w.sheet t).Shuffled s ∨ s = .empty

/-- All rows of the view are found under their own entity. -/
def World.FindsAll (w : World V) (t : TypeId) : Prop := ∀ p ∈ w.rows t, w.viewGet t p.1 = .ok (some p.2)

/-- The call can only move the rows of `t`: it does not name `t`, or it is a `set_layout` that returns and keeps `t`. -/
def Op.Moves (t : TypeId) (r : Ret V) (op : Op V) : Prop :=
  ¬ op.names t ∨ ∃ rank gs, op = .setLayout rank gs ∧ r = .unit ∧ (layoutTypes (GroupLayout.build gs).2).count t ≤ 1

/-- The call puts components. -/
def Op.puts : Op V → Prop
  | .create _ | .insert _ _ | .extend _ _ => True
  | _ => False

end Sparsey
