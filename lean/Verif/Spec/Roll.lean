import Verif.Spec.Labels

/-!
What the entities of a world do after any calls (C73), with or without discipline: a list of rows and labels as for components
(`Verif/Spec/Labels.lean`), a queue of indexes to use again, and what the next `maintain` puts into the list. An entity is handed out by
taking it from the queue, and `maintain` puts everything that was taken since the last one, whether or not it is in the list
already or was destroyed in between.
-/

set_option autoImplicit false

namespace Sparsey
variable {V : Type}

/-- The entities of a world. -/
structure Roll where
  /-- the entities listed, and the version under which each of them is found -/
  list : Sheet Unit
  /-- destroyed indexes with their next version, in the order of destruction -/
  waiting : List Entity
  /-- the first index that was never used -/
  next : Nat
  /-- what `maintain` puts: the indexes used again since the last `maintain`, latest first, then the new ones -/
  due : List Entity
deriving DecidableEq, Repr

namespace Roll

/-- A fresh world. -/
def init : Roll := ⟨.empty, [], 0, []⟩

/-- Hands out an entity: the index that waits longest, else a new one as long as there are any. -/
def hand (r : Roll) : Option (Entity × Roll) :=
  match r.waiting with
  | e :: ws => some (e, { r with waiting := ws, due := e :: r.due })
  | [] => if r.next < 2 ^ 32 then some (⟨r.next, 1⟩, { r with next := r.next + 1, due := r.due ++ [⟨r.next, 1⟩] }) else none

/-- Puts an entity into the list. -/
def put (r : Roll) (e : Entity) : Roll := { r with list := r.list.put (e, ()) }

/-- Makes up to `n` entities; what was made, and the outcome. -/
def make (r : Roll) : Nat → List Entity × Roll
  | 0 => ([], r)
  | n + 1 =>
    match r.hand with
    | none => ([], r)
    | some (e, r') => (e :: ((r'.put e).make n).1, ((r'.put e).make n).2)

/-- The entities listed. -/
def entities (r : Roll) : List Entity := r.list.rows.map (·.1)

/-- The entity is found. -/
def has (r : Roll) (e : Entity) : Bool := (r.list.get e).isSome

/-- The effect of a call that answered. -/
def step (r : Roll) : Op V → Ret V → Roll
  | .create _, .entity _ => (r.make 1).2
  | .create _, .panicked m => (r.make m.length).2
  | .extend _ it, .entities _ => (r.make it.items.length).2
  | .extend _ _, .panicked m => (r.make m.length).2
  | .createAtomic, .entity _ => (r.hand.map (·.2)).getD r
  | .destroy e, .bool true =>
    { r with
      list := r.list.take e
      waiting := if e.version + 1 < 2 ^ 32 then r.waiting ++ [⟨e.index, e.version + 1⟩] else r.waiting }
  | .maintain, _ => { r.due.foldl put r with due := [] }
  | .clear, _ => { r with list := .empty, due := [] }
  | .reset, _ => init
  | _, _ => r

/-- The answers of the calls about entities; `known` are the registered types. -/
def Answers (r : Roll) (known : TypeId → Bool) : Op V → Ret V → Prop
  | .create vs, a =>
    match r.hand with
    | none => a = .panicked []
    | some (e, _) => a = if vs.all fun p => known p.1 then .entity e else .panicked [e]
  | .extend ts it, a =>
    a = if ts.all known then
        if (r.make it.items.length).1.length = it.items.length ∧ it.thenPanics = false then
          .entities ((r.make it.items.length).2.entities.drop r.entities.length)
        else .panicked (r.make it.items.length).1
      else .panicked []
  | .createAtomic, a =>
    match r.hand with
    | none => a = .panicked []
    | some (e, _) => a = .entity e
  | .destroy e, a => a = .bool (r.has e)
  | .insert e vs, a => a = if r.has e then (if vs.all fun p => known p.1 then .bool true else .panicked []) else .bool false
  | .maintain, a => a = .unit
  | .clear, a => a = .unit
  | .reset, a => a = .unit
  | _, _ => True

end Roll

/-- The entities after a history. -/
def roll (h : History V) : Roll := h.foldl (fun r p => r.step p.1 p.2) .init

end Sparsey
