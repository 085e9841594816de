import Verif.Model.History

/-!
Specification of entity life spans: what the documentation says about which entities are alive and which entity is
handed out next, as a function of what a caller sees (calls and answers). Nothing here refers to the data
structures of the model.
-/

set_option autoImplicit false

namespace Sparsey
variable {V : Type}

/-- What a history says about entities. -/
inductive Ev where
  /-- made by `create` or `extend`: alive at once -/
  | made (e : Entity)
  /-- handed out by `create_atomic`: alive after the next `maintain` -/
  | queued (e : Entity)
  /-- `destroy` returned `true` -/
  | killed (e : Entity)
  | maintained
  | cleared
  | reset
deriving DecidableEq, Repr

/-- The events of one call. -/
def events : Op V → Ret V → List Ev
  | .create _, .entity e => [.made e]
  | .create _, .panicked m => m.map .made
  | .extend _ _, .entities es => es.map .made
  | .extend _ _, .panicked m => m.map .made
  | .createAtomic, .entity e => [.queued e]
  | .destroy e, .bool true => [.killed e]
  | .maintain, .unit => [.maintained]
  | .clear, .unit => [.cleared]
  | .reset, .unit => [.reset]
  | _, _ => []

/-- The events of a history. -/
def historyEvents : History V → List Ev
  | [] => []
  | (op, r) :: h => events op r ++ historyEvents h

/-- Life spans so far. -/
structure Life where
  /-- the living entities -/
  alive : List Entity
  /-- handed out by `create_atomic`, waiting for `maintain` -/
  queued : List Entity
  /-- made by `create`/`extend` since the last `maintain`, `clear` or `reset` -/
  fresh : List Entity
  /-- everything handed out since the last `reset`, latest first -/
  issued : List Entity
  /-- destroyed indexes with their next version, in the order of destruction -/
  waiting : List Entity
  /-- the first index that was never used -/
  next : Nat
  /-- an entity in `fresh` was destroyed -/
  freshKilled : Bool
  /-- since the last `reset`, `maintain` was never called while `freshKilled` -/
  disciplined : Bool
deriving DecidableEq, Repr

namespace Life

/-- A fresh world. -/
def init : Life := ⟨[], [], [], [], [], 0, false, true⟩

/-- The next entity to be handed out: the destroyed index that waits longest, with its next version, otherwise a new
index with version 1. -/
def nextEntity (l : Life) : Entity :=
  match l.waiting with
  | e :: _ => e
  | [] => ⟨l.next, 1⟩

/-- Nothing is left to hand out. -/
def exhausted (l : Life) : Prop := l.waiting = [] ∧ l.next = 2 ^ 32

/-- Takes the next entity out. -/
def take (l : Life) : Life :=
  match l.waiting with
  | _ :: ws => { l with waiting := ws }
  | [] => { l with next := l.next + 1 }

/-- Effect of one event. -/
def step (l : Life) : Ev → Life
  | .made e => { l.take with alive := e :: l.alive, fresh := e :: l.fresh, issued := e :: l.issued }
  | .queued e => { l.take with queued := e :: l.queued, issued := e :: l.issued }
  | .killed e =>
    { l with
      alive := l.alive.filter (· ≠ e)
      freshKilled := l.freshKilled || l.fresh.contains e
      waiting := if e.version + 1 < 2 ^ 32 then l.waiting ++ [⟨e.index, e.version + 1⟩] else l.waiting }
  | .maintained =>
    { l with
      alive := l.queued ++ l.alive, queued := [], fresh := [], freshKilled := false
      disciplined := l.disciplined && !l.freshKilled }
  | .cleared => { l with alive := [], queued := [], fresh := [], freshKilled := false }
  | .reset => init

/-- Effect of a series of events. -/
def run (l : Life) (evs : List Ev) : Life := evs.foldl step l

end Life

/-- Life spans after a history. -/
def life (h : History V) : Life := Life.init.run (historyEvents h)

/-- The history keeps to the discipline: `maintain` is not called after an entity made by `create` or `extend`
since the last `maintain`/`clear`/`reset` was destroyed (only the part since the last `reset` counts). -/
def Disciplined (h : History V) : Prop := (life h).disciplined = true

instance (h : History V) : Decidable (Disciplined h) := inferInstanceAs (Decidable (_ = _))

end Sparsey
