/-!
Results of modelled Rust functions.
-/

set_option autoImplicit false

namespace Sparsey

/-- Result of a modelled Rust function whose state at a panic is not observable:
`ok` is a normal return, `panic` a Rust panic, `ub` an access that the Rust code performs
without a check and that is out of bounds / uninitialised (undefined behaviour) (no code of its own; for all of src). -/
inductive Res (α : Type) where
  | ok (a : α)
  | panic
  | ub
deriving Repr, DecidableEq

namespace Res

/-- Sequencing: the first non-`ok` result wins (no code of its own; for all of src). -/
def bind {α β : Type} : Res α → (α → Res β) → Res β
  | ok a, f => f a
  | panic, _ => panic
  | ub, _ => ub

instance : Monad Res where
  pure := Res.ok
  bind := Res.bind

/-- `get_unchecked`-like access (as in src/component/component_storage.rs:170, src/component/group.rs:60). -/
def unchecked {α : Type} : Option α → Res α
  | some a => ok a
  | none => ub

/-- Checked indexing: panics when absent (as in src/component/component_storage.rs:64). -/
def checked {α : Type} : Option α → Res α
  | some a => ok a
  | none => panic

/-- `assert!` (as in src/component/group_mask.rs:14-16). -/
def assert (b : Bool) : Res Unit := if b then ok () else panic

@[simp] theorem bind_ok {α β : Type} (a : α) (f : α → Res β) : (Res.ok a >>= f) = f a := rfl
@[simp] theorem bind_panic {α β : Type} (f : α → Res β) : ((Res.panic : Res α) >>= f) = Res.panic := rfl
@[simp] theorem bind_ub {α β : Type} (f : α → Res β) : ((Res.ub : Res α) >>= f) = Res.ub := rfl
@[simp] theorem pure_eq {α : Type} (a : α) : (pure a : Res α) = Res.ok a := rfl
@[simp] theorem unchecked_some {α : Type} (a : α) : unchecked (some a) = Res.ok a := rfl
@[simp] theorem unchecked_none {α : Type} : unchecked (none : Option α) = Res.ub := rfl
@[simp] theorem checked_some {α : Type} (a : α) : checked (some a) = Res.ok a := rfl
@[simp] theorem checked_none {α : Type} : checked (none : Option α) = Res.panic := rfl
@[simp] theorem assert_true : assert true = Res.ok () := rfl
@[simp] theorem assert_false : assert false = Res.panic := rfl

theorem bind_eq_ok {α β : Type} {x : Res α} {f : α → Res β} {b : β} :
    (x >>= f) = Res.ok b ↔ ∃ a, x = Res.ok a ∧ f a = Res.ok b := by
  cases x <;> simp

end Res

/-- Result of a modelled `&mut self` function when the state at a panic matters (a caught panic leaves
the partially modified state behind) (no code of its own; for all of src). -/
inductive Outcome (σ α : Type) where
  | ok (a : α) (s : σ)
  | panic (s : σ)
  | ub
deriving DecidableEq, Repr

namespace Outcome

/-- Continue with the returned value and state (no code of its own; for all of src). -/
def bind {σ α β : Type} : Outcome σ α → (α → σ → Outcome σ β) → Outcome σ β
  | ok a s, f => f a s
  | panic s, _ => panic s
  | ub, _ => ub

/-- Run a `Res` computation inside an `Outcome`; a panic leaves state `s`.
(as a callee without a state of its own, e.g. src/component/component_storage.rs:56-58) -/
def ofRes {σ α β : Type} (s : σ) : Res α → (α → Outcome σ β) → Outcome σ β
  | .ok a, f => f a
  | .panic, _ => .panic s
  | .ub, _ => .ub

@[simp] theorem bind_ok {σ α β : Type} (a : α) (s : σ) (f : α → σ → Outcome σ β) :
    (Outcome.ok a s).bind f = f a s := rfl
@[simp] theorem bind_panic {σ α β : Type} (s : σ) (f : α → σ → Outcome σ β) :
    (Outcome.panic s : Outcome σ α).bind f = .panic s := rfl
@[simp] theorem bind_ub {σ α β : Type} (f : α → σ → Outcome σ β) :
    (Outcome.ub : Outcome σ α).bind f = .ub := rfl
@[simp] theorem ofRes_ok {σ α β : Type} (s : σ) (a : α) (f : α → Outcome σ β) :
    ofRes s (.ok a) f = f a := rfl
@[simp] theorem ofRes_panic {σ α β : Type} (s : σ) (f : α → Outcome σ β) :
    ofRes s (.panic) f = .panic s := rfl
@[simp] theorem ofRes_ub {σ α β : Type} (s : σ) (f : α → Outcome σ β) :
    ofRes s (.ub) f = .ub := rfl

end Outcome
end Sparsey
