import Verif.Model.History
import Verif.Spec.Layout

/-!
When a call panics, in terms of what a caller can observe: registered types, living entities, lengths of views, and what
`create_atomic` would answer.
-/

set_option autoImplicit false

namespace Sparsey
variable {V : Type}

/-- One of `n` calls of `create_atomic` in a row would panic: fewer than `n` entities are left. -/
def World.Dry (w : World V) (n : Nat) : Prop :=
  ∃ rs w', run w (List.replicate n .createAtomic) = some (rs, w') ∧ .panicked [] ∈ rs

/-- The call is refused. -/
def World.Refuses (w : World V) : Op V → Prop
  | .setLayout _ gs => ¬ LayoutFits (GroupLayout.build gs).2
  | .create vs => w.Dry 1 ∨ ∃ p ∈ vs, w.isRegistered p.1 = false
  | .extend ts it => (∃ t ∈ ts, w.isRegistered t = false) ∨ w.Dry it.items.length ∨ it.thenPanics = true
  | .createAtomic => w.Dry 1
  | .insert e vs => w.containsEntity e = true ∧ ∃ p ∈ vs, w.isRegistered p.1 = false
  | .remove _ ts => ∃ t ∈ ts, w.isRegistered t = false
  | .delete _ ts => ∃ t ∈ ts, w.isRegistered t = false
  | .write t _ _ => w.isRegistered t = false
  | .writeAt t pos _ => ∀ s, w.borrow t = .ok s → s.len ≤ pos
  | .register _ => False
  | .destroy _ => False
  | .maintain => False
  | .clear => False
  | .reset => False

/-- Calls that have no effect at all when they panic. -/
def Op.allOrNothing : Op V → Prop
  | .setLayout _ _ => False
  | .create _ => False
  | .extend _ _ => False
  | .insert _ _ => False
  | _ => True

end Sparsey
