import Verif.Model.Bombs
import Verif.Spec.Ledger

/-!
What a panicking destructor costs.
-/

set_option autoImplicit false

namespace Sparsey
variable {V : Type}

/-- The books of a call: of the values `before` (stored before it, or given to it) it drops `dropped` and leaves `after`
stored; `twice` are dropped but still stored, `lost` are neither dropped nor stored. -/
structure Toll (bomb : V → Bool) (before dropped after twice lost : List V) : Prop where
  /-- The books balance. -/
  books : (before ++ twice).Perm (dropped ++ (after ++ lost))
  /-- The values still stored are those dropped last. -/
  tail : twice <:+ dropped
  /-- The very last one is the one whose destructor panicked. -/
  cause : ∀ v, twice.getLast? = some v → bomb v = true

/-- What each call can do wrong at most: `delete` and `destroy` keep one dropped value and lose one other for it; `clear`
and `reset` keep dropped values but lose none; all other calls keep and lose nothing. -/
def Op.Limits : Op V → List V → List V → Prop
  | .delete _ _, twice, lost => twice.length = lost.length ∧ lost.length ≤ 1
  | .destroy _, twice, lost => twice.length = lost.length ∧ lost.length ≤ 1
  | .clear, _, lost => lost = []
  | .reset, _, lost => lost = []
  | _, twice, lost => twice = [] ∧ lost = []

/-- The number of calls of `delete` and `destroy` that panicked. -/
def interrupted : List (Op V) → List (Ret V) → Nat
  | .delete _ _ :: ops, .panicked _ :: rs => interrupted ops rs + 1
  | .destroy _ :: ops, .panicked _ :: rs => interrupted ops rs + 1
  | _ :: ops, _ :: rs => interrupted ops rs
  | _, _ => 0

end Sparsey
