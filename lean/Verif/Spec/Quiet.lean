import Verif.Model.History

/-!
C80: calls that leave the allocator of entities alone, and the answers to some of the calls of a sequence.
-/

set_option autoImplicit false

namespace Sparsey
variable {V : Type}

/-- `create_atomic`. -/
def Op.isAtomic : Op V → Bool
  | .createAtomic => true
  | _ => false

/-- Calls that neither make nor destroy entities. -/
def Op.isQuiet : Op V → Bool
  | .register _ => true
  | .setLayout _ _ => true
  | .insert _ _ => true
  | .remove _ _ => true
  | .delete _ _ => true
  | .write _ _ _ => true
  | .writeAt _ _ _ => true
  | _ => false

/-- The answers to those calls of a sequence for which `p` holds. -/
def answersTo (p : Op V → Bool) : List (Op V) → List (Ret V) → List (Ret V)
  | op :: ops, r :: rs => if p op then r :: answersTo p ops rs else answersTo p ops rs
  | _, _ => []

end Sparsey
