import Verif.Model.History

/-!
C79: calls that have nothing to do, because of the call directly before them, and calls made superfluous by the call directly after
them.
-/

set_option autoImplicit false

namespace Sparsey
variable {V : Type}

/-- Whether the first call leaves nothing to do for the second, and what the second then answers. -/
def Op.leaves : Op V → Op V → Option (Ret V)
  | .register t, .register t' => if t = t' then some (.bool false) else none
  | .destroy e, .destroy e' => if e = e' then some (.bool false) else none
  | .destroy e, .insert e' _ => if e = e' then some (.bool false) else none
  | .maintain, .maintain => some .unit
  | .clear, .maintain => some .unit
  | .clear, .clear => some .unit
  | .clear, .destroy _ => some (.bool false)
  | .clear, .insert _ _ => some (.bool false)
  | .reset, .maintain => some .unit
  | .reset, .clear => some .unit
  | .reset, .reset => some .unit
  | .reset, .destroy _ => some (.bool false)
  | .reset, .insert _ _ => some (.bool false)
  | _, _ => none

/-- Whether the first call leaves no component for the second one to act on, and what the second then answers if all types it names
are registered. -/
def Op.misses : Op V → Op V → Option (Ret V)
  | .clear, .remove _ ts => some (.values (ts.map fun _ => none))
  | .clear, .delete _ _ => some .unit
  | .clear, .write _ _ _ => some (.bool false)
  | .reset, .remove _ ts => some (.values (ts.map fun _ => none))
  | .reset, .delete _ _ => some .unit
  | .reset, .write _ _ _ => some (.bool false)
  | .destroy e, .remove e' ts => if e = e' then some (.values (ts.map fun _ => none)) else none
  | .destroy e, .delete e' _ => if e = e' then some .unit else none
  | .destroy e, .write _ e' _ => if e = e' then some (.bool false) else none
  | _, _ => none

/-- Whether the first call makes no difference if it is followed by the second. -/
def Op.wasted : Op V → Op V → Bool
  | .register _, .reset => false
  | .setLayout _ _, .reset => false
  | _, .reset => true
  | .maintain, .clear => true
  | .insert _ _, .clear => true
  | .remove _ _, .clear => true
  | .delete _ _, .clear => true
  | .write _ _ _, .clear => true
  | .writeAt _ _ _, .clear => true
  | .clear, .clear => true
  | _, _ => false

end Sparsey
