import Verif.Spec.Map
import Verif.Spec.LayoutPanic

/-!
The types and the component sets that calls add. Only the calls and the groups of layouts (src/component/group_layout.rs) are looked at.
-/

set_option autoImplicit false

namespace Sparsey
variable {V : Type}

/-- The types that a call registers: `register` (src/world/mod.rs:51-70) its type, `set_layout` (src/world/mod.rs:43-47) those of
the layout. -/
def Op.registers : Op V → List TypeId
  | .register t => [t]
  | .setLayout _ gs => layoutTypes (GroupLayout.build gs).2
  | _ => []

/-- The types registered after a call; `ts` are those before. A `set_layout` with a layout that is not below the maxima panics and
leaves those registered that it placed (src/component/component_storage.rs:37-89). -/
def typesNext (ts : List TypeId) : Op V → List TypeId
  | .register t => t :: ts
  | .setLayout _ gs =>
    if LayoutFits (GroupLayout.build gs).2 then layoutTypes (GroupLayout.build gs).2 ++ ts
    else placedTypes (GroupLayout.build gs).2
  | _ => ts

/-- The types registered after a series of calls; `ts` are those before (src/world/mod.rs:43-70). -/
def typesFrom (ts : List TypeId) : List (Op V) → List TypeId
  | [] => ts
  | op :: ops => typesFrom (typesNext ts op) ops

/-- The number of component sets that a call adds when `ts` are registered: `register` one for a new type; `set_layout` one for
every type of every family of the layout, and one for each of the other types; if it panics, one for every type that it placed
(src/component/component_storage.rs:38-135). -/
def setsAdded (ts : List TypeId) : Op V → Nat
  | .register t => if t ∈ ts then 0 else 1
  | .setLayout _ gs =>
    if LayoutFits (GroupLayout.build gs).2 then (layoutTypes (GroupLayout.build gs).2).length +
      (ts.dedup.filter (· ∉ layoutTypes (GroupLayout.build gs).2)).length
    else (placedTypes (GroupLayout.build gs).2).length
  | _ => 0

/-- The number of component sets that a series of calls adds (src/component/component_storage.rs:38-135). -/
def setsFrom (ts : List TypeId) : List (Op V) → Nat
  | [] => 0
  | op :: ops => setsAdded ts op + setsFrom (typesNext ts op) ops

end Sparsey
