import Verif.Model.History
import Verif.Model.View

/-!
C82: giving the types other identifiers, in a world, in calls and in queries.
-/

set_option autoImplicit false

namespace Sparsey
variable {V : Type}

/-- The world with `ρ t` in place of every type `t`. -/
def World.mapT (ρ : TypeId → TypeId) (w : World V) : World V :=
  ⟨w.entities, ⟨w.components.groups, w.components.metadata.map fun p => (ρ p.1, p.2), w.components.components⟩⟩

/-- The call with `ρ t` in place of every type `t`. The order in which the hash map lists types stays the same for the types with
other names; `σ` leads back from these to the names before. -/
def Op.mapT (ρ σ : TypeId → TypeId) : Op V → Op V
  | .register t => .register (ρ t)
  | .setLayout rank gs => .setLayout (fun t => rank (σ t)) (gs.map (List.map ρ))
  | .create vs => .create (vs.map fun p => (ρ p.1, p.2))
  | .extend ts it => .extend (ts.map ρ) it
  | .destroy e => .destroy e
  | .createAtomic => .createAtomic
  | .maintain => .maintain
  | .insert e vs => .insert e (vs.map fun p => (ρ p.1, p.2))
  | .remove e ts => .remove e (ts.map ρ)
  | .delete e ts => .delete e (ts.map ρ)
  | .clear => .clear
  | .reset => .reset
  | .write t e v => .write (ρ t) e v
  | .writeAt t pos v => .writeAt (ρ t) pos v

/-- `set_layout`. -/
def Op.setsLayout : Op V → Bool
  | .setLayout _ _ => true
  | _ => false

/-- The part of a query with `ρ t` in place of its type `t`. -/
def Part.mapT (ρ : TypeId → TypeId) : Part → Part
  | .entity => .entity
  | .ref t => .ref (ρ t)
  | .refMut t => .refMut (ρ t)
  | .opt t => .opt (ρ t)
  | .optMut t => .optMut (ρ t)

end Sparsey
