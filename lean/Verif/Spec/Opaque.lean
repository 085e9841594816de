import Verif.Model.History
import Verif.Model.View

/-!
C81: replacing the values of components everywhere, in a world, in calls and in answers.
-/

set_option autoImplicit false

namespace Sparsey
variable {V W : Type}

/-- The set with `f v` in place of every component `v`. -/
def CompSet.mapV (f : V → W) (s : CompSet V) : CompSet W := ⟨s.sparse, s.entities, s.components.map f⟩

/-- The storage with `f v` in place of every component `v`. -/
def ComponentStorage.mapV (f : V → W) (c : ComponentStorage V) : ComponentStorage W :=
  ⟨c.groups, c.metadata, c.components.map (CompSet.mapV f)⟩

/-- The world with `f v` in place of every component `v`. -/
def World.mapV (f : V → W) (w : World V) : World W := ⟨w.entities, w.components.mapV f⟩

/-- The call with `f v` in place of every component `v` that it is given. -/
def Op.mapV (f : V → W) : Op V → Op W
  | .register t => .register t
  | .setLayout rank gs => .setLayout rank gs
  | .create vs => .create (vs.map fun p => (p.1, f p.2))
  | .extend ts it => .extend ts ⟨it.items.map (List.map f), it.thenPanics⟩
  | .destroy e => .destroy e
  | .createAtomic => .createAtomic
  | .maintain => .maintain
  | .insert e vs => .insert e (vs.map fun p => (p.1, f p.2))
  | .remove e ts => .remove e ts
  | .delete e ts => .delete e ts
  | .clear => .clear
  | .reset => .reset
  | .write t e v => .write t e (f v)
  | .writeAt t pos v => .writeAt t pos (f v)

/-- The answer with `f v` in place of every component `v` in it. -/
def Ret.mapV (f : V → W) : Ret V → Ret W
  | .unit => .unit
  | .bool b => .bool b
  | .entity e => .entity e
  | .entities es => .entities es
  | .values vs => .values (vs.map (Option.map f))
  | .panicked made => .panicked made

/-- The part of an item with `f v` in place of the component `v` in it. -/
def ItemPart.mapV (f : V → W) : ItemPart V → ItemPart W
  | .entity e => .entity e
  | .ref idx dense v => .ref idx dense (f v)
  | .opt r => .opt (r.map fun p => (p.1, p.2.1, f p.2.2))

/-- The part of a slice with `f v` in place of every component `v` in it. -/
def SlicePart.mapV (f : V → W) : SlicePart V → SlicePart W
  | .entities es => .entities es
  | .comps idx first vs => .comps idx first (vs.map f)
  | .unit => .unit

/-- A result with its value replaced. -/
def Res.mapR {α β : Type} (g : α → β) : Res α → Res β
  | .ok a => .ok (g a)
  | .panic => .panic
  | .ub => .ub

end Sparsey
