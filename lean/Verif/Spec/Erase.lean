import Verif.Spec.Good

/-!
What is left of a history if only some component types are looked at. Calls that name other types are made without them;
writes to components of other types are left out.
-/

set_option autoImplicit false

namespace Sparsey
variable {V : Type}

namespace MapWorld

/-- The types that stay in a call: those in `K`, and unregistered ones (naming one of these interrupts the call, and it is
to be interrupted at the same place). -/
def keeps (s : MapWorld V) (K : List TypeId) (t : TypeId) : Bool := decide (t ∈ K ∨ t ∉ s.reg)

/-- The components of the types that stay. -/
def kept (s : MapWorld V) (K : List TypeId) {α : Type} (vs : List (TypeId × α)) : List (TypeId × α) :=
  vs.filter fun p => s.keeps K p.1

/-- The call without the types outside of `K`. -/
def eraseOp (s : MapWorld V) (K : List TypeId) : Op V → Option (Op V)
  | .create vs => some (.create (s.kept K vs))
  | .extend ts it =>
    some (.extend (ts.filter (s.keeps K)) ⟨it.items.map fun vs => (s.kept K (ts.zip vs)).map (·.2), it.thenPanics⟩)
  | .insert e vs => some (.insert e (s.kept K vs))
  | .remove e ts => some (.remove e (ts.filter (s.keeps K)))
  | .delete e ts => some (.delete e (ts.filter (s.keeps K)))
  | .write t e v => if s.keeps K t then some (.write t e v) else none
  | .writeAt t pos v => if s.keeps K t then some (.writeAt t pos v) else none
  | op => some op

/-- The answer without the types outside of `K`. -/
def eraseRet (s : MapWorld V) (K : List TypeId) : Op V → Ret V → Ret V
  | .remove _ ts, .values vs => .values ((s.kept K (ts.zip vs)).map (·.2))
  | _, r => r

/-- The components of the types in `K` only. -/
def onTypes (s : MapWorld V) (K : List TypeId) : MapWorld V :=
  { s with table := s.table.filter fun p => decide (p.1.1 ∈ K) }

/-- The calls with their answers, without the types outside of `K`. -/
def erase (s : MapWorld V) (K : List TypeId) : History V → History V
  | [] => []
  | (op, r) :: h => (s.eraseOp K op).toList.map (fun op' => (op', s.eraseRet K op r)) ++ (s.next op).erase K h

end MapWorld

/-- The history of a new world without the types outside of `K`. -/
def erase (K : List TypeId) (h : History V) : History V := MapWorld.init.erase K h

/-- No group has types both inside and outside of `K`. -/
def Splits (K : List TypeId) (groups : List (List TypeId)) : Prop :=
  ∀ g ∈ groups, ∀ t ∈ g, ∀ t' ∈ g, t ∈ K → t' ∈ K

instance (K : List TypeId) (groups : List (List TypeId)) : Decidable (Splits K groups) :=
  by unfold Splits; infer_instance

/-- Every layout of the history is well formed, stays below the maxima, and none of its groups has types both inside and
outside of `K`. -/
def LaysFor (K : List TypeId) (ops : List (Op V)) : Prop :=
  ∀ gs ∈ ops.filterMap Op.layout, LayoutOK (GroupLayout.build gs).2 ∧ LayoutFits (GroupLayout.build gs).2 ∧
    Splits K (layoutGroups (GroupLayout.build gs).2)

instance (K : List TypeId) (ops : List (Op V)) : Decidable (LaysFor K ops) :=
  inferInstanceAs (Decidable (∀ gs ∈ ops.filterMap Op.layout, _))

/-- The call is about components of types in `K` only. (Destroying an entity and setting a layout concern all types.) -/
def Op.Within (K : List TypeId) : Op V → Prop
  | .create vs => ∀ t ∈ vs.map (·.1), t ∈ K
  | .extend ts it => (∀ t ∈ ts, t ∈ K) ∧ ∀ vs ∈ it.items, vs.length = ts.length
  | .insert _ vs => ∀ t ∈ vs.map (·.1), t ∈ K
  | .remove _ ts => ∀ t ∈ ts, t ∈ K
  | .delete _ ts => ∀ t ∈ ts, t ∈ K
  | .write t _ _ => t ∈ K
  | .writeAt t _ _ => t ∈ K
  | .destroy _ => False
  | .setLayout _ _ => False
  | _ => True

instance (K : List TypeId) (op : Op V) : Decidable (op.Within K) := by
  cases op <;> unfold Op.Within <;> infer_instance

end Sparsey
