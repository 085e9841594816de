import Verif.Model.History

/-!
Histories without positions: a write to a position of a view, or through an item or slice of a query, is replaced by the
write to the entity that `View::entities` shows at this position.
-/

set_option autoImplicit false

namespace Sparsey
variable {V : Type}

/-- The entity shown at a position of a view. -/
def World.shownAt (w : World V) (t : TypeId) (pos : Nat) : Option Entity :=
  match w.borrow t with
  | .ok s => s.entities[pos]?
  | _ => none

/-- A call made on `w`, with the position replaced by the entity shown there. Writes outside of the slice are left out. -/
def World.name (w : World V) : Op V × Ret V → History V
  | (.writeAt t pos v, _) =>
    match w.shownAt t pos with
    | some e => [(.write t e v, .bool true)]
    | none => []
  | p => [p]

/-- A history of calls on `w` without positions. -/
def World.named (w : World V) : History V → History V
  | [] => []
  | p :: h =>
    w.name p ++
      match step w p.1 with
      | some (_, w') => w'.named h
      | none => []

end Sparsey
