import Verif.Model.Drops

/-!
Where component values come from and go to: the caller's side of the ledger. `V` can be thought of as a type of unique
tokens, one for every component value ever made.
-/

set_option autoImplicit false

namespace Sparsey
variable {V : Type}

/-- The values a call moves into the world. The items of `extend` are tuples of the types `ts`. -/
def Op.given : Op V → List V
  | .create vs => vs.map (·.2)
  | .extend ts it => it.items.flatMap (·.take ts.length)
  | .insert _ vs => vs.map (·.2)
  | .write _ _ v => [v]
  | .writeAt _ _ v => [v]
  | _ => []

/-- The values a call gives back to its caller. -/
def Ret.returned : Ret V → List V
  | .values vs => vs.filterMap id
  | _ => []

/-- All stored values. -/
def World.stored (w : World V) : List V := w.components.components.flatMap (·.components)

/-- A history with the values that were dropped on the way. -/
inductive Drops (w : World V) : History V → List V → World V → Prop where
  | nil : Drops w [] [] w
  | snoc {h : History V} {ds : List V} {w₁ w₂ : World V} {op : Op V} {r : Ret V} :
      Drops w h ds w₁ → step w₁ op = some (r, w₂) → Drops w (h ++ [(op, r)]) (ds ++ w₁.drops op) w₂

/-- Everything moved in by a history. -/
def allGiven (h : History V) : List V := h.flatMap (·.1.given)

/-- Everything given back by a history. -/
def allReturned (h : History V) : List V := h.flatMap (·.2.returned)

/-- Runs calls and collects the dropped values. -/
def runDrops (w : World V) : List (Op V) → Option (List (Ret V) × List V × World V)
  | [] => some ([], [], w)
  | op :: ops =>
    match step w op with
    | none => none
    | some (r, w') =>
      match runDrops w' ops with
      | none => none
      | some (rs, ds, w'') => some (r :: rs, w.drops op ++ ds, w'')

end Sparsey
