import Verif.Spec.Query
import Verif.Spec.Labels

/-!
What queries show, in terms of the rows and labels of views (C74), in worlds of any kind. Iteration goes by the index of an entity and
does not look at versions; a query of one entity goes by the labels (`Verif/Spec/Labels.lean`); iteration over a group goes by positions.
-/

set_option autoImplicit false

namespace Sparsey
variable {V : Type}

/-- The component in the row of the index of `e`, of whatever version. -/
def World.rowOf (w : World V) (t : TypeId) (e : Entity) : Option V :=
  ((w.rows t).find? fun p => p.1.index == e.index).map Prod.snd

/-- What a part shows of `e` if required components are found by `need` and optional ones by `may`. -/
def Part.sees (need may : TypeId → Option V) (e : Entity) : Part → Option (Shown V)
  | .entity => some (.entity e)
  | .ref t => (need t).map .comp
  | .refMut t => (need t).map .comp
  | .opt t => some (.maybe (may t))
  | .optMut t => some (.maybe (may t))

/-- What an item shows, if all required components are found. -/
def sees (need may : TypeId → Option V) (e : Entity) : Query → Option (List (Shown V))
  | [] => some []
  | p :: ps => (p.sees need may e).bind fun x => (sees need may e ps).map (x :: ·)

/-- Nothing that is included is missing, nothing that is excluded is there. Excluding something optional, or an entity, excludes
everything. -/
def passes (find : TypeId → Option V) (i x : Query) : Bool :=
  (required i).all (fun t => (find t).isSome) &&
    x.all fun p => match p.required with
      | some t => (find t).isNone
      | none => false

/-- What a query shows of `e` if all components are found by `find`. -/
def look (find : TypeId → Option V) (g i x : Query) (e : Entity) : Option (List (Shown V)) :=
  if passes find i x then sees find find e g else none

/-- What a part of a slice shows. -/
def SlicePart.shown : SlicePart V → List Entity ⊕ Option (List V)
  | .entities es => .inl es
  | .comps _ _ vs => .inr (some vs)
  | .unit => .inr none

/-- What a part shows in a slice from position `a` to `b` with the entities `es`: components are shown from the first one on. -/
def Part.seesSlice (w : World V) (es : List Entity) (a b : Nat) : Part → List Entity ⊕ Option (List V)
  | .entity => .inl ((es.drop a).take (b - a))
  | .ref t => .inr (some (((w.rows t).map Prod.snd).take (b - a)))
  | .refMut t => .inr (some (((w.rows t).map Prod.snd).take (b - a)))
  | .opt _ => .inr none
  | .optMut _ => .inr none

/-- The entities that an iteration by positions or a slice shows: those of the first required type of the items, otherwise those
of the first shortest set of the filter. -/
def World.ShownBy (w : World V) (g i : Query) (es : List Entity) : Prop :=
  (∃ t ts, required g = t :: ts ∧ es = (w.rows t).map Prod.fst) ∨
    (required g = [] ∧ ∃ l t r, required i = l ++ t :: r ∧ es = (w.rows t).map Prod.fst ∧
      (∀ t' ∈ l, (w.rows t).length < (w.rows t').length) ∧ ∀ t' ∈ r, (w.rows t).length ≤ (w.rows t').length)

end Sparsey
