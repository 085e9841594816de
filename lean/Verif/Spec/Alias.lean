import Verif.Model.Par
import Verif.Spec.Query

/-!
Aliasing: which places in the storage are handed out by live views and queries, and with what access. Of the model,
only the syntax of queries and the shape of items and slices are used here.
-/

set_option autoImplicit false

namespace Sparsey
variable {V : Type}

/-- Accesses that may be held at the same time: two to the same thing are both shared. -/
def Compatible {α : Type} (l : List (α × Bool)) : Prop := l.Pairwise fun a b => a.1 = b.1 → a.2 = false ∧ b.2 = false

/-- A component handed out: position `pos` of the set number `set`, mutably or not. -/
structure Place where
  set : Nat
  pos : Nat
  writable : Bool
deriving DecidableEq, Repr

/-- The places are different, or both are shared. -/
def NoAlias (a b : Place) : Prop := a.set = b.set → a.pos = b.pos → a.writable = false ∧ b.writable = false

/-- The part gives mutable references. -/
def Part.mutable : Part → Bool
  | .refMut _ => true
  | .optMut _ => true
  | _ => false

/-- The place that one part of an item refers to. -/
def ItemPart.place (m : Bool) : ItemPart V → Option Place
  | .entity _ => none
  | .ref idx d _ => some ⟨idx, d, m⟩
  | .opt (some (idx, d, _)) => some ⟨idx, d, m⟩
  | .opt none => none

/-- The places that an item of the query `g` refers to. -/
def itemPlaces (g : Query) (it : Item V) : List Place := (g.zip it).filterMap fun p => p.2.place p.1.mutable

/-- The places of a slice. -/
def SlicePart.places (m : Bool) : SlicePart V → List Place
  | .entities _ => []
  | .comps idx first vs => (List.range vs.length).map fun j => ⟨idx, first + j, m⟩
  | .unit => []

/-- The places of the slices of the query `g`. -/
def slicePlaces (g : Query) (sl : List (SlicePart V)) : List Place :=
  (g.zip sl).flatMap fun p => p.2.places p.1.mutable

end Sparsey
