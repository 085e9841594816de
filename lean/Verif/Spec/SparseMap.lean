import Verif.Model.SparseCalls

/-!
What a `SparseVec` is meant to be: a finite map from indexes to a version and a position.
-/

set_option autoImplicit false

namespace Sparsey

/-- Version and position of an index. -/
abbrev SvMap := Nat → Option Slot

/-- The position of an entity: that of its index, if the versions agree. -/
def SvMap.find (m : SvMap) (e : Entity) : Option Nat :=
  match m e.index with
  | some sl => if sl.version = e.version then some sl.index else none
  | none => none

/-- The map with another value at one index. -/
def SvMap.update (m : SvMap) (i : Nat) (x : Option Slot) : SvMap := fun j => if j = i then x else m j

/-- Effect and answer of a call. -/
def SvMap.call (m : SvMap) : SvCall → SvAnswer × SvMap
  | .get e => (.dense (m.find e), m)
  | .contains e => (.bool (m.find e).isSome, m)
  | .remove e => (.dense (m.find e), if (m.find e).isSome then m.update e.index none else m)
  | .getSparse i => (.dense ((m i).map (·.index)), m)
  | .containsSparse i => (.bool (m i).isSome, m)
  | .removeSparse i => (.slot (m i), m.update i none)
  | .peek i => (.slot (m i), m)
  | .put i slot => (.unit, m.update i slot)
  | .clear => (.unit, fun _ => none)

/-- Effect and answers of a sequence of calls. -/
def SvMap.calls (m : SvMap) : List SvCall → List SvAnswer × SvMap
  | [] => ([], m)
  | c :: cs => ((m.call c).1 :: ((m.call c).2.calls cs).1, ((m.call c).2.calls cs).2)

end Sparsey
