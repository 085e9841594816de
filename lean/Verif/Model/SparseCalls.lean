import Verif.Model.Entity

/-!
Calls on a `SparseVec` (src/entity/sparse_vec.rs). The type is public (src/entity/mod.rs:8), so its safe functions can be
called in any order by users of the crate.
-/

set_option autoImplicit false

namespace Sparsey

/-- The safe functions of `SparseVec` (src/entity/sparse_vec.rs:22-114). `put i slot` is
`*vec.get_mut_or_allocate_at(i) = slot` (88-95), `peek i` reads through the same function. -/
inductive SvCall where
  | get (e : Entity)
  | contains (e : Entity)
  | remove (e : Entity)
  | getSparse (i : Nat)
  | containsSparse (i : Nat)
  | removeSparse (i : Nat)
  | peek (i : Nat)
  | put (i : Nat) (slot : Option Slot)
  | clear
deriving DecidableEq, Repr

/-- Answers of the calls of src/entity/sparse_vec.rs:22-114. -/
inductive SvAnswer where
  | dense (d : Option Nat)
  | bool (b : Bool)
  | slot (s : Option Slot)
  | unit
deriving DecidableEq, Repr

/-- One call (src/entity/sparse_vec.rs:22-114). -/
def SparseVec.call (s : SparseVec) : SvCall → Res (SvAnswer × SparseVec)
  | .get e => .ok (.dense (s.get e), s)
  | .contains e => .ok (.bool (s.contains e), s)
  | .remove e => .ok (.dense (s.remove e).1, (s.remove e).2)
  | .getSparse i => .ok (.dense (s.getSparse i), s)
  | .containsSparse i => .ok (.bool (s.containsSparse i), s)
  | .removeSparse i => .ok (.slot (s.removeSparse i).1, (s.removeSparse i).2)
  | .peek i => do
    let s := s.allocateAt i
    let x ← Res.unchecked s.slots[i]?
    .ok (.slot x, s)
  | .put i slot => do
    let s := s.allocateAt i
    let s ← s.setUnchecked i slot
    .ok (.unit, s)
  | .clear => .ok (.unit, s.clear)

/-- A sequence of calls (src/entity/sparse_vec.rs:22-114). -/
def SparseVec.calls (s : SparseVec) : List SvCall → Res (List SvAnswer × SparseVec)
  | [] => .ok ([], s)
  | c :: cs => do
    let (a, s) ← s.call c
    let (as, s) ← s.calls cs
    .ok (a :: as, s)

end Sparsey
