import Verif.Model.RawSet
import Verif.Model.Drops

/-!
Histories of one component set, by contents (`CompSet`) and in memory (`RawSet`), and what it means for the memory to be
in order.
-/

set_option autoImplicit false

namespace Sparsey
variable {V : Type}

/-- The calls that the rest of the code makes on a component set. `replace` is `get_mut` followed by `mem::replace`,
`replaceAt` is `as_mut_slice` followed by `mem::replace` of one element. -/
inductive SetOp (V : Type) where
  | insert (e : Entity) (v : V)
  | remove (e : Entity)
  | delete (e : Entity)
  | replace (e : Entity) (v : V)
  | replaceAt (pos : Nat) (v : V)
  | swap (a b : Nat)
  | clear
deriving DecidableEq, Repr

/-- One call by contents: the values given back, the values dropped, the new contents. A value that cannot be written
because there is no component stays with the caller. -/
def CompSet.act (s : CompSet V) : SetOp V → Res (List V × List V × CompSet V)
  | .insert e v => do
    let (old, s') ← s.insert e v
    pure (old.toList, [], s')
  | .remove e => do
    let (v, s') ← s.remove e
    pure (v.toList, [], s')
  | .delete e => do
    let s' ← s.delete e
    pure ([], s.deleteDrops e, s')
  | .replace e v => do
    let (_, s') ← s.setMut e v
    match s.sparse.get e with
    | none => pure ([v], [], s')
    | some dense => pure ((s.components[dense]?).toList, [], s')
  | .replaceAt pos v => do
    let s' ← s.setAt pos v
    pure ((s.components[pos]?).toList, [], s')
  | .swap a b => do
    let s' ← s.swap a b
    pure ([], [], s')
  | .clear => pure ([], s.components, s.clear)

/-- One call in memory. -/
def RawSet.act (ty : MemLayout) (bomb : V → Bool) (s : RawSet V) : SetOp V → Outcome (RawSet V) (List V)
  | .insert e v => (s.insert ty e v).bind fun old s => .ok old.toList s
  | .remove e => (s.remove e).bind fun v s => .ok v.toList s
  | .delete e => (s.delete bomb e).bind fun _ s => .ok [] s
  | .replace e v => (s.replaceMut e v).bind fun old s => .ok [old.getD v] s
  | .replaceAt pos v => (s.replaceAt pos v).bind fun old s => .ok [old] s
  | .swap a b => (s.swap a b).bind fun _ s => .ok [] s
  | .clear => (s.clear bomb).bind fun _ s => .ok [] s

/-- `SetRun ops ret dr s`: the calls `ops` on a new set, by contents, give back `ret`, drop `dr` and end in `s`. -/
inductive SetRun : List (SetOp V) → List V → List V → CompSet V → Prop where
  | nil : SetRun [] [] [] CompSet.new
  | snoc {ops : List (SetOp V)} {ret dr ret' dr' : List V} {s s' : CompSet V} {op : SetOp V} :
      SetRun ops ret dr s → s.act op = .ok (ret', dr', s') → SetRun (ops ++ [op]) (ret ++ ret') (dr ++ dr') s'

/-- Calls in memory, one after the other. -/
def RawSet.acts (ty : MemLayout) (bomb : V → Bool) (s : RawSet V) : List (SetOp V) → Outcome (RawSet V) (List V)
  | [] => .ok [] s
  | op :: ops => (s.act ty bomb op).bind fun ret s => (s.acts ty bomb ops).bind fun ret' s => .ok (ret ++ ret') s

/-- The values moved in by a call. -/
def SetOp.given : SetOp V → List V
  | .insert _ v => [v]
  | .replace _ v => [v]
  | .replaceAt _ v => [v]
  | _ => []

/-- The destructor calls of a log, in order. -/
def dropsOf : List (Effect V) → List V
  | [] => []
  | .dropped v :: l => v :: dropsOf l
  | _ :: l => dropsOf l

/-- The blocks allocated after a log, starting with the given ones; `none` if it frees a block that is not allocated. -/
def heapAfter : List MemLayout → List (Effect V) → Option (List MemLayout)
  | bs, [] => some bs
  | bs, .dropped _ :: l => heapAfter bs l
  | bs, .alloc b :: l => heapAfter (b :: bs) l
  | bs, .dealloc b :: l => if b ∈ bs then heapAfter (bs.erase b) l else none

/-- The capacity after growth. -/
def nextCap (cap : Nat) : Nat := if cap = 0 then 4 else 2 * cap

/-- The cells hold the list and perhaps something behind it. -/
def Holds {α : Type} (cells : List (Option α)) (l : List α) : Prop := ∃ rest, cells = l.map some ++ rest

/-- The memory is in order and has the contents `s`: the first `len` cells are initialised and hold what `s` says, the
rest of the cells is room; exactly the block for `cap` is allocated and nothing was ever freed that was not allocated. -/
structure Represents (ty : MemLayout) (raw : RawSet V) (s : CompSet V) : Prop where
  sparse : raw.sparse = s.sparse
  len : raw.len = s.entities.length
  same : s.components.length = s.entities.length
  entities : Holds raw.entities s.entities
  components : Holds raw.components s.components
  entityRoom : raw.entities.length = raw.cap
  componentRoom : raw.components.length = raw.cap
  noBlock : raw.cap = 0 → heapAfter [] raw.log = some []
  block : raw.cap ≠ 0 →
    ∃ block offset, computeLayout ty raw.cap = some (block, offset) ∧ heapAfter [] raw.log = some [block]

end Sparsey
