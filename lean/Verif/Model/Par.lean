import Verif.Model.Query

/-!
Model of `src/query/par_iter/` (feature `parallel`) and of the remaining functions of the iterators.

Rayon is not modelled; its documented contract is: a parallel iterator over a range or slice is split at arbitrary
positions into pieces that together are the whole, each piece is folded front to back, and the pieces are processed in
any order and possibly at the same time. A `Split` records the positions chosen; the results of the pieces are listed
from left to right.
-/

set_option autoImplicit false

namespace Sparsey
variable {V : Type}

/-- `DenseIter::size_hint` (src/query/iter/dense_iter.rs:66-68, that of the range) and the default `size_hint` of
`SparseIter` (src/query/iter/sparse_iter.rs:45-100 does not override it), selected by src/query/iter/mod.rs:68-73. -/
def Iter.sizeHint : Iter V → Nat × Option Nat
  | .sparse _ => (0, none)
  | .dense it => (it.stop - it.start, some (it.stop - it.start))

/-- `n` calls of `Iter::next` (src/query/iter/mod.rs:51-56) and what they return. -/
def Iter.nexts : Nat → Iter V → Res (List (Option (Item V)) × Iter V)
  | 0, it => .ok ([], it)
  | n + 1, it => do
    let (x, it) ← it.next
    let (xs, it) ← nexts n it
    pure (x :: xs, it)

/-- Where rayon splits the work: a piece is folded, or cut at a position (relative to its start, at most its length).
(src/query/par_iter; rayon itself is not modelled) -/
inductive Split where
  | leaf
  | cut (pos : Nat) (l r : Split)
deriving Repr

/-- src/query/par_iter/dense_par_iter.rs:38-41 `get`, 64-73 `drive_unindexed`, 84-93 `drive`, 99-108 `with_producer`:
`(start..stop).into_par_iter().map(get)`, split by `t`. The items of each piece. -/
def DenseIter.par (it : DenseIter V) : Split → Nat → Nat → Res (List (List (Item V)))
  | .leaf, i, n => do
    let xs ← it.foldFrom i n
    pure [xs]
  | .cut pos l r, i, n => do
    let a ← it.par l i (min pos n)
    let b ← it.par r (i + min pos n) (n - min pos n)
    pure (a ++ b)

/-- src/query/par_iter/sparse_par_iter.rs:44-56 `get`, 85-93 `drive_unindexed`: `entities.par_iter().flat_map(get)`,
split by `t`. `get` is the loop body of the sequential iterator. -/
def SparseIter.par (it : SparseIter V) : Split → List Entity → Res (List (List (Item V)))
  | .leaf, es => do
    let xs ← it.foldFrom es
    pure [xs]
  | .cut pos l r, es => do
    let a ← it.par l (es.take pos)
    let b ← it.par r (es.drop pos)
    pure (a ++ b)

/-- src/query/par_iter/mod.rs:52-60 `ParIter::drive_unindexed`. `QueryAll::par_iter` (src/query/query_all.rs:146-178)
builds the same pieces as `iter`. -/
def Iter.par (t : Split) : Iter V → Res (List (List (Item V)))
  | .sparse it => it.par t it.entities
  | .dense it => it.par t it.start (it.stop - it.start)

/-- src/query/par_iter/dense_par_iter.rs:75-77 `opt_len` (and 95-97 `len`), src/query/par_iter/mod.rs:62-67; sparse:
the default `None`. -/
def Iter.parLen : Iter V → Option Nat
  | .sparse _ => none
  | .dense it => some (it.stop - it.start)

end Sparsey
