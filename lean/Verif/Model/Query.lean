import Verif.Model.World

/-!
Model of `src/query/` and of the borrow checks of `AtomicRefCell`.

A query is the list of its parts: `()` is the empty list, a single part `Q` (src/query/mod.rs:202-279) behaves
like the one-element tuple `(Q,)` (281-439): both blocks forward to the same `QueryPart` functions.
-/

set_option autoImplicit false

namespace Sparsey
variable {V : Type}

/-- The implementors of `QueryPart` in src/query/query_part.rs: `Entity` (93), `&T` (185), `&mut T` (264),
`Option<&T>` (343), `Option<&mut T>` (426). -/
inductive Part where
  | entity
  | ref (t : TypeId)
  | refMut (t : TypeId)
  | opt (t : TypeId)
  | optMut (t : TypeId)
deriving DecidableEq, Repr

/-- A query (src/query/mod.rs:32). -/
abbrev Query := List Part

/-- `QueryPart::View` of a part: nothing for `Entity` (query_part.rs:94), otherwise the borrowed set
(src/component/view.rs:11-14 and 29-32). `idx` is the position of the set in the storage, `exclusive` whether the
view is a `ViewMut`. -/
inductive PartView (V : Type) where
  | entity
  | req (exclusive : Bool) (idx : Nat) (set : CompSet V)
  | opt (exclusive : Bool) (idx : Nat) (set : CompSet V)
deriving Repr

/-- One component of a query item: an entity, a reference to the component at position `dense` of the set `idx`
with the value `v` behind it, or an optional reference (src/query/query_part.rs:19, 95, 190, 269, 348, 431). -/
inductive ItemPart (V : Type) where
  | entity (e : Entity)
  | ref (idx dense : Nat) (v : V)
  | opt (r : Option (Nat × Nat × V))
deriving DecidableEq, Repr

/-- `Query::Item` (src/query/mod.rs:36-37). -/
abbrev Item (V : Type) := List (ItemPart V)

/-! ### Borrowing -/

/-- Borrows that are currently held: position of the set and whether the borrow is exclusive. This is the state of
all `AtomicRefCell`s of `ComponentStorage::components` (src/component/component_storage.rs:22, 171, 189, 207, 227). -/
abbrev Borrows := List (Nat × Bool)

/-- `AtomicRefCell::borrow`: panics if an exclusive borrow is held (src/component/component_storage.rs:171, 207). -/
def borrowShared (h : Borrows) (idx : Nat) : Res Borrows :=
  if h.any (fun p => p.1 == idx && p.2) then .panic else .ok ((idx, false) :: h)

/-- `AtomicRefCell::borrow_mut`: panics if any borrow is held (src/component/component_storage.rs:189, 227). -/
def borrowExclusive (h : Borrows) (idx : Nat) : Res Borrows :=
  if h.any (fun p => p.1 == idx) then .panic else .ok ((idx, true) :: h)

/-- `ComponentStorage::borrow_with_group_info` / `_mut` (src/component/component_storage.rs:195-232), also used
for `borrow` / `borrow_mut` (159-192), which are the same without the group info. -/
def borrowSet (c : ComponentStorage V) (h : Borrows) (exclusive : Bool) (t : TypeId) :
    Res (Nat × CompSet V × Option GroupInfo × Borrows) :=
  match c.meta? t with
  | none => .panic
  | some m => do
    let s ← Res.unchecked (c.components[m.storageIndex]?)
    let h ← if exclusive then borrowExclusive h m.storageIndex else borrowShared h m.storageIndex
    pure (m.storageIndex, s, m.groupInfo, h)

/-- `QueryPart::borrow_with_group_info` (src/query/query_part.rs:107, 200-209, 279-288, 358-360, 441-443);
`QueryPart::borrow` (102, 196, 275, 354, 437) is the same without the info. -/
def borrowPart (c : ComponentStorage V) (h : Borrows) :
    Part → Res (PartView V × Option ViewGroupInfo × Borrows)
  | .entity => .ok (.entity, none, h)
  | .ref t => do
    let (idx, s, info, h) ← borrowSet c h false t
    pure (.req false idx s, some ⟨info, s.len⟩, h)
  | .refMut t => do
    let (idx, s, info, h) ← borrowSet c h true t
    pure (.req true idx s, some ⟨info, s.len⟩, h)
  | .opt t => do
    let (idx, s, _, h) ← borrowSet c h false t
    pure (.opt false idx s, none, h)
  | .optMut t => do
    let (idx, s, _, h) ← borrowSet c h true t
    pure (.opt true idx s, none, h)

/-- The borrows of src/query/mod.rs:298 (and 294), part by part. -/
def borrowParts (c : ComponentStorage V) : Borrows → Query →
    Res (List (PartView V) × List (Option ViewGroupInfo) × Borrows)
  | h, [] => .ok ([], [], h)
  | h, p :: ps => do
    let (v, i, h) ← borrowPart c h p
    let (vs, is, h) ← borrowParts c h ps
    pure (v :: vs, i :: is, h)

/-- src/query/mod.rs:300-310 (and 218): the group info of a query. -/
def queryInfo : QueryGroupInfo → List (Option ViewGroupInfo) → Option QueryGroupInfo
  | q, [] => some q
  | q, none :: is => queryInfo q is
  | q, some i :: is =>
    match q.addView i with
    | some q => queryInfo q is
    | none => none

/-- `Query::borrow_with_group_info` (src/query/mod.rs:126-128, 216-220, 297-316). -/
def borrowQuery (c : ComponentStorage V) (h : Borrows) (q : Query) :
    Res (List (PartView V) × Option QueryGroupInfo × Borrows) := do
  let (vs, is, h) ← borrowParts c h q
  pure (vs, queryInfo .empty is, h)

/-! ### Functions of `QueryPart` and `Query` -/

namespace PartView

/-- `QueryPart::contains` (src/query/query_part.rs:112, 211, 290, 362, 445). -/
def contains (e : Entity) : PartView V → Bool
  | .entity => true
  | .req _ _ s => s.contains e
  | .opt _ _ _ => true

/-- `QueryPart::get_sparse_key` followed by `get_sparse` (src/query/query_part.rs:117-127, 215-221, 294-300,
366-372, 449-455). -/
def get (e : Entity) : PartView V → Res (Option (ItemPart V))
  | .entity => .ok (some (.entity e))
  | .req _ idx s =>
    match s.sparse.get e with
    | none => .ok none
    | some dense => do
      let v ← Res.unchecked (s.components[dense]?)
      pure (some (.ref idx dense v))
  | .opt _ idx s =>
    match s.sparse.get e with
    | none => .ok (some (.opt none))
    | some dense => do
      let v ← Res.unchecked (s.components[dense]?)
      pure (some (.opt (some (idx, dense, v))))

/-- The entities of `split_filter_parts`, `split_sparse_parts`, `split_dense_parts`
(src/query/query_part.rs:130-146, 223-237, 302-316, 374-388, 457-471). -/
def entities : PartView V → Option (List Entity)
  | .entity => none
  | .req _ _ s => some s.entities
  | .opt _ _ _ => none

/-- `QueryPart::contains_raw` (src/query/query_part.rs:149, 239, 318, 390, 473). -/
def containsRaw (sparse : Nat) : PartView V → Bool
  | .entity => true
  | .req _ _ s => s.sparse.containsSparse sparse
  | .opt _ _ _ => true

/-- Reads through `Option` parts by sparse index (src/query/query_part.rs:398-415, 484-501). -/
def optRaw (idx : Nat) (s : CompSet V) (e : Entity) : Res (ItemPart V) :=
  match s.sparse.getSparse e.sparse with
  | none => .ok (.opt none)
  | some dense => do
    let v ← Res.unchecked (s.components[dense]?)
    pure (.opt (some (idx, dense, v)))

/-- `QueryPart::get_sparse_key_raw` followed by `get_sparse_raw` (src/query/query_part.rs:154-164, 243-249,
322-328, 394-405, 477-491). -/
def getSparseRaw (e : Entity) : PartView V → Res (Option (ItemPart V))
  | .entity => .ok (some (.entity e))
  | .req _ idx s =>
    match s.sparse.getSparse e.sparse with
    | none => .ok none
    | some dense => do
      let v ← Res.unchecked (s.components[dense]?)
      pure (some (.ref idx dense v))
  | .opt _ idx s => do
    let i ← optRaw idx s e
    pure (some i)

/-- `QueryPart::get_dense_raw` (src/query/query_part.rs:167-173, 251-253, 330-332, 407-415, 493-501). -/
def getDenseRaw (index : Nat) (e : Entity) : PartView V → Res (ItemPart V)
  | .entity => .ok (.entity e)
  | .req _ idx s => do
    let v ← Res.unchecked (s.components[index]?)
    pure (.ref idx index v)
  | .opt _ idx s => optRaw idx s e

end PartView

/-- `Query::contains_all` (src/query/mod.rs:131, 222-224, 318-320). -/
def containsAll (vs : List (PartView V)) (e : Entity) : Bool := vs.all (·.contains e)

/-- `Query::contains_none` (src/query/mod.rs:136, 226-228, 322-324). -/
def containsNone (vs : List (PartView V)) (e : Entity) : Bool := vs.all (fun v => !v.contains e)

/-- `Query::contains_all_raw` (src/query/mod.rs:165, 251-253, 405-407). -/
def containsAllRaw (vs : List (PartView V)) (sparse : Nat) : Bool := vs.all (·.containsRaw sparse)

/-- `Query::contains_none_raw` (src/query/mod.rs:170, 255-257, 409-411). -/
def containsNoneRaw (vs : List (PartView V)) (sparse : Nat) : Bool :=
  vs.all (fun v => !v.containsRaw sparse)

/-- `Query::get` (src/query/mod.rs:141-143, 230-233, 326-329). The code computes all keys before it reads through
the first one; reading right away gives the same result. -/
def getAll (e : Entity) : List (PartView V) → Res (Option (Item V))
  | [] => .ok (some [])
  | v :: vs => do
    match ← v.get e with
    | none => pure none
    | some i =>
      match ← getAll e vs with
      | none => pure none
      | some is => pure (some (i :: is))

/-- `Query::get_sparse_raw` (src/query/mod.rs:175-181, 259-266, 413-420). -/
def getAllSparseRaw (e : Entity) : List (PartView V) → Res (Option (Item V))
  | [] => .ok (some [])
  | v :: vs => do
    match ← v.getSparseRaw e with
    | none => pure none
    | some i =>
      match ← getAllSparseRaw e vs with
      | none => pure none
      | some is => pure (some (i :: is))

/-- `Query::get_dense_raw` (src/query/mod.rs:184-190, 268-270, 422-428). -/
def getAllDenseRaw (index : Nat) (e : Entity) : List (PartView V) → Res (Item V)
  | [] => .ok []
  | v :: vs => do
    let i ← v.getDenseRaw index e
    let is ← getAllDenseRaw index e vs
    pure (i :: is)

/-- The choice of entities in `split_filter_parts` and `split_sparse_parts` (src/query/mod.rs:339-347 and 366-374):
the first of the shortest. -/
def shortest : Option (List Entity) → List (PartView V) → Option (List Entity)
  | acc, [] => acc
  | acc, v :: vs =>
    match v.entities, acc with
    | some new, some old => shortest (if new.length < old.length then some new else some old) vs
    | some new, none => shortest (some new) vs
    | none, acc => shortest acc vs

/-- The choice of entities in `split_dense_parts` (src/query/mod.rs:395-397): the first. -/
def firstEntities : List (PartView V) → Option (List Entity)
  | [] => none
  | v :: vs =>
    match v.entities with
    | some es => some es
    | none => firstEntities vs

/-! ### `QueryOne` (src/query/query_one.rs) -/

/-- src/query/query_one.rs:7-17 `QueryOne`. -/
structure QueryOne (V : Type) where
  get : List (PartView V)
  inc : List (PartView V)
  exc : List (PartView V)

namespace QueryOne

/-- `World::query_one::<G>().include::<I>().exclude::<E>()` (src/world/mod.rs:184-189, src/query/query_one.rs:23-68):
borrows the three queries in this order. `h` are the borrows held before. -/
def new (w : World V) (h : Borrows) (g i e : Query) : Res (QueryOne V × Borrows) := do
  let (gv, _, h) ← borrowQuery w.components h g
  let (iv, _, h) ← borrowQuery w.components h i
  let (ev, _, h) ← borrowQuery w.components h e
  pure (⟨gv, iv, ev⟩, h)

/-- src/query/query_one.rs:79-89 `QueryOne::contains`. -/
def contains (q : QueryOne V) (e : Entity) : Bool :=
  if !containsNone q.exc e then false
  else if !containsAll q.inc e then false
  else containsAll q.get e

/-- src/query/query_one.rs:93-103 `QueryOne::get`. -/
def getItem (q : QueryOne V) (e : Entity) : Res (Option (Item V)) :=
  if !containsNone q.exc e then .ok none
  else if !containsAll q.inc e then .ok none
  else getAll e q.get

end QueryOne

/-! ### `QueryAll` (src/query/query_all.rs) -/

/-- src/query/query_all.rs:13-26 `QueryAll`. -/
structure QueryAll (V : Type) where
  world : World V
  get : List (PartView V)
  inc : List (PartView V)
  exc : List (PartView V)
  getInfo : Option QueryGroupInfo
  incInfo : Option QueryGroupInfo
  excInfo : Option QueryGroupInfo

/-- src/query/iter/dense_iter.rs:9-16 `DenseIter`; `stop` is the end of the range. -/
structure DenseIter (V : Type) where
  start : Nat
  stop : Nat
  entities : List Entity
  get : List (PartView V)

/-- src/query/iter/sparse_iter.rs:8-19 `SparseIter`. -/
structure SparseIter (V : Type) where
  entities : List Entity
  exc : List (PartView V)
  inc : List (PartView V)
  get : List (PartView V)

/-- src/query/iter/mod.rs:12-22 `Iter`. -/
inductive Iter (V : Type) where
  | sparse (it : SparseIter V)
  | dense (it : DenseIter V)

namespace DenseIter

/-- The body of src/query/iter/dense_iter.rs:46-49 and 57-60. -/
def item (it : DenseIter V) (i : Nat) : Res (Item V) := do
  let e ← Res.unchecked (it.entities[i]?)
  getAllDenseRaw i e it.get

/-- src/query/iter/dense_iter.rs:43-50 `next`. -/
def next (it : DenseIter V) : Res (Option (Item V) × DenseIter V) :=
  if it.start < it.stop then do
    let x ← it.item it.start
    pure (some x, { it with start := it.start + 1 })
  else .ok (none, it)

/-- src/query/iter/dense_iter.rs:52-64 `fold`, collecting the items, over `n` indexes from `i`. -/
def foldFrom (it : DenseIter V) : Nat → Nat → Res (List (Item V))
  | _, 0 => .ok []
  | i, n + 1 => do
    let x ← it.item i
    let xs ← foldFrom it (i + 1) n
    pure (x :: xs)

/-- src/query/iter/dense_iter.rs:52-64 `fold`. -/
def fold (it : DenseIter V) : Res (List (Item V)) := it.foldFrom it.start (it.stop - it.start)

/-- src/query/iter/dense_iter.rs:75-77 `len`. -/
def len (it : DenseIter V) : Nat := it.stop - it.start

end DenseIter

namespace SparseIter

/-- The common loop body of src/query/iter/sparse_iter.rs:57-72 and 80-96 for one entity. -/
def item (it : SparseIter V) (e : Entity) : Res (Option (Item V)) :=
  if !containsNoneRaw it.exc e.sparse then .ok none
  else if !containsAllRaw it.inc e.sparse then .ok none
  else getAllSparseRaw e it.get

/-- src/query/iter/sparse_iter.rs:52-74 `next`, on the remaining entities. -/
def nextFrom (it : SparseIter V) : List Entity → Res (Option (Item V) × List Entity)
  | [] => .ok (none, [])
  | e :: es => do
    match ← it.item e with
    | some x => pure (some x, es)
    | none => nextFrom it es

/-- src/query/iter/sparse_iter.rs:52-74 `next`. -/
def next (it : SparseIter V) : Res (Option (Item V) × SparseIter V) := do
  let (x, es) ← it.nextFrom it.entities
  pure (x, { it with entities := es })

/-- src/query/iter/sparse_iter.rs:76-99 `fold`, collecting the items, on the remaining entities. -/
def foldFrom (it : SparseIter V) : List Entity → Res (List (Item V))
  | [] => .ok []
  | e :: es => do
    match ← it.item e with
    | some x =>
      let xs ← foldFrom it es
      pure (x :: xs)
    | none => foldFrom it es

/-- src/query/iter/sparse_iter.rs:76-99 `fold`. -/
def fold (it : SparseIter V) : Res (List (Item V)) := it.foldFrom it.entities

end SparseIter

namespace Iter

/-- src/query/iter/mod.rs:51-56 `Iter::next`. -/
def next : Iter V → Res (Option (Item V) × Iter V)
  | .sparse it => do
    let (x, it) ← it.next
    pure (x, .sparse it)
  | .dense it => do
    let (x, it) ← it.next
    pure (x, .dense it)

/-- src/query/iter/mod.rs:58-66 `Iter::fold`, collecting the items in order. -/
def fold : Iter V → Res (List (Item V))
  | .sparse it => it.fold
  | .dense it => it.fold

/-- src/query/iter/mod.rs:38-40 `Iter::is_dense`. -/
def isDense : Iter V → Bool
  | .sparse _ => false
  | .dense _ => true

end Iter

/-- `QueryPart::Slice` of a part: entities, components (set `idx`, position of the first one, values), or nothing
for `Option` parts (src/query/query_part.rs:22, 96, 191, 270, 349, 432). -/
inductive SlicePart (V : Type) where
  | entities (es : List Entity)
  | comps (idx first : Nat) (vs : List V)
  | unit
deriving DecidableEq, Repr

/-- `QueryPart::slice_raw` (src/query/query_part.rs:176-182, 255-261, 334-340, 417-423, 503-509). The code of `&T`
and `&mut T` builds the slice from the *start* of the components, with length `range.end - range.start`. -/
def PartView.sliceRaw (es : List Entity) (start stop : Nat) : PartView V → Res (SlicePart V)
  | .entity =>
    if start ≤ stop ∧ stop ≤ es.length then .ok (.entities ((es.drop start).take (stop - start))) else .ub
  | .req _ idx s =>
    if start ≤ stop ∧ stop - start ≤ s.components.length then
      .ok (.comps idx 0 (s.components.take (stop - start)))
    else .ub
  | .opt _ _ _ => .ok .unit

/-- `Query::slice_raw` (src/query/mod.rs:193-199, 272-278, 430-436). -/
def sliceAllRaw (es : List Entity) (start stop : Nat) : List (PartView V) → Res (List (SlicePart V))
  | [] => .ok []
  | v :: vs => do
    let x ← v.sliceRaw es start stop
    let xs ← sliceAllRaw es start stop vs
    pure (x :: xs)

/-- A write of `v` through a mutable reference to position `pos` of the set `idx`, as found in an item or slice of a query
(`data.add(key).as_mut()` and the like, src/query/query_part.rs:326-340, 484-501). -/
def World.writePlace (w : World V) (idx pos : Nat) (v : V) : Res (World V) := do
  let s ← Res.unchecked (w.components.components[idx]?)
  let _ ← Res.unchecked (s.components[pos]?)
  pure { w with components := { w.components with
    components := w.components.components.set idx { s with components := s.components.set pos v } } }

namespace QueryAll

/-- `World::query_all::<G>().include::<I>().exclude::<E>()` (src/world/mod.rs:192-197,
src/query/query_all.rs:32-92). -/
def new (w : World V) (h : Borrows) (g i e : Query) : Res (QueryAll V × Borrows) := do
  let (gv, gi, h) ← borrowQuery w.components h g
  let (iv, ii, h) ← borrowQuery w.components h i
  let (ev, ei, h) ← borrowQuery w.components h e
  pure (⟨w, gv, iv, ev, gi, ii, ei⟩, h)

/-- src/query/query_all.rs:201-211 `get_group_range`. -/
def getGroupRange (q : QueryAll V) : Res (Option (Nat × Nat)) :=
  match q.getInfo, q.incInfo, q.excInfo with
  | some gi, some ii, some ei =>
    match gi.addQuery ii with
    | some inc => q.world.components.groupRange inc ei
    | none => .ok none
  | _, _, _ => .ok none

/-- The choice of entities of src/query/query_all.rs:113-124 and 157-168. -/
def chooseEntities (get inc : Option (List Entity)) : List Entity :=
  match get, inc with
  | some g, some i => if g.length ≤ i.length then g else i
  | some g, none => g
  | none, some i => i
  | none, none => []

/-- src/query/query_all.rs:102-134 `iter`; `par_iter` (146-178) builds the same pieces. -/
def iter (q : QueryAll V) : Res (Iter V) := do
  match ← q.getGroupRange with
  | some (start, stop) =>
    let es ← Res.checked ((firstEntities q.get).or (shortest none q.inc))
    pure (.dense ⟨start, stop, es, q.get⟩)
  | none =>
    pure (.sparse ⟨chooseEntities (shortest none q.get) (shortest none q.inc), q.exc, q.inc, q.get⟩)

/-- `query_all().iter()`, all items in order; also `for_each` (src/query/query_all.rs:137-142), which folds. -/
def items (q : QueryAll V) : Res (List (Item V)) := do
  let it ← q.iter
  it.fold

/-- src/query/query_all.rs:192-198 `slice`. -/
def slice (q : QueryAll V) : Res (Option (List (SlicePart V))) := do
  match ← q.getGroupRange with
  | none => pure none
  | some (start, stop) =>
    let es := ((firstEntities q.get).or (shortest none q.inc)).getD []
    let xs ← sliceAllRaw es start stop q.get
    pure (some xs)

end QueryAll
end Sparsey
