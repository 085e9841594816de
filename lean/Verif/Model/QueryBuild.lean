import Verif.Model.Query

/-!
Building queries step by step: `World::query_all` and `World::query_one` followed by any sequence of `include` and
`exclude` that type checks. `QueryAll.new` and `QueryOne.new` (Verif/Model/Query.lean) are `include` followed by `exclude`.
-/

set_option autoImplicit false

namespace Sparsey
variable {V : Type}

/-- A call of `include::<Q>()` or `exclude::<Q>()` (src/query/query_all.rs:47-93, src/query/query_one.rs:33-69). -/
inductive FilterCall where
  | inc (q : Query)
  | exc (q : Query)
deriving DecidableEq, Repr

/-- The filters `I` and `E` in the type of the query after the calls. `include` is a method of `QueryAll<G, (), E>` and
`QueryOne<G, (), E>`, `exclude` of `QueryAll<G, I, ()>` and `QueryOne<G, I, ()>` (src/query/query_all.rs:47-51, 71-75,
src/query/query_one.rs:33-37, 52-56): otherwise the program does not type check. `()` is the query without parts. -/
def filterTypes : Query × Query → List FilterCall → Option (Query × Query)
  | f, [] => some f
  | (i, e), .inc q :: cs => if i = [] then filterTypes (q, e) cs else none
  | (i, e), .exc q :: cs => if e = [] then filterTypes (i, q) cs else none

namespace QueryAll

/-- src/query/query_all.rs:32-44 `QueryAll::new`, called by `World::query_all` (src/world/mod.rs:192-197). -/
def start (w : World V) (h : Borrows) (g : Query) : Res (QueryAll V × Borrows) := do
  let (gv, gi, h) ← borrowQuery w.components h g
  pure (⟨w, gv, [], [], gi, some .empty, some .empty⟩, h)

/-- src/query/query_all.rs:52-68 `QueryAll::include`. -/
def include_ (q : QueryAll V) (h : Borrows) (i : Query) : Res (QueryAll V × Borrows) := do
  let (iv, ii, h) ← borrowQuery q.world.components h i
  pure (⟨q.world, q.get, iv, q.exc, q.getInfo, ii, q.excInfo⟩, h)

/-- src/query/query_all.rs:76-92 `QueryAll::exclude`. -/
def exclude_ (q : QueryAll V) (h : Borrows) (e : Query) : Res (QueryAll V × Borrows) := do
  let (ev, ei, h) ← borrowQuery q.world.components h e
  pure (⟨q.world, q.get, q.inc, ev, q.getInfo, q.incInfo, ei⟩, h)

/-- A sequence of `include` and `exclude` calls (src/query/query_all.rs:53-92). -/
def filters (q : QueryAll V) (h : Borrows) : List FilterCall → Res (QueryAll V × Borrows)
  | [] => .ok (q, h)
  | .inc i :: cs => do
    let (q, h) ← q.include_ h i
    filters q h cs
  | .exc e :: cs => do
    let (q, h) ← q.exclude_ h e
    filters q h cs

/-- `World::query_all::<G>()` and a sequence of filters (src/world/mod.rs:192-197). -/
def build (w : World V) (h : Borrows) (g : Query) (cs : List FilterCall) : Res (QueryAll V × Borrows) := do
  let (q, h) ← start w h g
  q.filters h cs

end QueryAll

namespace QueryOne

/-- src/query/query_one.rs:23-30 `QueryOne::new`, called by `World::query_one` (src/world/mod.rs:184-189). The field
`world` is only used to borrow. -/
def start (w : World V) (h : Borrows) (g : Query) : Res (QueryOne V × Borrows) := do
  let (gv, _, h) ← borrowQuery w.components h g
  pure (⟨gv, [], []⟩, h)

/-- src/query/query_one.rs:39-49 `QueryOne::include`. -/
def include_ (w : World V) (q : QueryOne V) (h : Borrows) (i : Query) : Res (QueryOne V × Borrows) := do
  let (iv, _, h) ← borrowQuery w.components h i
  pure (⟨q.get, iv, q.exc⟩, h)

/-- src/query/query_one.rs:58-68 `QueryOne::exclude`. -/
def exclude_ (w : World V) (q : QueryOne V) (h : Borrows) (e : Query) : Res (QueryOne V × Borrows) := do
  let (ev, _, h) ← borrowQuery w.components h e
  pure (⟨q.get, q.inc, ev⟩, h)

/-- A sequence of `include` and `exclude` calls (src/query/query_one.rs:39-68). -/
def filters (w : World V) (q : QueryOne V) (h : Borrows) : List FilterCall → Res (QueryOne V × Borrows)
  | [] => .ok (q, h)
  | .inc i :: cs => do
    let (q, h) ← include_ w q h i
    filters w q h cs
  | .exc e :: cs => do
    let (q, h) ← exclude_ w q h e
    filters w q h cs

/-- `World::query_one::<G>()` and a sequence of filters (src/world/mod.rs:184-189). -/
def build (w : World V) (h : Borrows) (g : Query) (cs : List FilterCall) : Res (QueryOne V × Borrows) := do
  let (q, h) ← start w h g
  filters w q h cs

end QueryOne
end Sparsey
