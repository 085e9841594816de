# Formal model of sparsey in Lean 4 — design

## 1. Shape of the model

The code is modelled function by function as total, computable Lean functions (namespace `Sparsey`). Every definition
of a model file cites the lines of the Rust source that it models.

| file (`lean/Verif/Model/`) | Rust source | what |
|---|---|---|
| `Basic` | – | results: `Res` (`ok`, `panic`, `ub`), `Outcome` (the same, but a panic keeps the state it leaves behind) |
| `Entity` | `src/entity/*.rs` | entities, versions, sparse vectors, entity sets, allocator, entity storage |
| `CompSet` | `component_sparse_set.rs` | component sets by contents (lists) |
| `RawSet` | `component_sparse_set.rs` | the same functions on memory cells: growth, moves, drops, deallocation |
| `Mask` | `group_mask.rs`, `storage_mask.rs` | bit masks and their iteration |
| `Layout` | `group_layout.rs`, `component_data.rs` | `add_group`, families, layouts |
| `Storage` | `group.rs`, `component_storage.rs`, `group_info.rs` | group, ungroup, set_layout, strip, borrow infos |
| `World` | `component_set.rs`, `world/*.rs` | tuples of components, all functions of `World` and `WorldBuilder` |
| `History` | – | one call (`Op`), what a caller sees of it (`Ret`), histories (`Reach`) |
| `Query` | `query/*.rs`, `view.rs` | query parts, views, `AtomicRefCell` flags, `query_one`, `query_all`, iterators, slices |
| `SparseCalls` | `entity/sparse_vec.rs` | sequences of calls on the public type `SparseVec` |
| `View` | `component/view.rs`, `world/mod.rs`, `query/query_one.rs` | indexing, slices, `contains`, `for_each`, `map` |
| `Par` | `query/par_iter/*.rs`, `query/iter/*.rs` | parallel iterators, `size_hint` |
| `Atomic` | `entity_allocator.rs:30-40, 75-110` | concurrent `create_atomic`, step by step |
| `Swaps` | `group.rs:51-129, 176-211` | which pairs of entities change places during a call |
| `Drops` | all functions that drop components | which values are dropped by a call |
| `Bombs` | the same | destructors that panic |

`lean/Verif/Spec/` holds the specifications. They do not use helpers of the model (only its syntax of calls, queries and
answers): `Life` (life spans of entities computed from calls and answers), `Map` (the world as a map), `Good` (calls that keep clear of the defects), `Layout` (families,
well-formedness), `Query` (matching entities, shown values), `Alias` (places handed out), `Atomic` (supply of entities), `SparseMap` (versioned map), `Panics` (refused calls),
`Lone` (histories that keep a type out of groups), `Ledger` (values given and returned), `RawSet` (histories of one set), `Bombs` (harmless calls).
`lean/Verif/Proofs/` holds lemmas and invariants, `lean/Verif/Properties/` the theorems named in MANIFEST.json and the
examples that show that their hypotheses can be met.

### Modelling decisions

* An unchecked access (`get_unchecked`, raw pointers, `unwrap_unchecked`, `unreachable_unchecked`) is a lookup that
  yields `ub` where the real access would be out of bounds. Checked indexing, `assert!`, `expect` and `unwrap` yield
  `panic`. Overflow checks of debug builds are not modelled; where a subtraction or narrowing could wrap this is either
  explicit (`% 2^32`) or proved not to happen (`C40`).
* `u32`/`usize` values are `Nat`; masks are `BitVec`.
* All component types share one value type `V`, a parameter. Nothing is assumed about `V`, so it can be a disjoint union.
  A `TypeId` is a `Nat`: only its order and equality matter, and both are arbitrary.
* The iteration order of a hash map is an argument of the operation that iterates (`rank`), so theorems hold for all orders. C64: the
  order is never visible.
* `&mut self` functions return the new value. A call that panics is caught by the caller; the history goes on with the
  state left behind.
* Component tuples are lists; any arity is allowed (more general than the code's 16).
* A query is the list of its parts.
* Rust's borrow checker is taken for granted: while views or queries are alive the world is not mutated, `&mut` results
  of one query or view are not alive together with those of a later call.

## 2. Disagreements between the documented behaviour and the code

For each of these the negation is proved with a concrete history (`…_false`), and a `…_partial` theorem is proved under
the guard that excludes it.

1. `maintain` re-inserts every entity handed out since the last `maintain`, including entities made by `create` and
   destroyed since: `create; destroy; maintain` revives the entity (C01–C08, C42). Later `create` calls return duplicates.
2. `exclude_group_range` treats "not all of the excluded types" as "none of the excluded types" when one nested group
   step adds two or more excluded types (C24, C25).
3. `slice_raw` of `&T`/`&mut T` ignores `range.start` (C27).
4. An `exclude` with `Entity` or `Option<&T>` excludes everything on the sparse path and nothing on the dense path (C25).
5. `query_one` without a required component answers for dead entities; `query_all` without one yields nothing (C28).
6. `GroupFamily::try_add_group` panics for a smaller group added after a larger one that contains it. Where it does
   not panic in that case, it silently replaces groups by others (C22, C26, C32, C33). Caught `add_group` panics leave
   overlapping families. Two disjoint groups inside a common larger one are rejected in every order.
7. `StorageMask::from_to` and `GroupMask::from_to` reject the documented maxima 16 and 64 (C34).
8. A panic inside `create`/`insert`/`extend` skips the grouping step, so grouped queries miss entities and
   queries that exclude a component of a larger group yield entities having it (C19, C38, C52). Which ones follows from the
   calls: `hidden` (`Spec/Hidden`); `set_layout` with any layout, or a later `insert` into the family, repairs it.
9. `ComponentSparseSet::swap_nonoverlapping` (through `swap_typed`/`group`/`ungroup`) swaps whole sparse slots, including
   the versions in them. When grouping swaps two entities of different versions, each slot then has the version of the other
   entity: both become unreachable, or a dead handle reaches the component of another entity, and further calls read out
   of bounds (C05, C12, C14, C16, C17, C20, C21, C23, C31, C47). No misuse is needed: one recycled entity in a grouped type suffices.
10. After finding 1, `extend` replaces in place and returns fewer entities than items (C11, C17), the same token is
    queued twice and the last version of an index is handed out twice (C10), and two concurrent `create_atomic` calls
    return the same entity (C06). Independently, `clear` never recycles the indexes of living entities.
11. `ComponentSparseSet::insert` writes the sparse slot before `grow`. If `grow` panics the next `get` reads out of
    bounds (C36_grow_false; needs allocations near the address space).
12. A panicking destructor in `delete`, `destroy`, `clear` or `reset` leads to double drops, to components attached to
    dead entities that new entities inherit, and to ungrouped entities in other groups (C37).
    Rows left behind by an interrupted `reset` can have indexes beyond the emptied table; grouping a new entity then
    writes out of bounds (C75_ub_false). An interrupted `delete`
    also leaves the entity outside of groups whose types it keeps (C76_hides).
13. A panicking destructor of a component replaced by `insert`, `create` or `extend` skips the grouping step: queries over a
    group miss the entity (C44). This is finding 8 without an unregistered type.
14. A `set_layout` that panics half-way (finding 7: a group of 16 types after a smaller one) leaves metadata whose masks name
    groups that were never pushed. If the panic is caught, `create` reads `groups` out of bounds (C31_layout_false).
15. `extract_sparse_sets` replaces the sets by empty ones, and `set_layout` appends new entries for all types after them.
    The emptied sets are never removed: each `set_layout` lengthens `components` by the number of types, and `destroy` and
    `clear` go through all of them (C61).

### The guards

* `Disciplined` (`Spec/Life`): `maintain` is never called after destroying an entity made since the previous
  `maintain`/`clear`/`reset`. Excludes finding 1. The guard is exact: `C03_exact`.
* `Fair` (`Spec/Good`), call by call: the discipline of `maintain`; layouts that are set are well formed and below the
  maxima (findings 6, 7); these are conditions on the map (`MapWorld.Fair`, `Spec/Map`). And no grouping or ungrouping
  exchanges two entities of different versions (`Even`, finding 9): `Model/Swaps` lists the exchanges of a call. This last
  clause is about the state of the world, because the order of the entities in the sets decides who is exchanged; it is
  implied by a condition on the map alone: entities sharing a component type of a group have the same version
  (`fair_of_uniform`). In a world without groups `Fair` is `Disciplined` (`good_of_ungrouped`). For calls on one entity
  the clause is exact: whenever such a call makes an uneven exchange, some component of the map is no longer found
  (`C51_partial`). It is not exact for `set_layout` and `extend`, where the exchanges of several entities can cancel
  (`C51_layout_false`, `C51_extend_false`); `C68_exact` and `C68_put` are exact for all calls,
  and `C70_all_exact` for whole histories: the world is the map as long as all rows of all views are found after every call.
  `Fair` histories do not contain writes by position (`ViewMut::as_mut_slice`, items and slices of queries; `Op.writeAt`):
  the map knows no positions. By `C21_at_partial` and `C21_query_partial` such a write is the write to the entity shown
  there, which `Fair` allows; `C55_partial` does this replacement for whole histories.
* `Good` (`Spec/Good`): `Fair`, and an interrupted `create`, `insert` or `extend` completes no group for an entity
  (finding 8). No theorem on calls, views, queries or slices asks for it: they need `Fair`, and the exact theorems (`C23_all_partial`,
  `C24_all_partial`, `C27_all_partial`, `C52_partial`) say which entities are left out. The theorems that state the plain claim (C24, C25,
  C28) have the hypothesis `NoneLeftOut`, which `Good` implies for every query (`C52_good`).
* `Settled` (`Spec/Good`): the layout set last, if any, is well formed and below the maxima. Which queries use groups depends
  on nothing else (C26, C53).
* `Unmixed` (`Spec/Lone`): the components of one type are not mixed up; what happens to other types does not matter (C56, C57).
* `erase K h`, `LaysFor K` (`Spec/Erase`): what is left of a history on the types in `K`; layouts without groups that have types
  both inside and outside of `K` (C58).
* Query guards are stated in the theorems (findings 2–5).

## 3. What is proved, in outline

* **Life spans** (C01–C11, C35, C39, C40). `Proofs/Life`, `WorldLife`: for disciplined histories the entity storage follows the
  life span specification. `Indexes`, `AllSets`, `Versions`: what holds in every reachable world without any discipline.
* **Components** (C04, C05, C12–C21, C42). `World`: `step_refines`, `reach_refines` — the world refines the map for `Fair`
  histories (`step_fair`, `reach_fair`); `Observe` reads the map back through views.
* **Groups** (C22, C23, C31, C38, C43). `Group`, `GroupLoop`, `SetLayout`, `Store`, `StoreOps`: the group invariant.
* **Queries** (C24–C29). `QueryRange`, `QueryIter`, `Query`: dense and sparse iteration give exactly the matching entities.
  `Views`: what every query yields exactly, the accessors of views, the shortcuts of `World`, cost bounds (C45–C47).
* **Aliasing** (C30). `Borrow`, `Alias`: in every reachable world, whatever is alive at once.
* **Memory safety** (C31). `Safe`: everything but grouping is free of `ub` in all reachable worlds; `Fair` histories are
  free of `ub`. `Ranges`: group
  infos of all reachable worlds point to groups. `Places`: a write through a view, item or slice changes one position, in all reachable worlds (C21).
* **Layouts** (C26, C32–C34). `Layout`, `LayoutLimits`, `LayoutQuery`.
* **Panics** (C49). `Panics`: bounds of groups and storage indexes in every reachable world, so no internal check fails.
* **Types outside of groups** (C50). `Lone`, `LoneStep`: grouping does not touch the sets of other types, so these follow the
  map under the discipline of `maintain` alone.
* **Single types** (C56). `OneType`, `OneTypeEven`: an exchange between entities of the same version keeps the contents of a set,
  so a type whose own exchanges are all of that kind follows the map; `SwapsOf` lists the exchanges of each call per type.
* **Queries over single types** (C57). `Settled`: the static part of the group data (masks, families, storage indexes) depends on
  the layout set last only. `LoneQuery`: the proofs on sparse iteration need only that the sets of the mentioned types are right.
* **Families** (C58). `EraseLoop`, `EraseStore`, `EraseLayout`, `EraseStep`: two storages with the same metadata that agree on the
  positions of a union of groups, the second one with empty sets everywhere else, stay in agreement under every call. If the first
  run is not undefined behaviour the second one is not either, so no guard against the known defects is needed. `EraseMap`: the map
  of the remaining calls. `EraseQuery`: queries look only at groups inside of the union.
  `EraseBack`: the other direction, for calls about types in `K` only: storages that agree on these types and differ anyhow on the
  others are treated alike, so that such a call is undefined behaviour in both worlds or in none.
* **Exactness of the guard** (C51). `Uneven`: one grouping or ungrouping moves an entity along a chain of exchanges in one
  direction, so the versions of the slots are rotated, and unless all are equal some entity ends up at a wrong slot.
  `UnevenCalls`: the rest of the call does not repair it.
* **Interrupted calls** (C52). `Hidden`: the group invariant holds for all pairs of an entity and a group but those listed by
  `hidden`, which is computed from the calls.
* **Which queries use groups** (C53). `LayoutQuery`: the masks of groups mean `Grouped`; with C24 this gives `Yields`, a complete
  description of what every query yields.
* **Order of filters** (C54). Borrowing succeeds iff the requests are compatible with those held, which does not depend on the
  order; what is borrowed only depends on the world.
* **Concurrency** (C06). `Atomic`: every interleaving is linearizable.
* **Ledger** (C36, C37, C44). `Ledger`: given = returned + dropped + stored, every history. `RawSet`: memory follows contents.
  `Bombs`, `Replaced`: exact damage of a panicking destructor.
* **Order of tuples** (C59). `Order`: steps on different sets commute because none of them can panic; masks are joined with a
  commutative operation; distinct types have distinct sets (`reach_static`).
* **Calls made of other calls** (C62). `Composed`: `delete` and `remove`, `create` and `insert`, `destroy` and `delete`.
* **Queries that ask for the same** (C63). `SameQuery`: order, repetition and splitting into getters and filters do not matter.
* **Rows** (C65). `Spec/Rows`: rows of a view and what a call makes of them, by the calls and answers only. `Proofs/Rows`:
  grouping shuffles sets (`Shuffles`), inserting puts a row, removing takes at most one, `set_layout` moves sets (`Halfway`).
* **Use of queries** (C66). `Properties/Uses`: no function of an existing query panics; which reads are out of bounds.
* **Moves** (C67). `Spec/Moves`: how many positions of a view a call may change, by the call and the layout only.
  `Proofs/Moves`: what each loop over groups exchanges; every type is in at most 14 groups in every reachable world.
* **Labels** (C68). `Spec/Labels`: rows of a view with the versions under which they are found, and what a call makes of them.
  `Proofs/Labels`: the label at a position is the version in the slot pointing to it; `swap` exchanges whole slots, so labels stay.
* **Growth** (C69). `Spec/Growth`: capacity and blocks by the largest number of components. `Properties/Growth`: only `insert` changes
  the block, and only when it is full.
* **Found rows** (C70). `Proofs/Found`: rows that are all found are the part of the map for this type; `Proofs/FoundStep`: each call,
  from what it does to rows (C65) and labels (C68) only. For a single view a condition on removals through dead entities is needed
  (`C70_handles_false`, a consequence of finding 9); for all views together it is implied.
* **Rows left behind** (C71). `Spec/Misplaced`: calls after which a view has a row of the index but does not find the entity.
  `Proofs/Aligned`: with versions blotted out (`CompSet.blank`) grouping works on indexes only, as in the proofs for fair histories;
  ungrouping does the same as on the blotted sets unless it meets a wrong label, and then the label stays visible. `Proofs/AlignedStore`,
  `AlignedWorld`: every call keeps the sets of groups aligned by index unless it leaves a row behind. `Proofs/AlignedQuery`: so ranges of
  queries end within the sets. The condition is sufficient for safety, not necessary: a misplaced row need not be read.
* **Tables** (C72). `Spec/Tables`: lengths of tables. `Proofs/Tables`: by `StableTo` (as `Stable`, but for insertions of entities with
  indexes below a bound, here the length of the table of the entities) no set outgrows the entities; `Proofs/TablesLife`: each index
  below the next one was handed out, also by an `extend` that returned less entities than items (`step_ents`).
* **Roll** (C73). `Spec/Roll`: list with labels, queue, and what `maintain` puts. `Proofs/Roll`: the set of entities is a component set
  without components, so the lemmas on labels (C68) apply; the allocator by `AllocRep`; each call by `step_ents`. No discipline is
  needed, so this is what C01–C11 become where finding 1 makes them false.
* **Sights** (C74). `Spec/Sights`: what a query shows if components are found by a given function. `Properties/Sights`: by index for
  iteration, by label for a query of one entity, by position for groups and slices; from the slots of a set (`CompSet.sheet_slot`).
* **BombLedger** (C75). `Spec/BombLedger`: values kept though dropped, values lost, and the limits of each call. `Proofs/BombLedger`:
  needs only that sets have as many entities as components, which interrupted calls keep; so sequences of panics are covered.
* **Torn** (C76). `Spec/Torn`: what interrupted calls do to the map. `Proofs/Torn`: after an interrupted `delete` the invariant of the
  storage holds for the torn map, with `e` possibly outside of its groups; so calls may be interrupted again and again.
  Which entities are outside is known exactly (`hiddenTorn`), and so are the results of all queries; an entity that keeps all
  types of a group can disappear from its queries (`C76_hides`).
* **LayoutPanic** (C77). `Spec/LayoutPanic`: the types placed before the panic, from the families. `Proofs/LayoutPanic`: `Placed` for the
  prefix of families and groups that fits.
* **Debug** (C78). `Properties/Debug`: entries of `Debug` against lookups, from `IdxRep` and the labels of C68; slot `2^32` is never
  filled, so `as u32` does not truncate.
* **Again** (C79). `Spec/Again`: pairs of calls of which the second has nothing to do, or the first is wasted. `Properties/Again`:
  from `step_reset` (C09) and `step_ents`. `Properties/Absent`: calls on an entity that no set finds change nothing.
* **Quiet** (C80). `Spec/Quiet`: calls that leave the allocator alone. `Properties/Quiet`: such calls do not look at the allocator
  (`step_quiet`), and `create_atomic` looks at nothing else (`step_atomic`).
* **Opaque** (C81). `Spec/Opaque`: replacing values in worlds, calls, answers, items and slices. `Proofs/Opaque`: every function
  on the way of a call commutes with it; `Properties/Opaque`: so do the functions of queries, and sequences of calls. The functions
  of the model are generic in the type of values, so a wrong program that looks at values can be written in it only with
  classical choice (tried, see the log); those that lose or add values are caught by other theorems.
* **Rename** (C82). `Spec/Rename`: other identifiers for types. `Properties/Rename`: every function that looks at identifiers
  commutes with a renaming; layouts sort them, so there the order must stay. `C82_order_false`: with the order changed results of
  queries can change, because `get_group_status` looks for the version of the entity in the first new set of a group only
  (src/component/group.rs:138-166), and which set is first is decided by the order of TypeIds, which differs between builds. The
  witness needs an entity that came back (finding 1). `Properties/RenameFair`: calls that are fair
  with both namings, whose layouts name registered types, have the same answers and reads in any order (`C82_fair_partial`), and
  queries under the guards of C24 show the same up to order (`C82_query_partial`). That
  fairness survives a renaming is not shown in general (it is about exchanges, whose order depends on the names), only if
  entities that share a type always have the same version and the renamed layouts are well formed (`C82_uniform_partial`).
* **Emptied** (C08_query). `Properties/Emptied`: queries after clear and reset yield nothing.
* **Order of hash maps** (C64). `Proofs/HashOrder`: storages that differ in the positions of ungrouped sets (`Alike`) stay alike
  under every call; `Proofs/HashQuery`: and show the same to queries.
* **Tests of the repository**. `Properties/RepoTests`: tests/*.rs and the examples of README.md run on the model (`decide`). The
  tests pass; the last example of the README (slices of `(&A, &B)` excluding `(&C, &D)`) meets findings 2 and 3.
* **Number of sets** (C61, C18). `Leftover`, `Types`: count sets and types through the loops of `set_layout`.
* **Order of iteration** (C60). `VisitOrder`: the shortest required set, the first of several.

### Assumptions of the parts that touch the outside

* *Atomic*: relaxed atomics. A location is its modification order; loads and failing compare-exchanges may return any
  earlier value; weak compare-exchanges may fail spuriously. No order between the two locations is assumed. Termination
  (`C06_progress`) is lock-freedom: some call gets ahead, it is not a fairness claim.
* *Par*: rayon is not modelled. Its contract is: a range or slice is split at arbitrary positions, each piece is folded front
  to back, pieces run in any order.
* *RawSet*: one block per set, cells that are uninitialised or hold a value, a log of destructor calls. A failing
  allocation (which aborts) is not modelled.
* *Bombs*: destructors that panic, in `delete`, `destroy`, `clear` and `reset` and of values replaced by `insert`, `create`,
  `extend` and writes, and in the drop of the world. A second panic during unwinding aborts; this is modelled for the drop
  of the world only.

### Not modelled

The formatting done by `core` (only the entries that `Debug` gives to it, for tables, sets and views), `Hash`, `Default`/`Clone` derives, `FromIterator`-like conveniences, doc attributes, feature flags
other than `parallel`; the hash maps of `rustc_hash` (finite maps); `AtomicRefCell` itself (its contract: one writer or many
readers, panic otherwise); the rules of Rust about pointer provenance (Stacked Borrows): `ComponentSet::remove` and `delete`
(src/component/component_set.rs:132-204) use pointers obtained from `AtomicRefCell::as_ptr` after the component sets were
borrowed mutably again for `ungroup`, which only such a model can judge; the allocator and the operating system; rayon; the code generated by macros is modelled once for
all arities; lifetimes and `Send`/`Sync` bounds. Tests and examples of the repository are not modelled.

## 4. Trusted base

* Lean's kernel (4.33.0), and Mathlib's definitions used in statements (lists, permutations, finite sets).
* That the model files say what the Rust code does. They cite the lines; `seeded/LOG.jsonl` lists edits of model
  definitions and the theorems that noticed them.
  How to read it: `failed` names the first declarations whose proofs no longer go through, and `property_theorems_failed`
  the property theorems that depend on them. Neither list shows that those statements became false of the edited program;
  a proof can also break because a lemma describes the exact code. Edits that keep the behaviour carry a `note` where we
  recognised them, but the automatic single-operator edits were not judged one by one. Edits after which everything
  still proves have `"survived": true`. Until late in the work the scripts did not log survivors; those found in the
  scripts' records were rerun or entered afterwards. The number of entries is therefore not a detection rate.
  Edits after which a file of the model itself no longer compiled (type errors, or one of the few lemmas there) were not logged
  but replaced by others. In entries before those for C79 an error that Lean reports at the comment above a theorem was counted
  for the theorem before it; one such entry was noticed (C78) and corrected.
* That the statements in `Properties/` and the definitions in `Spec/` say what the properties in `properties.jsonl` say.
* No axioms of our own, no `sorry`, no `native_decide`. `decide` is used for concrete witnesses and examples only.

Axioms that the theorems of MANIFEST.json depend on (`#print axioms`):

* none — C78_entities
* `propext` — C33_caught_false, C36_grow_false
* `Quot.sound`, `propext` — C01_false, C02_false, C03_false, C04_false, C05_component_false, C05_false, C06_false, C07_false, C08_false, C09, C10_increasing_false, C11_false, C12_false, C13, C14_false, C15, C16_false, C17_false, C17_short_false, C18_false, C19_false, C19_noeffect, C20_false, C21_at_false, C21_items, C21_query_false, C22_false, C22_silent_false, C23_false, C24_false, C25_entity_false, C25_false, C25_grouping_partial, C26_false, C27_false, C28_false, C29, C29_nexts, C29_par, C29_par_perm, C31_false, C31_layout_false, C31_query_false, C32_false, C33_false, C34_false, C36_all, C36_layout, C37_calm, C37_clear_false, C37_destroy_false, C37_drop_false, C37_false, C37_group_false, C37_reset_false, C38_false, C40, C42_false, C43_build, C43_false, C44_create, C44_false, C44_insert, C44_write, C47_false, C47_sparse, C51_extend_false, C51_layout_false, C52_false, C55_false, C58_map, C59_repeated, C59_unregistered, C60_visits, C61_other, C61_register, C62_create_false, C62_delete, C62_empty, C70_handles_false, C71_repair, C75_ub_false, C76_hides, C78_false, C79_others_false, C80, C80_destroy_false, C80_reads, C81_calls, C81_reads, C81_shape, C82_order_false
* `Classical.choice`, `Quot.sound`, `propext` — C01_partial, C02_partial, C03_exact, C03_maintain, C03_partial, C04_alive_partial, C04_partial, C05_alive_partial, C05_partial, C06_partial, C06_progress, C06_serial, C06_supply, C07_partial, C08_later_partial, C08_now, C08_query, C09_fresh, C09_partial, C10_exhausted_partial, C10_false, C10_partial, C10_range, C11_full_partial, C11_partial, C12_partial, C13_life_partial, C14_partial, C16_partial, C17_partial, C18_partial, C18_register, C18_types, C18_types_partial, C19_create_partial, C19_insert_partial, C20_partial, C21, C21_at_partial, C21_once, C21_one, C21_query_partial, C22_all, C22_exact, C22_partial, C23_all_partial, C23_partial, C24_all_partial, C24_exact_partial, C24_partial, C25_exact_partial, C25_partial, C26_declared_partial, C26_partial, C27_all_partial, C27_exact_partial, C27_partial, C28_partial, C29_query_partial, C30, C30_new, C31_iter, C31_partial, C31_query_partial, C31_query_safe, C31_safe, C31_ungrouped_partial, C32_laminar_false, C32_partial, C32_sorted_partial, C33_arity, C33_partial, C33_wellformed, C34_partial, C34_set, C35, C35_recycled, C36_once_partial, C36_partial, C36_raw, C36_set, C36_step_partial, C37_delete_partial, C37_destroy_partial, C37_drop, C37_partial, C37_unaffected, C37_unaffected_run, C38_partial, C39, C41_iter, C41_masks, C42_partial, C42_ungrouped_partial, C43_partial, C44_extend, C44_partial, C44_reach, C45, C45_write, C46, C46_forEach_partial, C47_partial, C48, C49, C49_left, C50, C50_answers, C51_history_partial, C51_lost_partial, C51_partial, C52_good, C52_partial, C52_repair_partial, C53_partial, C53_yields_partial, C54, C55_map_partial, C55_partial, C56, C56_answers, C56_uniform, C56_uniform_answers, C57, C57_one, C58_answers_partial, C58_calls_partial, C58_partial, C58_query_partial, C58_reads_partial, C58_safe_partial, C58_same_partial, C58_yields_partial, C59_create, C59_delete, C59_extend, C59_insert, C59_remove, C60_order_partial, C61_count, C61_false, C61_layout, C61_partial, C62_create_partial, C62_destroy_partial, C63_grouped_partial, C63_partial, C64, C65, C65_frame, C65_source, C65_unique, C66, C66_reads, C66_slice, C66_ways, C67, C67_apart, C67_single, C68, C68_all, C68_even, C68_exact, C68_found, C68_frame, C68_put, C69, C69_cost, C70, C70_all, C70_all_answers, C70_all_exact, C70_answers, C70_exact, C71, C71_cause, C71_fair, C71_found, C71_query, C71_rows, C71_run, C72_entities, C72_indexes, C72_lengths, C73, C73_answers, C73_exhausted, C74, C74_group, C74_one, C74_slice, C75, C75_clear, C75_run, C76_delete_partial, C76_partial, C77, C78_sets, C78_tables, C78_views, C79_leaves, C79_misses, C79_wasted, C82_calls, C82_reads
