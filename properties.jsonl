{"id": "C01", "title": "Entities are never handed out twice", "statement": "Every entity returned by World::create, World::extend or World::create_atomic differs from every entity returned earlier by the same world since its construction or its last reset.", "quantifier": "every finite history of World calls (register, set_layout, create, extend, destroy, create_atomic, maintain, insert, remove, delete, clear, reset, writes through views), with any arguments; all pairs of returned entities with no reset between them", "why_tests_cant": "A test samples a few create/destroy orders; reuse depends on the whole recycling history and on where maintain falls in it.", "anchors": ["src/entity/entity_allocator.rs: allocate, allocate_atomic, recycle, maintain", "src/world/mod.rs: create, extend, create_atomic"]}
{"id": "C02", "title": "contains_entity is exactly the life span", "statement": "World::contains_entity(e) is true exactly when e was returned by create/extend (or by create_atomic, with a later maintain) and since then was neither destroyed nor removed by clear/reset.", "quantifier": "every finite history of World calls (register, set_layout, create, extend, destroy, create_atomic, maintain, insert, remove, delete, clear, reset, writes through views), with any arguments; every entity value e, including handles never issued", "why_tests_cant": "Must hold after every interleaving of creation, destruction and maintain, for every handle.", "anchors": ["src/world/mod.rs: contains_entity, destroy, maintain", "src/entity/entity_sparse_set.rs: insert, remove, contains", "src/entity/entity_storage.rs: maintain"]}
{"id": "C03", "title": "entities() lists the living entities once each", "statement": "World::entities() contains each entity for which contains_entity is true exactly once and nothing else; is_empty() is true exactly when that slice is empty.", "quantifier": "every finite history of World calls (register, set_layout, create, extend, destroy, create_atomic, maintain, insert, remove, delete, clear, reset, writes through views), with any arguments", "why_tests_cant": "Swap-remove bookkeeping is order dependent; only finitely many removal orders can be tested.", "anchors": ["src/world/mod.rs: entities, is_empty", "src/entity/entity_sparse_set.rs: insert, remove, as_slice"]}
{"id": "C04", "title": "destroy reports and takes effect exactly on living entities", "statement": "World::destroy(e) returns true exactly when e was alive; afterwards e is dead, all its components are gone, and the liveness and components of every other entity are unchanged. When it returns false nothing changes.", "quantifier": "every finite history of World calls (register, set_layout, create, extend, destroy, create_atomic, maintain, insert, remove, delete, clear, reset, writes through views), with any arguments; every entity value e", "why_tests_cant": "Frame conditions range over all other entities and component types.", "anchors": ["src/world/mod.rs: destroy", "src/component/component_storage.rs: strip", "src/component/group.rs: ungroup_all"]}
{"id": "C05", "title": "A destroyed handle stays dead", "statement": "After destroy(e) returned true no later call other than reset makes contains_entity(e) true again or makes any component reachable through e.", "quantifier": "every finite history of World calls (register, set_layout, create, extend, destroy, create_atomic, maintain, insert, remove, delete, clear, reset, writes through views), with any arguments; every continuation of the history without reset", "why_tests_cant": "Requires all continuations of a history.", "anchors": ["src/entity/entity_allocator.rs: recycle, maintain", "src/entity/mod.rs: Version::next"]}
{"id": "C06", "title": "Concurrent create_atomic calls never collide", "statement": "Any number of create_atomic calls running concurrently on a shared world return pairwise different entities, all different from living entities, whatever the interleaving of their atomic loads and (weak) compare-exchanges.", "quantifier": "every number of concurrent calls, every interleaving, every pattern of spurious compare-exchange failures, every starting allocator state", "why_tests_cant": "Interleavings cannot be enumerated by running threads.", "anchors": ["src/entity/entity_allocator.rs: allocate_atomic, increment_recycled_since_maintain, increment_next_index_to_allocate"]}
{"id": "C07", "title": "maintain adds exactly the queued entities", "statement": "An entity returned by create_atomic is not alive until the next maintain; maintain makes every entity queued since the last maintain/clear/reset alive, and changes the liveness of no other entity and no component.", "quantifier": "every finite history of World calls (register, set_layout, create, extend, destroy, create_atomic, maintain, insert, remove, delete, clear, reset, writes through views), with any arguments", "why_tests_cant": "Depends on the interplay of create, create_atomic and destroy before the maintain.", "anchors": ["src/world/mod.rs: create_atomic, maintain", "src/entity/entity_allocator.rs: maintain", "src/entity/entity_storage.rs: maintain"]}
{"id": "C08", "title": "clear empties the world and discards queued entities", "statement": "After World::clear no entity is alive, no entity has a component, entities queued by create_atomic before the clear never become alive, registrations are kept, and later created entities are still different from all earlier ones.", "quantifier": "every finite history of World calls (register, set_layout, create, extend, destroy, create_atomic, maintain, insert, remove, delete, clear, reset, writes through views), with any arguments", "why_tests_cant": "Quantifies over every prior history and every continuation.", "anchors": ["src/world/mod.rs: clear", "src/entity/entity_storage.rs: clear", "src/component/component_storage.rs: clear"]}
{"id": "C09", "title": "reset restores a fresh world with the same registrations and layout", "statement": "After World::reset no entity is alive, no component is stored, the registered types are unchanged and the following calls hand out the same entities as in a newly built world (index 0, first version, and so on).", "quantifier": "every finite history of World calls (register, set_layout, create, extend, destroy, create_atomic, maintain, insert, remove, delete, clear, reset, writes through views), with any arguments", "why_tests_cant": "Quantifies over every prior history.", "anchors": ["src/world/mod.rs: reset", "src/entity/entity_allocator.rs: reset", "src/entity/entity_storage.rs: reset"]}
{"id": "C10", "title": "Index and version exhaustion never wraps", "statement": "Handed out entities always have an index in 0..=u32::MAX and a version in 1..=u32::MAX. An index whose version reached the last value is never handed out again; when no index is left create panics instead of reusing one.", "quantifier": "every finite history of World calls (register, set_layout, create, extend, destroy, create_atomic, maintain, insert, remove, delete, clear, reset, writes through views), with any arguments, including histories with more than 2^32 calls", "why_tests_cant": "2^32 operations on one index are out of reach for tests.", "anchors": ["src/entity/entity_allocator.rs: allocate, recycle", "src/entity/mod.rs: Version::next", "src/entity/entity_storage.rs: create"]}
{"id": "C11", "title": "Destroyed indexes are recycled first-in first-out before new ones", "statement": "create, extend and create_atomic reuse the indexes of destroyed entities in the order in which they were destroyed, each with the next version, and take a never used index only if no destroyed index is waiting.", "quantifier": "every finite history of World calls (register, set_layout, create, extend, destroy, create_atomic, maintain, insert, remove, delete, clear, reset, writes through views), with any arguments", "why_tests_cant": "Order property over all histories.", "anchors": ["src/entity/entity_allocator.rs: allocate, recycle, maintain"]}
{"id": "C12", "title": "insert is visible to reads and touches nothing else", "statement": "If e is alive, insert(e, components) returns true and afterwards reading each inserted type through e gives the inserted value (the last one if a type occurs twice), while every other (entity, type) pair reads as before.", "quantifier": "every finite history of World calls (register, set_layout, create, extend, destroy, create_atomic, maintain, insert, remove, delete, clear, reset, writes through views), with any arguments; every component tuple, every entity", "why_tests_cant": "Frame condition over all pairs after any history, with groups reordering storages.", "anchors": ["src/world/mod.rs: insert", "src/component/component_set.rs: insert", "src/component/component_sparse_set.rs: insert", "src/component/group.rs: group"]}
{"id": "C13", "title": "insert on a dead entity is a no-op", "statement": "If e is not alive, insert(e, components) returns false and changes nothing observable.", "quantifier": "every finite history of World calls (register, set_layout, create, extend, destroy, create_atomic, maintain, insert, remove, delete, clear, reset, writes through views), with any arguments; every entity value", "why_tests_cant": "All histories and handles.", "anchors": ["src/world/mod.rs: insert"]}
{"id": "C14", "title": "remove returns what was stored", "statement": "remove::<C>(e) returns, per component type, the value that reading it through e gave just before (None if none); afterwards e has none of these types and every other (entity, type) pair is unchanged. For dead or foreign handles it returns None everywhere and changes nothing.", "quantifier": "every finite history of World calls (register, set_layout, create, extend, destroy, create_atomic, maintain, insert, remove, delete, clear, reset, writes through views), with any arguments; every entity value and type tuple", "why_tests_cant": "Swap-remove and ungrouping move other entities' components.", "anchors": ["src/world/mod.rs: remove", "src/component/component_set.rs: remove", "src/component/component_sparse_set.rs: remove", "src/component/group.rs: ungroup"]}
{"id": "C15", "title": "delete has the same effect as remove", "statement": "delete::<C>(e) leaves the world in the same state as remove::<C>(e).", "quantifier": "every finite history of World calls (register, set_layout, create, extend, destroy, create_atomic, maintain, insert, remove, delete, clear, reset, writes through views), with any arguments; every entity value and type tuple", "why_tests_cant": "Two separate code paths must agree on every state.", "anchors": ["src/world/mod.rs: delete", "src/component/component_set.rs: delete", "src/component/component_sparse_set.rs: delete"]}
{"id": "C16", "title": "create attaches exactly the given components", "statement": "After e = create(components), e is alive, has exactly the given components with the given values and no other component, and all other entities are unchanged.", "quantifier": "every finite history of World calls (register, set_layout, create, extend, destroy, create_atomic, maintain, insert, remove, delete, clear, reset, writes through views), with any arguments; every component tuple", "why_tests_cant": "Recycled indexes must not inherit components from any earlier owner.", "anchors": ["src/world/mod.rs: create", "src/component/component_set.rs: insert"]}
{"id": "C17", "title": "extend equals repeated create", "statement": "extend(items) returns one new entity per item in iteration order, the i-th one has exactly the components of the i-th item, and the resulting world reads the same as after calling create for each item in turn.", "quantifier": "every finite history of World calls (register, set_layout, create, extend, destroy, create_atomic, maintain, insert, remove, delete, clear, reset, writes through views), with any arguments; every sequence of component tuples", "why_tests_cant": "Grouping is deferred to the end of the loop in extend, unlike create.", "anchors": ["src/world/mod.rs: extend", "src/component/component_set.rs: extend"]}
{"id": "C18", "title": "register is idempotent and monotone", "statement": "register::<T> returns true exactly when T was not registered; afterwards T is registered; no call ever unregisters a type; registering changes no entity or component.", "quantifier": "every finite history of World calls (register, set_layout, create, extend, destroy, create_atomic, maintain, insert, remove, delete, clear, reset, writes through views), with any arguments", "why_tests_cant": "All histories.", "anchors": ["src/world/mod.rs: register, register_dyn, is_registered", "src/component/component_storage.rs: register_dyn"]}
{"id": "C19", "title": "Using an unregistered component panics instead of misbehaving", "statement": "create, extend, insert, remove, delete, borrow and queries over a type that is not registered panic; the panic loses no component, kills no entity, and leaves every later call working as documented if it is caught.", "quantifier": "every finite history of World calls (register, set_layout, create, extend, destroy, create_atomic, maintain, insert, remove, delete, clear, reset, writes through views), with any arguments, with panicking calls whose panic is caught", "why_tests_cant": "Crash points in the middle of a multi component insert.", "anchors": ["src/component/component_set.rs: insert, extend, remove, delete", "src/component/component_storage.rs: borrow, panic_missing_comp"]}
{"id": "C20", "title": "Views are consistent parallel arrays", "statement": "For a view of T: entities() has no duplicates and the same length as as_slice(); get(e) is the element of as_slice() at the position of e in entities(), and None if e does not occur; len, is_empty and contains agree with it.", "quantifier": "every finite history of World calls (register, set_layout, create, extend, destroy, create_atomic, maintain, insert, remove, delete, clear, reset, writes through views), with any arguments; every registered type", "why_tests_cant": "All states.", "anchors": ["src/component/view.rs: get, contains, len, entities, as_slice", "src/component/component_sparse_set.rs: get, contains"]}
{"id": "C21", "title": "Writes through views change one component only", "statement": "Writing through ViewMut::get_mut(e), or through a mutable query item for e, changes the component of e of that type and nothing else.", "quantifier": "every finite history of World calls (register, set_layout, create, extend, destroy, create_atomic, maintain, insert, remove, delete, clear, reset, writes through views), with any arguments; every entity, type and value", "why_tests_cant": "All states.", "anchors": ["src/component/view.rs: get_mut", "src/query/query_part.rs: get_sparse_raw, get_dense_raw"]}
{"id": "C22", "title": "set_layout keeps all data", "statement": "World::set_layout changes no entity, no registration and no component value, and additionally registers the types named in the layout.", "quantifier": "every finite history of World calls (register, set_layout, create, extend, destroy, create_atomic, maintain, insert, remove, delete, clear, reset, writes through views), with any arguments; every layout, every hash map iteration order", "why_tests_cant": "Hash order and prior histories are unbounded.", "anchors": ["src/world/mod.rs: set_layout", "src/component/component_storage.rs: set_layout, extract_sparse_sets"]}
{"id": "C23", "title": "Grouped components are packed and aligned", "statement": "For every group of the current layout, the entities that have all of the group's component types are exactly the first n entities of each of the group's views, in the same order in all of them.", "quantifier": "every finite history of World calls (register, set_layout, create, extend, destroy, create_atomic, maintain, insert, remove, delete, clear, reset, writes through views), with any arguments; every layout", "why_tests_cant": "The invariant must survive every insert, remove, destroy, clear and relayout.", "anchors": ["src/component/group.rs: group, ungroup, group_components, ungroup_components", "README.md: Grouped Storages"]}
{"id": "C24", "title": "query_all yields exactly the matching entities, once each", "statement": "Iterating query_all::<G>().include::<I>().exclude::<E>() yields exactly one item for each living entity that has all required components of G and I and none of the components of E, carrying that entity's component values (and None for missing optional ones).", "quantifier": "every finite history of World calls (register, set_layout, create, extend, destroy, create_atomic, maintain, insert, remove, delete, clear, reset, writes through views), with any arguments; every layout; every G, I, E with at least one required component", "why_tests_cant": "All states, all query shapes, all groupings.", "anchors": ["src/query/query_all.rs: iter, get_group_range", "src/query/iter/sparse_iter.rs: next", "src/query/iter/dense_iter.rs: next", "src/component/component_storage.rs: group_range"]}
{"id": "C25", "title": "Groups never change query results", "statement": "Two worlds with the same history but different group layouts give the same set of items for every query; grouping is only an optimisation.", "quantifier": "every finite history of World calls (register, set_layout, create, extend, destroy, create_atomic, maintain, insert, remove, delete, clear, reset, writes through views), with any arguments; all pairs of layouts; all queries", "why_tests_cant": "All states and layouts.", "anchors": ["src/component/component_storage.rs: include_group_range, exclude_group_range", "src/query/query_all.rs: get_group_range"]}
{"id": "C26", "title": "Declared groups iterate densely", "statement": "After building a world with a layout to which the group (A, B, ...) was added, a query over exactly these component types is dense (Iter::is_dense) and sliceable, whatever other groups were added and in whatever order.", "quantifier": "every sequence of add_group calls accepted by GroupLayout", "why_tests_cant": "All group sets and orders.", "anchors": ["src/component/group_layout.rs: add_group_dyn, try_add_group", "src/component/component_storage.rs: set_layout, include_group_range"]}
{"id": "C27", "title": "slice returns exactly the matching components, aligned", "statement": "If query_all(..).slice() returns Some, the slices contain exactly the components of the entities that iter() visits, in the same order, and all slices of the tuple are aligned to each other.", "quantifier": "every finite history of World calls (register, set_layout, create, extend, destroy, create_atomic, maintain, insert, remove, delete, clear, reset, writes through views), with any arguments; every query", "why_tests_cant": "All states.", "anchors": ["src/query/query_all.rs: slice", "src/query/query_part.rs: slice_raw"]}
{"id": "C28", "title": "query_one agrees with query_all", "statement": "query_one(..).get(e) returns Some(item) exactly when e is alive and iterating the same query_all yields an item for e, with the same item; query_one(..).contains(e) is true exactly when get(e) is Some.", "quantifier": "every finite history of World calls (register, set_layout, create, extend, destroy, create_atomic, maintain, insert, remove, delete, clear, reset, writes through views), with any arguments; every query and entity", "why_tests_cant": "All states.", "anchors": ["src/query/query_one.rs: contains, get, map", "src/query/mod.rs: contains_all, contains_none, get"]}
{"id": "C29", "title": "All ways of driving a query visit the same items", "statement": "Repeated next(), fold, for_each and the parallel iterator visit the same items (the parallel one up to order); size_hint and len of a dense iterator equal the number of remaining items at every point; after None the iterator keeps returning None.", "quantifier": "every finite history of World calls (register, set_layout, create, extend, destroy, create_atomic, maintain, insert, remove, delete, clear, reset, writes through views), with any arguments; every query; every partial consumption; every way rayon splits the work", "why_tests_cant": "All split trees and consumption points.", "anchors": ["src/query/iter/*", "src/query/par_iter/*"]}
{"id": "C30", "title": "Mutable items never alias", "statement": "A query either panics when it is created or hands out mutable references such that no component is referenced mutably by two live items or views.", "quantifier": "every query and every combination of live views and queries", "why_tests_cant": "Combination of dynamic borrow flags and data structure uniqueness.", "anchors": ["src/component/component_storage.rs: borrow, borrow_mut", "src/query/mod.rs: borrow", "src/component/view.rs"]}
{"id": "C31", "title": "Safe calls never reach undefined behaviour", "statement": "No sequence of safe calls makes an unchecked access out of bounds, unwraps a missing slot unchecked or reads a component slot that is not initialised.", "quantifier": "every finite history of World calls (register, set_layout, create, extend, destroy, create_atomic, maintain, insert, remove, delete, clear, reset, writes through views), with any arguments; queries and slices in between", "why_tests_cant": "UB freedom is a property of all executions.", "anchors": ["src/component/component_sparse_set.rs", "src/component/group.rs", "src/entity/sparse_vec.rs: get_unchecked_mut", "src/query/iter/dense_iter.rs", "src/query/query_part.rs: slice_raw"]}
{"id": "C32", "title": "Group layouts accept every nested family in any order", "statement": "GroupLayout::add_group succeeds for every set of groups of which any two are disjoint or nested (within the documented limits), independent of the order of the calls, and afterwards the layout has exactly the added groups.", "quantifier": "every finite sequence of add_group calls", "why_tests_cant": "Exponentially many orders and group sets.", "anchors": ["src/component/group_layout.rs: add_group_dyn, try_add_group"]}
{"id": "C33", "title": "Layouts are always well formed", "statement": "Any layout built by successful add_group calls consists of pairwise disjoint families, each with duplicate free components and strictly increasing arities between 2 and 16, the last one covering the whole family; bad groups are rejected by a panic, never silently misinterpreted.", "quantifier": "every finite sequence of add_group calls", "why_tests_cant": "All sequences.", "anchors": ["src/component/group_layout.rs: add_group_dyn, try_add_group, GroupFamily"]}
{"id": "C34", "title": "Documented group limits are usable", "statement": "A layout with groups of up to MAX_GROUP_ARITY = 16 component types and up to MAX_GROUP_COUNT = 64 groups can be set on a world without panicking.", "quantifier": "every layout within the limits", "why_tests_cant": "Boundary of a 2-dimensional limit over all layouts.", "anchors": ["src/component/group_layout.rs: MAX_GROUP_ARITY, MAX_GROUP_COUNT", "src/component/group_mask.rs: from_to, skip_from_to", "src/component/storage_mask.rs: from_to, single"]}
{"id": "C35", "title": "Entity and Version order", "statement": "The order on Entity is a total order consistent with equality, and a recycled entity is greater than every entity with the same index handed out before it. Version::next is strictly increasing and None only at the last version.", "quantifier": "all entities and versions", "why_tests_cant": "2^64 entities.", "anchors": ["src/entity/mod.rs: Ord for Entity, Version::next"]}
{"id": "C36", "title": "Component values are neither lost nor duplicated", "statement": "Every component value moved into a world is at any time in exactly one place: stored for one (entity, type), returned to the caller, or dropped once; dropping the world drops exactly the stored ones.", "quantifier": "every finite history of World calls (register, set_layout, create, extend, destroy, create_atomic, maintain, insert, remove, delete, clear, reset, writes through views), with any arguments; storage growth included", "why_tests_cant": "Double drops and leaks depend on the exact history of moves.", "anchors": ["src/component/component_sparse_set.rs: insert, remove, delete, grow_typed, clear_typed, drop_typed"]}
{"id": "C37", "title": "A panicking component destructor cannot corrupt the world", "statement": "If dropping a component panics during delete, destroy or clear and the panic is caught, no component is dropped twice and every remaining component still reads correctly.", "quantifier": "every storage state, every destructor call that may panic", "why_tests_cant": "Crash points inside library loops.", "anchors": ["src/component/component_sparse_set.rs: delete, clear_typed, drop_typed"]}
{"id": "C38", "title": "An interrupted extend keeps the world usable", "statement": "If the iterator given to extend panics after n items, the first n entities exist with their components, no other entity changed, and all documented behaviour including grouped queries holds afterwards.", "quantifier": "every world state, every item list, every crash point n", "why_tests_cant": "Crash points.", "anchors": ["src/component/component_set.rs: extend"]}
{"id": "C39", "title": "Dense indexes fit in 32 bits", "statement": "Storing dense positions as u32 never truncates: lookups find the right position however many entities exist.", "quantifier": "every finite history of World calls (register, set_layout, create, extend, destroy, create_atomic, maintain, insert, remove, delete, clear, reset, writes through views), with any arguments, up to 2^32 living entities", "why_tests_cant": "Needs 2^32 entities to test.", "anchors": ["src/component/component_sparse_set.rs: insert (self.len as u32)", "src/entity/entity_sparse_set.rs: insert (as u32)"]}
{"id": "C40", "title": "Sparse growth covers the index and keeps old slots", "statement": "Making room for an entity index always yields a slot for it, without arithmetic underflow, and keeps every earlier mapping.", "quantifier": "all 32-bit indexes and all prior contents", "why_tests_cant": "2^32 indexes.", "anchors": ["src/entity/sparse_vec.rs: get_mut_or_allocate_at, extend_to_index"]}
{"id": "C41", "title": "Group masks denote index ranges and iterate in order", "statement": "The group masks built for a layout contain exactly the groups they should, and iterating a mask visits each member once in increasing (or reversed, decreasing) order.", "quantifier": "all 64-bit masks, all bounds", "why_tests_cant": "2^64 masks.", "anchors": ["src/component/group_mask.rs: from_to, skip_from_to, BitIndexIter"]}
{"id": "C42", "title": "The world behaves like a map", "statement": "Every history of calls gives the same answers as a plain map from (type, entity) to value together with a set of living entities, in which calls have their documented effect.", "quantifier": "every finite history of World calls (register, set_layout, create, extend, destroy, create_atomic, maintain, insert, remove, delete, clear, reset, writes through views), with any arguments", "why_tests_cant": "Refinement over all histories.", "anchors": ["src/world/mod.rs"]}
{"id": "C43", "title": "WorldBuilder builds the described world", "statement": "A world built by WorldBuilder has no entities, exactly the types of the layout and the registered types, and the same group layout, whatever the order and repetition of builder calls.", "quantifier": "every sequence of builder calls", "why_tests_cant": "All call sequences.", "anchors": ["src/world/builder.rs: build, register_dyn, add_group_dyn, set_layout"]}
{"id": "C44", "title": "A panicking destructor of a replaced component cannot corrupt the world", "statement": "If the destructor of a component replaced by insert, create, extend or a write panics and the panic is caught, nothing is lost or dropped twice, the new value is stored, all other components read as before, and all documented behaviour including grouped queries holds afterwards.", "quantifier": "every world state, every argument list, every destructor call that may panic", "why_tests_cant": "Crash points inside library loops.", "anchors": ["src/component/component_set.rs: insert, extend", "src/component/component_sparse_set.rs: insert"]}
{"id": "C45", "title": "Views are consistent", "statement": "All accessors of a view agree: entities() and as_slice() are aligned and of length len(), is_empty() says whether they are empty, contains(e) is true exactly when get(e) is Some, and view[e] gives the same component or panics when there is none; writing through index_mut changes exactly that component. Borrowing panics exactly for unregistered types.", "quantifier": "every finite history of World calls (register, set_layout, create, extend, destroy, create_atomic, maintain, insert, remove, delete, clear, reset, writes through views), with any arguments; every type and every entity value", "why_tests_cant": "Agreement of redundant tables for all states.", "anchors": ["src/component/view.rs: View, ViewMut, Index, IndexMut", "src/component/component_sparse_set.rs: get, contains, len, is_empty, as_slice, entities"]}
{"id": "C46", "title": "World shortcuts equal the queries they stand for", "statement": "World::contains::<G>(e) is true exactly when e has all required components of G, and equals contains and get(..).is_some() of query_one; map applies the function to the item of get; World::for_each visits the items of query_all.", "quantifier": "every finite history of World calls (register, set_layout, create, extend, destroy, create_atomic, maintain, insert, remove, delete, clear, reset, writes through views), with any arguments; every query and entity value", "why_tests_cant": "All states and queries.", "anchors": ["src/world/mod.rs: contains, for_each, query_one", "src/query/query_one.rs: contains, get, map", "src/query/query_all.rs: for_each"]}
{"id": "C47", "title": "Iteration visits no more entities than the smallest set", "statement": "The number of positions a query iteration visits is at most the number of components of each required type, and a dense iteration visits exactly the items it yields.", "quantifier": "every finite history of World calls (register, set_layout, create, extend, destroy, create_atomic, maintain, insert, remove, delete, clear, reset, writes through views), with any arguments; every query", "why_tests_cant": "Cost bound over all states and queries.", "anchors": ["src/query/query_all.rs: iter", "src/query/mod.rs: get_with_min_entities", "src/query/iter/*"]}
{"id": "C48", "title": "A SparseVec is a versioned map", "statement": "The public type SparseVec behaves like a map from indexes to a version and a position under any sequence of its safe functions: get and contains answer for the version given, the sparse variants for any version, remove and remove_sparse empty exactly that index, get_mut_or_allocate_at gives the slot of the index, and no call reads out of bounds.", "quantifier": "every finite sequence of calls of the safe functions with any arguments", "why_tests_cant": "All sequences, all indexes.", "anchors": ["src/entity/sparse_vec.rs: get, contains, remove, get_sparse, contains_sparse, remove_sparse, get_mut_or_allocate_at, clear"]}
{"id": "C49", "title": "Calls panic exactly when documented", "statement": "A call on a world panics exactly if it names an unregistered component type, or no entity is left to hand out, or a position is outside of the slice, or the layout is at the maxima, or an iterator given by the caller panics; no assertion or checked access inside of the library fails otherwise. A refused remove, delete, create_atomic or write changes nothing. Exactly as many entities can be handed out as destroyed indexes wait plus indexes were never used.", "quantifier": "every finite history of World calls (register, set_layout, create, extend, destroy, create_atomic, maintain, insert, remove, delete, clear, reset, writes through views), with any arguments; every call", "why_tests_cant": "Absence of internal panics over all states; the supply of 2^32 entities cannot be exhausted in a test.", "anchors": ["src/world/mod.rs: create, extend, insert, remove, delete, destroy, maintain, clear, set_layout", "src/component/component_storage.rs: panic_missing_comp", "src/entity/entity_storage.rs: create", "src/component/component_set.rs: insert, extend, remove, delete"]}
{"id": "C50", "title": "A type outside of all groups is a plain map", "statement": "A component type that is in no group behaves like a map from entities to components, whatever happens to other types, grouped ones included: after any history that keeps the discipline of maintain and in which no layout groups the type, the registered types and living entities are those of the map, a view of the type finds exactly the components of the map, its slices list each owner once next to its component, and every call answers as the map does as far as the type is concerned.", "quantifier": "every finite history of calls with any arguments, panics caught, in which no set_layout groups the type or panics, no write by position hits the type, and maintain is not called after destroying an entity made since the previous maintain", "why_tests_cant": "Isolation from the state of all other sets and groups, over all histories.", "anchors": ["src/component/component_storage.rs: insert, remove, strip, set_layout, register", "src/component/component_set.rs: insert, extend, remove, delete", "src/component/group.rs: group, ungroup, ungroup_all"]}
{"id": "C51", "title": "Exchanges of different versions are exactly what loses components", "statement": "Starting from a world in which every component is found, a call leaves every component findable if and only if all the exchanges of positions it makes for grouping or ungrouping are between entities of the same version.", "quantifier": "every finite history of World calls (register, set_layout, create, extend, destroy, create_atomic, maintain, insert, remove, delete, clear, reset, writes through views), with any arguments; every call that groups or ungroups", "why_tests_cant": "An equivalence over all states: the loss depends on the versions of entities that the call does not name.", "anchors": ["src/component/group.rs: group, ungroup, ungroup_all", "src/component/component_storage.rs: insert, remove, strip, set_layout", "src/component/component_sparse_set.rs: swap"]}
{"id": "C52", "title": "Interrupted calls leave exactly the entities outside of groups that they completed", "statement": "A query over the types of a group yields exactly the entities that have all of them, except those for which an interrupted create, insert or extend completed the group, as long as no later insert that names a type of the group family returned, the entity did not lose a component of the group, and no layout was set. Setting a layout repairs every group.", "quantifier": "every finite history of calls with any arguments, calls interrupted by unregistered types, panicking iterators or destructors anywhere", "why_tests_cant": "Depends on the order of all earlier calls and on which of them were interrupted.", "anchors": ["src/component/component_storage.rs: insert, extend, set_layout", "src/component/component_set.rs: insert, extend", "src/component/group.rs: group", "src/query/query_all.rs: iter"]}
{"id": "C53", "title": "Which queries use groups, and what any query yields, follows from the calls", "statement": "A query is iterated by position over groups, and can be sliced, exactly if it requires one component type and excludes none, or requires exactly the types of a group and excludes nothing or exactly the types that the next larger group adds. The entities any query yields are determined by the calls.", "quantifier": "every finite history of World calls (register, set_layout, create, extend, destroy, create_atomic, maintain, insert, remove, delete, clear, reset, writes through views), with any arguments; every query", "why_tests_cant": "An equivalence over all layouts, queries and histories.", "anchors": ["src/component/component_storage.rs: group_range, include_group_range, exclude_group_range", "src/component/group_info.rs: add_view, add_query", "src/component/group.rs: include_mask, exclude_mask", "src/query/query_all.rs: iter, slice, get_group_range"]}
{"id": "C54", "title": "The order of include and exclude does not matter", "statement": "Any type-correct sequence of include and exclude calls after query_all or query_one panics exactly if include followed by exclude of the resulting filters does, and otherwise gives the same query and holds the same borrows, whatever views and queries are alive.", "quantifier": "every finite history of World calls (register, set_layout, create, extend, destroy, create_atomic, maintain, insert, remove, delete, clear, reset, writes through views), with any arguments; every set of views and queries alive; every type-correct sequence of filter calls", "why_tests_cant": "All interleavings, all conflicts of borrows.", "anchors": ["src/query/query_all.rs: new, include, exclude", "src/query/query_one.rs: new, include, exclude", "src/world/mod.rs: query_one, query_all"]}
{"id": "C55", "title": "Writes by position are writes to the entities shown", "statement": "A history with writes to positions of component slices, or through mutable items and slices of queries, leads to the same world and the same answers as the history in which each of these is replaced by the write to the entity that entities() shows at the position. A write by position succeeds exactly if an entity is shown there.", "quantifier": "every finite history of World calls (register, set_layout, create, extend, destroy, create_atomic, maintain, insert, remove, delete, clear, reset, writes through views), with any arguments; writes by position anywhere in between", "why_tests_cant": "Positions depend on all earlier calls; the claim is about arbitrary interleavings.", "anchors": ["src/component/view.rs: entities, as_mut_slice, get_mut", "src/component/component_sparse_set.rs: swap, remove, insert"]}
{"id": "C56", "title": "Mix-ups of grouping stay within single component types", "statement": "Whatever happens to the types it shares groups with, a component type behaves like a map from entities to components as long as the positions exchanged in its own set belong to entities of the same version; for that it is enough that all entities having the type always have the same version. After any such history that keeps the discipline of maintain, the registered types and living entities are those of the map, a view of the type finds exactly the components of the map, its slices list each owner once next to its component, and every call answers as the map does as far as the type is concerned.", "quantifier": "every finite history of calls with any arguments, panics caught, in which no set_layout panics or lists the type twice, no write by position hits the type, and maintain is not called after destroying an entity made since the previous maintain", "why_tests_cant": "Isolation from corrupted sets of the same group, over all histories.", "anchors": ["src/component/group.rs: group, ungroup, ungroup_all", "src/component/component_sparse_set.rs: swap", "src/component/component_storage.rs: insert, remove, strip, set_layout", "src/component/component_set.rs: insert, extend, remove, delete"]}
{"id": "C57", "title": "Queries over types that are not mixed up are right", "statement": "After a history in which exchanges in the sets of all types a query mentions were between entities of the same version, or the entities having each of them always had the same version, the query reads single entities exactly as the map does; and if it requires something, but not exactly the types of a group, its iteration yields exactly the matching entities, each once, with their components, whatever happened to the types that the query does not mention, even if they are in the same groups.", "quantifier": "every finite history of calls with any arguments, panics caught, that keeps the discipline of maintain, the layout set last (if any) below the documented maxima; every query", "why_tests_cant": "Isolation from corrupted sets of the same group, over all histories and queries.", "anchors": ["src/query/query_all.rs: new, iter, get_group_range", "src/query/query_one.rs: new, get, contains", "src/query/iter/sparse_iter.rs: next, fold", "src/component/component_sparse_set.rs: swap"]}
{"id": "C58", "title": "Component types that are never grouped together do not influence each other", "statement": "If no group of any layout has types both inside and outside of a set of component types, then entities, registered types, the sets of these types (down to positions), the answers of all calls and the results of all queries over these types are what they would be if the calls had been made without the other types. So two histories that differ only in what they do to the other types cannot be told apart on these types, and a mix-up of grouping in one family of groups is not seen in another one: calls about the types of the other one never run into undefined behaviour because of it.", "quantifier": "every finite history of calls with any arguments, panics caught; every set of component types that no group of a layout splits; every query over these types", "why_tests_cant": "Non-interference: a statement about pairs of arbitrary histories.", "anchors": ["src/component/group.rs: group, ungroup, ungroup_all", "src/component/component_storage.rs: insert, remove, delete, strip, set_layout, register, group_range", "src/component/component_set.rs: insert, extend, remove, delete", "src/query/query_all.rs: new, iter, slice", "src/query/query_one.rs: new"]}
{"id": "C59", "title": "The order of the types in a tuple does not matter", "statement": "create, insert and extend with the values of a tuple of different, registered component types in another order do exactly the same: same answer, same world, undefined behaviour in the same cases. For extend the types need not be registered. remove and delete do the same for any types in any order, and remove gives each value at the place of its type.", "quantifier": "every finite history of World calls (register, set_layout, create, extend, destroy, create_atomic, maintain, insert, remove, delete, clear, reset, writes through views), with any arguments; every tuple and every reordering of it", "why_tests_cant": "A statement about pairs of calls in every world, down to positions in the sets.", "anchors": ["src/component/component_set.rs: insert, extend, remove, delete", "src/world/mod.rs: create, insert, extend, remove, delete"]}
{"id": "C60", "title": "Queries visit entities in the order of their sets", "statement": "A query that does not use a group looks at the entities of the shortest of the sets it requires, of the first of them (getters before filters) if there are several, in the order of this set, and yields those that match in this order. A query that uses a group yields a range of the entities at the same places of all sets it requires, in order.", "quantifier": "every finite history of World calls (register, set_layout, create, extend, destroy, create_atomic, maintain, insert, remove, delete, clear, reset, writes through views), with any arguments; every query", "why_tests_cant": "Which set is the shortest, and its order, depend on all earlier calls.", "anchors": ["src/query/query_all.rs: iter, par_iter", "src/query/mod.rs: split_sparse_parts, split_filter_parts, split_dense_parts", "src/query/iter/sparse_iter.rs: next, fold", "src/query/iter/dense_iter.rs: next, fold"]}
{"id": "C61", "title": "A world has one component set per registered type", "statement": "The number of component sets a world keeps is the number of registered component types: register adds a set for a new type, set_layout keeps the sets (it only moves them), and no other call adds or removes any.", "quantifier": "every finite history of World calls (register, set_layout, create, extend, destroy, create_atomic, maintain, insert, remove, delete, clear, reset, writes through views), with any arguments", "why_tests_cant": "The number of sets is not visible to users; only memory use and the time of destroy and clear depend on it.", "anchors": ["src/component/component_storage.rs: set_layout, extract_sparse_sets, register_dyn, strip, clear"]}
{"id": "C62", "title": "Calls that are made of other calls", "statement": "create with components is create without components followed by insert into the entity returned. delete is remove without the values. destroy does to the components and groups exactly what delete of all registered types does. Calls with an empty tuple change nothing.", "quantifier": "every finite history of World calls (register, set_layout, create, extend, destroy, create_atomic, maintain, insert, remove, delete, clear, reset, writes through views), with any arguments; all arguments", "why_tests_cant": "Equality of calls in every reachable world, down to positions in the sets and group lengths.", "anchors": ["src/world/mod.rs: create, insert, remove, delete, destroy", "src/component/component_set.rs: insert, remove, delete", "src/component/component_storage.rs: strip", "src/component/component_sparse_set.rs: remove, delete", "src/component/group.rs: ungroup, ungroup_all"]}
{"id": "C63", "title": "What a query yields depends on its sets of types only", "statement": "Two queries that require the same component types, as getters or as filters, in any order and any number of times, and exclude the same types, yield the same entities; if both are iterated with a group, in the same order. Whether a group is used depends on the sets of required and excluded types only, except that a query requiring a single type once needs no group.", "quantifier": "every finite history of World calls (register, set_layout, create, extend, destroy, create_atomic, maintain, insert, remove, delete, clear, reset, writes through views), with any arguments; every pair of queries", "why_tests_cant": "A statement about pairs of arbitrary queries on every reachable world; which branch of iter is taken may differ.", "anchors": ["src/query/query_all.rs: new, iter, include, exclude, get_group_range, slice", "src/query/mod.rs: new, QueryGroupInfo", "src/query/iter/sparse_iter.rs: fold", "src/query/iter/dense_iter.rs: fold"]}
{"id": "C64", "title": "The order of iteration of the hash map is not visible", "statement": "set_layout goes through a hash map of the component sets, in an order that depends on the hash function, the capacity of the map and the addresses behind type ids, and appends the sets that are in no group in this order. This order is never visible: for the same calls with any other orders, all answers and panics are the same, undefined behaviour occurs in the same cases, and entities, registered types, views (down to positions), iterations, slices and single lookups of all queries are the same.", "quantifier": "every finite history of calls with any arguments, panics caught; every order of iteration in every set_layout; every query", "why_tests_cant": "One build of a test program sees one order only.", "anchors": ["src/component/component_storage.rs: set_layout, extract_sparse_sets, destroy, strip, clear", "src/world/mod.rs: set_layout, new", "src/query/query_all.rs: new, iter, slice", "src/query/query_one.rs: new, get, contains"]}
{"id": "C65", "title": "Rows of a view stay together", "statement": "A view lists rows: an entity and its component, no two rows for the same index. Whatever happened before, grouping only reorders rows. create, insert and extend replace or add the rows of the entities they name, in order, up to the first unregistered type; remove takes away at most the row whose value it returns, and delete and destroy at most the row of the index given; a write replaces one value; clear and reset leave no rows; a completed set_layout keeps all rows (except for a type that the layout lists twice). So every row was put by some call for this type and entity, with that value or one written later, and calls leave the rows of types they do not name.", "quantifier": "every finite history of World calls (register, set_layout, create, extend, destroy, create_atomic, maintain, insert, remove, delete, clear, reset, writes through views), with any arguments; every component type; no discipline assumed", "why_tests_cant": "Holds also in worlds in which groups mixed up slot versions, which tests do not reach.", "anchors": ["src/component/component_sparse_set.rs: insert, remove, delete, swap, clear", "src/component/group.rs: group, ungroup, ungroup_all", "src/component/component_storage.rs: insert, extend, remove, delete, strip, set_layout, register_dyn, clear", "src/component/component_set.rs: insert, extend, remove, delete", "src/component/view.rs: entities, as_slice, get_mut, as_mut_slice"]}
{"id": "C66", "title": "Using a query never panics", "statement": "Once a query over all entities has been created, iterating it by next, fold or in parallel and slicing it never panic. An iteration reads out of bounds exactly if it uses a group whose range is not empty and ends behind the end of one of the sets it takes entities or components from; the same for all ways of iterating. Slicing reads out of bounds exactly if the range is longer than one of the required sets or, for entities, ends behind the end of the first set.", "quantifier": "every finite history of World calls (register, set_layout, create, extend, destroy, create_atomic, maintain, insert, remove, delete, clear, reset, writes through views), with any arguments; every query; no discipline assumed", "why_tests_cant": "Includes worlds in which group lengths are wrong, where tests would read memory out of bounds.", "anchors": ["src/query/query_all.rs: iter, par_iter, slice", "src/query/query_part.rs: slice_raw, get_dense_raw, get_sparse_raw", "src/query/iter/dense_iter.rs: next, fold", "src/query/iter/sparse_iter.rs: next, fold", "src/component/component_storage.rs: group_range"]}
{"id": "C67", "title": "A call on one entity moves few rows of a view", "statement": "create, insert, remove, delete and destroy change only few positions of the view of a component type, however many rows it has: one for a row added or written, two for a row removed (the gap is filled by the last row), and further ones for the exchanges of rows made for groups, one exchange for each group with the type that the call visits (only if such a group contains a type named in the call). So a view changes at most at 16 positions, whatever happened before. A view whose type is not named and shares no group with the types named does not change at all. extend and set_layout change at most that many positions for every entity created, or alive.", "quantifier": "every finite history of World calls (register, set_layout, create, extend, destroy, create_atomic, maintain, insert, remove, delete, clear, reset, writes through views), with any arguments; every component type; every call except clear and reset", "why_tests_cant": "A bound on all views of any length; tests compare the resulting order of small sets, or not at all.", "anchors": ["src/component/component_sparse_set.rs: insert, remove, delete, swap", "src/component/group.rs: group, ungroup, ungroup_all", "src/component/component_set.rs: insert, extend, remove, delete", "src/component/component_storage.rs: strip", "src/component/group_mask.rs"]}
{"id": "C68", "title": "Grouping leaves the labels in place", "statement": "Looking up an entity in a view gives the row of its index if the version asked for is the one kept for this row, its label. Whatever happened before: a new row gets the version of its entity as its label; putting a component again keeps the label; grouping and set_layout exchange rows and leave the labels where they are; a removal that finds its row gives the row that fills the gap the version of its entity as its label; a write changes neither. So every lookup, removal and write is determined by the rows and labels. All rows of a view are found exactly if every label is the version of the entity of its row; a call that only regroups a view that finds all its rows leaves it so exactly if the versions, in the order of the view, stay the same, in particular if they are all equal.", "quantifier": "every finite history of World calls (register, set_layout, create, extend, destroy, create_atomic, maintain, insert, remove, delete, clear, reset, writes through views), with any arguments; every component type and call; no discipline assumed", "why_tests_cant": "Describes exactly when components are lost by regrouping (and found again), which depends on versions of recycled entities and the order of rows.", "anchors": ["src/component/component_sparse_set.rs: insert, remove, delete, swap, get, get_mut, clear", "src/entity/sparse_vec.rs: get, remove, swap_nonoverlapping, get_mut_or_allocate_at", "src/component/group.rs: group, ungroup, ungroup_all", "src/component/component_storage.rs: insert, extend, remove, delete, strip, set_layout, register_dyn, clear", "src/component/component_set.rs: insert, extend, remove, delete", "src/component/view.rs: get, get_mut"]}
{"id": "C69", "title": "The memory of a component set grows geometrically", "statement": "The block of memory of a component set is determined by the largest number of components that it ever had: none as long as it had none, else the first of the capacities 4, 8, 16, … that is enough. Blocks of all smaller capacities have been allocated, in this order, and freed again; clear and removals never give memory back. So with at most n components a set allocates at most log2(n) blocks (one for n up to 4), moves less than 2n components by growing in all, and has room for less than 2n components (or 4).", "quantifier": "every finite sequence of calls on a component set, panicking calls included; every component size and alignment", "why_tests_cant": "Capacities and allocations are not visible to callers; the bound is for any number of components.", "anchors": ["src/component/component_sparse_set.rs: insert, grow, grow_typed, compute_layout, remove, delete, clear"]}
{"id": "C70", "title": "A world follows the map as long as all rows of its views are found", "statement": "Take a history in which maintain is not called with an entity destroyed that was created since the last maintain, layouts are well formed and below the maxima, and nothing is written by position. All views show exactly the components of a plain map from types and entities to components after every call, if and only if after every call each entity listed in a view is found in this view with its component. The world then has the entities and types of the map and every call answers as the map does. The same holds for a single view, whatever happens to other views, if components of its type are removed only from living entities or without exchanging rows of entities of different versions; without this condition a call with a dead entity can take the component of a living one.", "quantifier": "every finite history of World calls (register, set_layout, create, extend, destroy, create_atomic, maintain, insert, remove, delete, clear, reset, writes through views), with any arguments; every component type", "why_tests_cant": "Exact condition over whole histories: one lost row is enough, and exchanges within a call may mix up rows and put them right again.", "anchors": ["src/world/mod.rs: all calls", "src/component/component_sparse_set.rs: insert, remove, delete, swap, get", "src/component/group.rs: group, ungroup, ungroup_all, get_group_status", "src/component/component_storage.rs: insert, extend, remove, delete, strip, set_layout", "src/component/component_set.rs: insert, extend, remove, delete", "src/component/view.rs: get, entities, as_slice"]}
{"id": "C71", "title": "Undefined behaviour begins with a row left behind", "statement": "A call of remove, delete or destroy leaves a row behind if some view finds the entity before, and afterwards some view has a row of the entity's index but does not find the entity. As long as no call did so since the sets were last sorted or emptied (set_layout, clear, reset), the sets of a group agree on the indexes of their common beginning, no call is undefined behaviour, whatever entities it names, and queries are built, iterated in all ways, sliced and asked for single entities without undefined behaviour; a query over a group reads rows of one index at each position. A completed set_layout, clear or reset makes the world safe again, whatever happened before.", "quantifier": "every finite history of World calls (register, set_layout, create, extend, destroy, create_atomic, maintain, insert, remove, delete, clear, reset, writes through views), with any arguments; layouts below the documented maxima; every query; living, dead and recycled entities", "why_tests_cant": "Gives a visible event that precedes every out of bounds access, over all histories; tests of unsafe behaviour see single cases.", "anchors": ["src/component/group.rs: group, ungroup, ungroup_all", "src/component/component_storage.rs: insert, extend, remove, delete, strip, set_layout, register_dyn, clear, group_range", "src/component/component_set.rs: insert, extend, remove, delete", "src/world/mod.rs: create, extend, destroy, insert, remove, delete, set_layout, clear, reset", "src/query/query_all.rs: iter, par_iter, slice", "src/component/view.rs: get, entities"]}
{"id": "C72", "title": "Index tables stay small", "statement": "Whatever the calls were, the table from indexes to rows of the entities and those of all component sets are empty or one slot longer than a power of two up to 2^32. No component set has a longer table than the entities of the world, and no table has more than twice as many slots as entities were handed out since the last reset, or more than 2n slots if these all have indexes below n. So components never need a table that outgrows that of the entities, and recycling indexes costs no memory.", "quantifier": "every finite history of World calls (register, set_layout, create, extend, destroy, create_atomic, maintain, insert, remove, delete, clear, reset, writes through views), with any arguments; panicking calls, dead and recycled entities included", "why_tests_cant": "The lengths are not visible to callers; the bounds hold together for tables that grow in different calls and are emptied by clear and reset.", "anchors": ["src/entity/sparse_vec.rs: get_mut_or_allocate_at, extend_to_index, clear", "src/entity/entity_sparse_set.rs: insert, clear", "src/component/component_sparse_set.rs: insert, clear", "src/entity/entity_allocator.rs: allocate, allocate_atomic, maintain, recycle", "src/world/mod.rs: create, extend, insert, create_atomic, maintain, clear, reset"]}
{"id": "C73", "title": "The entities of a world after any calls", "statement": "Whatever the calls were, with or without discipline, the entities behave as follows. There is a list of entities, each found under one version, a queue of destroyed indexes with their next versions, and a list of what the next maintain puts. create and extend take the entity whose index waits longest, else the next unused index, and put it into the list; create_atomic takes it only. What is put replaces the entry of its index, which is then still found under the old version, or is added at the end. Destroying an entity that is found moves the last entry into its place, finds that one under its own version from then on, and lets the index wait unless the versions are used up. maintain puts everything taken since the last maintain, the recycled ones first and latest first, also if destroyed in between. clear empties the list and forgets what is to be put; reset starts afresh. entities() is this list in this order, contains_entity finds what is found, and create, extend, create_atomic, destroy and insert answer accordingly; they panic exactly if no entity is left, a type is not registered, or the iterator given panics.", "quantifier": "every finite history of World calls (register, set_layout, create, extend, destroy, create_atomic, maintain, insert, remove, delete, clear, reset, writes through views), with any arguments; no discipline assumed; panicking calls included", "why_tests_cant": "Exact behaviour over all histories, including those in which maintain revives destroyed entities; tests sample the ordinary ones.", "anchors": ["src/entity/entity_storage.rs: create, create_atomic, maintain, contains, remove, clear, reset, as_slice", "src/entity/entity_sparse_set.rs: insert, remove, contains, clear", "src/entity/entity_allocator.rs: allocate, allocate_atomic, maintain, recycle, reset", "src/world/mod.rs: create, extend, destroy, insert, create_atomic, maintain, clear, reset, entities, contains_entity"]}
{"id": "C74", "title": "What queries show follows from the rows and labels of views", "statement": "Whatever the calls were before: an iteration that does not use a group goes through the entities of the shortest view of a required or included type (the first of several), in the order of its rows, and shows for each of them the components in the rows of the same index, of whatever version, unless a required or included component is missing or an excluded one is there. A query of one entity finds components by the labels of the views, so that it needs the right version. An iteration over a group shows at each position of its range the components at this position of the views of the required types, optional components by index, and as the entity the one in the view of the first required type (if the items require none, of the shortest included view). A slice shows the entities of its range, and components from the first one on, as many as the range has positions.", "quantifier": "every finite history of World calls (register, set_layout, create, extend, destroy, create_atomic, maintain, insert, remove, delete, clear, reset, writes through views), with any arguments; every query; no discipline assumed, dead entities, mixed up rows and interrupted calls included", "why_tests_cant": "Together with the laws for rows and labels this determines all results of queries, also in worlds in which views disagree with each other; tests look at ordinary worlds.", "anchors": ["src/query/query_all.rs: iter, slice, get_group_range", "src/query/query_one.rs: get, contains", "src/query/iter/sparse_iter.rs: next, fold", "src/query/iter/dense_iter.rs: next, fold", "src/query/query_part.rs: get_sparse_key, get_sparse_key_raw, get_sparse_raw, get_dense_raw, contains, contains_raw, slice_raw", "src/query/mod.rs: split_sparse_parts, split_filter_parts, split_dense_parts"]}
{"id": "C75", "title": "What a panicking destructor costs at most", "statement": "Let destructors of components panic, and the panics be caught. In any sequence of calls, everything given to the world is returned, dropped or stored exactly once, with two exceptions. An interrupted delete or destroy may keep the component whose destructor panicked, though dropped, and lose one other component for it, never more than one. An interrupted clear or reset loses nothing, but keeps stored the components that it dropped last, ending with the one whose destructor panicked, and at least that one. No other call, interrupted or not, loses a component or keeps a dropped one; and without an interrupted call there are no exceptions.", "quantifier": "every choice of panicking destructors; every finite sequence of calls from an empty world, going on after panics", "why_tests_cant": "Destructors that panic are rarely tested, and double drops and leaks are not visible in results; the bound is on whole sequences of interrupted calls.", "anchors": ["src/component/component_sparse_set.rs: insert, delete, clear_typed", "src/component/component_storage.rs: delete, strip, clear", "src/component/component_set.rs: insert, extend, delete", "src/world/mod.rs: create, extend, insert, delete, destroy, clear, reset"]}
{"id": "C76", "title": "Interrupted calls leave a map behind", "statement": "Let destructors of components panic, and the panics be caught, but not in destroy, clear or reset. Then no sequence of calls leads to undefined behaviour, and the answers and all reads are those of a map on which interrupted calls act as follows. An interrupted insert, create or extend has stored its components in order up to and including the one that replaced the one whose destructor panicked; a write has stored its value; an insert for an entity that is not alive has stored nothing. An interrupted delete has removed the components of the types before and of the type of the one whose destructor panicked, which it dropped in order, and no others; one other entity with a component of this type may now have the dropped one in its place. Nothing else changes, and later calls, interrupted or not, go on from there. Queries yield what this map says, except that with a group entities outside of it are missing: an interrupted delete leaves its entity outside of every group with one of the types to be deleted, even if it keeps all components of the group, and interrupted inserts, creates and extends leave theirs outside of groups that they complete.", "quantifier": "every choice of panicking destructors; every finite sequence of calls that keeps clear of the other defects", "why_tests_cant": "Destructors that panic are rarely tested, and never again and again in one sequence of calls.", "anchors": ["src/component/component_sparse_set.rs: insert, delete", "src/component/component_set.rs: insert, extend, delete", "src/component/group.rs: ungroup", "src/world/mod.rs: create, extend, insert, delete", "src/query/query_all.rs: iter"]}
{"id": "C77", "title": "What a set_layout that panics leaves behind", "statement": "Whatever the calls were before, set_layout panics exactly if a family of the layout has more than 15 types or the layout more than 63 groups. The families are then placed one after the other up to the first with which there are too many groups, of which nothing is placed, or the first with too many types, of which the groups of at most 15 types are. The entities stay. Exactly the types placed are registered afterwards. The view of a type placed once is as before, and empty if the type was not registered. That of a type placed twice, in two families, is empty. The components of all types not placed are dropped, and no others.", "quantifier": "every finite history of World calls (register, set_layout, create, extend, destroy, create_atomic, maintain, insert, remove, delete, clear, reset, writes through views), with any arguments; every layout that can be built, overlapping families included", "why_tests_cant": "Layouts at the maxima are rarely tested, and what is left after the panic depends on where among families and groups it happens.", "anchors": ["src/component/component_storage.rs: set_layout, extract_sparse_sets", "src/component/group_mask.rs: from_to, skip_from_to, include, exclude", "src/component/storage_mask.rs: from_to, single", "src/world/mod.rs: set_layout", "src/component/group_layout.rs: add_group"]}
{"id": "C78", "title": "Debug output shows what lookups find", "statement": "After any calls, the Debug output of the sparse table of the entities, and of that of every component set, consists of exactly the entities that the table finds, each with its position, by increasing index, and each position of the set occurs once, beside the index of the entity there. The Debug output of the set of entities lists the entities of the world, and that of the component set of a registered type the entities of its view. That of the view lists its entities with their components, no index twice. An entity and a component are listed by the view exactly if the lookup of this entity gives this component, if and only if the lookup of every entity of the view gives its component. The entity printed by the table is not always the one at this position of the set.", "quantifier": "every finite history of World calls (register, set_layout, create, extend, destroy, create_atomic, maintain, insert, remove, delete, clear, reset, writes through views), with any arguments", "why_tests_cant": "Debug output is hardly ever tested, and the truncation of indexes to 32 bits in it not at all.", "anchors": ["src/entity/sparse_vec.rs: Debug for SparseVec", "src/entity/entity_sparse_set.rs: Debug for EntitySparseSet", "src/component/component_sparse_set.rs: Debug", "src/component/view.rs: Debug"]}
{"id": "C79", "title": "Calls with nothing to do change nothing", "statement": "Whatever the calls were before, the following calls change nothing at all, not even the internal state: register of a type just registered and destroy of an entity just destroyed, which answer false; insert into an entity just destroyed, which answers false; a second maintain, clear or reset; maintain after clear or reset; clear after reset; destroy and insert after clear or reset, which answer false. After clear, reset and a destroy that answered true, remove, delete and writes (for the entity destroyed) find nothing and change nothing either, unless they are undefined behaviour; if they name an unregistered type they panic. And the following calls make no difference to anything later: maintain, insert, remove, delete, writes and clear directly before clear, whether they panic or not, and all calls but register and set_layout directly before reset. create, create_atomic and destroy before clear and register before reset do make a difference.", "quantifier": "every finite history of World calls (register, set_layout, create, extend, destroy, create_atomic, maintain, insert, remove, delete, clear, reset, writes through views), with any arguments", "why_tests_cant": "The state inside, which decides about later calls, cannot be seen by tests, and equality of all later behaviour cannot be tested.", "anchors": ["src/world/mod.rs: register, destroy, insert, maintain, clear, reset", "src/entity/entity_allocator.rs: maintain, reset", "src/entity/entity_storage.rs: remove, clear, reset", "src/component/component_storage.rs: register, clear"]}
{"id": "C80", "title": "create_atomic interferes with nothing", "statement": "create_atomic changes nothing that can be read: entities, views, and queries give the same before and after it. And between calls that neither make nor destroy entities (register, set_layout, insert, remove, delete, writes), it does not matter when it is called. Two sequences of the same such calls in the same order, with equally many calls of create_atomic anywhere between them, lead to the same world, with the same answers and panics, the calls of create_atomic returning the same entities in order, or both to undefined behaviour. This does not hold for destroy.", "quantifier": "every world, reached by calls or not; every two such sequences of calls", "why_tests_cant": "All interleavings of all calls, and equality of the whole state inside.", "anchors": ["src/entity/entity_allocator.rs: allocate_atomic", "src/entity/entity_storage.rs: create_atomic", "src/world/mod.rs: create_atomic, register, set_layout, insert, remove, delete", "src/component/view.rs: get_mut, as_mut_slice"]}
{"id": "C81", "title": "The values of components are opaque", "statement": "Nothing that a world does depends on the values of components. Replace every value v by f v, for any function f, in a world and in all calls of a sequence. Then the same calls panic, undefined behaviour occurs in the same cases, the calls answer the same with f v in place of v, and the world at the end is the same with f v in place of v: the same entities, the same order in views and groups, the same registered types. Views, slices and queries on the world show the same entities at the same places in the same order, with f v in place of v. In particular equal values, and values mapped to the same value, are never confused with each other, and for worlds without destructors that panic, everything but the values can be found out with components of a type with one value.", "quantifier": "every world, reached by calls or not; every function between types of values; every finite sequence of calls; every query", "why_tests_cant": "Tests use particular values; independence of the values is a claim about all pairs of runs.", "anchors": ["src/component/component_sparse_set.rs: insert, remove, delete, get, get_mut, swap, clear", "src/component/component_set.rs: insert, extend, remove, delete", "src/component/group.rs: group, ungroup, ungroup_all", "src/component/component_storage.rs: set_layout, strip, clear", "src/world/mod.rs: create, extend, insert, remove, delete, destroy", "src/query/query_all.rs: iter, slice", "src/query/query_one.rs: get, contains"]}
{"id": "C82", "title": "The identifiers of types do not matter, but their order does", "statement": "Give the types of components other TypeIds, different ones for different types, in a world and in all calls of a sequence. If no layout is set in the sequence, or the new identifiers are in the same order as the old ones, then the answers, panics and undefined behaviour are the same, and the world at the end is the same with the other identifiers. Reads by views and queries with the other identifiers always give the same as before. If a layout is set and the order of the identifiers changes, this does not hold: after an entity came back from the dead by maintain, the same calls can lead to a world in which a query over a group yields an item that it does not yield with the identifiers in the other order.", "quantifier": "every world, reached by calls or not; every renaming of types; every finite sequence of calls; every query", "why_tests_cant": "TypeIds are chosen by the compiler; a test sees those of one build.", "anchors": ["src/component/group_layout.rs: add_group_dyn, try_add_group", "src/component/component_data.rs: Ord for ComponentData", "src/component/component_storage.rs: register, set_layout, extract_sparse_sets, borrow", "src/component/component_set.rs: insert, extend, remove, delete", "src/component/group.rs: get_group_status", "src/query/mod.rs: borrow_with_group_info"]}
