{
 "claims": [
  {
   "property": "C01",
   "status": "partial",
   "theorems": [
    "Sparsey.C01_false",
    "Sparsey.C01_partial"
   ],
   "note": "Full claim is false of the code (C01_false, witness history). Guard `Disciplined h`: no `maintain` after destroying an entity that was created since the last maintain/clear/reset."
  },
  {
   "property": "C02",
   "status": "partial",
   "theorems": [
    "Sparsey.C02_false",
    "Sparsey.C02_partial"
   ],
   "note": "Full claim is false of the code (C02_false, witness history). Guard `Disciplined h`: no `maintain` after destroying an entity that was created since the last maintain/clear/reset."
  },
  {
   "property": "C03",
   "status": "partial",
   "theorems": [
    "Sparsey.C03_false",
    "Sparsey.C03_partial",
    "Sparsey.C03_maintain",
    "Sparsey.C03_exact"
   ],
   "note": "Full claim is false of the code (C03_false, witness history). C03_exact: in any history, entities() is right after every call if and only if the guard holds at every call. Guard `Disciplined h`: no `maintain` after destroying an entity that was created since the last maintain/clear/reset."
  },
  {
   "property": "C04",
   "status": "partial",
   "theorems": [
    "Sparsey.C04_false",
    "Sparsey.C04_alive_partial",
    "Sparsey.C04_partial"
   ],
   "note": "Full claim is false of the code (C04_false, witness history). C04_alive_partial: liveness. Guard `Disciplined h`: no `maintain` after destroying an entity that was created since the last maintain/clear/reset. C04_partial: components. Guard `Fair` (Verif/Spec/Good.lean), a decidable condition on the calls: no `maintain` after destroying an entity made since the last maintain/clear/reset; layouts with proper disjoint families below the maxima; grouping and ungrouping never exchange two entities of different versions (implied by: entities sharing a component type of a group have the same version, fair_of_uniform). Calls may be interrupted anywhere. Each clause is needed because of a defect shown by a _false theorem."
  },
  {
   "property": "C05",
   "status": "partial",
   "theorems": [
    "Sparsey.C05_false",
    "Sparsey.C05_component_false",
    "Sparsey.C05_alive_partial",
    "Sparsey.C05_partial"
   ],
   "note": "Full claim is false of the code (C05_false, witness history). C05_alive_partial: liveness. Guard `Disciplined h`: no `maintain` after destroying an entity that was created since the last maintain/clear/reset. C05_partial: components. Guard `Fair` (Verif/Spec/Good.lean), a decidable condition on the calls: no `maintain` after destroying an entity made since the last maintain/clear/reset; layouts with proper disjoint families below the maxima; grouping and ungrouping never exchange two entities of different versions (implied by: entities sharing a component type of a group have the same version, fair_of_uniform). Calls may be interrupted anywhere. Each clause is needed because of a defect shown by a _false theorem."
  },
  {
   "property": "C06",
   "status": "partial",
   "theorems": [
    "Sparsey.C06_false",
    "Sparsey.C06_serial",
    "Sparsey.C06_supply",
    "Sparsey.C06_partial",
    "Sparsey.C06_progress"
   ],
   "note": "Full claim is false of the code (C06_false, witness history). C06_serial (linearizable), C06_supply (the k-th call to return gets the k-th entity of the supply) and C06_progress hold in every allocator state, with stale relaxed loads and spurious failures. C06_partial: Guard `Disciplined h`: no `maintain` after destroying an entity that was created since the last maintain/clear/reset."
  },
  {
   "property": "C07",
   "status": "partial",
   "theorems": [
    "Sparsey.C07_false",
    "Sparsey.C07_partial"
   ],
   "note": "Full claim is false of the code (C07_false, witness history). Guard `Disciplined h`: no `maintain` after destroying an entity that was created since the last maintain/clear/reset."
  },
  {
   "property": "C08",
   "status": "partial",
   "theorems": [
    "Sparsey.C08_false",
    "Sparsey.C08_now",
    "Sparsey.C08_query",
    "Sparsey.C08_later_partial"
   ],
   "note": "Full claim is false of the code (C08_false, witness history). C08_now: nothing is alive or stored after clear, every reachable world, no guard. C08_query: every query yields nothing after clear or reset, no guard. C08_later_partial: Guard `Disciplined h`: no `maintain` after destroying an entity that was created since the last maintain/clear/reset."
  },
  {
   "property": "C09",
   "status": "proved",
   "theorems": [
    "Sparsey.C09",
    "Sparsey.C09_fresh",
    "Sparsey.C09_partial"
   ],
   "note": "C09: state after reset, for every world. C09_fresh: in every reachable world, reset leads to exactly the world that the register and set_layout calls of the history alone build, hence all later calls behave identically. C09_partial is an addition for newly built worlds with the same types and groups built in another order, for Good histories."
  },
  {
   "property": "C10",
   "status": "partial",
   "theorems": [
    "Sparsey.C10_false",
    "Sparsey.C10_increasing_false",
    "Sparsey.C10_range",
    "Sparsey.C10_exhausted_partial",
    "Sparsey.C10_partial"
   ],
   "note": "Full claim is false of the code (C10_false, witness history). C10_range: every history. C10_exhausted_partial: histories in which every extend returned one entity per item. C10_partial: Guard `Disciplined h`: no `maintain` after destroying an entity that was created since the last maintain/clear/reset. The exact behaviour in all histories, exhaustion included, is C73."
  },
  {
   "property": "C11",
   "status": "partial",
   "theorems": [
    "Sparsey.C11_false",
    "Sparsey.C11_full_partial",
    "Sparsey.C11_partial"
   ],
   "note": "Full claim is false of the code (C11_false, witness history). C11_full_partial: histories in which every extend returned one entity per item, no other guard. C11_partial: Guard `Disciplined h`: no `maintain` after destroying an entity that was created since the last maintain/clear/reset. The exact order in all histories is C73."
  },
  {
   "property": "C12",
   "status": "partial",
   "theorems": [
    "Sparsey.C12_false",
    "Sparsey.C12_partial"
   ],
   "note": "Full claim is false of the code (C12_false, witness history). Guard `Fair` (Verif/Spec/Good.lean), a decidable condition on the calls: no `maintain` after destroying an entity made since the last maintain/clear/reset; layouts with proper disjoint families below the maxima; grouping and ungrouping never exchange two entities of different versions (implied by: entities sharing a component type of a group have the same version, fair_of_uniform). Calls may be interrupted anywhere. Each clause is needed because of a defect shown by a _false theorem."
  },
  {
   "property": "C13",
   "status": "proved",
   "theorems": [
    "Sparsey.C13",
    "Sparsey.C13_life_partial"
   ],
   "note": "C13 holds in any world whatsoever; C13_life_partial relates it to entity life."
  },
  {
   "property": "C14",
   "status": "partial",
   "theorems": [
    "Sparsey.C14_false",
    "Sparsey.C14_partial"
   ],
   "note": "Full claim is false of the code (C14_false, witness history). Guard `Fair` (Verif/Spec/Good.lean), a decidable condition on the calls: no `maintain` after destroying an entity made since the last maintain/clear/reset; layouts with proper disjoint families below the maxima; grouping and ungrouping never exchange two entities of different versions (implied by: entities sharing a component type of a group have the same version, fair_of_uniform). Calls may be interrupted anywhere. Each clause is needed because of a defect shown by a _false theorem."
  },
  {
   "property": "C15",
   "status": "proved",
   "theorems": [
    "Sparsey.C15"
   ],
   "note": "delete and remove leave the same world, any world."
  },
  {
   "property": "C16",
   "status": "partial",
   "theorems": [
    "Sparsey.C16_false",
    "Sparsey.C16_partial"
   ],
   "note": "Full claim is false of the code (C16_false, witness history). Guard `Fair` (Verif/Spec/Good.lean), a decidable condition on the calls: no `maintain` after destroying an entity made since the last maintain/clear/reset; layouts with proper disjoint families below the maxima; grouping and ungrouping never exchange two entities of different versions (implied by: entities sharing a component type of a group have the same version, fair_of_uniform). Calls may be interrupted anywhere. Each clause is needed because of a defect shown by a _false theorem."
  },
  {
   "property": "C17",
   "status": "partial",
   "theorems": [
    "Sparsey.C17_false",
    "Sparsey.C17_short_false",
    "Sparsey.C17_partial"
   ],
   "note": "Full claim is false of the code (C17_false, witness history). Guard `Fair` (Verif/Spec/Good.lean), a decidable condition on the calls: no `maintain` after destroying an entity made since the last maintain/clear/reset; layouts with proper disjoint families below the maxima; grouping and ungrouping never exchange two entities of different versions (implied by: entities sharing a component type of a group have the same version, fair_of_uniform). Calls may be interrupted anywhere. Each clause is needed because of a defect shown by a _false theorem."
  },
  {
   "property": "C18",
   "status": "partial",
   "theorems": [
    "Sparsey.C18_false",
    "Sparsey.C18_register",
    "Sparsey.C18_partial",
    "Sparsey.C18_types",
    "Sparsey.C18_types_partial"
   ],
   "note": "Full claim is false of the code (C18_false, witness history). C18_register: every reachable world. C18_partial: any history in which no set_layout panics. C18_types: exactly the registered types, from the calls, in all reachable worlds (typesFrom, Verif/Spec/Types.lean); C18_types_partial says it in short for layouts below the maxima."
  },
  {
   "property": "C19",
   "status": "partial",
   "theorems": [
    "Sparsey.C19_false",
    "Sparsey.C19_noeffect",
    "Sparsey.C19_insert_partial",
    "Sparsey.C19_create_partial"
   ],
   "note": "Full claim is false of the code (C19_false, witness history). C19_noeffect: extend/remove/delete/borrow in every reachable world. insert and create: Guard `Fair` (Verif/Spec/Good.lean), a decidable condition on the calls: no `maintain` after destroying an entity made since the last maintain/clear/reset; layouts with proper disjoint families below the maxima; grouping and ungrouping never exchange two entities of different versions (implied by: entities sharing a component type of a group have the same version, fair_of_uniform). Calls may be interrupted anywhere. Each clause is needed because of a defect shown by a _false theorem."
  },
  {
   "property": "C20",
   "status": "partial",
   "theorems": [
    "Sparsey.C20_false",
    "Sparsey.C20_partial"
   ],
   "note": "Full claim is false of the code (C20_false, witness history). What holds without the guard is C45. Guard `Fair` (Verif/Spec/Good.lean), a decidable condition on the calls: no `maintain` after destroying an entity made since the last maintain/clear/reset; layouts with proper disjoint families below the maxima; grouping and ungrouping never exchange two entities of different versions (implied by: entities sharing a component type of a group have the same version, fair_of_uniform). Calls may be interrupted anywhere. Each clause is needed because of a defect shown by a _false theorem."
  },
  {
   "property": "C21",
   "status": "partial",
   "theorems": [
    "Sparsey.C21",
    "Sparsey.C21_one",
    "Sparsey.C21_once",
    "Sparsey.C21_items",
    "Sparsey.C21_query_false",
    "Sparsey.C21_query_partial",
    "Sparsey.C21_at_false",
    "Sparsey.C21_at_partial"
   ],
   "note": "C21, C21_one: views and query_one, every reachable world, no guard. C21_items, C21_once: a write through an item of query_all or a position of a slice changes at most one component, every reachable world. That it is the component of the entity shown there is false in general (C21_query_false, C21_at_false). C21_at_partial, C21_query_partial: Guard `Fair` (Verif/Spec/Good.lean), a decidable condition on the calls: no `maintain` after destroying an entity made since the last maintain/clear/reset; layouts with proper disjoint families below the maxima; grouping and ungrouping never exchange two entities of different versions (implied by: entities sharing a component type of a group have the same version, fair_of_uniform). Calls may be interrupted anywhere. Each clause is needed because of a defect shown by a _false theorem."
  },
  {
   "property": "C22",
   "status": "partial",
   "theorems": [
    "Sparsey.C22_false",
    "Sparsey.C22_silent_false",
    "Sparsey.C22_partial",
    "Sparsey.C22_exact",
    "Sparsey.C22_all"
   ],
   "note": "Full claim is false of the code (C22_false, witness history). Guard `Fair` (Verif/Spec/Good.lean), a decidable condition on the calls: no `maintain` after destroying an entity made since the last maintain/clear/reset; layouts with proper disjoint families below the maxima; grouping and ungrouping never exchange two entities of different versions (implied by: entities sharing a component type of a group have the same version, fair_of_uniform). Calls may be interrupted anywhere. Each clause is needed because of a defect shown by a _false theorem. C22_exact, C22_all: exactly which rows a set_layout keeps, panicking or not, in every reachable world, no guard; whether they are still found afterwards is C68."
  },
  {
   "property": "C23",
   "status": "partial",
   "theorems": [
    "Sparsey.C23_false",
    "Sparsey.C23_partial",
    "Sparsey.C23_all_partial"
   ],
   "note": "Full claim is false of the code (C23_false, witness history). C23_all_partial: exactly which entities a query over a group yields. Queries over groups also miss the entities that interrupted calls left outside of a group (hidden, Verif/Spec/Hidden.lean, C52); NoneLeftOut says that the query meets none. Guard `Fair` (Verif/Spec/Good.lean), a decidable condition on the calls: no `maintain` after destroying an entity made since the last maintain/clear/reset; layouts with proper disjoint families below the maxima; grouping and ungrouping never exchange two entities of different versions (implied by: entities sharing a component type of a group have the same version, fair_of_uniform). Calls may be interrupted anywhere. Each clause is needed because of a defect shown by a _false theorem."
  },
  {
   "property": "C24",
   "status": "partial",
   "theorems": [
    "Sparsey.C24_false",
    "Sparsey.C24_partial",
    "Sparsey.C24_all_partial",
    "Sparsey.C24_exact_partial"
   ],
   "note": "Full claim is false of the code (C24_false, witness history). Also: at most one excluded component per step of a nested group family, excluded parts are components. C24_all_partial: exactly what every query yields; C24_exact_partial: the claim holds for a query exactly if it is sparse or no entity has some but not all of the excluded components. Queries over groups also miss the entities that interrupted calls left outside of a group (hidden, Verif/Spec/Hidden.lean, C52); NoneLeftOut says that the query meets none. Guard `Fair` (Verif/Spec/Good.lean), a decidable condition on the calls: no `maintain` after destroying an entity made since the last maintain/clear/reset; layouts with proper disjoint families below the maxima; grouping and ungrouping never exchange two entities of different versions (implied by: entities sharing a component type of a group have the same version, fair_of_uniform). Calls may be interrupted anywhere. Each clause is needed because of a defect shown by a _false theorem."
  },
  {
   "property": "C25",
   "status": "partial",
   "theorems": [
    "Sparsey.C25_false",
    "Sparsey.C25_entity_false",
    "Sparsey.C25_partial",
    "Sparsey.C25_exact_partial",
    "Sparsey.C25_grouping_partial"
   ],
   "note": "Full claim is false of the code (C25_false, witness history). C25_partial: same guards as C24 in both worlds. C25_exact_partial: exactly when a query gives the same items, for all queries; C25_grouping_partial: the same in terms of groups and components, if no entity was left outside of its groups. Queries over groups also miss the entities that interrupted calls left outside of a group (hidden, Verif/Spec/Hidden.lean, C52); NoneLeftOut says that the query meets none. Guard `Fair` (Verif/Spec/Good.lean), a decidable condition on the calls: no `maintain` after destroying an entity made since the last maintain/clear/reset; layouts with proper disjoint families below the maxima; grouping and ungrouping never exchange two entities of different versions (implied by: entities sharing a component type of a group have the same version, fair_of_uniform). Calls may be interrupted anywhere. Each clause is needed because of a defect shown by a _false theorem."
  },
  {
   "property": "C26",
   "status": "partial",
   "theorems": [
    "Sparsey.C26_false",
    "Sparsey.C26_partial",
    "Sparsey.C26_declared_partial"
   ],
   "note": "Full claim is false of the code (C26_false, witness history). C26_partial: every group the layout has. C26_declared_partial: every group asked for, if the groups fit each other in the order of the calls. Iteration by position needs only that the layout set last is well formed and below the maxima (Settled, LayoutFits; Verif/Spec/Good.lean), slices need Fair. Guard `Fair` (Verif/Spec/Good.lean), a decidable condition on the calls: no `maintain` after destroying an entity made since the last maintain/clear/reset; layouts with proper disjoint families below the maxima; grouping and ungrouping never exchange two entities of different versions (implied by: entities sharing a component type of a group have the same version, fair_of_uniform). Calls may be interrupted anywhere. Each clause is needed because of a defect shown by a _false theorem."
  },
  {
   "property": "C27",
   "status": "partial",
   "theorems": [
    "Sparsey.C27_false",
    "Sparsey.C27_partial",
    "Sparsey.C27_all_partial",
    "Sparsey.C27_exact_partial"
   ],
   "note": "Full claim is false of the code (C27_false, witness history). Guard: nothing is excluded, or no entity has all the components. C27_all_partial: exactly what the slices contain. C27_exact_partial: they match the items exactly under this guard, or if there is no item or no component. Queries over groups also miss the entities that interrupted calls left outside of a group (hidden, Verif/Spec/Hidden.lean, C52); NoneLeftOut says that the query meets none. Guard `Fair` (Verif/Spec/Good.lean), a decidable condition on the calls: no `maintain` after destroying an entity made since the last maintain/clear/reset; layouts with proper disjoint families below the maxima; grouping and ungrouping never exchange two entities of different versions (implied by: entities sharing a component type of a group have the same version, fair_of_uniform). Calls may be interrupted anywhere. Each clause is needed because of a defect shown by a _false theorem."
  },
  {
   "property": "C28",
   "status": "partial",
   "theorems": [
    "Sparsey.C28_false",
    "Sparsey.C28_partial"
   ],
   "note": "Full claim is false of the code (C28_false, witness history). Guards of C24, and some component is required. Queries over groups also miss the entities that interrupted calls left outside of a group (hidden, Verif/Spec/Hidden.lean, C52); NoneLeftOut says that the query meets none. Guard `Fair` (Verif/Spec/Good.lean), a decidable condition on the calls: no `maintain` after destroying an entity made since the last maintain/clear/reset; layouts with proper disjoint families below the maxima; grouping and ungrouping never exchange two entities of different versions (implied by: entities sharing a component type of a group have the same version, fair_of_uniform). Calls may be interrupted anywhere. Each clause is needed because of a defect shown by a _false theorem."
  },
  {
   "property": "C29",
   "status": "proved",
   "theorems": [
    "Sparsey.C29",
    "Sparsey.C29_nexts",
    "Sparsey.C29_par",
    "Sparsey.C29_par_perm",
    "Sparsey.C29_query_partial"
   ],
   "note": "C29, C29_nexts, C29_par, C29_par_perm hold for every iterator, failures included. C29_query_partial: the iterators of queries do not fail, for Fair histories."
  },
  {
   "property": "C30",
   "status": "proved",
   "theorems": [
    "Sparsey.C30",
    "Sparsey.C30_new"
   ],
   "note": "Every reachable world, no guard: views, queries, iterators, items and slices alive at the same time."
  },
  {
   "property": "C31",
   "status": "partial",
   "theorems": [
    "Sparsey.C31_false",
    "Sparsey.C31_safe",
    "Sparsey.C31_ungrouped_partial",
    "Sparsey.C31_partial",
    "Sparsey.C31_layout_false",
    "Sparsey.C31_iter",
    "Sparsey.C31_query_false",
    "Sparsey.C31_query_safe",
    "Sparsey.C31_query_partial",
    "Sparsey.C71",
    "Sparsey.C71_query"
   ],
   "note": "Full claim is false of the code (C31_false, witness history). C31_safe: register, create_atomic, maintain, clear, reset, writes and reads through views in every reachable world. C31_ungrouped_partial: every history in which no layout has groups, no other guard. C31_layout_false: undefined behaviour after a set_layout that panicked. C31_iter: choosing the iterator of any query in every reachable world. C31_query_safe: building queries, query_one, and iteration without a group in every reachable world. C71, C71_query: every history, with or without groups, in which no call visibly leaves a row behind (weaker than Fair in what it asks of entities). C31_partial, C31_query_partial: Guard `Fair` (Verif/Spec/Good.lean), a decidable condition on the calls: no `maintain` after destroying an entity made since the last maintain/clear/reset; layouts with proper disjoint families below the maxima; grouping and ungrouping never exchange two entities of different versions (implied by: entities sharing a component type of a group have the same version, fair_of_uniform). Calls may be interrupted anywhere. Each clause is needed because of a defect shown by a _false theorem."
  },
  {
   "property": "C32",
   "status": "partial",
   "theorems": [
    "Sparsey.C32_false",
    "Sparsey.C32_laminar_false",
    "Sparsey.C32_partial",
    "Sparsey.C32_sorted_partial"
   ],
   "note": "Full claim is false of the code (C32_false, witness history). Guard: each group contains those added before that it meets, and these meet each other; e.g. chains with smaller groups added first."
  },
  {
   "property": "C33",
   "status": "partial",
   "theorems": [
    "Sparsey.C33_wellformed",
    "Sparsey.C33_arity",
    "Sparsey.C33_false",
    "Sparsey.C33_caught_false",
    "Sparsey.C33_partial"
   ],
   "note": "First part (well formed, group sizes: C33_arity) proved for all sequences without panics. 'Never silently misinterpreted' is false (C33_false); C33_partial says exactly when a group is added, and that every other one is rejected by a panic unless it meets a larger group."
  },
  {
   "property": "C34",
   "status": "partial",
   "theorems": [
    "Sparsey.C34_false",
    "Sparsey.C34_partial",
    "Sparsey.C34_set"
   ],
   "note": "False at the documented maxima 16 and 64 (C34_false); C34_partial: a well formed layout can be used iff groups have at most 15 types and there are at most 63."
  },
  {
   "property": "C35",
   "status": "proved",
   "theorems": [
    "Sparsey.C35",
    "Sparsey.C35_recycled"
   ],
   "note": "Order laws for all entities; recycled entities in histories."
  },
  {
   "property": "C38",
   "status": "partial",
   "theorems": [
    "Sparsey.C38_false",
    "Sparsey.C38_partial"
   ],
   "note": "Full claim is false of the code (C38_false, witness history). Guard `Fair` (Verif/Spec/Good.lean), a decidable condition on the calls: no `maintain` after destroying an entity made since the last maintain/clear/reset; layouts with proper disjoint families below the maxima; grouping and ungrouping never exchange two entities of different versions (implied by: entities sharing a component type of a group have the same version, fair_of_uniform). Calls may be interrupted anywhere. Each clause is needed because of a defect shown by a _false theorem."
  },
  {
   "property": "C39",
   "status": "proved",
   "theorems": [
    "Sparsey.C39"
   ],
   "note": "Every reachable world, no guard."
  },
  {
   "property": "C40",
   "status": "proved",
   "theorems": [
    "Sparsey.C40"
   ],
   "note": "All sparse vectors, all 32-bit indexes."
  },
  {
   "property": "C41",
   "status": "proved",
   "theorems": [
    "Sparsey.C41_masks",
    "Sparsey.C41_iter"
   ],
   "note": "All masks, all bounds."
  },
  {
   "property": "C42",
   "status": "partial",
   "theorems": [
    "Sparsey.C42_false",
    "Sparsey.C42_partial",
    "Sparsey.C42_ungrouped_partial"
   ],
   "note": "Full claim is false of the code (C42_false, witness history). Guard `Fair` (Verif/Spec/Good.lean), a decidable condition on the calls: no `maintain` after destroying an entity made since the last maintain/clear/reset; layouts with proper disjoint families below the maxima; grouping and ungrouping never exchange two entities of different versions (implied by: entities sharing a component type of a group have the same version, fair_of_uniform). Calls may be interrupted anywhere. Each clause is needed because of a defect shown by a _false theorem."
  },
  {
   "property": "C43",
   "status": "partial",
   "theorems": [
    "Sparsey.C43_false",
    "Sparsey.C43_build",
    "Sparsey.C43_partial"
   ],
   "note": "C43_build: the result equals set_layout and register calls on a new world, for all builder calls. build panics at the documented maxima (C43_false). C43_partial: proper layouts below the maxima."
  },
  {
   "property": "C36",
   "status": "partial",
   "theorems": [
    "Sparsey.C36_partial",
    "Sparsey.C36_once_partial",
    "Sparsey.C36_step_partial",
    "Sparsey.C36_all",
    "Sparsey.C36_raw",
    "Sparsey.C36_set",
    "Sparsey.C36_layout",
    "Sparsey.C36_grow_false"
   ],
   "note": "Every history up to undefined behaviour (C31_false), panicking calls included, no other guard. C36_raw, C36_set, C36_layout: the same in memory (one block, growth, moves, destructor calls, deallocation)."
  },
  {
   "property": "C44",
   "status": "partial",
   "theorems": [
    "Sparsey.C44_false",
    "Sparsey.C44_insert",
    "Sparsey.C44_create",
    "Sparsey.C44_extend",
    "Sparsey.C44_write",
    "Sparsey.C44_reach",
    "Sparsey.C44_partial"
   ],
   "note": "The destructor interrupts the call before the grouping step: a query over a group can miss the entity (C44_false). For all worlds: the damage is exactly that of an insertion interrupted by an unregistered type, the world is one ordinary calls lead to, the ledger is exact (C37_partial). C44_partial: reads and all later calls after Fair histories; queries too if no group is completed."
  },
  {
   "property": "C37",
   "status": "partial",
   "theorems": [
    "Sparsey.C37_false",
    "Sparsey.C37_clear_false",
    "Sparsey.C37_reset_false",
    "Sparsey.C37_destroy_false",
    "Sparsey.C37_group_false",
    "Sparsey.C37_partial",
    "Sparsey.C37_calm",
    "Sparsey.C37_unaffected",
    "Sparsey.C37_unaffected_run",
    "Sparsey.C37_drop",
    "Sparsey.C37_drop_false",
    "Sparsey.C37_delete_partial",
    "Sparsey.C37_destroy_partial"
   ],
   "note": "Full claim is false of the code (C37_false, witness history). Proved: the exact ledger of an interrupted call when the bomb is last in its set (C75: wherever it is); at most one foreign component reads wrongly after an interrupted delete or destroy in a Fair history."
  },
  {
   "property": "C45",
   "status": "proved",
   "theorems": [
    "Sparsey.C45",
    "Sparsey.C45_write"
   ],
   "note": "Every reachable world, no guard."
  },
  {
   "property": "C46",
   "status": "proved",
   "theorems": [
    "Sparsey.C46",
    "Sparsey.C46_forEach_partial"
   ],
   "note": "C46: every reachable world, no guard. World::for_each is the fold of the iterator of query_all by definition (C29); C46_forEach_partial says what it visits. Queries over groups also miss the entities that interrupted calls left outside of a group (hidden, Verif/Spec/Hidden.lean, C52); NoneLeftOut says that the query meets none. Guard `Fair` (Verif/Spec/Good.lean), a decidable condition on the calls: no `maintain` after destroying an entity made since the last maintain/clear/reset; layouts with proper disjoint families below the maxima; grouping and ungrouping never exchange two entities of different versions (implied by: entities sharing a component type of a group have the same version, fair_of_uniform). Calls may be interrupted anywhere. Each clause is needed because of a defect shown by a _false theorem."
  },
  {
   "property": "C47",
   "status": "partial",
   "theorems": [
    "Sparsey.C47_false",
    "Sparsey.C47_sparse",
    "Sparsey.C47_partial"
   ],
   "note": "Full claim is false of the code (C47_false, witness history). C47_sparse: sparse iterations in every reachable world. C47_partial: Guard `Fair` (Verif/Spec/Good.lean), a decidable condition on the calls: no `maintain` after destroying an entity made since the last maintain/clear/reset; layouts with proper disjoint families below the maxima; grouping and ungrouping never exchange two entities of different versions (implied by: entities sharing a component type of a group have the same version, fair_of_uniform). Calls may be interrupted anywhere. Each clause is needed because of a defect shown by a _false theorem."
  },
  {
   "property": "C49",
   "status": "proved",
   "theorems": [
    "Sparsey.C49",
    "Sparsey.C49_left"
   ],
   "note": "Every reachable world, no guard (the second part of C49_left, which computes the number of entities left from the history, asks that every extend returned one entity per item). Calls that lead to undefined behaviour (C31_false) do not panic in the model."
  },
  {
   "property": "C48",
   "status": "proved",
   "theorems": [
    "Sparsey.C48"
   ],
   "note": "All sequences of safe calls on a new SparseVec."
  },
  {
   "property": "C50",
   "status": "proved",
   "theorems": [
    "Sparsey.C50",
    "Sparsey.C50_answers"
   ],
   "note": "The hypotheses are those of the statement: NeverGrouped, and Disciplined for everything but the registered types. Not covered: whether a call on other types leads to undefined behaviour (C31_false)."
  },
  {
   "property": "C51",
   "status": "partial",
   "theorems": [
    "Sparsey.C51_partial",
    "Sparsey.C51_lost_partial",
    "Sparsey.C51_history_partial",
    "Sparsey.C51_layout_false",
    "Sparsey.C51_extend_false"
   ],
   "note": "C51_partial, C51_lost_partial: every call on one entity after a Fair history. C51_history_partial: whole histories in which only the first call may set a layout and none extends. Missing: set_layout and extend, for which the statement is false (exchanges of several entities can cancel: C51_layout_false, C51_extend_false); C68_exact and C68_put give the exact condition for these two calls."
  },
  {
   "property": "C52",
   "status": "partial",
   "theorems": [
    "Sparsey.C52_partial",
    "Sparsey.C52_repair_partial",
    "Sparsey.C52_good",
    "Sparsey.C52_false"
   ],
   "note": "C52_partial: exactly which entities the query over a group yields after interrupted calls. C52_repair_partial: setting a layout repairs every group. C52_good: without interrupted calls that complete a group nothing is left out. C52_false: entities are missing, and entities having an excluded component are yielded. Guard `Fair` (Verif/Spec/Good.lean), a decidable condition on the calls: no `maintain` after destroying an entity made since the last maintain/clear/reset; layouts with proper disjoint families below the maxima; grouping and ungrouping never exchange two entities of different versions (implied by: entities sharing a component type of a group have the same version, fair_of_uniform). Calls may be interrupted anywhere. Each clause is needed because of a defect shown by a _false theorem."
  },
  {
   "property": "C53",
   "status": "partial",
   "theorems": [
    "Sparsey.C53_partial",
    "Sparsey.C53_yields_partial"
   ],
   "note": "C53_partial: exactly which queries are iterated with groups; needs only that the layout set last is well formed and below the maxima (Settled). C53_yields_partial: exactly the entities every query yields, computed from the calls (Yields, Verif/Spec/Hidden.lean). Guard `Fair` (Verif/Spec/Good.lean), a decidable condition on the calls: no `maintain` after destroying an entity made since the last maintain/clear/reset; layouts with proper disjoint families below the maxima; grouping and ungrouping never exchange two entities of different versions (implied by: entities sharing a component type of a group have the same version, fair_of_uniform). Calls may be interrupted anywhere. Each clause is needed because of a defect shown by a _false theorem."
  },
  {
   "property": "C54",
   "status": "proved",
   "theorems": [
    "Sparsey.C54"
   ],
   "note": "Every reachable world, no guard; any type-correct sequence of include and exclude, whatever borrows are held."
  },
  {
   "property": "C55",
   "status": "partial",
   "theorems": [
    "Sparsey.C55_false",
    "Sparsey.C55_partial",
    "Sparsey.C55_map_partial"
   ],
   "note": "Full claim is false of the code (C55_false, witness history). The guard is on the history after the replacement. C55_map_partial: what the world then is. So all theorems for Fair histories apply to histories with writes by position. Guard `Fair` (Verif/Spec/Good.lean), a decidable condition on the calls: no `maintain` after destroying an entity made since the last maintain/clear/reset; layouts with proper disjoint families below the maxima; grouping and ungrouping never exchange two entities of different versions (implied by: entities sharing a component type of a group have the same version, fair_of_uniform). Calls may be interrupted anywhere. Each clause is needed because of a defect shown by a _false theorem."
  },
  {
   "property": "C56",
   "status": "proved",
   "theorems": [
    "Sparsey.C56",
    "Sparsey.C56_answers",
    "Sparsey.C56_uniform",
    "Sparsey.C56_uniform_answers"
   ],
   "note": "The hypotheses are those of the statement: EvenFor (exchanges in the set of the type) or UniformFor (versions in the map), and Disciplined. C50 is the case without exchanges. Not covered: whether a call on other types leads to undefined behaviour (C31_false)."
  },
  {
   "property": "C57",
   "status": "proved",
   "theorems": [
    "Sparsey.C57",
    "Sparsey.C57_one"
   ],
   "note": "The hypotheses are those of the statement: every type mentioned is Unmixed (EvenFor or UniformFor, as in C56), Disciplined, and for iteration Settled and no group with exactly the required types. Parts excluded with Option or Entity are treated by C57_one as the code does (finding 4) and ruled out by AllRequired in C57."
  },
  {
   "property": "C58",
   "status": "partial",
   "theorems": [
    "Sparsey.C58_partial",
    "Sparsey.C58_same_partial",
    "Sparsey.C58_reads_partial",
    "Sparsey.C58_yields_partial",
    "Sparsey.C58_answers_partial",
    "Sparsey.C58_calls_partial",
    "Sparsey.C58_safe_partial",
    "Sparsey.C58_query_partial",
    "Sparsey.C58_map"
   ],
   "note": "Guard LaysFor: besides not splitting the set of types, every layout of the history has families that share no types and stays below the maxima (findings 6 and 7). Missing: histories with other layouts, on which set_layout itself loses components or panics. No guard on versions, maintain, interrupted calls or writes by position is needed for C58_partial and C58_same_partial; C58_calls: further calls about these types only (no destroy, no set_layout) answer the same and run into undefined behaviour exactly if they do so without the other types. C58_reads, C58_yields, C58_answers, C58_safe and C58_query compare with the map and need Fair for what is left of the history only."
  },
  {
   "property": "C59",
   "status": "proved",
   "theorems": [
    "Sparsey.C59_insert",
    "Sparsey.C59_create",
    "Sparsey.C59_extend",
    "Sparsey.C59_delete",
    "Sparsey.C59_remove",
    "Sparsey.C59_repeated",
    "Sparsey.C59_unregistered"
   ],
   "note": "Every reachable world, no guard. C59_repeated, C59_unregistered: the conditions of the statement are needed."
  },
  {
   "property": "C60",
   "status": "partial",
   "theorems": [
    "Sparsey.C60_visits",
    "Sparsey.C60_order_partial"
   ],
   "note": "C60_visits: which entities an iteration without a group looks at, in every reachable world. C60_order_partial: what is yielded, in order. Guard `Fair` (Verif/Spec/Good.lean), a decidable condition on the calls: no `maintain` after destroying an entity made since the last maintain/clear/reset; layouts with proper disjoint families below the maxima; grouping and ungrouping never exchange two entities of different versions (implied by: entities sharing a component type of a group have the same version, fair_of_uniform). Calls may be interrupted anywhere. Each clause is needed because of a defect shown by a _false theorem."
  },
  {
   "property": "C61",
   "status": "partial",
   "theorems": [
    "Sparsey.C61_false",
    "Sparsey.C61_partial",
    "Sparsey.C61_count",
    "Sparsey.C61_layout",
    "Sparsey.C61_register",
    "Sparsey.C61_other"
   ],
   "note": "set_layout never removes the emptied sets (finding 15): C61_false, C61_layout say how many there are after it, for all histories. C61_partial: histories that set the layout at the beginning only. C61_count: the exact number of sets, from the calls, in all reachable worlds (setsFrom, Verif/Spec/Types.lean)."
  },
  {
   "property": "C62",
   "status": "partial",
   "theorems": [
    "Sparsey.C62_create_false",
    "Sparsey.C62_create_partial",
    "Sparsey.C62_delete",
    "Sparsey.C62_empty",
    "Sparsey.C62_destroy_partial"
   ],
   "note": "C62_delete and C62_empty: every world, no guard. create: false after a destroyed entity came back (finding 1, C62_create_false); guard Disciplined. destroy: guard Settled (the layout set last is well formed and below the maxima); the sets of all types, the groups and metadata are compared (destroy also goes through sets left over by set_layout, finding 15)."
  },
  {
   "property": "C63",
   "status": "partial",
   "theorems": [
    "Sparsey.C63_partial",
    "Sparsey.C63_grouped_partial"
   ],
   "note": "SameAsk: also every excluded part must be a component that is required (excluding Option or Entity, finding 4, differs between a type required once and twice). C63_grouped_partial: guard Settled only. C63_partial: Guard `Fair` (Verif/Spec/Good.lean), a decidable condition on the calls: no `maintain` after destroying an entity made since the last maintain/clear/reset; layouts with proper disjoint families below the maxima; grouping and ungrouping never exchange two entities of different versions (implied by: entities sharing a component type of a group have the same version, fair_of_uniform). Calls may be interrupted anywhere. Each clause is needed because of a defect shown by a _false theorem."
  },
  {
   "property": "C64",
   "status": "proved",
   "theorems": [
    "Sparsey.C64"
   ],
   "note": "Two runs of the same calls with arbitrary orders of iteration; no guard. Positions of sets in ComponentStorage::components (not visible to callers) are left out of the items compared; positions of components in their sets are not. A query while any views are held is included (seeAll, seeOne)."
  },
  {
   "property": "C65",
   "status": "proved",
   "theorems": [
    "Sparsey.C65",
    "Sparsey.C65_unique",
    "Sparsey.C65_source",
    "Sparsey.C65_frame"
   ],
   "note": "No guard. World.Turns (Verif/Spec/Rows.lean) says what each call makes of the rows of a view. A remove, delete or destroy that does not find a row although there is one (finding 9) is allowed by the statement: C51 says exactly when that happens."
  },
  {
   "property": "C66",
   "status": "proved",
   "theorems": [
    "Sparsey.C66",
    "Sparsey.C66_reads",
    "Sparsey.C66_ways",
    "Sparsey.C66_slice"
   ],
   "note": "No guard. World.rows is the list of rows of a view (C65). That the out-of-bounds cases do occur: C31_query_false; that they do not occur after Fair histories: C31_query_partial."
  },
  {
   "property": "C67",
   "status": "proved",
   "theorems": [
    "Sparsey.C67",
    "Sparsey.C67_single",
    "Sparsey.C67_apart"
   ],
   "note": "C67: exact allowance, counting the groups that hold the type and a type named in the call; guard Settled (layouts set so far are well formed and below the maxima), clear and reset left out as in the statement. C67_single: 16 positions for any call about one entity, every reachable world, no guard. C67_apart: no change at all for a type that shares no group with the types named."
  },
  {
   "property": "C68",
   "status": "proved",
   "theorems": [
    "Sparsey.C68",
    "Sparsey.C68_found",
    "Sparsey.C68_all",
    "Sparsey.C68_frame",
    "Sparsey.C68_exact",
    "Sparsey.C68_even",
    "Sparsey.C68_put"
   ],
   "note": "No guard. World.Relabels (Verif/Spec/Labels.lean) says what each call makes of the rows and labels of a view, in terms of lists only; where sets may be regrouped the order of the rows is left open (C67 bounds it)."
  },
  {
   "property": "C69",
   "status": "proved",
   "theorems": [
    "Sparsey.C69",
    "Sparsey.C69_cost"
   ],
   "note": "Every sequence of calls on one set in memory (RawSet), going on after panics, up to undefined behaviour; C36_raw: in every reachable world each set is backed by memory that such calls have brought about."
  },
  {
   "property": "C70",
   "status": "proved",
   "theorems": [
    "Sparsey.C70_all",
    "Sparsey.C70_all_exact",
    "Sparsey.C70_all_answers",
    "Sparsey.C70",
    "Sparsey.C70_exact",
    "Sparsey.C70_answers",
    "Sparsey.C70_handles_false"
   ],
   "note": "Guards as in the statement: AllFair (discipline of maintain, layouts, no writes by position) for all types together; Disciplined and HandledFor (decidable; Verif/Spec/Found.lean) for one type. C70_handles_false: the condition on handles is needed. Unlike C51 and C56 nothing is asked of the exchanges inside a call."
  },
  {
   "property": "C71",
   "status": "proved",
   "theorems": [
    "Sparsey.C71",
    "Sparsey.C71_cause",
    "Sparsey.C71_query",
    "Sparsey.C71_rows",
    "Sparsey.C71_repair",
    "Sparsey.C71_found",
    "Sparsey.C71_fair",
    "Sparsey.C71_run"
   ],
   "note": "Guards as in the statement: Settled (the last layout is well formed and below the maxima of C34) and Clean (Verif/Spec/Misplaced.lean, decidable). C71_fair, C71_found: Fair histories, and those of C70, are Clean."
  },
  {
   "property": "C72",
   "status": "proved",
   "theorems": [
    "Sparsey.C72_lengths",
    "Sparsey.C72_indexes",
    "Sparsey.C72_entities"
   ],
   "note": "No guards: all reachable worlds. The entities handed out are read off the answers of the calls (issued in Verif/Spec/Life.lean). Tables are modelled by their length; capacities that Vec keeps beyond it are not modelled."
  },
  {
   "property": "C73",
   "status": "proved",
   "theorems": [
    "Sparsey.C73",
    "Sparsey.C73_answers",
    "Sparsey.C73_exhausted"
   ],
   "note": "No guards: all reachable worlds. Roll (Verif/Spec/Roll.lean) is computed from the calls and answers; C73_answers gives the answers, with the registered types as the only information taken from the world."
  },
  {
   "property": "C74",
   "status": "proved",
   "theorems": [
    "Sparsey.C74",
    "Sparsey.C74_one",
    "Sparsey.C74_group",
    "Sparsey.C74_slice"
   ],
   "note": "No guards: all reachable worlds. C74_group and C74_slice: if the iteration or slice does not read out of bounds; exactly when it does is C66_reads and C66_slice. What rows and labels are after any calls is C65 and C68."
  },
  {
   "property": "C75",
   "status": "proved",
   "theorems": [
    "Sparsey.C75",
    "Sparsey.C75_run",
    "Sparsey.C75_clear",
    "Sparsey.C75_ub_false"
   ],
   "note": "No guards on the history: worlds left behind by earlier panics are included. Toll and Op.Limits are in Verif/Spec/BombLedger.lean. C75_clear: exactly what an interrupted clear or reset leaves, every reachable world. Sequences end where a call is undefined behaviour, which interrupted calls can lead to (C75_ub_false). That the exceptions do occur: C37_false, C37_clear_false."
  },
  {
   "property": "C76",
   "status": "partial",
   "theorems": [
    "Sparsey.C76_partial",
    "Sparsey.C76_delete_partial",
    "Sparsey.C76_hides"
   ],
   "note": "Guard `Fair` (Verif/Spec/Good.lean), a decidable condition on the calls: no `maintain` after destroying an entity made since the last maintain/clear/reset; layouts with proper disjoint families below the maxima; grouping and ungrouping never exchange two entities of different versions (implied by: entities sharing a component type of a group have the same version, fair_of_uniform). Calls may be interrupted anywhere. Each clause is needed because of a defect shown by a _false theorem.Torn, Instead, NextB and FairB are in Verif/Spec/Torn.lean. Every choice of bombs, every number of interrupted calls; interrupted destroy, clear and reset are excluded by the property (C37_destroy_false, C75_ub_false)."
  },
  {
   "property": "C77",
   "status": "proved",
   "theorems": [
    "Sparsey.C77"
   ],
   "note": "No guards: all reachable worlds, all layouts. placedTypes (Verif/Spec/LayoutPanic.lean) is computed from the families of the layout. Worlds after the panic can lead to undefined behaviour (finding 14, C31_layout_false)."
  },
  {
   "property": "C78",
   "status": "proved",
   "theorems": [
    "Sparsey.C78_tables",
    "Sparsey.C78_entities",
    "Sparsey.C78_sets",
    "Sparsey.C78_views",
    "Sparsey.C78_false"
   ],
   "note": "No guards: all reachable worlds. C78_entities holds by definition of the model. C78_views: FindsAll (Verif/Spec/Labels.lean) says that every row of the view is found under its entity. C78_false: the last sentence of the property. What the formatter of core does with the entries is not modelled."
  },
  {
   "property": "C79",
   "status": "proved",
   "theorems": [
    "Sparsey.C79_leaves",
    "Sparsey.C79_misses",
    "Sparsey.C79_wasted",
    "Sparsey.C79_others_false"
   ],
   "note": "No guards: all reachable worlds; equality of the whole modelled state. Op.leaves, Op.misses and Op.wasted (Verif/Spec/Again.lean) list the pairs of calls. C79_others_false: the last sentence of the property. Capacities of vectors, which clear keeps, are not part of the state (C69 has them)."
  },
  {
   "property": "C80",
   "status": "proved",
   "theorems": [
    "Sparsey.C80",
    "Sparsey.C80_reads",
    "Sparsey.C80_destroy_false"
   ],
   "note": "No guards, all worlds. Each call is one step here; interleavings inside create_atomic are C06. C80_reads: what iterators then yield depends on the iterator only. C80_destroy_false: the last sentence of the property."
  },
  {
   "property": "C81",
   "status": "proved",
   "theorems": [
    "Sparsey.C81_calls",
    "Sparsey.C81_reads",
    "Sparsey.C81_shape"
   ],
   "note": "No guards, all worlds. The functions of the model are generic in the type of values, as those of the code are in T: 'static, so that they have no means to look at a value; the theorems say what follows from this for whole sequences of calls. Destructors that panic are outside of this model (C75, C76). Zero-sized types, for which the code takes no memory, are values of a type with one value here."
  },
  {
   "property": "C82",
   "status": "proved",
   "theorems": [
    "Sparsey.C82_calls",
    "Sparsey.C82_reads",
    "Sparsey.C82_order_false"
   ],
   "note": "No guards but those of the property, all worlds. The iteration order of the hash map in set_layout, which depends on the identifiers, is a parameter of the call here and kept. C82_order_false: the last sentence of the property. Beyond the property: C82_fair_partial and C82_query_partial allow any order, for calls that keep clear of the defects under both namings (queries up to order, guards of C24); C82_uniform_partial needs no look at the second run."
  }
 ]
}