import Verif.Model.Par
import Verif.Proofs.QueryIter
import Verif.Properties.Components

/-!
Properties of queries: C24, C25, C27, C28, C29 and the query parts of C21 and C31. What a query has to give is stated
in `Verif/Spec/Query.lean`.

`QueryAll.new w b g i x = .ok (q, b')` says that `world.query_all::<g>().include::<i>().exclude::<x>()` does not panic,
where `b` are the borrows held before and `b'` those held then. It panics for unregistered types and for conflicting
borrows (`C30_new`).
-/

set_option autoImplicit false
set_option linter.unusedSimpArgs false

namespace Sparsey
variable {V : Type}

/-! ### C24 -/

theorem InvX.reads_shown {w : World V} {s : MapWorld V} {P : Entity → Nat → Prop} (h : InvX w s P) {g : Query} {vs : List (PartView V)}
    (hv : List.Forall₂ (IsView w.components) g vs) {es : List Entity} {its : List (Item V)} (hs : Reads vs es its) :
    its.map (fun it => some (Item.shown it)) = es.map fun e => shows s.table e g :=
  Faithful.reads_shown (h.faithfuls hv) hs

/-- C24: iterating `query_all::<g>().include::<i>().exclude::<x>()` yields one item for each living entity that has all
required components of `g` and `i` and none of `x`, showing its components. Missing: histories that are not `Fair`;
entities left out of the groups of the query by interrupted calls (`C52_false`); excluding two or more component types that together complete a group to a larger group (`C24_false`); excluded parts
other than `&T` and `&mut T` (`C25_entity_false`). -/
theorem C24_partial {h : History V} {w : World V} (hr : Reach World.empty h w) (hg : Fair (calls h)) {b b' : Borrows}
    {g i x : Query} {q : QueryAll V} (hq : QueryAll.new w b g i x = .ok (q, b'))
    (hne : required g ++ required i ≠ []) (hx : AllRequired x)
    (hs : SingleExclude (mapOf (calls h)).groups g i x)
    (hn : (mapOf (calls h)).NoneLeftOut (hidden (calls h)) g i x) :
    ∃ (es : List Entity) (its : List (Item V)), q.items = .ok its ∧ es.Nodup ∧
      (∀ e, e ∈ es ↔ (mapOf (calls h)).Matches g i x e) ∧
      its.map (fun it => some it.shown) = es.map fun e => shows (mapOf (calls h)).table e g := by
  have hi := reach_out hr hg
  have ho := QueryAll.new_ok hq
  obtain ⟨it, es, its, h1, h2, h3, h4, h5⟩ := hi.items_match ho hne hx hs hn
  refine ⟨es, its, ?_, h3, h5, hi.reads_shown ho.get h4⟩
  rw [QueryAll.items, h1]
  exact h2

/-- Checks a property of the items of a query. -/
def itemsAre (w : World V) (g i x : Query) (f : List (Item V) → Bool) : Bool :=
  match QueryAll.new w [] g i x with
  | .ok (q, _) => match q.items with
    | .ok its => f its
    | _ => false
  | _ => false

theorem itemsAre_iff {w : World V} {g i x : Query} {f : List (Item V) → Bool} (h : itemsAre w g i x f = true) :
    ∃ q b its, QueryAll.new w [] g i x = .ok (q, b) ∧ q.items = .ok its ∧ f its = true := by
  unfold itemsAre at h
  cases h1 : QueryAll.new w [] g i x with
  | ok p =>
    obtain ⟨q, b⟩ := p
    rw [h1] at h
    simp only at h
    cases h2 : q.items with
    | ok its =>
      rw [h2] at h
      exact ⟨q, b, its, rfl, h2, h⟩
    | panic => rw [h2] at h; cases h
    | ub => rw [h2] at h; cases h
  | panic => rw [h1] at h; cases h
  | ub => rw [h1] at h; cases h

/-- Two nested groups; `0v1` has all but one of the types of the larger one. -/
def nestedOps : List (Op Nat) :=
  [.setLayout anyOrder [[0, 1], [0, 1, 2, 3]], .create [(0, 10), (1, 11), (2, 12)], .create [(0, 20), (1, 21)]]

/-- C24 is false in general, even for `Good` histories: with the groups `(A, B)` and `(A, B, C, D)`, the query
`(Entity, &A, &B)` excluding `(&C, &D)` yields an entity that has a `C`. -/
theorem C24_false : ∃ (h : History Nat) (w : World Nat) (q : QueryAll Nat) (b : Borrows) (its : List (Item Nat))
    (e : Entity), Reach World.empty h w ∧ Good (calls h) ∧
    QueryAll.new w [] [.entity, .ref 0, .ref 1] [] [.ref 2, .ref 3] = .ok (q, b) ∧ q.items = .ok its ∧
    (∃ it ∈ its, ItemPart.entity e ∈ it) ∧ w.viewGet 2 e = .ok (some 12) := by
  obtain ⟨rs, w, hr, hf⟩ := reach_witness (ops := nestedOps) (f := fun rs (w : World Nat) =>
    decide (rs.length = 3) && (decide (w.viewGet 2 ⟨0, 1⟩ = .ok (some 12)) &&
    itemsAre w [.entity, .ref 0, .ref 1] [] [.ref 2, .ref 3] (fun its =>
      decide (∃ it ∈ its, ItemPart.entity ⟨0, 1⟩ ∈ it)))) (by decide +kernel)
  simp only [Bool.and_eq_true, decide_eq_true_eq] at hf
  obtain ⟨h0, h1, h2⟩ := hf
  obtain ⟨q, b, its, h3, h4, h5⟩ := itemsAre_iff h2
  have hc : calls (nestedOps.zip rs) = nestedOps := by
    unfold calls
    exact List.map_fst_zip (by simp [nestedOps, h0])
  exact ⟨_, w, q, b, its, _, hr, by rw [hc]; decide +kernel, h3, h4, of_decide_eq_true h5, h1⟩

instance (groups : List (List TypeId)) (g i x : Query) : Decidable (SingleExclude groups g i x) :=
  inferInstanceAs (Decidable (∀ a ∈ groups, _))

instance [DecidableEq V] (s : MapWorld V) (g i x : Query) (e : Entity) : Decidable (s.Matches g i x e) :=
  inferInstanceAs (Decidable (_ ∧ _))

/-- A `Good` history with nested groups and entities in every part of them. -/
def queryOps : List (Op Nat) :=
  [.setLayout anyOrder [[0, 1], [0, 1, 2]], .register 9, .create [(0, 10), (1, 11), (2, 12)], .create [(0, 20), (1, 21)],
    .create [(0, 30)], .create [(1, 41), (0, 40), (9, 49)], .create [(2, 52), (9, 59)], .insert ⟨2, 1⟩ [(2, 32), (1, 31)]]

/-- Sparse, dense by inclusion and dense by exclusion queries for which `C24_partial` applies. -/
example : Good queryOps ∧ hidden queryOps = [] ∧
    SingleExclude (mapOf queryOps).groups [.entity, .ref 0, .opt 9] [.ref 1] [.ref 2] ∧
    holdsAfter queryOps (fun _ w =>
      itemsAre w [.entity, .ref 0, .opt 9] [.ref 1] [.ref 2] (fun its => decide (its.map Item.shown =
        [[.entity ⟨3, 1⟩, .comp 40, .maybe (some 49)], [.entity ⟨1, 1⟩, .comp 20, .maybe none]])) &&
      itemsAre w [.refMut 2, .entity] [.ref 0] [.ref 9] (fun its => decide (its.map Item.shown =
        [[.comp 12, .entity ⟨0, 1⟩], [.comp 32, .entity ⟨2, 1⟩]])) &&
      itemsAre w [.ref 1, .ref 0] [.ref 2] [] (fun its => decide (its.map Item.shown =
        [[.comp 11, .comp 10], [.comp 31, .comp 30]]))) = true := by
  decide +kernel

/-! ### C25 -/

/-- The two series of calls differ only in the arguments of `set_layout`. -/
def SameButLayouts (a b : List (Op V)) : Prop :=
  List.Forall₂ (fun x y => x = y ∨ ∃ r gs r' gs', x = .setLayout r gs ∧ y = .setLayout r' gs') a b

/-- Every layout names only types that are registered. -/
def MapWorld.LayoutsKnown (s : MapWorld V) : List (Op V) → Prop
  | [] => True
  | op :: ops => (match op with
      | .setLayout _ gs => s.knows (layoutTypes (GroupLayout.build gs).2)
      | _ => True) ∧ (s.next op).LayoutsKnown ops

/-- The two maps agree but for the groups. -/
structure MapWorld.SameData (s s' : MapWorld V) : Prop where
  life : s.life = s'.life
  table : s.table = s'.table
  reg : ∀ t, t ∈ s.reg ↔ t ∈ s'.reg

theorem MapWorld.SameData.knows {s s' : MapWorld V} (h : s.SameData s') (ts : List TypeId) : s.knows ts ↔ s'.knows ts := by
  simp only [MapWorld.knows, h.reg]

theorem MapWorld.SameData.known {s s' : MapWorld V} (h : s.SameData s') (vs : List (TypeId × V)) : s.known vs = s'.known vs := by
  unfold MapWorld.known
  congr 1
  funext p
  rw [Bool.eq_iff_iff, decide_eq_true_iff, decide_eq_true_iff, h.reg]

theorem MapWorld.SameData.makes {s s' : MapWorld V} (h : s.SameData s') (ts : List TypeId) (it : Items V) :
    s.extendMakes ts it = s'.extendMakes ts it := by
  unfold MapWorld.extendMakes
  simp only [h.knows, h.life]

theorem MapWorld.SameData.step {s s' : MapWorld V} (h : s.SameData s') (op : Op V) :
    s.answer op = s'.answer op ∧ (s.next op).SameData (s'.next op) := by
  have ha : s.answer op = s'.answer op := by
    cases op <;> simp only [MapWorld.answer, h.life, h.table, h.knows, h.makes, h.reg]
  refine ⟨ha, ?_, ?_, ?_⟩
  · simp only [MapWorld.next, ha, h.life]
  · cases op <;> simp only [MapWorld.next, MapWorld.tableAfter, h.life, h.table, h.knows, h.known, h.makes]
  · intro t
    cases op <;> simp only [MapWorld.next, MapWorld.regAfter, h.reg, List.mem_cons, List.mem_append]

theorem MapWorld.SameData.run : ∀ {a b : List (Op V)} {s s' : MapWorld V}, s.SameData s' → SameButLayouts a b →
    s.LayoutsKnown a → s'.LayoutsKnown b → (s.run a).SameData (s'.run b)
  | _, _, _, _, h, .nil, _, _ => h
  | _, _, s, s', h, .cons (a := x) (b := y) hxy hr, ha, hb => by
    refine MapWorld.SameData.run (s := s.next x) (s' := s'.next y) ?_ hr ha.2 hb.2
    rcases hxy with rfl | ⟨r, gs, r', gs', rfl, rfl⟩
    · exact (h.step x).2
    · refine ⟨?_, h.table, fun t => ?_⟩
      · simp only [MapWorld.next, MapWorld.answer, events, h.life]
      · have h1 : s.knows _ := ha.1
        have h2 : s'.knows _ := hb.1
        simp only [MapWorld.next, MapWorld.regAfter, List.mem_append]
        constructor
        · rintro (h3 | h3)
          · exact .inr ((h.reg t).1 (h1 t h3))
          · exact .inr ((h.reg t).1 h3)
        · rintro (h3 | h3)
          · exact .inr ((h.reg t).2 (h2 t h3))
          · exact .inr ((h.reg t).2 h3)

/-- C25: two worlds with the same history but different group layouts give the same items for every query, up to
order. Missing: as for C24. The layouts have to be of registered types: `set_layout` registers the types of the
layout, which is visible in other ways too. -/
theorem C25_partial {h h' : History V} {w w' : World V} (hr : Reach World.empty h w) (hr' : Reach World.empty h' w')
    (hg : Fair (calls h)) (hg' : Fair (calls h')) (hsame : SameButLayouts (calls h) (calls h'))
    (hk : MapWorld.init.LayoutsKnown (calls h)) (hk' : MapWorld.init.LayoutsKnown (calls h'))
    {b b₁ b' b₁' : Borrows} {g i x : Query} {q q' : QueryAll V} (hq : QueryAll.new w b g i x = .ok (q, b₁))
    (hq' : QueryAll.new w' b' g i x = .ok (q', b₁')) (hne : required g ++ required i ≠ []) (hx : AllRequired x)
    (hs : SingleExclude (mapOf (calls h)).groups g i x) (hs' : SingleExclude (mapOf (calls h')).groups g i x)
    (hn : (mapOf (calls h)).NoneLeftOut (hidden (calls h)) g i x)
    (hn' : (mapOf (calls h')).NoneLeftOut (hidden (calls h')) g i x) :
    ∃ its its', q.items = .ok its ∧ q'.items = .ok its' ∧ (its.map Item.shown).Perm (its'.map Item.shown) := by
  obtain ⟨es, its, h1, h2, h3, h4⟩ := C24_partial hr hg hq hne hx hs hn
  obtain ⟨es', its', h1', h2', h3', h4'⟩ := C24_partial hr' hg' hq' hne hx hs' hn'
  have hal : (mapOf (calls h)).SameData (mapOf (calls h')) := MapWorld.SameData.run ⟨rfl, rfl, fun _ => Iff.rfl⟩ hsame hk hk'
  have hmem : ∀ e, e ∈ es ↔ e ∈ es' := by
    intro e
    rw [h3, h3']
    simp only [MapWorld.Matches, MapWorld.Has, hal.life, hal.table]
  have hp : es.Perm es' := (List.perm_ext_iff_of_nodup h2 h2').2 hmem
  refine ⟨its, its', h1, h1', ?_⟩
  have hp' : (its.map (fun it => some (Item.shown it))).Perm (its'.map fun it => some (Item.shown it)) := by
    rw [h4, h4', hal.table]
    exact hp.map _
  have := hp'.filterMap id
  simpa [List.filterMap_map, Function.comp_def] using this

/-- C25 is false in general: see `C24_false`; without the groups, the same query does not yield the entity. -/
theorem C25_false : ∃ (h h' : History Nat) (w w' : World Nat) (q q' : QueryAll Nat) (b b' : Borrows)
    (its its' : List (Item Nat)), Reach World.empty h w ∧ Reach World.empty h' w' ∧ Good (calls h) ∧ Good (calls h') ∧
    SameButLayouts (calls h) (calls h') ∧
    QueryAll.new w [] [.entity, .ref 0, .ref 1] [] [.ref 2, .ref 3] = .ok (q, b) ∧
    QueryAll.new w' [] [.entity, .ref 0, .ref 1] [] [.ref 2, .ref 3] = .ok (q', b') ∧
    q.items = .ok its ∧ q'.items = .ok its' ∧ its.length ≠ its'.length := by
  obtain ⟨rs, w, hr, hf⟩ := reach_witness
    (ops := ([.register 0, .register 1, .register 2, .register 3,
      .setLayout anyOrder [[0, 1], [0, 1, 2, 3]], .create [(0, 10), (1, 11), (2, 12)]] : List (Op Nat)))
    (f := fun rs (w : World Nat) => decide (rs.length = 6) &&
      itemsAre w [.entity, .ref 0, .ref 1] [] [.ref 2, .ref 3] (fun its => decide (its.length = 1))) (by decide +kernel)
  obtain ⟨rs', w', hr', hf'⟩ := reach_witness
    (ops := ([.register 0, .register 1, .register 2, .register 3,
      .setLayout anyOrder [[0, 1]], .create [(0, 10), (1, 11), (2, 12)]] : List (Op Nat)))
    (f := fun rs (w : World Nat) => decide (rs.length = 6) &&
      itemsAre w [.entity, .ref 0, .ref 1] [] [.ref 2, .ref 3] (fun its => decide (its.length = 0))) (by decide +kernel)
  simp only [Bool.and_eq_true, decide_eq_true_eq] at hf hf'
  obtain ⟨h0, h1⟩ := hf
  obtain ⟨h0', h1'⟩ := hf'
  obtain ⟨q, b, its, h2, h3, h4⟩ := itemsAre_iff h1
  obtain ⟨q', b', its', h2', h3', h4'⟩ := itemsAre_iff h1'
  have hc := List.map_fst_zip (l₁ := ([.register 0, .register 1, .register 2, .register 3,
      .setLayout anyOrder [[0, 1], [0, 1, 2, 3]], .create [(0, 10), (1, 11), (2, 12)]] : List (Op Nat)))
      (l₂ := rs) (by simp [h0])
  have hc' := List.map_fst_zip (l₁ := ([.register 0, .register 1, .register 2, .register 3,
      .setLayout anyOrder [[0, 1]], .create [(0, 10), (1, 11), (2, 12)]] : List (Op Nat)))
      (l₂ := rs') (by simp [h0'])
  refine ⟨_, _, w, w', q, q', b, b', its, its', hr, hr', ?_, ?_, ?_, h2, h2', h3, h3', ?_⟩
  · unfold calls
    rw [hc]
    decide +kernel
  · unfold calls
    rw [hc']
    decide +kernel
  · unfold calls SameButLayouts
    rw [hc, hc']
    exact .cons (.inl rfl) (.cons (.inl rfl) (.cons (.inl rfl) (.cons (.inl rfl) (.cons (.inr ⟨_, _, _, _, rfl, rfl⟩)
      (.cons (.inl rfl) .nil)))))
  · rw [of_decide_eq_true h4, of_decide_eq_true h4']
    decide

/-- C25 is false for `Entity` (or `Option`) among the excluded parts: the sparse iterator excludes every entity, the
dense one none. -/
theorem C25_entity_false : ∃ (h h' : History Nat) (w w' : World Nat) (q q' : QueryAll Nat) (b b' : Borrows)
    (its its' : List (Item Nat)), Reach World.empty h w ∧ Reach World.empty h' w' ∧ Good (calls h) ∧ Good (calls h') ∧
    SameButLayouts (calls h) (calls h') ∧
    QueryAll.new w [] [.ref 0, .ref 1] [] [.entity] = .ok (q, b) ∧
    QueryAll.new w' [] [.ref 0, .ref 1] [] [.entity] = .ok (q', b') ∧
    q.items = .ok its ∧ q'.items = .ok its' ∧ its.length ≠ its'.length := by
  obtain ⟨rs, w, hr, hf⟩ := reach_witness
    (ops := ([.register 0, .register 1, .setLayout anyOrder [[0, 1]], .create [(0, 10), (1, 11)]] : List (Op Nat)))
    (f := fun rs (w : World Nat) => decide (rs.length = 4) &&
      itemsAre w [.ref 0, .ref 1] [] [.entity] (fun its => decide (its.length = 1))) (by decide +kernel)
  obtain ⟨rs', w', hr', hf'⟩ := reach_witness
    (ops := ([.register 0, .register 1, .setLayout anyOrder [], .create [(0, 10), (1, 11)]] : List (Op Nat)))
    (f := fun rs (w : World Nat) => decide (rs.length = 4) &&
      itemsAre w [.ref 0, .ref 1] [] [.entity] (fun its => decide (its.length = 0))) (by decide +kernel)
  simp only [Bool.and_eq_true, decide_eq_true_eq] at hf hf'
  obtain ⟨h0, h1⟩ := hf
  obtain ⟨h0', h1'⟩ := hf'
  obtain ⟨q, b, its, h2, h3, h4⟩ := itemsAre_iff h1
  obtain ⟨q', b', its', h2', h3', h4'⟩ := itemsAre_iff h1'
  have hc := List.map_fst_zip (l₁ := ([.register 0, .register 1, .setLayout anyOrder [[0, 1]],
    .create [(0, 10), (1, 11)]] : List (Op Nat))) (l₂ := rs) (by simp [h0])
  have hc' := List.map_fst_zip (l₁ := ([.register 0, .register 1, .setLayout anyOrder [],
    .create [(0, 10), (1, 11)]] : List (Op Nat))) (l₂ := rs') (by simp [h0'])
  refine ⟨_, _, w, w', q, q', b, b', its, its', hr, hr', ?_, ?_, ?_, h2, h2', h3, h3', ?_⟩
  · unfold calls
    rw [hc]
    decide +kernel
  · unfold calls
    rw [hc']
    decide +kernel
  · unfold calls SameButLayouts
    rw [hc, hc']
    exact .cons (.inl rfl) (.cons (.inl rfl) (.cons (.inr ⟨_, _, _, _, rfl, rfl⟩) (.cons (.inl rfl) .nil)))
  · rw [of_decide_eq_true h4, of_decide_eq_true h4']
    decide

instance decLayoutsKnown : ∀ (ops : List (Op V)) (s : MapWorld V), Decidable (s.LayoutsKnown ops)
  | [], _ => inferInstanceAs (Decidable True)
  | op :: ops, s =>
    have := decLayoutsKnown ops (s.next op)
    match op with
    | .setLayout _ gs => inferInstanceAs (Decidable (s.knows (layoutTypes (GroupLayout.build gs).2) ∧ _))
    | .register _ | .create _ | .extend _ _ | .destroy _ | .createAtomic | .maintain | .insert _ _ | .remove _ _
    | .delete _ _ | .clear | .reset | .write _ _ _ | .writeAt _ _ _ => inferInstanceAs (Decidable (True ∧ _))

/-- Two histories for which `C25_partial` applies. -/
example :
    let a : List (Op Nat) := [.register 0, .register 1, .register 2, .create [(0, 1), (1, 2)],
      .setLayout anyOrder [[0, 1], [0, 1, 2]], .create [(0, 3), (1, 4), (2, 5)]]
    let b : List (Op Nat) := [.register 0, .register 1, .register 2, .create [(0, 1), (1, 2)],
      .setLayout anyOrder [[2, 1]], .create [(0, 3), (1, 4), (2, 5)]]
    SameButLayouts a b ∧ Good a ∧ Good b ∧ MapWorld.init.LayoutsKnown a ∧ MapWorld.init.LayoutsKnown b := by
  refine ⟨.cons (.inl rfl) (.cons (.inl rfl) (.cons (.inl rfl) (.cons (.inl rfl) (.cons (.inr ⟨_, _, _, _, rfl, rfl⟩)
      (.cons (.inl rfl) .nil))))), ?_, ?_, ?_, ?_⟩ <;> decide +kernel

/-! ### C27 -/

/-- The components of a slice, as an iterator would return them; none for `Option` parts, which have no slice. -/
def SlicePart.elems : SlicePart V → Option (List (ItemPart V))
  | .entities es => some (es.map .entity)
  | .comps idx first vs => some (vs.mapIdx fun j v => .ref idx (first + j) v)
  | .unit => none

/-- The slices have exactly the components of the items, in the same order. -/
def SlicesMatch (sl : List (SlicePart V)) (its : List (Item V)) : Prop :=
  ∀ (k : Nat) (part : SlicePart V) (l : List (ItemPart V)), sl[k]? = some part → part.elems = some l →
    l.map some = its.map fun it => it[k]?

/-- The part has a slice. -/
def Part.sliced : Part → Bool
  | .opt _ => false
  | .optMut _ => false
  | _ => true

theorem getAll_at {e : Entity} : ∀ {vs : List (PartView V)} {it : Item V}, getAll e vs = .ok (some it) →
    ∀ (k : Nat) (v : PartView V), vs[k]? = some v → ∃ y, it[k]? = some y ∧ v.get e = .ok (some y)
  | [], _, _, k, v, hk => by simp at hk
  | v :: vs, it, h, k, v', hk => by
    simp only [getAll] at h
    rw [Res.bind_eq_ok] at h
    obtain ⟨r, h1, h2⟩ := h
    cases r with
    | none => simp at h2
    | some y =>
      simp only at h2
      rw [Res.bind_eq_ok] at h2
      obtain ⟨r, h3, h4⟩ := h2
      cases r with
      | none => simp at h4
      | some is =>
        simp only [Res.pure_eq, Res.ok.injEq, Option.some.injEq] at h4
        subst h4
        cases k with
        | zero =>
          simp only [List.getElem?_cons_zero, Option.some.injEq] at hk
          subst hk
          exact ⟨y, rfl, h1⟩
        | succ k => exact getAll_at h3 k v' (by simpa using hk)

theorem sliceAllRaw_at {es : List Entity} {a b : Nat} : ∀ {vs : List (PartView V)} {sl : List (SlicePart V)},
    sliceAllRaw es a b vs = .ok sl → sl.length = vs.length ∧ ∀ (k : Nat) (part : SlicePart V), sl[k]? = some part →
      ∃ v, vs[k]? = some v ∧ v.sliceRaw es a b = .ok part
  | [], sl, h => by
    simp only [sliceAllRaw, Res.ok.injEq] at h
    subst h
    simp
  | v :: vs, sl, h => by
    simp only [sliceAllRaw] at h
    rw [Res.bind_eq_ok] at h
    obtain ⟨x, h1, h2⟩ := h
    rw [Res.bind_eq_ok] at h2
    obtain ⟨xs, h3, h4⟩ := h2
    simp only [Res.pure_eq, Res.ok.injEq] at h4
    subst h4
    obtain ⟨h5, h6⟩ := sliceAllRaw_at h3
    refine ⟨by simp [h5], fun k part hk => ?_⟩
    cases k with
    | zero =>
      simp only [List.getElem?_cons_zero, Option.some.injEq] at hk
      subst hk
      exact ⟨v, rfl, h1⟩
    | succ k => exact h6 k part (by simpa using hk)

/-- A range within the entities and the sets has slices. -/
theorem sliceAllRaw_ok {es : List Entity} {a b : Nat} (hab : a ≤ b) (hes : b ≤ es.length) :
    ∀ {vs : List (PartView V)}, (∀ v ∈ vs, ∀ x idx c, v = .req x idx c → b - a ≤ c.components.length) →
    ∃ sl, sliceAllRaw es a b vs = .ok sl
  | [], _ => ⟨[], rfl⟩
  | v :: vs, h => by
    obtain ⟨sl, h1⟩ := sliceAllRaw_ok hab hes (fun v hv => h v (.tail _ hv))
    have h2 : ∃ part, v.sliceRaw es a b = .ok part := by
      cases v with
      | entity => exact ⟨_, by simp [PartView.sliceRaw, hab, hes]; rfl⟩
      | req x idx c => exact ⟨_, by simp [PartView.sliceRaw, hab, h _ (.head _) x idx c rfl]; rfl⟩
      | opt x idx c => exact ⟨_, rfl⟩
    obtain ⟨part, h2⟩ := h2
    exact ⟨part :: sl, by simp [sliceAllRaw, h1, h2]⟩

/-- `slice` never fails. -/
theorem InvH.slice_ok {w : World V} {s : MapWorld V} {H : List (Entity × Nat)} (h : InvH w s H) {g i x : Query} {q : QueryAll V} (hq : q.Of w g i x) :
    ∃ r, q.slice = .ok r := by
  obtain ⟨r, hr, hrange⟩ := h.range hq
  cases r with
  | none => exact ⟨none, by simp [QueryAll.slice, hr]⟩
  | some ab =>
    obtain ⟨a, b⟩ := ab
    obtain ⟨pre, hd⟩ := hrange a b rfl
    obtain ⟨es, he1, t, ht, idx, c, hc, rfl⟩ := dense_entities hq hd.nonempty
    have hlen : ∀ t ∈ required g ++ required i, ∀ idx c, ViewAt w.components t idx c → b ≤ c.entities.length := by
      intro t ht idx c hc
      obtain ⟨c', h1, h2⟩ := hd.aligned t ht
      rw [borrow_of_viewAt hc] at h1
      cases h1
      have := congrArg List.length h2
      rw [List.length_take, hd.length] at this
      omega
    obtain ⟨sl, hsl⟩ := sliceAllRaw_ok (es := c.entities) (a := a) (b := b) (vs := q.get) hd.le (hlen t ht idx c hc) (by
      rintro v hv x idx c rfl
      obtain ⟨p, hp, hpv⟩ := view_of_mem hq.get hv
      have key : ∀ t, p.required = some t → ViewAt w.components t idx c → b - a ≤ c.components.length := by
        intro t ht hvt
        have h1 := hlen t (List.mem_append_left _ (List.mem_filterMap.2 ⟨p, hp, ht⟩)) idx c hvt
        have h2 := (h.viewAt hvt).wf.len
        omega
      cases p <;> simp only [IsView] at hpv
      · exact key _ rfl hpv.2
      · exact key _ rfl hpv.2)
    exact ⟨some sl, by simp [QueryAll.slice, hr, he1, hsl]⟩

/-- C27: if `slice` returns slices, they have exactly the components of the items of `iter`, aligned and in the same
order. Missing: histories that are not `Fair`, and queries with excluded components if some entity has all components
of `g`, `i` and `x` and is in their group (`C27_false`). -/
theorem C27_partial {h : History V} {w : World V} (hr : Reach World.empty h w) (hg : Fair (calls h)) {b b' : Borrows}
    {g i x : Query} {q : QueryAll V} (hq : QueryAll.new w b g i x = .ok (q, b'))
    (hx : required x = [] ∨ ∀ e, (mapOf (calls h)).Has (required g ++ required i ++ required x) e →
      (mapOf (calls h)).LeftOut (hidden (calls h)) (required g ++ required i ++ required x) e) :
    ∃ r its, q.slice = .ok r ∧ q.items = .ok its ∧
      ∀ sl, r = some sl → sl.length = g.length ∧ SlicesMatch sl its ∧
        ∀ (k : Nat) (part : SlicePart V) (p : Part), sl[k]? = some part → g[k]? = some p →
          part.elems.isSome = p.sliced := by
  have hi := reach_out hr hg
  have ho := QueryAll.new_ok hq
  obtain ⟨r, hrs⟩ := hi.slice_ok ho
  obtain ⟨it, es, its, h1, h2, h3, h4, h5, h6⟩ := hi.items ho
  refine ⟨r, its, hrs, by rw [QueryAll.items, h1]; exact h2, ?_⟩
  rintro sl rfl
  rcases h6 with ⟨a, b, pre, _, hran, hd, rfl⟩ | ⟨_, hran, _⟩
  · have ha : a = 0 := hd.start hx
    subst ha
    rw [List.drop_zero] at h4
    obtain ⟨es, he1, t, ht, idx, c, hc, rfl⟩ := dense_entities ho hd.nonempty
    obtain ⟨c', hb1, hb2⟩ := hd.aligned t ht
    rw [borrow_of_viewAt hc] at hb1
    cases hb1
    have hsl : sliceAllRaw c.entities 0 b q.get = .ok sl := by
      simp only [QueryAll.slice, hran, Res.bind_ok, he1, Option.getD_some] at hrs
      rw [Res.bind_eq_ok] at hrs
      obtain ⟨xs, hrs1, hrs2⟩ := hrs
      simp only [Res.pure_eq, Res.ok.injEq, Option.some.injEq] at hrs2
      rw [hrs1, hrs2]
    obtain ⟨hl1, hl2⟩ := sliceAllRaw_at hsl
    have hlen : its.length = pre.length := h4.length_eq.symm
    refine ⟨by rw [hl1, ho.get.length_eq], ?_, ?_⟩
    · intro k part l hk hp
      obtain ⟨v, hv, hsv⟩ := hl2 k part hk
      refine List.ext_getElem? fun j => ?_
      rw [List.getElem?_map, List.getElem?_map]
      by_cases hj : j < pre.length
      · have hpre : pre[j]? = some pre[j] := List.getElem?_eq_getElem hj
        have hat := hd.at ho.get (fun t ht => List.mem_append_left _ ht) hpre v (List.mem_of_getElem? hv)
        have hitem : its[j]? = some (its[j]'(by omega)) := List.getElem?_eq_getElem (by omega)
        have hread := (List.forall₂_iff_get.1 h4).2 j hj (by omega)
        simp only [List.get_eq_getElem] at hread
        obtain ⟨y, hy1, hy2⟩ := getAll_at hread k v hv
        rw [hitem, Option.map_some, hy1]
        have hb : j < b := by rw [← hd.length]; exact hj
        cases v with
        | entity =>
          simp only [PartView.sliceRaw] at hsv
          split at hsv
          · simp only [Res.ok.injEq] at hsv
            subst hsv
            simp only [SlicePart.elems, Option.some.injEq] at hp
            subst hp
            simp only [PartView.get, Res.ok.injEq, Option.some.injEq] at hy2
            subst hy2
            rw [List.drop_zero, Nat.sub_zero, hb2, List.getElem?_map, hpre]
            rfl
          · cases hsv
        | req x0 idx0 c0 =>
          simp only [PartView.sliceRaw] at hsv
          split at hsv
          · simp only [Res.ok.injEq] at hsv
            subst hsv
            simp only [SlicePart.elems, Option.some.injEq] at hp
            subst hp
            obtain ⟨p, hp, hpv⟩ := view_of_mem ho.get (List.mem_of_getElem? hv)
            have hset : ∃ t, ViewAt w.components t idx0 c0 := by
              cases p <;> simp only [IsView] at hpv
              · exact ⟨_, hpv.2⟩
              · exact ⟨_, hpv.2⟩
            obtain ⟨t0, ht0⟩ := hset
            have hw := (hi.viewAt ht0).wf
            have hg0 := (hw.rep.get_eq_some pre[j] j).2 hat
            obtain ⟨v0, hv0⟩ := hw.comp_at hat
            simp only [PartView.get, hg0, hv0, Res.unchecked_some, Res.bind_ok, Res.pure_eq, Res.ok.injEq,
              Option.some.injEq] at hy2
            subst hy2
            rw [Nat.sub_zero, List.getElem?_mapIdx, List.getElem?_take, if_pos hb, hv0]
            simp
          · cases hsv
        | opt x0 idx0 c0 =>
          simp only [PartView.sliceRaw, Res.ok.injEq] at hsv
          subst hsv
          simp [SlicePart.elems] at hp
      · have hno : its[j]? = none := List.getElem?_eq_none (by omega)
        rw [hno]
        have hl : l.length ≤ j := by
          have hb : b ≤ j := by rw [← hd.length]; omega
          cases v with
          | entity =>
            simp only [PartView.sliceRaw] at hsv
            split at hsv
            · simp only [Res.ok.injEq] at hsv
              subst hsv
              simp only [SlicePart.elems, Option.some.injEq] at hp
              subst hp
              simp
              omega
            · cases hsv
          | req x0 idx0 c0 =>
            simp only [PartView.sliceRaw] at hsv
            split at hsv
            · simp only [Res.ok.injEq] at hsv
              subst hsv
              simp only [SlicePart.elems, Option.some.injEq] at hp
              subst hp
              simp
              omega
            · cases hsv
          | opt x0 idx0 c0 =>
            simp only [PartView.sliceRaw, Res.ok.injEq] at hsv
            subst hsv
            simp [SlicePart.elems] at hp
        rw [List.getElem?_eq_none hl]
        rfl
    · intro k part p hk hpk
      obtain ⟨v, hv, hsv⟩ := hl2 k part hk
      have hkl : k < g.length := (List.getElem?_eq_some_iff.1 hpk).1
      have hkl' : k < q.get.length := (List.getElem?_eq_some_iff.1 hv).1
      have hview := (List.forall₂_iff_get.1 ho.get).2 k hkl hkl'
      simp only [List.get_eq_getElem] at hview
      rw [(List.getElem?_eq_some_iff.1 hpk).2, (List.getElem?_eq_some_iff.1 hv).2] at hview
      cases p <;> cases v <;> simp only [IsView] at hview <;> simp only [PartView.sliceRaw] at hsv
      · split at hsv
        · cases hsv; rfl
        · cases hsv
      · split at hsv
        · cases hsv; rfl
        · cases hsv
      · split at hsv
        · cases hsv; rfl
        · cases hsv
      · cases hsv; rfl
      · cases hsv; rfl
  · simp [QueryAll.slice, hran] at hrs

/-- Checks a property of the slices and the items of a query. -/
def slicesAre (w : World V) (g i x : Query) (f : List (SlicePart V) → List (Item V) → Bool) : Bool :=
  match QueryAll.new w [] g i x with
  | .ok (q, _) => match q.slice, q.items with
    | .ok (some sl), .ok its => f sl its
    | _, _ => false
  | _ => false

theorem slicesAre_iff {w : World V} {g i x : Query} {f : List (SlicePart V) → List (Item V) → Bool}
    (h : slicesAre w g i x f = true) :
    ∃ q b sl its, QueryAll.new w [] g i x = .ok (q, b) ∧ q.slice = .ok (some sl) ∧ q.items = .ok its ∧ f sl its = true := by
  unfold slicesAre at h
  split at h
  · rename_i q b h1
    split at h
    · rename_i sl its h2 h3
      exact ⟨q, b, sl, its, h1, h2, h3, h⟩
    · cases h
  · cases h

/-- C27 is false in general, even for `Good` histories: with the groups `(A, B)` and `(A, B, C)`, slicing
`(Entity, &A, &B)` excluding `&C` returns the components of entities that are excluded, next to the entities that are
not. -/
theorem C27_false : ∃ (h : History Nat) (w : World Nat) (q : QueryAll Nat) (b : Borrows), Reach World.empty h w ∧
    Good (calls h) ∧ QueryAll.new w [] [.entity, .ref 0, .ref 1] [] [.ref 2] = .ok (q, b) ∧
    q.slice = .ok (some [.entities [⟨1, 1⟩], .comps 0 0 [10], .comps 1 0 [11]]) ∧
    q.items = .ok [[.entity ⟨1, 1⟩, .ref 0 1 20, .ref 1 1 21]] := by
  obtain ⟨rs, w, hr, hf⟩ := reach_witness
    (ops := ([.setLayout anyOrder [[0, 1], [0, 1, 2]], .create [(0, 10), (1, 11), (2, 12)],
      .create [(0, 20), (1, 21)]] : List (Op Nat)))
    (f := fun rs (w : World Nat) => decide (rs.length = 3) &&
      slicesAre w [.entity, .ref 0, .ref 1] [] [.ref 2] (fun sl its =>
        decide (sl = [.entities [⟨1, 1⟩], .comps 0 0 [10], .comps 1 0 [11]] ∧
          its = [[.entity ⟨1, 1⟩, .ref 0 1 20, .ref 1 1 21]]))) (by decide +kernel)
  simp only [Bool.and_eq_true, decide_eq_true_eq] at hf
  obtain ⟨h0, h1⟩ := hf
  obtain ⟨q, b, sl, its, h2, h3, h4, h5⟩ := slicesAre_iff h1
  obtain ⟨rfl, rfl⟩ := of_decide_eq_true h5
  refine ⟨_, w, q, b, hr, ?_, h2, h3, h4⟩
  unfold calls
  rw [List.map_fst_zip (by simp [h0])]
  decide +kernel

/-- Slices for which `C27_partial` applies. -/
example : Good queryOps ∧ holdsAfter queryOps (fun _ w =>
    slicesAre w [.ref 1, .entity, .opt 9] [.refMut 0] [] (fun sl _ =>
      decide (sl = [.comps 1 0 [11, 31, 41, 21], .entities [⟨0, 1⟩, ⟨2, 1⟩, ⟨3, 1⟩, ⟨1, 1⟩], .unit]))) = true := by
  decide +kernel

/-! ### C28 -/

theorem IsView.unique {c : ComponentStorage V} {p : Part} {v v' : PartView V} (h : IsView c p v) (h' : IsView c p v') :
    v = v' := by
  have key : ∀ {t : TypeId} {idx idx' : Nat} {s s' : CompSet V}, ViewAt c t idx s → ViewAt c t idx' s' →
      idx = idx' ∧ s = s' := by
    rintro t idx idx' s s' ⟨m, h1, rfl, h2⟩ ⟨m', h3, rfl, h4⟩
    rw [h1] at h3
    cases h3
    rw [h2] at h4
    cases h4
    exact ⟨rfl, rfl⟩
  cases p <;> cases v <;> simp only [IsView] at h <;> cases v' <;> simp only [IsView] at h'
  · rfl
  all_goals
    obtain ⟨rfl, h⟩ := h
    obtain ⟨rfl, h'⟩ := h'
    obtain ⟨rfl, rfl⟩ := key h h'
    rfl

theorem views_unique {c : ComponentStorage V} : ∀ {q : Query} {vs vs' : List (PartView V)},
    List.Forall₂ (IsView c) q vs → List.Forall₂ (IsView c) q vs' → vs = vs'
  | [], _, _, .nil, .nil => rfl
  | _ :: _, _, _, .cons h hs, .cons h' hs' => by rw [h.unique h', views_unique hs hs']

/-- C28: `query_one(..).get(e)` returns an item exactly if iterating the same `query_all` yields one for `e`, and it is
the same item (the same places in the storage); `query_one(..).contains(e)` says whether there is one. Missing: as for
C24; queries without required component (`C28_false`). -/
theorem C28_partial {h : History V} {w : World V} (hr : Reach World.empty h w) (hg : Fair (calls h))
    {b₁ b₁' b₂ b₂' : Borrows} {g i x : Query} {q : QueryAll V} {q₁ : QueryOne V}
    (hq : QueryAll.new w b₁ g i x = .ok (q, b₁')) (hq₁ : QueryOne.new w b₂ g i x = .ok (q₁, b₂'))
    (hne : required g ++ required i ≠ []) (hx : AllRequired x)
    (hs : SingleExclude (mapOf (calls h)).groups g i x)
    (hn : (mapOf (calls h)).NoneLeftOut (hidden (calls h)) g i x) :
    ∃ (es : List Entity) (its : List (Item V)), q.items = .ok its ∧ es.Nodup ∧ es.length = its.length ∧
      (∀ e ∈ es, w.containsEntity e = true) ∧
      ∀ e, ∃ r, q₁.getItem e = .ok r ∧ q₁.contains e = r.isSome ∧ ∀ y, r = some y ↔ (e, y) ∈ es.zip its := by
  have hi := reach_out hr hg
  have ho := QueryAll.new_ok hq
  obtain ⟨ho1, ho2, ho3⟩ := QueryOne.new_ok hq₁
  obtain ⟨it, es, its, h1, h2, h3, h4, h5⟩ := hi.items_match ho hne hx hs hn
  refine ⟨es, its, by rw [QueryAll.items, h1]; exact h2, h3, h4.length_eq, ?_, fun e => ?_⟩
  · intro e he
    rw [hi.contains_iff]
    exact ((h5 e).1 he).1
  · have hget : q₁.get = q.get := views_unique ho1 ho.get
    have hzip : ∀ y, (e, y) ∈ es.zip its → getAll e q.get = .ok (some y) ∧ e ∈ es := fun y hy =>
      ⟨(List.forall₂_iff_zip.1 h4).2 hy, (List.of_mem_zip hy).1⟩
    have hread : e ∈ es → ∀ y, getAll e q.get = .ok (some y) → (e, y) ∈ es.zip its := by
      intro he y hy
      obtain ⟨j, hj, rfl⟩ := List.mem_iff_getElem.1 he
      have hj' : j < its.length := by rw [← h4.length_eq]; exact hj
      have := (List.forall₂_iff_get.1 h4).2 j hj hj'
      simp only [List.get_eq_getElem] at this
      rw [hy] at this
      cases this
      rw [List.mem_iff_getElem]
      exact ⟨j, by simp; omega, by simp⟩
    have hc1 := Faithful.none_contains e hx (hi.faithfuls ho3)
    have hc2 := Faithful.all_contains e (hi.faithfuls ho2)
    have hc3 := Faithful.all_contains e (hi.faithfuls ho1)
    obtain ⟨r, hr1, hr2⟩ := Faithful.all_get e (hi.faithfuls ho1)
    have hsome := shows_isSome (mapOf (calls h)).table e g
    rw [← hr2, Option.isSome_map] at hsome
    have hmem := h5 e
    unfold MapWorld.Matches at hmem
    have hcase : containsNone q₁.exc e = true ∧ containsAll q₁.inc e = true ∧ r.isSome ↔ e ∈ es := by
      rw [hmem, hc1, hc2, hsome]
      constructor
      · rintro ⟨x1, x2, x3⟩
        exact ⟨hi.alive_of_has hne (has_append.2 ⟨x3, x2⟩), x3, x2, x1⟩
      · rintro ⟨_, x1, x2, x3⟩
        exact ⟨x3, x2, x1⟩
    have hall : containsAll q₁.get e = r.isSome := by
      rw [Bool.eq_iff_iff, hc3, hsome]
      rfl
    unfold QueryOne.getItem QueryOne.contains
    by_cases hn : containsNone q₁.exc e = true
    · by_cases ha : containsAll q₁.inc e = true
      · simp only [hn, ha, Bool.not_true, Bool.false_eq_true, if_false, hall, hr1]
        refine ⟨r, rfl, rfl, fun y => ?_⟩
        constructor
        · rintro rfl
          exact hread (hcase.1 ⟨hn, ha, rfl⟩) y (by rw [← hget]; exact hr1)
        · intro hy
          have := (hzip y hy).1
          rw [← hget, hr1] at this
          cases this
          rfl
      · refine ⟨none, by simp [hn, ha], by simp [hn, ha], fun y => ?_⟩
        constructor
        · intro hy; cases hy
        · intro hy
          exact absurd (hcase.2 (hzip y hy).2).2.1 ha
    · refine ⟨none, by simp [hn], by simp [hn], fun y => ?_⟩
      constructor
      · intro hy; cases hy
      · intro hy
        exact absurd (hcase.2 (hzip y hy).2).1 hn

/-- C28 is false in general: `query_one::<Option<&A>>` finds destroyed entities, while `query_all` finds nothing, not
even living ones. -/
theorem C28_false : ∃ (h : History Nat) (w : World Nat) (q : QueryAll Nat) (q₁ : QueryOne Nat) (b b₁ : Borrows),
    Reach World.empty h w ∧ Good (calls h) ∧ QueryAll.new w [] [.opt 0] [] [] = .ok (q, b) ∧
    QueryOne.new w [] [.opt 0] [] [] = .ok (q₁, b₁) ∧ w.containsEntity ⟨0, 1⟩ = false ∧
    w.containsEntity ⟨1, 1⟩ = true ∧
    q₁.contains ⟨0, 1⟩ = true ∧ q₁.getItem ⟨0, 1⟩ = .ok (some [.opt none]) ∧ q.items = .ok [] := by
  obtain ⟨rs, w, hr, hf⟩ := reach_witness
    (ops := ([.register 0, .create [], .create [(0, 1)], .destroy ⟨0, 1⟩] : List (Op Nat)))
    (f := fun rs (w : World Nat) => decide (rs.length = 4) && (!w.containsEntity ⟨0, 1⟩ && (w.containsEntity ⟨1, 1⟩ &&
      (itemsAre w [.opt 0] [] [] (fun its => decide (its = [])) && (match QueryOne.new w [] [.opt 0] [] [] with
        | .ok (q, _) => q.contains ⟨0, 1⟩ && decide (q.getItem ⟨0, 1⟩ = .ok (some [.opt none]))
        | _ => false))))) (by decide +kernel)
  simp only [Bool.and_eq_true, decide_eq_true_eq, Bool.not_eq_true'] at hf
  obtain ⟨h0, h1, h2, h3, h4⟩ := hf
  obtain ⟨q, b, its, h5, h6, h7⟩ := itemsAre_iff h3
  have h7 := of_decide_eq_true h7
  subst h7
  split at h4
  · rename_i q₁ b₁ h8
    simp only [Bool.and_eq_true, decide_eq_true_eq] at h4
    refine ⟨_, w, q, q₁, b, b₁, hr, ?_, h5, h8, h1, h2, h4.1, h4.2, h6⟩
    unfold calls
    rw [List.map_fst_zip (by simp [h0])]
    decide +kernel
  · cases h4

/-- Entities for which `C28_partial` says something. -/
example : Good queryOps ∧ hidden queryOps = [] ∧ SingleExclude (mapOf queryOps).groups [.ref 0, .optMut 9] [.ref 1] [.ref 2] ∧
    holdsAfter queryOps (fun _ w => match QueryOne.new w [] [.ref 0, .optMut 9] [.ref 1] [.ref 2] with
      | .ok (q, _) => decide (q.getItem ⟨3, 1⟩ = .ok (some [.ref 0 2 40, .opt (some (3, 0, 49))]) ∧
          q.getItem ⟨0, 1⟩ = .ok none ∧ q.getItem ⟨3, 2⟩ = .ok none)
      | _ => false) = true := by
  decide +kernel

/-! ### C29 -/

theorem SparseIter.foldFrom_entities (it : SparseIter V) (es : List Entity) : ∀ l : List Entity,
    ({ it with entities := es } : SparseIter V).foldFrom l = it.foldFrom l
  | [] => rfl
  | e :: l => by
    simp only [SparseIter.foldFrom, SparseIter.foldFrom_entities it es l]
    rfl

theorem DenseIter.foldFrom_start (it : DenseIter V) (s : Nat) : ∀ (n i : Nat),
    ({ it with start := s } : DenseIter V).foldFrom i n = it.foldFrom i n
  | 0, _ => rfl
  | n + 1, i => by
    simp only [DenseIter.foldFrom, DenseIter.foldFrom_start it s n]
    rfl

theorem SparseIter.nextFrom_fold (it : SparseIter V) : ∀ l : List Entity,
    it.foldFrom l = it.nextFrom l >>= fun p => it.foldFrom p.2 >>= fun ys => pure (p.1.toList ++ ys)
  | [] => rfl
  | e :: l => by
    simp only [SparseIter.foldFrom, SparseIter.nextFrom]
    cases it.item e with
    | panic => rfl
    | ub => rfl
    | ok r =>
      cases r with
      | none =>
        simp only [Res.bind_ok]
        exact SparseIter.nextFrom_fold it l
      | some x => rfl

theorem Res.bind_assoc' {α β γ : Type} (x : Res α) (f : α → Res β) (g : β → Res γ) :
    (x >>= f) >>= g = x >>= fun a => f a >>= g := by
  cases x <;> rfl

/-- A call of `next` takes the first item off the fold. -/
theorem Iter.next_fold (it : Iter V) :
    it.fold = it.next >>= fun p => p.2.fold >>= fun ys => pure (p.1.toList ++ ys) := by
  cases it with
  | sparse it =>
    simp only [Iter.fold, Iter.next, SparseIter.next, SparseIter.fold, Res.bind_assoc']
    rw [SparseIter.nextFrom_fold]
    congr 1
    funext p
    simp only [Res.pure_eq, Res.bind_ok, Iter.fold, SparseIter.fold, SparseIter.foldFrom_entities]
  | dense it =>
    simp only [Iter.fold, Iter.next, DenseIter.next, DenseIter.fold]
    by_cases h : it.start < it.stop
    · rw [if_pos h]
      obtain ⟨n, hn⟩ : ∃ n, it.stop - it.start = n + 1 := ⟨it.stop - it.start - 1, by omega⟩
      rw [hn, DenseIter.foldFrom]
      simp only [Res.bind_assoc', Res.pure_eq, Res.bind_ok, Iter.fold, DenseIter.fold, DenseIter.foldFrom_start]
      have : it.stop - (it.start + 1) = n := by omega
      simp only [this]
      rfl
    · rw [if_neg h]
      have : it.stop - it.start = 0 := by omega
      simp [this, DenseIter.foldFrom, Iter.fold, DenseIter.fold]

theorem SparseIter.nextFrom_none (it : SparseIter V) : ∀ {l l' : List Entity}, it.nextFrom l = .ok (none, l') → l' = []
  | [], l', h => by
    simp only [SparseIter.nextFrom, Res.ok.injEq, Prod.mk.injEq] at h
    exact h.2.symm
  | e :: l, l', h => by
    simp only [SparseIter.nextFrom] at h
    cases hi : it.item e with
    | panic => simp [hi] at h
    | ub => simp [hi] at h
    | ok r =>
      rw [hi] at h
      cases r with
      | none =>
        simp only [Res.bind_ok] at h
        exact SparseIter.nextFrom_none it h
      | some x => simp at h

/-- After `None`, an iterator has no more items. -/
theorem Iter.next_none {it it' : Iter V} (h : it.next = .ok (none, it')) : it'.fold = .ok [] := by
  cases it with
  | sparse it =>
    simp only [Iter.next, SparseIter.next] at h
    rw [Res.bind_eq_ok] at h
    obtain ⟨⟨x, it₁⟩, h1, h2⟩ := h
    simp only [Res.pure_eq, Res.ok.injEq, Prod.mk.injEq] at h2
    obtain ⟨rfl, rfl⟩ := h2
    rw [Res.bind_eq_ok] at h1
    obtain ⟨⟨x, es⟩, h3, h4⟩ := h1
    simp only [Res.pure_eq, Res.ok.injEq, Prod.mk.injEq] at h4
    obtain ⟨rfl, rfl⟩ := h4
    simp [Iter.fold, SparseIter.fold, SparseIter.nextFrom_none it h3, SparseIter.foldFrom]
  | dense it =>
    simp only [Iter.next, DenseIter.next] at h
    by_cases hlt : it.start < it.stop
    · rw [if_pos hlt] at h
      cases hi : it.item it.start <;> simp [hi] at h
    · rw [if_neg hlt] at h
      simp only [Res.bind_ok, Res.pure_eq, Res.ok.injEq, Prod.mk.injEq, true_and] at h
      subst h
      have : it.stop - it.start = 0 := by omega
      simp [this, DenseIter.foldFrom, Iter.fold, DenseIter.fold]

theorem Iter.next_isDense {it it' : Iter V} {x : Option (Item V)} (h : it.next = .ok (x, it')) :
    it'.isDense = it.isDense := by
  cases it with
  | sparse it =>
    simp only [Iter.next] at h
    rw [Res.bind_eq_ok] at h
    obtain ⟨⟨x, it₁⟩, _, h2⟩ := h
    simp only [Res.pure_eq, Res.ok.injEq, Prod.mk.injEq] at h2
    rw [← h2.2]
    rfl
  | dense it =>
    simp only [Iter.next] at h
    rw [Res.bind_eq_ok] at h
    obtain ⟨⟨x, it₁⟩, _, h2⟩ := h
    simp only [Res.pure_eq, Res.ok.injEq, Prod.mk.injEq] at h2
    rw [← h2.2]
    rfl

theorem DenseIter.foldFrom_length (it : DenseIter V) : ∀ {n i : Nat} {xs : List (Item V)}, it.foldFrom i n = .ok xs →
    xs.length = n
  | 0, i, xs, h => by
    simp only [DenseIter.foldFrom, Res.ok.injEq] at h
    subst h
    rfl
  | n + 1, i, xs, h => by
    simp only [DenseIter.foldFrom] at h
    rw [Res.bind_eq_ok] at h
    obtain ⟨x, _, h⟩ := h
    rw [Res.bind_eq_ok] at h
    obtain ⟨ys, h1, h2⟩ := h
    simp only [Res.pure_eq, Res.ok.injEq] at h2
    subst h2
    simp [DenseIter.foldFrom_length it h1]

/-- C29, failures included: `n` calls of `next` followed by `fold` give the same items as `fold` at once, and fail in
the same way. -/
theorem C29_nexts : ∀ (n : Nat) (it : Iter V),
    it.fold = it.nexts n >>= fun p => p.2.fold >>= fun ys => pure (p.1.reduceOption ++ ys)
  | 0, it => by
    simp only [Iter.nexts, Res.bind_ok, List.reduceOption, List.filterMap_nil, List.nil_append, Res.pure_eq]
    cases it.fold <;> rfl
  | n + 1, it => by
    rw [Iter.next_fold]
    simp only [Iter.nexts, Res.bind_assoc']
    congr 1
    funext p
    obtain ⟨x, it'⟩ := p
    simp only
    rw [C29_nexts n it']
    simp only [Res.bind_assoc', Res.pure_eq, Res.bind_ok]
    congr 1
    funext p
    congr 1
    funext ys
    cases x <;> simp [List.reduceOption]

/-- C29: if folding an iterator gives the items `xs`, then `n` calls of `next` return the first `n` of them followed
by `None` forever, folding afterwards gives the rest, for a dense iterator the size hint and `len` are exact before and
afterwards, and no iterator announces a wrong size. Holds for every iterator. -/
theorem C29 {it : Iter V} {xs : List (Item V)} (h : it.fold = .ok xs) (n : Nat) :
    ∃ it', it.nexts n = .ok ((xs.take n).map some ++ List.replicate (n - xs.length) none, it') ∧
      it'.fold = .ok (xs.drop n) ∧ it'.isDense = it.isDense ∧
      (it.isDense = true → it'.sizeHint = (xs.length - n, some (xs.length - n)) ∧
        it'.parLen = some (xs.length - n)) ∧ (∀ d, it' = .dense d → d.len = xs.length - n) ∧
      it'.sizeHint.1 ≤ xs.length - n ∧ (∀ m, it'.sizeHint.2 = some m → xs.length - n ≤ m) ∧
      ∀ m, it'.parLen = some m → m = xs.length - n := by
  have key : ∀ it' : Iter V, (it'.isDense = true → it'.sizeHint = (xs.length - n, some (xs.length - n)) ∧
      it'.parLen = some (xs.length - n)) → (∀ d, it' = .dense d → d.len = xs.length - n) ∧
      it'.sizeHint.1 ≤ xs.length - n ∧ (∀ m, it'.sizeHint.2 = some m → xs.length - n ≤ m) ∧
      ∀ m, it'.parLen = some m → m = xs.length - n := by
    intro it' h1
    cases it' with
    | sparse it => simp [Iter.sizeHint, Iter.parLen]
    | dense it =>
      obtain ⟨h2, h3⟩ := h1 rfl
      refine ⟨?_, by simp [h2], by rw [h2]; rintro m ⟨⟩; exact Nat.le_refl _, by simp [h3, eq_comm]⟩
      rintro d ⟨⟩
      simp only [Iter.sizeHint, Prod.mk.injEq] at h2
      exact h2.1
  suffices h' : ∃ it', it.nexts n = .ok ((xs.take n).map some ++ List.replicate (n - xs.length) none, it') ∧
      it'.fold = .ok (xs.drop n) ∧ it'.isDense = it.isDense ∧
      (it.isDense = true → it'.sizeHint = (xs.length - n, some (xs.length - n)) ∧
        it'.parLen = some (xs.length - n)) by
    obtain ⟨it', h1, h2, h3, h4⟩ := h'
    exact ⟨it', h1, h2, h3, h4, key it' fun h => h4 (h3 ▸ h)⟩
  clear key
  induction n generalizing it xs with
  | zero =>
    refine ⟨it, by simp [Iter.nexts], by simpa using h, rfl, fun hd => ?_⟩
    cases it with
    | sparse it => cases hd
    | dense it =>
      have := it.foldFrom_length h
      simp [Iter.sizeHint, Iter.parLen, this]
  | succ n ih =>
    have h1 := it.next_fold
    rw [h] at h1
    have h1 := h1.symm
    rw [Res.bind_eq_ok] at h1
    obtain ⟨⟨x, it₁⟩, h2, h3⟩ := h1
    rw [Res.bind_eq_ok] at h3
    obtain ⟨ys, h4, h5⟩ := h3
    simp only [Res.pure_eq, Res.ok.injEq] at h5 h4
    obtain ⟨it', h6, h7, h8, h9⟩ := ih h4
    have hdense := Iter.next_isDense h2
    refine ⟨it', ?_, ?_, h8.trans hdense, fun hd => ?_⟩
    · simp only [Iter.nexts, h2, Res.bind_ok, h6, Res.pure_eq, Res.ok.injEq, Prod.mk.injEq, and_true]
      cases x with
      | none =>
        have := Iter.next_none h2
        rw [h4] at this
        cases this
        subst h5
        simp [List.replicate_succ]
      | some x =>
        subst h5
        simp
    · rw [h7]
      cases x with
      | none =>
        have := Iter.next_none h2
        rw [h4] at this
        cases this
        subst h5
        simp
      | some x =>
        subst h5
        simp
    · have h9 := h9 (hdense.trans hd)
      have hl : ys.length - n = xs.length - (n + 1) := by
        cases x with
        | none =>
          have := Iter.next_none h2
          rw [h4] at this
          cases this
          subst h5
          simp
        | some x =>
          subst h5
          simp
      rw [hl] at h9
      exact h9

theorem SparseIter.foldFrom_append (it : SparseIter V) (b : List Entity) : ∀ a : List Entity,
    it.foldFrom (a ++ b) = it.foldFrom a >>= fun xs => it.foldFrom b >>= fun ys => pure (xs ++ ys)
  | [] => by
    simp only [List.nil_append, SparseIter.foldFrom, Res.bind_ok]
    cases it.foldFrom b <;> rfl
  | e :: a => by
    simp only [List.cons_append, SparseIter.foldFrom, Res.bind_assoc', SparseIter.foldFrom_append it b a]
    congr 1
    funext r
    cases r with
    | none => rfl
    | some x => simp only [Res.bind_assoc', Res.pure_eq, Res.bind_ok, List.cons_append]

theorem DenseIter.foldFrom_add (it : DenseIter V) (m : Nat) : ∀ n i : Nat,
    it.foldFrom i (n + m) = it.foldFrom i n >>= fun xs => it.foldFrom (i + n) m >>= fun ys => pure (xs ++ ys)
  | 0, i => by
    simp only [Nat.zero_add, DenseIter.foldFrom, Res.bind_ok, Nat.add_zero, List.nil_append]
    cases it.foldFrom i m <;> rfl
  | n + 1, i => by
    have h1 : n + 1 + m = (n + m) + 1 := by omega
    have h2 : i + (n + 1) = i + 1 + n := by omega
    rw [h1]
    simp only [DenseIter.foldFrom, Res.bind_assoc', DenseIter.foldFrom_add it m n, h2, Res.pure_eq, Res.bind_ok,
      List.cons_append]

/-- C29: the parallel iterator visits the same items as `fold` (listed from left to right the pieces give the same
list), however the work is split, and fails in the same way. -/
theorem C29_par (it : Iter V) (t : Split) : it.fold = it.par t >>= fun pieces => pure pieces.flatten := by
  cases it with
  | sparse it =>
    simp only [Iter.fold, Iter.par, SparseIter.fold]
    generalize it.entities = es
    induction t generalizing es with
    | leaf =>
      simp only [SparseIter.par, Res.bind_assoc', Res.pure_eq, Res.bind_ok, List.flatten_cons, List.flatten_nil,
        List.append_nil]
      cases it.foldFrom es <;> rfl
    | cut pos l r ihl ihr =>
      simp only [SparseIter.par, Res.bind_assoc', Res.pure_eq, Res.bind_ok, List.flatten_append]
      conv_lhs => rw [← List.take_append_drop pos es, SparseIter.foldFrom_append, ihl, ihr]
      simp only [Res.bind_assoc', Res.pure_eq, Res.bind_ok]
  | dense it =>
    simp only [Iter.fold, Iter.par, DenseIter.fold]
    generalize it.stop - it.start = n
    generalize it.start = i
    induction t generalizing i n with
    | leaf =>
      simp only [DenseIter.par, Res.bind_assoc', Res.pure_eq, Res.bind_ok, List.flatten_cons, List.flatten_nil,
        List.append_nil]
      cases it.foldFrom i n <;> rfl
    | cut pos l r ihl ihr =>
      simp only [DenseIter.par, Res.bind_assoc', Res.pure_eq, Res.bind_ok, List.flatten_append]
      have hn : n = min pos n + (n - min pos n) := by omega
      conv_lhs => rw [hn, DenseIter.foldFrom_add, ihl, ihr]
      simp only [Res.bind_assoc', Res.pure_eq, Res.bind_ok]

/-- C29, parallel, for iterators that can be folded: whatever the order in which the pieces are processed, the items
visited are those of `fold` up to order. -/
theorem C29_par_perm {it : Iter V} {xs : List (Item V)} (h : it.fold = .ok xs) (t : Split) :
    ∃ pieces, it.par t = .ok pieces ∧ ∀ order : List (List (Item V)), order.Perm pieces → order.flatten.Perm xs := by
  have h1 := C29_par it t
  rw [h] at h1
  have h1 := h1.symm
  rw [Res.bind_eq_ok] at h1
  obtain ⟨pieces, h2, h3⟩ := h1
  simp only [Res.pure_eq, Res.ok.injEq] at h3
  subst h3
  exact ⟨pieces, h2, fun order ho => ho.flatten⟩

/-- The iterators of queries can be folded. Missing: histories that are not `Fair`. -/
theorem C29_query_partial {h : History V} {w : World V} (hr : Reach World.empty h w) (hg : Fair (calls h))
    {b b' : Borrows} {g i x : Query} {q : QueryAll V} (hq : QueryAll.new w b g i x = .ok (q, b')) :
    ∃ it xs, q.iter = .ok it ∧ it.fold = .ok xs := by
  obtain ⟨it, es, its, h1, h2, _⟩ := (reach_out hr hg).items (QueryAll.new_ok hq)
  exact ⟨it, its, h1, h2⟩

/-- A dense and a sparse iterator, stopped half way, and split work. -/
example : Good queryOps ∧ holdsAfter queryOps (fun _ w =>
    match QueryAll.new w [] [.entity, .ref 0] [.ref 1] [], QueryAll.new w [] [.ref 0] [] [.ref 9] with
    | .ok (q, _), .ok (q', _) =>
      match q.iter, q'.iter with
      | .ok it, .ok it' =>
        it.isDense && !it'.isDense && (match it.nexts 3, it'.nexts 5 with
          | .ok (a, rest), .ok (b, _) => decide (a.reduceOption.length = 3 ∧ rest.sizeHint = (1, some 1) ∧
              b.map Option.isSome = [true, true, true, false, false])
          | _, _ => false) && (match it'.par (.cut 1 .leaf (.cut 1 .leaf .leaf)) with
          | .ok ps => decide (ps.map List.length = [1, 1, 1])
          | _ => false)
      | _, _ => false
    | _, _ => false) = true := by
  decide +kernel

end Sparsey
