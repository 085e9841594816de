import Verif.Proofs.EraseQuery
import Verif.Proofs.EraseBack
import Verif.Properties.OneType
import Verif.Properties.LoneQueries
import Verif.Properties.Grouped

/-!
C58: component types that are never grouped together do not influence each other.
-/

set_option autoImplicit false
set_option linter.unusedSimpArgs false

namespace Sparsey
variable {V : Type}

theorem InvX.showsAs {w : World V} {s : MapWorld V} {P : Entity → Nat → Prop} (h : InvX w s P) (t : TypeId) :
    w.ShowsAs t s := by
  intro ht
  obtain ⟨c, h1, h2, _, h3, h4⟩ := h.borrow_reg ((h.registered_iff t).1 ht)
  refine ⟨c, h1, fun e => ?_, h2.rep.nodup, h2.len.symm, h4, fun i e hi => ?_⟩
  · rw [h.viewGet, if_pos ((h.registered_iff t).1 ht)]
  · rw [← h3, h2.val_at hi]

theorem AgreeWorld.registered {K : List TypeId} {B : Nat → Prop} {w w' : World V} (h : AgreeWorld K B w w') (t : TypeId) :
    w'.isRegistered t = w.isRegistered t := by
  show (w'.components.meta? t).isSome = (w.components.meta? t).isSome
  rw [h.comps.meta?]

theorem AgreeWorld.borrow {K : List TypeId} {B : Nat → Prop} {w w' : World V} (h : AgreeWorld K B w w') {t : TypeId}
    (ht : t ∈ K) : w'.borrow t = w.borrow t := by
  unfold World.borrow
  rw [h.comps.meta?]
  cases hm : w.components.meta? t with
  | none => rfl
  | some m =>
    simp only
    rw [h.comps.set_eq hm ht]

theorem AgreeWorld.viewGet {K : List TypeId} {B : Nat → Prop} {w w' : World V} (h : AgreeWorld K B w w') {t : TypeId}
    (ht : t ∈ K) (e : Entity) : w'.viewGet t e = w.viewGet t e := by
  unfold World.viewGet
  rw [h.borrow ht]

theorem mentions_split {g i x : Query} {K : List TypeId} (hm : ∀ t ∈ mentions g i x, t ∈ K) :
    (∀ a ∈ accesses g, a.1 ∈ K) ∧ (∀ a ∈ accesses i, a.1 ∈ K) ∧ ∀ a ∈ accesses x, a.1 ∈ K := by
  simp only [mentions, List.map_append, List.mem_append] at hm
  exact ⟨fun a ha => hm _ (.inl (.inl (List.mem_map_of_mem ha))), fun a ha => hm _ (.inl (.inr (List.mem_map_of_mem ha))),
    fun a ha => hm _ (.inr (List.mem_map_of_mem ha))⟩

/-- Two worlds that cannot be told apart by looking at entities and at components of the types in `K`: the same entities,
the same registered types, the same sets of these types; the same answers of queries over these types, down to the order of
the items and the positions behind them. -/
structure SameOn (K : List TypeId) (w w' : World V) : Prop where
  entities : w'.entities = w.entities
  registered : ∀ t, w'.isRegistered t = w.isRegistered t
  borrow : ∀ t ∈ K, w'.borrow t = w.borrow t
  one : ∀ g i x, (∀ t ∈ mentions g i x, t ∈ K) → ∀ b, QueryOne.new w' b g i x = QueryOne.new w b g i x
  refused : ∀ g i x, (∀ t ∈ mentions g i x, t ∈ K) → ∀ b, (QueryAll.new w b g i x = .panic ↔ QueryAll.new w' b g i x = .panic) ∧
    (QueryAll.new w b g i x = .ub ↔ QueryAll.new w' b g i x = .ub)
  all : ∀ g i x, (∀ t ∈ mentions g i x, t ∈ K) → ∀ b q b', QueryAll.new w b g i x = .ok (q, b') →
    ∃ q', QueryAll.new w' b g i x = .ok (q', b') ∧ q'.iter = q.iter ∧ q'.items = q.items ∧ q'.slice = q.slice

theorem AgreeWorld.sameOn {K : List TypeId} {B : Nat → Prop} {w w' : World V} (h : AgreeWorld K B w w') : SameOn K w w' where
  entities := h.ents
  registered := h.registered
  borrow _ ht := h.borrow ht
  one g i x hm b := h.queryOne (mentions_split hm).1 (mentions_split hm).2.1 (mentions_split hm).2.2 b
  refused g i x hm b := by
    have h1 := (h.queryAll (mentions_split hm).1 (mentions_split hm).2.1 (mentions_split hm).2.2 b).1
    rw [h1]
    cases QueryAll.new w b g i x <;> simp
  all g i x hm b q b' hq := by
    obtain ⟨h1, h2⟩ := h.queryAll (mentions_split hm).1 (mentions_split hm).2.1 (mentions_split hm).2.2 b
    refine ⟨q.onWorld w', ?_, QueryAll.onWorld_iter (h2 q b' hq)⟩
    rw [h1, hq]
    rfl

/-- **C58.** If no group of a layout has types both inside and outside of `K`, the world looks, as far as the types in `K`
are concerned, as if all calls had been made without the other types; and these calls answer what is left of the answers.
Missing: layouts whose families share types or exceed the maxima (findings 6 and 7). -/
theorem C58_partial {h : History V} {w : World V} (hr : Reach World.empty h w) {K : List TypeId}
    (hl : LaysFor K (calls h)) : ∃ w', Reach World.empty (erase K h) w' ∧ SameOn K w w' := by
  obtain ⟨B, w', h1, h2⟩ := reach_agree hr hl
  exact ⟨w', h1, h2.sameOn⟩

/-- **C58.** Two histories that differ only in what they do to types outside of `K` lead to worlds that cannot be told apart
on `K`. -/
theorem C58_same_partial {h h' : History V} {w w' : World V} (hr : Reach World.empty h w) (hr' : Reach World.empty h' w')
    {K : List TypeId} (hl : LaysFor K (calls h)) (hl' : LaysFor K (calls h')) (he : calls (erase K h') = calls (erase K h)) :
    w'.entities = w.entities ∧ (∀ t, w'.isRegistered t = w.isRegistered t) ∧ (∀ t ∈ K, w'.borrow t = w.borrow t) ∧
    (∀ g i x, (∀ t ∈ mentions g i x, t ∈ K) → ∀ b, QueryOne.new w' b g i x = QueryOne.new w b g i x) ∧
    (∀ g i x, (∀ t ∈ mentions g i x, t ∈ K) → ∀ b q b', QueryAll.new w b g i x = .ok (q, b') →
      ∃ q', QueryAll.new w' b g i x = .ok (q', b') ∧ q'.iter = q.iter ∧ q'.items = q.items ∧ q'.slice = q.slice) := by
  obtain ⟨v, h1, h2⟩ := C58_partial hr hl
  obtain ⟨v', h3, h4⟩ := C58_partial hr' hl'
  have e1 := h1.run
  have e2 := h3.run
  rw [show (erase K h').map (·.1) = (erase K h).map (·.1) from he, e1] at e2
  have hv : v' = v := by
    simp only [Option.some.injEq, Prod.mk.injEq] at e2
    exact e2.2.symm
  subst hv
  refine ⟨by rw [← h4.entities, h2.entities], fun t => by rw [← h4.registered, h2.registered],
    fun t ht => by rw [← h4.borrow t ht, h2.borrow t ht], fun g i x hm b => by rw [← h4.one g i x hm b, h2.one g i x hm b],
    fun g i x hm b q b' hq => ?_⟩
  obtain ⟨q1, i1, i2, i3, i4⟩ := h2.all g i x hm b q b' hq
  have hex : ∃ p, QueryAll.new w' b g i x = .ok p := by
    obtain ⟨j1, j2⟩ := h4.refused g i x hm b
    rw [i1] at j1 j2
    cases hn : QueryAll.new w' b g i x with
    | ub => exact absurd (j2.1 hn) (by simp)
    | panic => exact absurd (j1.1 hn) (by simp)
    | ok p => exact ⟨p, rfl⟩
  obtain ⟨⟨q2, b2⟩, hq2⟩ := hex
  obtain ⟨q3, k1, k2, k3, k4⟩ := h4.all g i x hm b q2 b2 hq2
  rw [i1] at k1
  cases k1
  exact ⟨q2, hq2, by rw [← k2, i2], by rw [← k3, i3], by rw [← k4, i4]⟩

/-- The map of what is left of a history has the same entities, types and groups, and the same components of the types in
`K`. -/
theorem C58_map (K : List TypeId) (h : History V) :
    (mapOf (calls (erase K h))).life = (mapOf (calls h)).life ∧ (mapOf (calls (erase K h))).reg = (mapOf (calls h)).reg ∧
    (mapOf (calls (erase K h))).groups = (mapOf (calls h)).groups ∧
    (∀ t ∈ K, ∀ e, (mapOf (calls (erase K h))).table.get t e = (mapOf (calls h)).table.get t e) ∧
    ∀ t, t ∉ K → ∀ e, (mapOf (calls (erase K h))).table.get t e = none := by
  rw [mapOf_erase]
  exact ⟨rfl, rfl, rfl, fun t ht e => Table.on_get ht e, fun t ht e => Table.on_get_out ht e⟩

/-- **C58.** So the defects of grouping stay within families: if what is left of the history on the types in `K` keeps clear
of them, the entities and the components of these types are those of the map, whatever was done to the other types. -/
theorem C58_reads_partial {h : History V} {w : World V} (hr : Reach World.empty h w) {K : List TypeId}
    (hl : LaysFor K (calls h)) (hf : Fair (calls (erase K h))) :
    (∀ e, w.containsEntity e = true ↔ e ∈ (mapOf (calls h)).life.alive) ∧
    (∀ t, w.isRegistered t = true ↔ t ∈ (mapOf (calls h)).reg) ∧
    ∀ t ∈ K, w.ShowsAs t (mapOf (calls h)) := by
  obtain ⟨B, w', h1, h2⟩ := reach_agree hr hl
  have hi := reach_invL h1 hf
  obtain ⟨m1, m2, _, m3, _⟩ := C58_map K h
  refine ⟨fun e => ?_, fun t => ?_, fun t ht hreg => ?_⟩
  · rw [← m1, ← hi.contains_iff e]
    show w.entities.contains e = true ↔ w'.entities.contains e = true
    rw [h2.ents]
  · rw [← m2, ← hi.registered_iff t, h2.registered]
  · obtain ⟨x, i1, i2, i3, i4, i5, i6⟩ := hi.showsAs t (by rw [h2.registered]; exact hreg)
    refine ⟨x, by rw [← h2.borrow ht]; exact i1, fun e => ?_, i3, i4, fun e => ?_, fun i e hx => ?_⟩
    · rw [← h2.viewGet ht, i2, m3 t ht]
    · rw [i5, m3 t ht]
    · rw [i6 i e hx, m3 t ht]

/-- **C58.** Queries over the types in `K` yield what the map of the remaining calls says (`C53_yields_partial`). -/
theorem C58_yields_partial {h : History V} {w : World V} (hr : Reach World.empty h w) {K : List TypeId}
    (hl : LaysFor K (calls h)) (hf : Fair (calls (erase K h))) {b b' : Borrows} {g i x : Query} {q : QueryAll V}
    (hm : ∀ t ∈ mentions g i x, t ∈ K) (hq : QueryAll.new w b g i x = .ok (q, b')) :
    ∃ (es : List Entity) (its : List (Item V)), q.items = .ok its ∧ es.Nodup ∧
      its.map (fun it => some it.shown) = es.map (fun e => shows (mapOf (calls (erase K h))).table e g) ∧
      ∀ e, e ∈ es ↔ (mapOf (calls (erase K h))).Yields (hidden (calls (erase K h))) g i x e := by
  obtain ⟨w', h1, h2⟩ := C58_partial hr hl
  obtain ⟨q', h3, _, h4, _⟩ := h2.all g i x hm b q b' hq
  rw [← h4]
  exact C53_yields_partial h1 hf h3

/-- **C58.** The last call answers what the map answers, without the types outside of `K`. -/
theorem C58_answers_partial {h : History V} {op : Op V} {r : Ret V} {w : World V}
    (hr : Reach World.empty (h ++ [(op, r)]) w) {K : List TypeId} (hl : LaysFor K (calls (h ++ [(op, r)])))
    (hf : Fair (calls (erase K (h ++ [(op, r)])))) {op' : Op V} (ho : (mapOf (calls h)).eraseOp K op = some op') :
    (mapOf (calls h)).eraseRet K op r = (mapOf (calls h)).eraseRet K op ((mapOf (calls h)).answer op) := by
  obtain ⟨w', h1, _⟩ := C58_partial hr hl
  obtain ⟨ws, h2, _⟩ := C42_partial hf
  have h3 := h1.run
  rw [show (erase K (h ++ [(op, r)])).map (·.1) = calls (erase K (h ++ [(op, r)])) from rfl, h2] at h3
  simp only [Option.some.injEq, Prod.mk.injEq] at h3
  have h4 := h3.1
  rw [erase_snoc, ho] at h4
  simp only [Option.toList_some, List.map_cons, List.map_nil, calls_snoc, List.map_append] at h4
  rw [MapWorld.answers_append] at h4
  have h5 := List.append_inj_right' h4 (by simp [MapWorld.answers])
  simp only [MapWorld.answers, List.cons.injEq, and_true] at h5
  have hs := (mapOf (calls h)).eraseSim K op
  unfold MapWorld.EraseSim at hs
  rw [ho] at hs
  rw [← hs.1, ← mapOf_erase, ← h5]
  rfl

/-- **C58.** Further calls about types in `K` run into undefined behaviour exactly if they do so without the other types, and
answer the same; afterwards the worlds can still not be told apart. -/
theorem C58_calls_partial {h : History V} {w w' : World V} (hr : Reach World.empty h w) {K : List TypeId}
    (hl : LaysFor K (calls h)) (hr' : Reach World.empty (erase K h) w') {ops : List (Op V)} (ho : ∀ op ∈ ops, op.Within K) :
    (run w ops = none ↔ run w' ops = none) ∧
    ∀ rs w2, run w ops = some (rs, w2) → ∃ w2', run w' ops = some (rs, w2') ∧ SameOn K w2 w2' := by
  obtain ⟨B, w1, h1, h2⟩ := reach_agree hr hl
  have e1 := h1.run
  rw [hr'.run] at e1
  simp only [Option.some.injEq, Prod.mk.injEq, true_and] at e1
  subst e1
  have hfwd : ∀ rs w2, run w ops = some (rs, w2) → ∃ w2', run w' ops = some (rs, w2') ∧ SameOn K w2 w2' := by
    intro rs w2 h3
    obtain ⟨w2', B2, h4, h5⟩ := h2.run_fwd ops hr hl ho h3
    exact ⟨w2', h4, h5.sameOn⟩
  refine ⟨⟨fun h3 => ?_, fun h3 => ?_⟩, hfwd⟩
  · cases h4 : run w' ops with
    | none => rfl
    | some x =>
      obtain ⟨rs, w2'⟩ := x
      obtain ⟨w2, _, h5, _⟩ := h2.run_back ops hr hl ho h4
      rw [h3] at h5
      cases h5
  · cases h4 : run w ops with
    | none => rfl
    | some x =>
      obtain ⟨rs, w2⟩ := x
      obtain ⟨w2', h5, _⟩ := hfwd rs w2 h4
      rw [h3] at h5
      cases h5

/-- **C58.** So calls about types in `K` never run into undefined behaviour, and answer what the map answers, if what is
left of the history keeps clear of the defects, whatever was done to the other types. -/
theorem C58_safe_partial {h : History V} {w : World V} (hr : Reach World.empty h w) {K : List TypeId}
    (hl : LaysFor K (calls h)) {ops : List (Op V)} (ho : ∀ op ∈ ops, op.Within K) (hf : Fair (calls (erase K h) ++ ops)) :
    ∃ w2, run w ops = some ((mapOf (calls h)).answers ops, w2) := by
  obtain ⟨B, w', h1, h2⟩ := reach_agree hr hl
  obtain ⟨w2', h3, _⟩ := C42_partial hf
  have h4 := h1.run
  obtain ⟨rs1, h5, h6⟩ := run_append_of _ ops h4 h3
  obtain ⟨w2, _, h7, _⟩ := h2.run_back ops hr hl ho h5
  refine ⟨w2, ?_⟩
  rw [MapWorld.answers_append] at h6
  have hlen : (MapWorld.init.answers (calls (erase K h))).length = ((erase K h).map (·.2)).length := by
    rw [MapWorld.answers_count]; simp [calls]
  have h8 := List.append_inj_right h6 hlen
  have h9 : MapWorld.init.run (calls (erase K h)) = (mapOf (calls h)).onTypes K := mapOf_erase K h
  rw [h7, ← h8, h9, MapWorld.answers_within ops _ ho]

/-- **C58.** Queries over the types in `K` are then built, iterated and sliced without undefined behaviour, and once built
without panic. -/
theorem C58_query_partial {h : History V} {w : World V} (hr : Reach World.empty h w) {K : List TypeId}
    (hl : LaysFor K (calls h)) (hf : Fair (calls (erase K h))) (b : Borrows) {g i x : Query}
    (hm : ∀ t ∈ mentions g i x, t ∈ K) :
    QueryAll.new w b g i x ≠ .ub ∧ QueryOne.new w b g i x ≠ .ub ∧
    (∀ q b', QueryOne.new w b g i x = .ok (q, b') → ∀ e, ∃ r, q.getItem e = .ok r) ∧
    ∀ q b', QueryAll.new w b g i x = .ok (q, b') → (∃ r, q.slice = .ok r) ∧ ∃ it, q.iter = .ok it ∧
      (∃ xs, it.fold = .ok xs) ∧ (∀ n, ∃ r, it.nexts n = .ok r) ∧ ∀ t, ∃ r, it.par t = .ok r := by
  obtain ⟨w', h1, h2⟩ := C58_partial hr hl
  obtain ⟨c1, c2, c3, c4⟩ := C31_query_partial h1 hf b g i x
  refine ⟨fun hc => c1 ((h2.refused g i x hm b).2.1 hc), fun hc => c2 ?_, fun q b' hq => c3 q b' ?_, fun q b' hq => ?_⟩
  · rw [h2.one g i x hm b]; exact hc
  · rw [h2.one g i x hm b]; exact hq
  · obtain ⟨q', h3, h4, _, h5⟩ := h2.all g i x hm b q b' hq
    rw [← h4, ← h5]
    exact c4 q' b' h3

/-! ### An example -/

/-- Types 0 and 1 form a group, types 2 and 3 another one. The set of type 1 is corrupted (finding 9). Entities have
components of both families, and calls name types of both. -/
def familyOps : List (Op Nat) :=
  [.setLayout anyOrder [[0, 1], [2, 3]], .create [], .destroy ⟨0, 1⟩, .create [(1, 10)], .create [(1, 20), (2, 200)],
    .insert ⟨1, 1⟩ [(0, 30)], .create [(1, 1), (2, 2), (0, 3)], .create [(3, 40), (2, 41), (0, 42)],
    .insert ⟨1, 1⟩ [(1, 21), (3, 301)], .write 1 ⟨2, 1⟩ 9, .write 2 ⟨1, 1⟩ 205, .delete ⟨0, 2⟩ [1],
    .extend [1, 3, 2] ⟨[[50, 51, 52]], false⟩, .create [(3, 60), (8, 61), (2, 62)], .remove ⟨3, 1⟩ [1, 2]]

/-- The history, the types 2 and 3, and queries over them meet the hypotheses of all theorems. A component of type 1 that was
deleted is still there. -/
example : ∃ rs w, Reach World.empty (familyOps.zip rs) w ∧ calls (familyOps.zip rs) = familyOps ∧
    (∃ r, rs = rs.dropLast ++ [r] ∧ r = .values [none, some 41]) ∧
    LaysFor [2, 3] familyOps ∧ ¬ Fair familyOps ∧ Fair (calls (erase [2, 3] (familyOps.zip rs))) ∧
    (erase [2, 3] (familyOps.zip rs)).length = 14 ∧
    (∀ t ∈ mentions [.entity, .ref 2, .ref 3] [] [] ++ mentions [.entity, .ref 2] [] [.ref 3], t ∈ [2, 3]) ∧
    shownBy w [.entity, .ref 2, .ref 3] [] [] = some [[.entity ⟨4, 1⟩, .comp 52, .comp 51],
      [.entity ⟨1, 1⟩, .comp 205, .comp 301]] ∧
    shownBy w [.entity, .ref 2] [] [.ref 3] = some [[.entity ⟨2, 1⟩, .comp 2]] ∧
    (mapOf familyOps).table.get 1 ⟨0, 2⟩ = none ∧
    shownBy w [.entity, .ref 1] [] [.ref 0] = some [[.entity ⟨0, 2⟩, .comp 10], [.entity ⟨4, 1⟩, .comp 50]] := by
  obtain ⟨rs, w, h1, h2⟩ := reach_witness (V := Nat) (ops := familyOps) (f := fun (rs : List (Ret Nat)) w =>
    decide (familyOps.length = rs.length ∧ rs.getLast? = some (.values [none, some 41])) &&
    decide (LaysFor [2, 3] familyOps ∧ ¬ Fair familyOps ∧ Fair (calls (erase [2, 3] (familyOps.zip rs))) ∧
    (erase [2, 3] (familyOps.zip rs)).length = 14 ∧
    (∀ t ∈ mentions [.entity, .ref 2, .ref 3] [] [] ++ mentions [.entity, .ref 2] [] [.ref 3], t ∈ [2, 3]) ∧
    shownBy w [.entity, .ref 2, .ref 3] [] [] = some [[.entity ⟨4, 1⟩, .comp 52, .comp 51],
      [.entity ⟨1, 1⟩, .comp 205, .comp 301]] ∧
    shownBy w [.entity, .ref 2] [] [.ref 3] = some [[.entity ⟨2, 1⟩, .comp 2]] ∧
    (mapOf familyOps).table.get 1 ⟨0, 2⟩ = none ∧
    shownBy w [.entity, .ref 1] [] [.ref 0] = some [[.entity ⟨0, 2⟩, .comp 10], [.entity ⟨4, 1⟩, .comp 50]]))
    (by decide +kernel)
  rw [Bool.and_eq_true] at h2
  obtain ⟨h3, h4⟩ := of_decide_eq_true h2.1
  refine ⟨rs, w, h1, ?_, ⟨_, ?_, rfl⟩, of_decide_eq_true h2.2⟩
  · unfold calls
    rw [List.map_fst_zip (by omega)]
  · exact (List.dropLast_append_getLast? _ h4).symm

/-- Two different histories as in `C58_same_partial`: the one above and what is left of it. -/
example : ∃ (h h' : History Nat) (w w' : World Nat), Reach World.empty h w ∧ Reach World.empty h' w' ∧
    LaysFor [2, 3] (calls h) ∧ LaysFor [2, 3] (calls h') ∧ calls (erase [2, 3] h') = calls (erase [2, 3] h) ∧
    h'.length < h.length := by
  obtain ⟨rs, w, h1, h2⟩ := reach_witness (V := Nat) (ops := familyOps) (f := fun (rs : List (Ret Nat)) _ =>
    decide (LaysFor [2, 3] (calls (familyOps.zip rs)) ∧ LaysFor [2, 3] (calls (erase [2, 3] (familyOps.zip rs))) ∧
      (erase [2, 3] (familyOps.zip rs)).length < (familyOps.zip rs).length)) (by decide +kernel)
  obtain ⟨h3, h4, h5⟩ := of_decide_eq_true h2
  obtain ⟨w', h6, _⟩ := C58_partial h1 h3
  exact ⟨_, _, w, w', h1, h6, h3, h4, calls_erase_twice _ _, h5⟩

/-- The calls of `C31_false` up to the one that runs into undefined behaviour, in a world with a second family. -/
def brokenOps : List (Op Nat) :=
  [.setLayout anyOrder [[0, 1], [2, 3]], .create [], .maintain, .destroy ⟨0, 1⟩, .create [(0, 10)],
    .create [(0, 20), (1, 30), (2, 1)], .delete ⟨1, 1⟩ [1]]

/-- Calls about the types of the second family. -/
def safeOps : List (Op Nat) :=
  [.insert ⟨1, 1⟩ [(3, 5)], .createAtomic, .create [(2, 6), (3, 7)], .register 9, .write 3 ⟨1, 1⟩ 8, .maintain,
    .extend [3] ⟨[[1], [2]], false⟩, .remove ⟨1, 1⟩ [2, 3], .insert ⟨3, 1⟩ [(9, 1)], .delete ⟨3, 1⟩ [2]]

/-- The hypotheses of `C58_calls_partial`, `C58_safe_partial` and `C58_query_partial`: the next call about the first family is
undefined behaviour. -/
example : ∃ rs w, Reach World.empty (brokenOps.zip rs) w ∧ LaysFor [2, 3, 9] (calls (brokenOps.zip rs)) ∧
    (∀ op ∈ safeOps, op.Within [2, 3, 9]) ∧ Fair (calls (erase [2, 3, 9] (brokenOps.zip rs)) ++ safeOps) ∧
    (∀ t ∈ mentions [.entity, .ref 2] [.ref 3] [], t ∈ [2, 3, 9]) ∧
    run w [.create [(0, 50), (1, 60)]] = none ∧
    (mapOf (calls (brokenOps.zip rs))).answers safeOps = [.bool true, .entity ⟨2, 1⟩, .entity ⟨3, 1⟩, .bool true, .bool true,
      .unit, .entities [⟨4, 1⟩, ⟨5, 1⟩], .values [some 1, some 8], .bool true, .unit] := by
  obtain ⟨rs, w, h1, h2⟩ := reach_witness (V := Nat) (ops := brokenOps) (f := fun (rs : List (Ret Nat)) w =>
    decide (LaysFor [2, 3, 9] (calls (brokenOps.zip rs)) ∧
    (∀ op ∈ safeOps, op.Within [2, 3, 9]) ∧ Fair (calls (erase [2, 3, 9] (brokenOps.zip rs)) ++ safeOps) ∧
    (∀ t ∈ mentions [.entity, .ref 2] [.ref 3] [], t ∈ [2, 3, 9]) ∧
    (run w [.create [(0, 50), (1, 60)]]).isNone = true ∧
    (mapOf (calls (brokenOps.zip rs))).answers safeOps = [.bool true, .entity ⟨2, 1⟩, .entity ⟨3, 1⟩, .bool true, .bool true,
      .unit, .entities [⟨4, 1⟩, ⟨5, 1⟩], .values [some 1, some 8], .bool true, .unit])) (by decide +kernel)
  obtain ⟨i1, i2, i3, i4, i5, i6⟩ := of_decide_eq_true h2
  exact ⟨rs, w, h1, i1, i2, i3, i4, by simpa using i5, i6⟩

end Sparsey
