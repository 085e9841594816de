import Verif.Proofs.Moves
import Verif.Proofs.Settled
import Verif.Properties.Rows

/-!
C67: how many positions of a view a call changes. Entering or leaving a group exchanges an entity with one other; nothing else
moves, and the views of types that are in no group with the types named keep every position.
-/

set_option autoImplicit false
set_option linter.unusedSimpArgs false

namespace Sparsey
variable {V : Type}

/-! ### Groups of the storage and groups of the layout -/

theorem countP_same {α β : Type} {p : α → Bool} {q : β → Bool} : ∀ {a : List α} {b : List β}, a.length = b.length →
    (∀ (i : Nat) x y, a[i]? = some x → b[i]? = some y → p x = q y) → a.countP p = b.countP q
  | [], [], _, _ => rfl
  | [], _ :: _, h, _ => by cases h
  | _ :: _, [], h, _ => by cases h
  | x :: a, y :: b, h, hpq => by
    rw [List.countP_cons, List.countP_cons, hpq 0 x y rfl rfl,
      countP_same (by simpa using h) fun i x y h1 h2 => hpq (i + 1) x y h1 h2]

theorem LayStat.pick {c : ComponentStorage V} {gl : List (List TypeId)} (h : LayStat c gl) {i : Nat} {g : Group} {ts : List TypeId}
    (hg : c.groups[i]? = some g) (ht : gl[i]? = some ts) (t : TypeId) :
    t ∈ ts ↔ ∃ m, c.meta? t = some m ∧ InRange g m.storageIndex := by
  obtain ⟨ts', h1, h2⟩ := h.group_types hg
  rw [ht] at h1
  cases h1
  exact h2 t

theorem LayStat.countOf_eq {c : ComponentStorage V} {gl : List (List TypeId)} (h : LayStat c gl) (t : TypeId) :
    c.countOf t = groupsWith gl t := by
  unfold ComponentStorage.countOf groupsWith
  cases hm : c.meta? t with
  | none =>
    refine (List.countP_eq_zero.2 fun ts hts => ?_).symm
    obtain ⟨i, hi⟩ := List.mem_iff_getElem?.1 hts
    have hlt : i < c.groups.length := by
      have := (List.getElem?_eq_some_iff.1 hi).1
      have := h.groups.1
      omega
    have := h.pick (List.getElem?_eq_getElem hlt) hi t
    simp [hm] at this
    simpa using this
  | some m =>
    refine countP_same h.groups.1.symm fun i g ts h1 h2 => ?_
    have := h.pick h1 h2 t
    simp only [hm, Option.some.injEq, exists_eq_left'] at this
    exact decide_eq_decide.2 this.symm

/-- The groups in which a type is together with one of the types. -/
theorem LayStat.crossed_del {c : ComponentStorage V} {gl : List (List TypeId)} (h : LayStat c gl) {ts : List TypeId} {m : GroupMask}
    (hm : c.MaskOn (·.deleteMask) ts m) (t : TypeId) :
    c.crossed m t ≤ gl.countP fun g => decide (t ∈ g ∧ ∃ x ∈ ts, x ∈ g) := by
  unfold ComponentStorage.crossed
  cases ht : c.meta? t with
  | none => exact Nat.zero_le _
  | some md =>
    have h1 : countOn m c.groups.zipIdx md.storageIndex ≤
        c.groups.zipIdx.countP fun p => decide ((gl[p.2]?).any fun g => decide (t ∈ g ∧ ∃ x ∈ ts, x ∈ g)) := by
      refine List.countP_mono_left fun p hp hq => ?_
      obtain ⟨g, i⟩ := p
      have hg : c.groups[i]? = some g := by
        have := List.mk_mem_zipIdx_iff_getElem?.1 hp
        exact this
      simp only [Bool.and_eq_true, decide_eq_true_eq] at hq
      obtain ⟨ts', k1, k2⟩ := h.group_types hg
      simp only [k1, Option.any_some, decide_eq_true_eq]
      refine ⟨(k2 t).2 ⟨md, ht, hq.2⟩, ?_⟩
      obtain ⟨x, hx, md', k3, k4⟩ := hm i hq.1
      obtain ⟨g', k5, k6⟩ := (h.store.mds.del x md' i k3).1 k4
      rw [hg] at k5
      cases k5
      exact ⟨x, hx, (k2 x).2 ⟨md', k3, k6⟩⟩
    refine Nat.le_trans h1 (Nat.le_of_eq ?_)
    refine countP_same (by rw [List.length_zipIdx]; exact h.groups.1.symm) fun i p g h2 h3 => ?_
    obtain ⟨g', j⟩ := p
    rw [List.getElem?_zipIdx] at h2
    cases hx : c.groups[i]? with
    | none => rw [hx] at h2; cases h2
    | some g0 =>
      rw [hx] at h2
      simp only [Option.map_some, Nat.zero_add, Option.some.injEq, Prod.mk.injEq] at h2
      obtain ⟨rfl, rfl⟩ := h2
      simp [h3]

/-- All groups of a type, if one of them contains one of the types. -/
theorem LayStat.crossed_ins {c : ComponentStorage V} {gl : List (List TypeId)} (h : LayStat c gl) {ts : List TypeId} {m : GroupMask}
    (hm : c.MaskOn (·.insertMask) ts m) (t : TypeId) : c.crossed m t ≤ Op.visits.together gl t ts := by
  unfold Op.visits.together
  split
  · rw [← h.countOf_eq]
    exact c.crossed_le m t
  · rename_i hno
    unfold ComponentStorage.crossed
    cases ht : c.meta? t with
    | none => exact Nat.zero_le _
    | some md =>
      refine Nat.le_of_eq (List.countP_eq_zero.2 fun p hp hq => hno ?_)
      obtain ⟨g, i⟩ := p
      have hg : c.groups[i]? = some g := List.mk_mem_zipIdx_iff_getElem?.1 hp
      simp only [Bool.and_eq_true, decide_eq_true_eq] at hq
      obtain ⟨x, hx, md', k3, k4⟩ := hm i hq.1
      obtain ⟨g1, k', g', k5, k6, k7, k8⟩ := (h.store.mds.ins x md' i k3).1 k4
      rw [hg] at k5
      cases k5
      -- the larger of the two groups has both types
      have hr : InRange g md.storageIndex := hq.2
      unfold InRange at hr k8
      rcases Nat.le_total g.storageEnd g'.storageEnd with hle | hle
      · obtain ⟨ts', j1, j2⟩ := h.group_types k6
        exact ⟨ts', List.mem_of_getElem? j1, (j2 t).2 ⟨md, ht, by unfold InRange; omega⟩, x, hx,
          (j2 x).2 ⟨md', k3, by unfold InRange; omega⟩⟩
      · obtain ⟨ts', j1, j2⟩ := h.group_types hg
        exact ⟨ts', List.mem_of_getElem? j1, (j2 t).2 ⟨md, ht, by unfold InRange; omega⟩, x, hx,
          (j2 x).2 ⟨md', k3, by unfold InRange; omega⟩⟩

/-! ### Calls -/

theorem extendEach_moves (t : TypeId) (ts : List TypeId) : ∀ (items : List (List V)) (w : World V), EntOk w.entities →
    Static w.components → AllSets CompSet.IdxOk w.components.components → (∀ x ∈ ts, (w.components.meta? x).isSome) →
    (World.extendEach (ts.map w.components.idxOf) items w).Leaves (fun w' =>
      DiffersAt (if t ∈ ts then items.length else 0) (w.components.rowsAt t) (w'.components.rowsAt t) ∧
      AllSets CompSet.IdxOk w'.components.components)
  | [], w, _, _, ha, _ => ⟨DiffersAt.refl _ _, ha⟩
  | vs :: items, w, he, hc, ha, hk => by
    rw [World.extendEach]
    rcases he.create with h1 | ⟨e, es, h1, h2, h3⟩
    · rw [h1]
      exact ⟨DiffersAt.refl _ _, ha⟩
    · rw [h1]
      simp only [Outcome.ofRes_ok]
      cases hi : w.components.insertAt e ((ts.map w.components.idxOf).zip vs) with
      | ub => trivial
      | panic => exact absurd hi (ComponentStorage.insertAt_ne_panic _ _)
      | ok c =>
        simp only [Outcome.ofRes_ok]
        have i1 := (ComponentStorage.insertAt_put h2 t ts vs w.components c hc ha hk hi).one
        have i2 := ComponentStorage.insertAt_shape _ _ _ hi
        have ih := extendEach_moves t ts items ⟨es, c⟩ h3 (hc.of_shape i2) (stable_idx.insertAt h2 _ ha hi)
          (fun x hx => by rw [i2.meta?]; exact hk x hx)
        rw [ComponentStorage.idxOf_same (c := w.components) (c' := c) i2.md] at ih
        have hfin : ∀ l, DiffersAt (if t ∈ ts then items.length else 0) (c.rowsAt t) l →
            DiffersAt (if t ∈ ts then (vs :: items).length else 0) (w.components.rowsAt t) l := by
          intro l hl
          refine (i1.trans hl).mono ?_
          rw [List.length_cons]
          split <;> omega
        revert ih
        cases World.extendEach (ts.map w.components.idxOf) items ⟨es, c⟩ with
        | ub => exact fun _ => trivial
        | ok u w' => exact fun ih => ⟨hfin _ ih.1, ih.2⟩
        | panic w' => exact fun ih => ⟨hfin _ ih.1, ih.2⟩

theorem extend_moves {w : World V} (he : EntOk w.entities) (hc : Sound w.components) (t : TypeId) (ts : List TypeId)
    (it : Items V) :
    match w.extend ts it with
    | .ok es w' => ∃ m, w.components.MaskOn (·.insertMask) ts m ∧
        DiffersAt ((if t ∈ ts then it.items.length else 0) + es.length * slide (w.components.crossed m t))
          (w.components.rowsAt t) (w'.components.rowsAt t)
    | .panic w' => DiffersAt (if t ∈ ts then it.items.length else 0) (w.components.rowsAt t) (w'.components.rowsAt t)
    | .ub => True := by
  unfold World.extend
  cases hl : w.components.lookupAll (·.insertMask) ts with
  | panic => exact DiffersAt.refl _ _
  | ub => trivial
  | ok p =>
    obtain ⟨idxs, mask⟩ := p
    have hmask := ComponentStorage.lookupAll_maskOn ts hl
    obtain ⟨rfl, hk⟩ := lookupAll_idxs ts hl
    simp only [Outcome.ofRes_ok]
    have h1 := extendEach_moves t ts it.items w he hc.static hc.sets hk
    have h2 := extendEach_shape (idxs := ts.map w.components.idxOf) it.items w
    revert h1 h2
    cases World.extendEach (ts.map w.components.idxOf) it.items w with
    | ub => exact fun _ _ => trivial
    | panic w1 => exact fun h1 _ => h1.1
    | ok u w1 =>
      intro h1 h2
      obtain ⟨h1, h1'⟩ := h1
      simp only [Outcome.bind_ok]
      by_cases hp : it.thenPanics = true
      · rw [if_pos hp]
        exact h1
      · rw [if_neg hp]
        by_cases hlen : w1.entities.asSlice.length < w.entities.len
        · rw [if_pos hlen]
          trivial
        · rw [if_neg hlen]
          cases hg : w1.components.withMask mask
            (ComponentStorage.groupEntities mask (w1.entities.asSlice.drop w.entities.len)) with
          | ub => trivial
          | panic => exact h1
          | ok c2 =>
            refine ⟨mask, hmask, h1.trans ?_⟩
            rw [← ComponentStorage.crossed_shape h2]
            exact ComponentStorage.withMask_groupEntities h1' hg t

/-- What a call visits, in terms of the storage. -/
def Op.Visits (w w' : World V) (t : TypeId) : Op V → Nat → Prop
  | .create vs, k => ∃ m, w.components.MaskOn (·.insertMask) (vs.map (·.1)) m ∧ k = w.components.crossed m t
  | .insert _ vs, k => ∃ m, w.components.MaskOn (·.insertMask) (vs.map (·.1)) m ∧ k = w.components.crossed m t
  | .extend ts _, k => ∃ m, w.components.MaskOn (·.insertMask) ts m ∧ k = w.components.crossed m t
  | .remove _ ts, k => ∃ m, w.components.MaskOn (·.deleteMask) ts m ∧ k = w.components.crossed m t
  | .delete _ ts, k => ∃ m, w.components.MaskOn (·.deleteMask) ts m ∧ k = w.components.crossed m t
  | .destroy _, k => k = w.components.countOf t
  | .setLayout _ _, k => k = w'.components.countOf t
  | _, k => k = 0

/-- The rows of the type are not lost: the layout has it once and the call ends. -/
def Op.keepsRows (t : TypeId) : Op V → Ret V → Prop
  | .setLayout _ gs, r => (layoutTypes (GroupLayout.build gs).2).count t ≤ 1 ∧ r = .unit
  | _, _ => True

theorem step_moves {w w' : World V} {op : Op V} {r : Ret V} (he : EntOk w.entities) (hc : Sound w.components)
    (hk : (w.components.metadata.map Prod.fst).Nodup) (hs : step w op = some (r, w')) (hne : ¬ op.empties) {t : TypeId}
    (hkeep : op.keepsRows t r) : ∃ k, op.Visits w w' t k ∧
      DiffersAt (op.mayMove t k w.entitiesSlice.length r) (w.rows t) (w'.rows t) := by
  rw [rows_eq, rows_eq]
  cases op with
  | create vs =>
    simp only [Op.Visits, Op.mayMove, step] at hs ⊢
    refine retOutcome_some (P := fun w' => ∃ k, (∃ m, w.components.MaskOn (·.insertMask) (vs.map (·.1)) m ∧
      k = w.components.crossed m t) ∧ DiffersAt (if t ∈ vs.map (·.1) then k + 1 else slide k) (w.components.rowsAt t)
        (w'.components.rowsAt t)) hs ?_
    unfold World.create
    rcases he.create with h1 | ⟨e, es, h1, h2, h3⟩
    · rw [h1]
      exact ⟨_, ⟨0#64, ComponentStorage.MaskOn.zero _ _ _, rfl⟩, DiffersAt.refl _ _⟩
    · rw [h1]
      simp only [Outcome.ofRes_ok]
      have h4 := ComponentStorage.insert_moves h2 t vs hc.static hc.sets
      unfold World.insertSet
      simp only
      revert h4
      cases w.components.insert e vs with
      | ub => exact fun _ => trivial
      | ok u c => exact fun ⟨m, k1, k2⟩ => ⟨_, ⟨m, k1, rfl⟩, k2⟩
      | panic c => exact fun ⟨m, k1, k2⟩ => ⟨_, ⟨m, k1, rfl⟩, k2⟩
  | insert e vs =>
    simp only [Op.Visits, Op.mayMove, step] at hs ⊢
    refine retOutcome_some (P := fun w' => ∃ k, (∃ m, w.components.MaskOn (·.insertMask) (vs.map (·.1)) m ∧
      k = w.components.crossed m t) ∧ DiffersAt (if t ∈ vs.map (·.1) then k + 1 else slide k) (w.components.rowsAt t)
        (w'.components.rowsAt t)) hs ?_
    unfold World.insert
    split
    · exact ⟨_, ⟨0#64, ComponentStorage.MaskOn.zero _ _ _, rfl⟩, DiffersAt.refl _ _⟩
    · rename_i hx
      have hx : w.entities.contains e = true := by simpa using hx
      have he' : e.index < u32Size := he.small_of_contains hx
      have h4 := ComponentStorage.insert_moves he' t vs hc.static hc.sets
      unfold World.insertSet
      revert h4
      cases w.components.insert e vs with
      | ub => exact fun _ => trivial
      | ok u c => exact fun ⟨m, k1, k2⟩ => ⟨_, ⟨m, k1, rfl⟩, k2⟩
      | panic c => exact fun ⟨m, k1, k2⟩ => ⟨_, ⟨m, k1, rfl⟩, k2⟩
  | extend ts it =>
    simp only [Op.Visits]
    simp only [step] at hs
    have h := extend_moves he hc t ts it
    cases hx : w.extend ts it with
    | ub => rw [hx] at hs; cases hs
    | panic w1 =>
      rw [hx] at hs h
      cases hs
      exact ⟨_, ⟨0#64, ComponentStorage.MaskOn.zero _ _ _, rfl⟩, h⟩
    | ok es w1 =>
      rw [hx] at hs h
      cases hs
      obtain ⟨m, k1, k2⟩ := h
      exact ⟨_, ⟨m, k1, rfl⟩, k2⟩
  | remove e ts =>
    simp only [Op.Visits, Op.mayMove]
    simp only [step] at hs
    rcases retRes_split hs with ⟨⟨vs, w1⟩, h1, h2⟩ | ⟨h1, h2⟩
    · cases h2
      unfold World.remove at h1
      obtain ⟨⟨vs', c⟩, h3, h1⟩ := Res.bind_ok' h1
      cases h1
      obtain ⟨m, k1, k2⟩ := ComponentStorage.remove_moves hc.static hc.sets h3 t
      exact ⟨_, ⟨m, k1, rfl⟩, k2⟩
    · cases h2
      exact ⟨_, ⟨0#64, ComponentStorage.MaskOn.zero _ _ _, rfl⟩, DiffersAt.refl _ _⟩
  | delete e ts =>
    simp only [Op.Visits, Op.mayMove]
    simp only [step] at hs
    rcases retRes_split hs with ⟨w1, h1, h2⟩ | ⟨h1, h2⟩
    · cases h2
      unfold World.delete at h1
      obtain ⟨c, h3, h1⟩ := Res.bind_ok' h1
      cases h1
      obtain ⟨m, k1, k2⟩ := ComponentStorage.delete_moves hc.static hc.sets h3 t
      exact ⟨_, ⟨m, k1, rfl⟩, k2⟩
    · cases h2
      exact ⟨_, ⟨0#64, ComponentStorage.MaskOn.zero _ _ _, rfl⟩, DiffersAt.refl _ _⟩
  | destroy e =>
    refine ⟨_, rfl, ?_⟩
    simp only [step] at hs
    rcases retRes_split hs with ⟨⟨b, w1⟩, h1, h2⟩ | ⟨h1, h2⟩
    · cases h2
      unfold World.destroy at h1
      obtain ⟨⟨b', es⟩, h3, h1⟩ := Res.bind_ok' h1
      cases b' with
      | false =>
        cases h1
        exact DiffersAt.refl _ _
      | true =>
        obtain ⟨c, h4, h1⟩ := Res.bind_ok' h1
        cases h1
        exact ComponentStorage.strip_moves hc.sets h4 t
    · cases h2
      exact DiffersAt.refl _ _
  | clear => exact absurd trivial hne
  | reset => exact absurd trivial hne
  | setLayout rank gs =>
    refine ⟨_, rfl, ?_⟩
    simp only [step] at hs
    unfold World.setLayout at hs
    obtain ⟨h1, h2⟩ := hkeep
    cases hx : w.components.setLayout rank (GroupLayout.build gs).2 w.entities.asSlice with
    | ub => rw [hx] at hs; cases hs
    | panic c =>
      rw [hx] at hs
      cases hs
      cases h2
    | ok u c =>
      rw [hx] at hs
      cases hs
      exact ComponentStorage.setLayout_moves hc.static hc.sets hk (build_fams gs) hx h1
  | write t' e v =>
    refine ⟨_, rfl, ?_⟩
    have h := step_turns he hc hk hs t
    simp only [World.Turns, rows_eq] at h
    simp only [Op.mayMove]
    split at h
    · rename_i ht
      obtain ⟨x, old, i, _, _, h⟩ := h
      rw [h, if_pos ht.1]
      exact ⟨[i], by simp, fun j hj => List.getElem?_set_ne (fun h => hj (by simp [h]))⟩
    · rw [h]
      exact DiffersAt.refl _ _
  | writeAt t' pos v =>
    refine ⟨_, rfl, ?_⟩
    have h := step_turns he hc hk hs t
    simp only [World.Turns, rows_eq] at h
    simp only [Op.mayMove]
    split at h
    · rename_i ht
      obtain ⟨x, old, _, h⟩ := h
      rw [h, if_pos ht.1]
      exact ⟨[pos], by simp, fun j hj => List.getElem?_set_ne (fun h => hj (by simp [h]))⟩
    · rw [h]
      exact DiffersAt.refl _ _
  | register t' =>
    refine ⟨_, rfl, ?_⟩
    have h := step_turns he hc hk hs t
    simp only [World.Turns, rows_eq] at h
    rw [h]
    exact DiffersAt.refl _ _
  | createAtomic =>
    refine ⟨_, rfl, ?_⟩
    have h := step_turns he hc hk hs t
    simp only [World.Turns, rows_eq] at h
    rw [h]
    exact DiffersAt.refl _ _
  | maintain =>
    refine ⟨_, rfl, ?_⟩
    have h := step_turns he hc hk hs t
    simp only [World.Turns, rows_eq] at h
    rw [h]
    exact DiffersAt.refl _ _

theorem mayMove_mono {t : TypeId} {k k' n : Nat} (h : k ≤ k') (op : Op V) (r : Ret V) :
    op.mayMove t k n r ≤ op.mayMove t k' n r := by
  have h1 := slide_mono h
  have h2 := fun a => Nat.mul_le_mul_left a h1
  cases op <;> simp only [Op.mayMove]
  case extend ts it => cases r <;> simp only <;> first | omega | (rename_i es; have := h2 es.length; omega)
  case setLayout => exact h2 n
  all_goals first | omega | (split <;> omega)

/-- C67: at most so many positions of a view change in a call, if the layout set last is well formed and below the maxima. -/
theorem C67 {h : History V} {w w' : World V} {op : Op V} {r : Ret V} (hr : Reach World.empty h w)
    (hs : step w op = some (r, w')) (hn : Settled (calls (h ++ [(op, r)]))) (hne : ¬ op.empties) (t : TypeId) :
    DiffersAt (op.mayMove t (op.visits (mapOf (calls (h ++ [(op, r)]))).groups t) w.entitiesSlice.length r)
      (w.rows t) (w'.rows t) := by
  obtain ⟨he, hc⟩ := reach_sound hr
  have hcalls : calls (h ++ [(op, r)]) = calls h ++ [op] := by simp [calls]
  have hlay' := reach_lay (hr.snoc hs) hn
  rw [hcalls] at hn hlay' ⊢
  cases hl : op.layout with
  | some gs =>
    cases op <;> simp only [Op.layout, reduceCtorEq, Option.some.injEq] at hl
    rename_i rank gs'
    subst hl
    unfold Settled at hn
    rw [lastLayout_snoc] at hn
    obtain ⟨h1, h2⟩ := hn gs' rfl
    have hkeep : (Op.setLayout rank gs' : Op V).keepsRows t r := by
      refine ⟨List.nodup_iff_count_le_one.1 h1.2 t, ?_⟩
      have hp := (ComponentStorage.setLayout_bounds rank (reach_bounds hr) (build_fams gs') w.entities.asSlice).2.2 h2
      simp only [step] at hs
      unfold World.setLayout at hs
      cases hx : w.components.setLayout rank (GroupLayout.build gs').2 w.entities.asSlice with
      | ub => rw [hx] at hs; cases hs
      | panic c => exact absurd hx (hp c)
      | ok u c =>
        rw [hx] at hs
        cases hs
        rfl
    obtain ⟨k, k1, k2⟩ := step_moves he hc (reach_keys hr) hs hne hkeep
    simp only [Op.Visits] at k1
    rw [k1, hlay'.countOf_eq] at k2
    exact k2
  | none =>
    have hn0 : Settled (calls h) := by
      unfold Settled at hn ⊢
      rw [lastLayout_snoc, hl, Option.none_or] at hn
      exact hn
    have hlay := reach_lay hr hn0
    have hg : (mapOf (calls h ++ [op])).groups = (mapOf (calls h)).groups := by
      rw [mapOf_snoc]
      cases op <;> first | rfl | cases hl
    rw [hg]
    obtain ⟨k, k1, k2⟩ := step_moves he hc (reach_keys hr) hs hne (t := t) (by cases op <;> first | trivial | cases hl)
    refine k2.mono (mayMove_mono ?_ op r)
    cases op <;> simp only [Op.Visits] at k1 <;> simp only [Op.visits]
    case create => obtain ⟨m, k1, rfl⟩ := k1; exact hlay.crossed_ins k1 t
    case insert => obtain ⟨m, k1, rfl⟩ := k1; exact hlay.crossed_ins k1 t
    case extend => obtain ⟨m, k1, rfl⟩ := k1; exact hlay.crossed_ins k1 t
    case remove => obtain ⟨m, k1, rfl⟩ := k1; exact hlay.crossed_del k1 t
    case delete => obtain ⟨m, k1, rfl⟩ := k1; exact hlay.crossed_del k1 t
    case destroy => rw [k1, hlay.countOf_eq]
    case setLayout => cases hl
    all_goals omega

/-- C67, without any condition on the layouts: a call about one entity changes at most 16 positions of a view. -/
theorem C67_single {h : History V} {w w' : World V} {op : Op V} {r : Ret V} (hr : Reach World.empty h w)
    (hs : step w op = some (r, w')) (hop : op.single) (t : TypeId) : DiffersAt 16 (w.rows t) (w'.rows t) := by
  obtain ⟨he, hc⟩ := reach_sound hr
  have hf := reach_few hr t
  have hx : ∀ m, w.components.crossed m t ≤ 14 := fun m => Nat.le_trans (w.components.crossed_le m t) hf
  obtain ⟨k, h1, h2⟩ := step_moves he hc (reach_keys hr) hs (by cases op <;> simp_all [Op.single, Op.empties])
    (t := t) (by cases op <;> simp_all [Op.single, Op.keepsRows])
  have hk : k ≤ 14 := by
    cases op <;> simp only [Op.Visits] at h1 <;> first | exact hop.elim | (obtain ⟨m, _, rfl⟩ := h1; exact hx m) | omega
  refine h2.mono (Nat.le_trans (mayMove_mono hk op r) ?_)
  have h15 : slide 14 = 15 := rfl
  cases op <;> simp only [Op.mayMove, h15] <;> first | exact hop.elim | omega | (split <;> omega)

theorem DiffersAt.eq_of_zero {α : Type} {l l' : List α} (h : DiffersAt 0 l l') : l' = l := by
  obtain ⟨ps, h1, h2⟩ := h
  have : ps = [] := List.length_eq_zero_iff.1 (by omega)
  subst this
  exact List.ext_getElem? fun i => h2 i (by simp)

/-- C67, types apart: a call that does not name the type, nor any type it is grouped with, leaves its view as it is. -/
theorem C67_apart {h : History V} {w w' : World V} {op : Op V} {r : Ret V} (hr : Reach World.empty h w)
    (hs : step w op = some (r, w')) (hn : Settled (calls h)) {t : TypeId} (ht : ¬ op.names t)
    (hv : op.visits (mapOf (calls h)).groups t = 0) : w'.rows t = w.rows t := by
  have hl : op.layout = none := by cases op <;> first | rfl | exact absurd trivial ht
  have hcalls : calls (h ++ [(op, r)]) = calls h ++ [op] := by simp [calls]
  have hn' : Settled (calls (h ++ [(op, r)])) := by
    rw [hcalls]
    unfold Settled at hn ⊢
    rw [lastLayout_snoc, hl, Option.none_or]
    exact hn
  have hg : (mapOf (calls h ++ [op])).groups = (mapOf (calls h)).groups := by
    rw [mapOf_snoc]
    cases op <;> first | rfl | cases hl
  have hd := C67 hr hs hn' (by cases op <;> first | exact fun h => h | exact fun _ => ht trivial) t
  rw [hcalls, hg, hv] at hd
  have h0 : slide 0 = 0 := rfl
  refine DiffersAt.eq_of_zero (hd.mono (Nat.le_of_eq ?_))
  cases op <;> simp only [Op.names] at ht <;> simp only [Op.mayMove, h0]
  case create vs => rw [if_neg ht]
  case insert vs => rw [if_neg ht]
  case extend => cases r <;> simp only [if_neg ht, Nat.mul_zero]
  case remove => rw [if_neg ht]
  case delete => rw [if_neg ht]
  case write => rw [if_neg ht]
  case writeAt => rw [if_neg ht]
  all_goals exact absurd trivial ht

/-! ### Examples -/

/-- Three entities of which the first is in two groups, the second in one, and the third in none. -/
def moveOps : List (Op Nat) :=
  [.setLayout anyOrder [[0, 1], [0, 1, 2], [3, 4]], .create [(0, 10), (1, 11), (2, 12), (3, 13)], .create [(0, 20), (1, 21), (3, 23)],
    .create [(0, 30), (3, 33), (4, 34)], .create [(0, 40), (3, 43)]]

/-- The last entity enters both groups: three rows of type 0 move, which is what C67 allows, and no row of type 3. -/
example : Settled moveOps ∧
    (Op.insert ⟨3, 1⟩ [(1, 41), (2, 42)] : Op Nat).visits (mapOf moveOps).groups 0 = 2 ∧
    (Op.insert ⟨3, 1⟩ [(1, 41), (2, 42)] : Op Nat).visits (mapOf moveOps).groups 3 = 0 ∧
    (Op.insert ⟨3, 1⟩ [(1, 41), (2, 42)] : Op Nat).mayMove 0 2 4 (.bool true) = 3 ∧
    holdsAfter moveOps (fun _ w => decide ((w.rows 0).map (·.1.index) = [0, 1, 2, 3] ∧
      (w.rows 3).map (·.1.index) = [2, 1, 0, 3])) = true ∧
    holdsAfter (moveOps ++ [.insert ⟨3, 1⟩ [(1, 41), (2, 42)]]) (fun _ w => decide ((w.rows 0).map (·.1.index) = [0, 3, 1, 2] ∧
      (w.rows 3).map (·.1.index) = [2, 1, 0, 3])) = true := by decide

/-- Removing from the first entity: it leaves both groups and the last row fills the gap, three positions of type 0 change (at most four are allowed). -/
example : (Op.remove ⟨0, 1⟩ [0] : Op Nat).visits (mapOf moveOps).groups 0 = 2 ∧
    (Op.remove ⟨0, 1⟩ [0] : Op Nat).mayMove 0 2 4 (.values [some 10]) = 4 ∧
    holdsAfter (moveOps ++ [.remove ⟨0, 1⟩ [0]]) (fun _ w => decide ((w.rows 0).map (·.1.index) = [1, 3, 2])) = true := by decide

/-- The condition of the theorems on calls is met. -/
example : ¬ (Op.insert ⟨3, 1⟩ [(1, 41), (2, 42)] : Op Nat).names 3 ∧ ¬ (Op.insert ⟨3, 1⟩ [(1, 41)] : Op Nat).empties ∧
    (Op.insert ⟨3, 1⟩ [(1, 41)] : Op Nat).single := by simp [Op.names, Op.empties, Op.single]

end Sparsey
