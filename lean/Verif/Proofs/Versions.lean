import Verif.Proofs.Safe
import Verif.Proofs.Reach

/-!
What calls do to the entity storage, without any discipline: the entities handed out stay in range, and the queue of
destroyed indexes is first-in first-out.
-/

set_option autoImplicit false
set_option linter.unusedSimpArgs false

namespace Sparsey
variable {V : Type}

/-- The storage after up to `n` calls of `create`, up to the first panic. -/
def EntityStorage.createN : EntityStorage → Nat → EntityStorage
  | s, 0 => s
  | s, n + 1 =>
    match s.create with
    | .ok (_, s') => createN s' n
    | _ => s

/-- What a call does to the entity storage. -/
def EntStep (s : EntityStorage) : Op V → Ret V → EntityStorage → Prop
  | .create _, r, s' => (s.create = .panic ∧ r = .panicked [] ∧ s' = s) ∨
      ∃ e, s.create = .ok (e, s') ∧ (r = .entity e ∨ r = .panicked [e])
  | .extend _ it, r, s' => (r = .panicked [] ∧ s' = s) ∨
      (s' = s.createN it.items.length ∧ (r = .panicked (s.createUpTo it.items.length) ∨
        (r = .entities (s'.asSlice.drop s.len) ∧ (s.createUpTo it.items.length).length = it.items.length)))
  | .destroy e, r, s' => s' = s ∧ r = .panicked [] ∨ ∃ b, s.remove e = .ok (b, s') ∧ r = .bool b
  | .createAtomic, r, s' => (s.createAtomic = .panic ∧ r = .panicked [] ∧ s' = s) ∨
      ∃ e, s.createAtomic = .ok (e, s') ∧ r = .entity e
  | .maintain, r, s' => s.maintain = .ok s' ∧ r = .unit
  | .clear, r, s' => s.clear = .ok s' ∧ r = .unit
  | .reset, r, s' => s' = s.reset ∧ r = .unit
  | _, _, s' => s' = s

theorem extendEach_ents {idxs : List Nat} : ∀ (items : List (List V)) {w : World V}, EntOk w.entities →
    Sound w.components → (∀ i ∈ idxs, i < w.components.components.length) →
    (World.extendEach idxs items w).Leaves (fun w' => w'.entities = w.entities.createN items.length) ∧
      ∀ a w', World.extendEach idxs items w = .ok a w' → (w.entities.createUpTo items.length).length = items.length
  | [], w, _, _, _ => ⟨rfl, fun _ _ _ => rfl⟩
  | vs :: items, w, he, hc, hi => by
    rw [World.extendEach, List.length_cons, EntityStorage.createN, EntityStorage.createUpTo]
    rcases he.create with h1 | ⟨e, es, h1, h2, h3⟩
    · rw [h1]
      exact ⟨rfl, by simp⟩
    · rw [h1]
      simp only [Outcome.ofRes_ok]
      obtain ⟨c', h4, h5, h6⟩ := Sound.insertAt e h2 (idxs.zip vs) hc (fun p hp => hi p.1 (List.of_mem_zip hp).1)
      simp only [h4, Outcome.ofRes_ok]
      obtain ⟨h7, h8⟩ := extendEach_ents items (w := ⟨es, c'⟩) h3 h5 (by simpa [h6] using hi)
      exact ⟨h7, fun a w' h => by rw [List.length_cons, h8 a w' h]⟩

theorem insertSet_ents (w : World V) (e : Entity) (vs : List (TypeId × V)) :
    (w.insertSet e vs).Leaves (fun w' => w'.entities = w.entities) := by
  unfold World.insertSet
  cases w.components.insert e vs <;> trivial

theorem step_ents {w w' : World V} (he : EntOk w.entities) (hc : Sound w.components) {op : Op V} {r : Ret V}
    (hs : step w op = some (r, w')) : EntStep w.entities op r w'.entities := by
  cases op with
  | register t =>
    simp only [step, Option.some.injEq, Prod.mk.injEq] at hs
    rw [← hs.2]
    rfl
  | setLayout rank gs =>
    refine retOutcome_some (P := fun w' => w'.entities = w.entities) hs ?_
    unfold World.setLayout
    cases w.components.setLayout rank (GroupLayout.build gs).2 w.entities.asSlice <;> trivial
  | create vs =>
    simp only [step, World.create, EntityStorage.createUpTo] at hs
    simp only [EntStep]
    rcases he.create with h1 | ⟨e, es, h1, h2, h3⟩
    · rw [h1] at hs
      simp only [Outcome.ofRes_panic, retOutcome, Option.some.injEq, Prod.mk.injEq] at hs
      exact .inl ⟨h1, hs.1.symm, by rw [hs.2]⟩
    · rw [h1] at hs
      simp only [Outcome.ofRes_ok] at hs
      refine .inr ⟨e, ?_⟩
      have h4 := insertSet_ents (⟨es, w.components⟩ : World V) e vs
      cases hi : (World.insertSet ⟨es, w.components⟩ e vs : Outcome (World V) Unit) with
      | ub => rw [hi] at hs; cases hs
      | panic w1 =>
        rw [hi] at hs h4
        simp only [Outcome.bind_panic, retOutcome, Option.some.injEq, Prod.mk.injEq] at hs
        have h4 : w1.entities = es := h4
        rw [← hs.2, h4]
        exact ⟨h1, .inr hs.1.symm⟩
      | ok u w1 =>
        rw [hi] at hs h4
        simp only [Outcome.bind_ok, retOutcome, Option.some.injEq, Prod.mk.injEq] at hs
        have h4 : w1.entities = es := h4
        rw [← hs.2, h4]
        exact ⟨h1, .inl hs.1.symm⟩
  | extend ts it =>
    simp only [step, World.extend, extendMade] at hs
    simp only [EntStep]
    rcases hc.lookupAll (·.insertMask) ts with h1 | ⟨idxs, mask, h1, h2, _⟩
    · rw [h1] at hs
      simp only [Outcome.ofRes_panic, retOutcome, Option.some.injEq, Prod.mk.injEq] at hs
      exact .inl ⟨hs.1.symm, by rw [hs.2]⟩
    · rw [h1] at hs
      simp only [Outcome.ofRes_ok] at hs
      refine .inr ?_
      obtain ⟨h4, h5⟩ := extendEach_ents it.items he hc h2
      cases hi : World.extendEach idxs it.items w with
      | ub => rw [hi] at hs; cases hs
      | panic w1 =>
        rw [hi] at hs h4
        simp only [Outcome.bind_panic, retOutcome, Option.some.injEq, Prod.mk.injEq] at hs
        have h4 : w1.entities = _ := h4
        rw [← hs.2, h4]
        exact ⟨rfl, .inl hs.1.symm⟩
      | ok u w1 =>
        have h6 := h5 u w1 hi
        rw [hi] at hs h4
        simp only [Outcome.bind_ok] at hs
        have h4 : w1.entities = _ := h4
        split at hs
        · simp only [retOutcome, Option.some.injEq, Prod.mk.injEq] at hs
          rw [← hs.2, h4]
          exact ⟨rfl, .inl hs.1.symm⟩
        · split at hs
          · cases hs
          · cases hg : w1.components.withMask mask (ComponentStorage.groupEntities mask
              (w1.entities.asSlice.drop w.entities.len)) with
            | ub => rw [hg] at hs; cases hs
            | panic =>
              rw [hg] at hs
              simp only [Outcome.ofRes_panic, retOutcome, Option.some.injEq, Prod.mk.injEq] at hs
              rw [← hs.2, h4]
              exact ⟨rfl, .inl hs.1.symm⟩
            | ok c =>
              rw [hg] at hs
              simp only [Outcome.ofRes_ok, retOutcome, Option.some.injEq, Prod.mk.injEq] at hs
              rw [← hs.2]
              refine ⟨h4, .inr ⟨hs.1.symm, h6⟩⟩
  | destroy e =>
    simp only [step] at hs
    simp only [EntStep]
    unfold World.destroy at hs
    obtain ⟨b, s, h1, _⟩ := he.remove e
    rw [h1] at hs
    simp only [Res.bind_ok] at hs
    cases b with
    | false =>
      simp only [Bool.false_eq_true, if_false, Res.pure_eq, retRes, Option.some.injEq, Prod.mk.injEq] at hs
      rw [← hs.2]
      exact .inr ⟨false, h1, hs.1.symm⟩
    | true =>
      simp only [if_true] at hs
      cases hst : w.components.strip e with
      | ub => rw [hst] at hs; cases hs
      | panic =>
        rw [hst] at hs
        simp only [Res.bind_panic, retRes, Option.some.injEq, Prod.mk.injEq] at hs
        exact .inl ⟨by rw [hs.2], hs.1.symm⟩
      | ok c =>
        rw [hst] at hs
        simp only [Res.bind_ok, Res.pure_eq, retRes, Option.some.injEq, Prod.mk.injEq] at hs
        rw [← hs.2]
        exact .inr ⟨true, h1, hs.1.symm⟩
  | createAtomic =>
    simp only [step, World.createAtomic] at hs
    simp only [EntStep]
    rcases he.createAtomic with h1 | ⟨e, s, h1, _⟩
    · rw [h1] at hs
      simp only [Res.bind_panic, retRes, Option.some.injEq, Prod.mk.injEq] at hs
      exact .inl ⟨h1, hs.1.symm, by rw [hs.2]⟩
    · rw [h1] at hs
      simp only [Res.bind_ok, Res.pure_eq, retRes, Option.some.injEq, Prod.mk.injEq] at hs
      rw [← hs.2]
      exact .inr ⟨e, h1, hs.1.symm⟩
  | maintain =>
    obtain ⟨s', h1, h2⟩ := he.maintain
    simp only [step, retRes, World.maintain, h1, Res.bind_ok, Res.pure_eq, Option.some.injEq, Prod.mk.injEq] at hs
    rw [← hs.2]
    exact ⟨h1, hs.1.symm⟩
  | insert e vs =>
    refine retOutcome_some (P := fun w' => w'.entities = w.entities) hs ?_
    unfold World.insert
    split
    · rfl
    · exact Outcome.Leaves.bind (insertSet_ents w e vs) fun _ _ h => h
  | remove e ts =>
    rcases retRes_some hs with rfl | ⟨⟨vs, w1⟩, h1, h2⟩
    · rfl
    · simp only [Prod.mk.injEq] at h2
      rw [← h2.2]
      unfold World.remove at h1
      obtain ⟨⟨vs, c⟩, _, h1⟩ := Res.bind_ok' h1
      cases h1
      rfl
  | delete e ts =>
    rcases retRes_some hs with rfl | ⟨w1, h1, h2⟩
    · rfl
    · simp only [Prod.mk.injEq] at h2
      rw [← h2.2]
      unfold World.delete at h1
      obtain ⟨c, _, h1⟩ := Res.bind_ok' h1
      cases h1
      rfl
  | clear =>
    obtain ⟨s', h1, h2⟩ := he.clear
    simp only [step, retRes, World.clear, h1, Res.bind_ok, Res.pure_eq, Option.some.injEq, Prod.mk.injEq] at hs
    rw [← hs.2]
    exact ⟨h1, hs.1.symm⟩
  | reset =>
    simp only [step, Option.some.injEq, Prod.mk.injEq] at hs
    rw [← hs.2]
    exact ⟨rfl, hs.1.symm⟩
  | writeAt t pos v =>
    rcases retRes_some hs with rfl | ⟨w1, h1, h2⟩
    · rfl
    · simp only [Prod.mk.injEq] at h2
      rw [← h2.2]
      unfold World.writeAt at h1
      cases hm : w.components.meta? t with
      | none => rw [hm] at h1; cases h1
      | some m =>
        rw [hm] at h1
        obtain ⟨s1, _, h1⟩ := Res.bind_ok' h1
        obtain ⟨s2, _, h1⟩ := Res.bind_ok' h1
        cases h1
        rfl
  | write t e v =>
    rcases retRes_some hs with rfl | ⟨⟨b, w1⟩, h1, h2⟩
    · rfl
    · simp only [Prod.mk.injEq] at h2
      rw [← h2.2]
      unfold World.writeView at h1
      cases hm : w.components.meta? t with
      | none => rw [hm] at h1; cases h1
      | some m =>
        rw [hm] at h1
        obtain ⟨s1, _, h1⟩ := Res.bind_ok' h1
        obtain ⟨⟨b', s2⟩, _, h1⟩ := Res.bind_ok' h1
        cases h1
        rfl

/-! ### Versions in range -/

/-- A version that fits in `NonZeroU32`. -/
def VerOk (v : Nat) : Prop := 1 ≤ v ∧ v < u32Size

/-- All versions in the storage are in range. -/
structure VersOk (s : EntityStorage) : Prop where
  ok : EntOk s
  recycled : ∀ e ∈ s.allocator.recycled, VerOk e.version
  dense : ∀ e ∈ s.entities.entities, VerOk e.version
  slots : ∀ (i : Nat) sl, s.entities.sparse.slots[i]? = some (some sl) → VerOk sl.version

namespace VersOk
variable {s s' : EntityStorage}

theorem empty : VersOk EntityStorage.empty where
  ok := EntOk.empty
  recycled := by simp [EntityStorage.empty, EntityAllocator.empty]
  dense := by simp [EntityStorage.empty, EntitySparseSet.empty]
  slots := by simp [EntityStorage.empty, EntitySparseSet.empty, SparseVec.new]

/-- Versions of the dense entities and the slots. -/
def SetOk (s : EntitySparseSet) : Prop :=
  (∀ e ∈ s.entities, VerOk e.version) ∧ ∀ (i : Nat) sl, s.sparse.slots[i]? = some (some sl) → VerOk sl.version

theorem set_insert {s s' : EntitySparseSet} {o : Option Entity} {e : Entity} (h : SetOk s) (he : VerOk e.version)
    (hi : s.insert e = .ok (o, s')) : SetOk s' := by
  unfold EntitySparseSet.insert at hi
  obtain ⟨sl, _, hi⟩ := Res.bind_ok' hi
  cases sl with
  | some sl =>
    obtain ⟨old, _, hi⟩ := Res.bind_ok' hi
    cases hi
    refine ⟨fun x hx => ?_, fun i sl' hsl => h.2 i sl' ((SparseVec.allocateAt_some ..).1 hsl)⟩
    rcases List.mem_or_eq_of_mem_set hx with hx | rfl
    · exact h.1 x hx
    · exact he
  | none =>
    obtain ⟨sv, hsv, hi⟩ := Res.bind_ok' hi
    cases hi
    unfold SparseVec.setUnchecked at hsv
    split at hsv
    · rename_i hlt
      cases hsv
      refine ⟨fun x hx => ?_, fun i sl' hsl => ?_⟩
      · rcases List.mem_append.1 hx with hx | hx
        · exact h.1 x hx
        · rw [List.mem_singleton.1 hx]
          exact he
      · simp only [List.getElem?_set] at hsl
        split at hsl
        · rename_i hi
          subst hi
          simp only [Option.some.injEq] at hsl
          rw [← hsl]
          exact he
        · exact h.2 i sl' ((SparseVec.allocateAt_some ..).1 hsl)
    · cases hsv

theorem set_remove {s s' : EntitySparseSet} {b : Bool} {e : Entity} (h : SetOk s) (hi : s.remove e = .ok (b, s')) :
    SetOk s' ∧ (b = true → VerOk e.version) := by
  unfold EntitySparseSet.remove SparseVec.remove at hi
  cases hsl : s.sparse.slots[e.sparse]? with
  | none =>
    rw [hsl] at hi
    cases hi
    exact ⟨h, by simp⟩
  | some o =>
    cases o with
    | none =>
      rw [hsl] at hi
      cases hi
      exact ⟨h, by simp⟩
    | some sl =>
      rw [hsl] at hi
      simp only at hi
      by_cases hv : sl.version = e.version
      · rw [if_pos (by simpa using hv)] at hi
        simp only at hi
        have hve : VerOk e.version := by
          rw [← hv]
          exact h.2 _ _ hsl
        have hset : ∀ (i : Nat) sl', (s.sparse.slots.set e.sparse none)[i]? = some (some sl') → VerOk sl'.version := by
          intro i sl' hsl'
          rw [List.getElem?_set] at hsl'
          split at hsl'
          · split at hsl' <;> simp at hsl'
          · exact h.2 i sl' hsl'
        have hents : ∀ x ∈ swapRemove s.entities sl.index, VerOk x.version := by
          intro x hx
          unfold swapRemove at hx
          cases hl : s.entities.getLast? with
          | none =>
            rw [hl] at hx
            exact h.1 x hx
          | some y =>
            rw [hl] at hx
            rcases List.mem_or_eq_of_mem_set (List.dropLast_subset _ hx) with hx | rfl
            · exact h.1 x hx
            · exact h.1 x (List.mem_of_getLast? hl)
        obtain ⟨_, _, hi⟩ := Res.bind_ok' hi
        cases hm : (swapRemove s.entities sl.index)[sl.index]? with
        | none =>
          rw [hm] at hi
          cases hi
          exact ⟨⟨hents, hset⟩, fun _ => hve⟩
        | some moved =>
          rw [hm] at hi
          obtain ⟨sv, hsv, hi⟩ := Res.bind_ok' hi
          cases hi
          unfold SparseVec.setUnchecked at hsv
          split at hsv
          · rename_i hlt
            cases hsv
            refine ⟨⟨hents, fun i sl' hsl' => ?_⟩, fun _ => hve⟩
            simp only [List.getElem?_set (l := s.sparse.slots.set e.sparse none)] at hsl'
            split at hsl'
            · rename_i hi
              subst hi
              simp only [Option.some.injEq] at hsl'
              rw [← hsl']
              exact hents _ (List.mem_of_getElem? hm)
            · exact hset i sl' hsl'
          · cases hsv
      · rw [if_neg (by simpa using hv)] at hi
        cases hi
        exact ⟨h, by simp⟩

theorem allocate (h : VersOk s) {o : Option Entity} {a : EntityAllocator} (ha : s.allocator.allocate = .ok (o, a)) :
    (∀ e, o = some e → e.index < u32Size ∧ VerOk e.version) ∧ a.recycled = s.allocator.recycled := by
  obtain ⟨o', a', h1, h2, _⟩ := h.ok.allocate
  rw [ha] at h1
  cases h1
  refine ⟨fun e he => ⟨h2 e he, ?_⟩, ?_⟩
  · subst he
    unfold EntityAllocator.allocate at ha
    split at ha
    · obtain ⟨e', he', ha⟩ := Res.bind_ok' ha
      cases ha
      rename_i hlt
      rw [List.getElem?_eq_getElem (by omega)] at he'
      cases he'
      exact h.recycled _ (List.getElem_mem _)
    · split at ha
      · cases ha
        exact ⟨Nat.le_refl 1, show 1 < u32Size by decide⟩
      · cases ha
  · unfold EntityAllocator.allocate at ha
    split at ha
    · obtain ⟨e', he', ha⟩ := Res.bind_ok' ha
      cases ha
      rfl
    · split at ha
      · cases ha
        rfl
      · cases ha
        rfl

theorem create (h : VersOk s) {e : Entity} (hc : s.create = .ok (e, s')) :
    VersOk s' ∧ e.index < u32Size ∧ VerOk e.version := by
  have hok : EntOk s' := by
    rcases h.ok.create with h1 | ⟨e1, s1, h1, _, h2⟩
    · rw [h1] at hc; cases hc
    · rw [h1] at hc; cases hc; exact h2
  unfold EntityStorage.create at hc
  obtain ⟨⟨o, a⟩, ha, hc⟩ := Res.bind_ok' hc
  obtain ⟨h1, h2⟩ := h.allocate ha
  obtain ⟨e', he', hc⟩ := Res.bind_ok' hc
  obtain ⟨⟨o', es⟩, hi, hc⟩ := Res.bind_ok' hc
  cases hc
  have ho : o = some e := by
    cases o with
    | none => cases he'
    | some x => cases he'; rfl
  have h3 := h1 e ho
  have h4 := set_insert ⟨h.dense, h.slots⟩ h3.2 hi
  exact ⟨⟨hok, by rw [h2]; exact h.recycled, h4.1, h4.2⟩, h3⟩

theorem createAtomic (h : VersOk s) {e : Entity} (hc : s.createAtomic = .ok (e, s')) :
    VersOk s' ∧ e.index < u32Size ∧ VerOk e.version := by
  have hok : EntOk s' := by
    rcases h.ok.createAtomic with h1 | ⟨e1, s1, h1, _, h2⟩
    · rw [h1] at hc; cases hc
    · rw [h1] at hc; cases hc; exact h2
  unfold EntityStorage.createAtomic at hc
  rw [EntOk.allocateAtomic] at hc
  obtain ⟨⟨o, a⟩, ha, hc⟩ := Res.bind_ok' hc
  obtain ⟨h1, h2⟩ := h.allocate ha
  obtain ⟨e', he', hc⟩ := Res.bind_ok' hc
  cases hc
  have ho : o = some e := by
    cases o with
    | none => cases he'
    | some x => cases he'; rfl
  exact ⟨⟨hok, by rw [h2]; exact h.recycled, h.dense, h.slots⟩, h1 e ho⟩

theorem createN : ∀ (n : Nat) {s : EntityStorage}, VersOk s → VersOk (s.createN n) ∧
    ∀ e ∈ s.createUpTo n, e.index < u32Size ∧ VerOk e.version
  | 0, s, h => ⟨h, by simp [EntityStorage.createUpTo]⟩
  | n + 1, s, h => by
    rw [EntityStorage.createN, EntityStorage.createUpTo]
    cases hc : s.create with
    | panic => exact ⟨h, by simp⟩
    | ub => exact ⟨h, by simp⟩
    | ok p =>
      obtain ⟨e, s'⟩ := p
      obtain ⟨h1, h2⟩ := h.create hc
      obtain ⟨h3, h4⟩ := createN n h1
      refine ⟨h3, fun x hx => ?_⟩
      rcases List.mem_cons.1 hx with rfl | hx
      · exact h2
      · exact h4 x hx

theorem insertAll : ∀ (es : List Entity) {s s' : EntitySparseSet}, SetOk s → (∀ e ∈ es, VerOk e.version) →
    EntityStorage.insertAll s es = .ok s' → SetOk s'
  | [], _, _, h, _, hi => by cases hi; exact h
  | e :: es, s, s', h, he, hi => by
    obtain ⟨⟨o, s1⟩, h1, hi⟩ := Res.bind_ok' hi
    exact insertAll es (set_insert h (he e (.head _)) h1) (fun x hx => he x (.tail _ hx)) hi

theorem alloc_maintain (h : VersOk s) {es : List Entity} {a : EntityAllocator}
    (hm : s.allocator.maintain = .ok (es, a)) :
    (∀ e ∈ es, VerOk e.version) ∧ ∀ e ∈ a.recycled, VerOk e.version := by
  unfold EntityAllocator.maintain at hm
  rw [decide_eq_true h.ok.taken] at hm
  simp only [Res.assert_true, Res.bind_ok, Res.pure_eq, Res.ok.injEq, Prod.mk.injEq] at hm
  obtain ⟨rfl, rfl⟩ := hm
  refine ⟨fun e he => ?_, fun e he => h.recycled e (List.mem_of_mem_take he)⟩
  rcases List.mem_append.1 he with he | he
  · exact h.recycled e (List.mem_of_mem_drop he)
  · obtain ⟨i, _, rfl⟩ := List.mem_map.1 he
    exact ⟨Nat.le_refl 1, show 1 < u32Size by decide⟩

theorem maintain (h : VersOk s) (hm : s.maintain = .ok s') : VersOk s' := by
  have hok : EntOk s' := by
    obtain ⟨s1, h1, h2⟩ := h.ok.maintain
    rw [h1] at hm; cases hm; exact h2
  unfold EntityStorage.maintain at hm
  obtain ⟨⟨es, a⟩, h1, hm⟩ := Res.bind_ok' hm
  obtain ⟨s1, h2, hm⟩ := Res.bind_ok' hm
  cases hm
  obtain ⟨h3, h4⟩ := h.alloc_maintain h1
  have h5 := insertAll es ⟨h.dense, h.slots⟩ h3 h2
  exact ⟨hok, h4, h5.1, h5.2⟩

theorem clear (h : VersOk s) (hm : s.clear = .ok s') : VersOk s' := by
  have hok : EntOk s' := by
    obtain ⟨s1, h1, h2⟩ := h.ok.clear
    rw [h1] at hm; cases hm; exact h2
  unfold EntityStorage.clear at hm
  obtain ⟨⟨es, a⟩, h1, hm⟩ := Res.bind_ok' hm
  cases hm
  obtain ⟨h3, h4⟩ := h.alloc_maintain h1
  exact ⟨hok, h4, by simp [EntitySparseSet.clear], by simp [EntitySparseSet.clear, SparseVec.clear]⟩

theorem reset (s : EntityStorage) : VersOk s.reset where
  ok := EntOk.reset s
  recycled := by simp [EntityStorage.reset, EntityAllocator.reset]
  dense := by simp [EntityStorage.reset, EntitySparseSet.clear]
  slots := by simp [EntityStorage.reset, EntitySparseSet.clear, SparseVec.clear]

theorem remove (h : VersOk s) {e : Entity} {b : Bool} (hr : s.remove e = .ok (b, s')) : VersOk s' := by
  have hok : EntOk s' := by
    obtain ⟨b1, s1, h1, h2⟩ := h.ok.remove e
    rw [h1] at hr; cases hr; exact h2
  unfold EntityStorage.remove at hr
  obtain ⟨⟨b', es⟩, h1, hr⟩ := Res.bind_ok' hr
  obtain ⟨h2, h3⟩ := set_remove ⟨h.dense, h.slots⟩ h1
  cases b' with
  | false =>
    cases hr
    exact ⟨hok, h.recycled, h2.1, h2.2⟩
  | true =>
    cases hr
    refine ⟨hok, ?_, h2.1, h2.2⟩
    show ∀ x ∈ (s.allocator.recycle e).recycled, VerOk x.version
    unfold EntityAllocator.recycle Version.next
    have := h3 rfl
    split
    · rename_i v hv
      split at hv
      · cases hv
        intro x hx
        rcases List.mem_cons.1 hx with rfl | hx
        · simp only [VerOk] at this ⊢
          omega
        · exact h.recycled x hx
      · cases hv
    · exact h.recycled

theorem step (h : VersOk s) {op : Op V} {r : Ret V} (hs : EntStep s op r s') : VersOk s' ∧
    ∀ e, .made e ∈ events op r ∨ .queued e ∈ events op r → e.index < u32Size ∧ VerOk e.version := by
  cases op with
  | create vs =>
    rcases hs with ⟨_, rfl, rfl⟩ | ⟨e, h1, rfl | rfl⟩
    · exact ⟨h, by simp [events]⟩
    all_goals
      obtain ⟨h2, h3⟩ := h.create h1
      exact ⟨h2, by simpa [events] using h3⟩
  | extend ts it =>
    rcases hs with ⟨rfl, rfl⟩ | ⟨rfl, rfl | ⟨rfl, _⟩⟩
    · exact ⟨h, by simp [events]⟩
    · obtain ⟨h1, h2⟩ := h.createN it.items.length
      exact ⟨h1, by simpa [events] using h2⟩
    · obtain ⟨h1, h2⟩ := h.createN it.items.length
      refine ⟨h1, fun e he => ?_⟩
      simp only [events, List.mem_map, Ev.made.injEq, exists_eq_right, reduceCtorEq, and_false, exists_false,
        or_false] at he
      have he := List.mem_of_mem_drop he
      exact ⟨h1.ok.rep.small e he, h1.dense e he⟩
  | destroy e =>
    rcases hs with ⟨rfl, rfl⟩ | ⟨b, h1, rfl⟩
    · exact ⟨h, by simp [events]⟩
    · exact ⟨h.remove h1, by cases b <;> simp [events]⟩
  | createAtomic =>
    rcases hs with ⟨_, rfl, rfl⟩ | ⟨e, h1, rfl⟩
    · exact ⟨h, by simp [events]⟩
    · obtain ⟨h2, h3⟩ := h.createAtomic h1
      exact ⟨h2, by simpa [events] using h3⟩
  | maintain => exact ⟨h.maintain hs.1, by simp [hs.2, events]⟩
  | clear => exact ⟨h.clear hs.1, by simp [hs.2, events]⟩
  | reset => exact ⟨by rw [hs.1]; exact reset s, by simp [hs.2, events]⟩
  | register t => exact ⟨by rw [show s' = s from hs]; exact h, by simp [events]⟩
  | setLayout r gs => exact ⟨by rw [show s' = s from hs]; exact h, by simp [events]⟩
  | insert e vs => exact ⟨by rw [show s' = s from hs]; exact h, by simp [events]⟩
  | remove e ts => exact ⟨by rw [show s' = s from hs]; exact h, by simp [events]⟩
  | delete e ts => exact ⟨by rw [show s' = s from hs]; exact h, by simp [events]⟩
  | writeAt t pos v => exact ⟨by rw [show s' = s from hs]; exact h, by simp [events]⟩
  | write t e v => exact ⟨by rw [show s' = s from hs]; exact h, by simp [events]⟩

end VersOk

theorem reach_vers {h : History V} {w : World V} (hr : Reach World.empty h w) : VersOk w.entities ∧
    ∀ e, .made e ∈ historyEvents h ∨ .queued e ∈ historyEvents h → e.index < u32Size ∧ VerOk e.version := by
  induction hr with
  | nil => exact ⟨VersOk.empty, by simp [historyEvents]⟩
  | @snoc h w₁ w₂ op r hr hs ih =>
    obtain ⟨h1, h2⟩ := reach_sound hr
    obtain ⟨h3, h4⟩ := ih.1.step (step_ents h1 h2 hs)
    refine ⟨h3, fun e he => ?_⟩
    rw [historyEvents_append] at he
    simp only [historyEvents, List.append_nil, List.mem_append] at he
    rcases he with (he | he) | (he | he)
    · exact ih.2 e (.inl he)
    · exact h4 e (.inl he)
    · exact ih.2 e (.inr he)
    · exact h4 e (.inr he)

/-! ### The queue of destroyed indexes -/

/-- Every successful `extend` returned as many entities as it was given items. -/
def FullExtends (h : History V) : Prop :=
  ∀ ts it es, (Op.extend ts it, Ret.entities es) ∈ h → es.length = it.items.length

/-- The allocator agrees with the queue of the specification. -/
def Queue (s : EntityStorage) (l : Life) : Prop := EntOk s ∧ AllocRep s.allocator l.waiting l.next

namespace Queue
variable {s s' : EntityStorage} {l : Life}

theorem alloc_cases (h : AllocRep s.allocator l.waiting l.next) :
    (l.exhausted ∧ s.allocator.allocate = .ok (none, s.allocator)) ∨
    (¬ l.exhausted ∧ ∃ a, s.allocator.allocate = .ok (some l.nextEntity, a) ∧
      AllocRep a l.take.waiting l.take.next) := by
  cases hw : l.waiting with
  | nil =>
    rw [hw] at h
    by_cases hn : l.next < u32Size
    · obtain ⟨a, h1, _, h2, _⟩ := h.allocate_next hn
      refine .inr ⟨fun hx => ?_, a, ?_, ?_⟩
      · have := hx.2
        have := u32Size_eq
        omega
      · rw [h1]
        simp [Life.nextEntity, hw]
      · simpa [Life.take, hw] using h2
    · refine .inl ⟨⟨hw, ?_⟩, (h.allocate_none hn).1⟩
      have := h.small
      have := u32Size_eq
      omega
  | cons x ws =>
    rw [hw] at h
    obtain ⟨a, h1, _, h2, _⟩ := h.allocate_waiting
    refine .inr ⟨fun hx => ?_, a, ?_, ?_⟩
    · have := hx.1
      rw [hw] at this
      cases this
    · rw [h1]
      simp [Life.nextEntity, hw]
    · simpa [Life.take, hw] using h2

theorem create (h : Queue s l) : (l.exhausted ∧ s.create = .panic) ∨
    (¬ l.exhausted ∧ ∃ s', s.create = .ok (l.nextEntity, s') ∧ Queue s' (l.step (.made l.nextEntity))) := by
  rcases alloc_cases h.2 with ⟨hx, h1⟩ | ⟨hx, a, h1, h2⟩
  · refine .inl ⟨hx, ?_⟩
    simp [EntityStorage.create, h1]
  · refine .inr ⟨hx, ?_⟩
    rcases h.1.create with h3 | ⟨e, s', h3, _, h4⟩
    · exfalso
      unfold EntityStorage.create at h3
      rw [h1] at h3
      obtain ⟨o, es, h5, _⟩ := EntitySparseSet.idx_insert h.1.rep l.nextEntity (by
        obtain ⟨o, a', h6, h7, _⟩ := h.1.allocate
        rw [h1] at h6
        cases h6
        exact h7 _ rfl)
      simp [h5] at h3
    · have h5 := h3
      unfold EntityStorage.create at h5
      rw [h1] at h5
      simp only [Res.bind_ok, Res.checked_some] at h5
      obtain ⟨⟨o, es⟩, _, h5⟩ := Res.bind_ok' h5
      cases h5
      exact ⟨_, h3, h4, by simpa [Life.step] using h2⟩

theorem createN_len : ∀ (n : Nat) (s : EntityStorage), s.len ≤ (s.createN n).len
  | 0, _ => Nat.le_refl _
  | n + 1, s => by
    rw [EntityStorage.createN]
    cases h : s.create with
    | ok p => exact (EntOk.create_len h).trans (createN_len n p.2)
    | panic => exact Nat.le_refl _
    | ub => exact Nat.le_refl _

theorem create_dense {e : Entity} (h : s.create = .ok (e, s')) :
    s'.asSlice = s.asSlice ++ [e] ∨ s'.asSlice.length = s.asSlice.length := by
  unfold EntityStorage.create at h
  obtain ⟨⟨o, a⟩, _, h⟩ := Res.bind_ok' h
  obtain ⟨e', _, h⟩ := Res.bind_ok' h
  obtain ⟨⟨_, es⟩, h1, h⟩ := Res.bind_ok' h
  cases h
  unfold EntitySparseSet.insert at h1
  obtain ⟨sl, _, h1⟩ := Res.bind_ok' h1
  cases sl with
  | some sl =>
    obtain ⟨old, _, h1⟩ := Res.bind_ok' h1
    cases h1
    right
    simp [EntityStorage.asSlice]
  | none =>
    obtain ⟨sv, _, h1⟩ := Res.bind_ok' h1
    cases h1
    left
    rfl

theorem createAtomic (h : Queue s l) : (l.exhausted ∧ s.createAtomic = .panic) ∨
    (¬ l.exhausted ∧ ∃ s', s.createAtomic = .ok (l.nextEntity, s') ∧ Queue s' (l.step (.queued l.nextEntity))) := by
  rcases alloc_cases h.2 with ⟨hx, h1⟩ | ⟨hx, a, h1, h2⟩
  · refine .inl ⟨hx, ?_⟩
    simp [EntityStorage.createAtomic, EntOk.allocateAtomic, h1]
  · refine .inr ⟨hx, ⟨a, s.entities⟩, ?_, ?_⟩
    · simp [EntityStorage.createAtomic, EntOk.allocateAtomic, h1]
    · obtain ⟨o, a', h6, _, _, h7⟩ := h.1.allocate
      rw [h1] at h6
      cases h6
      exact ⟨h7 _ h.1.rep, by simpa [Life.step] using h2⟩

theorem createN : ∀ (n : Nat) {s : EntityStorage} {l : Life}, Queue s l →
    Queue (s.createN n) (l.run ((s.createUpTo n).map .made)) ∧
    ((s.createN n).asSlice = s.asSlice ++ s.createUpTo n ∨
      (s.createN n).asSlice.length < s.asSlice.length + (s.createUpTo n).length) ∧
    ∀ (i : Nat) e, (s.createUpTo n)[i]? = some e →
      e = (l.run (((s.createUpTo n).take i).map .made)).nextEntity
  | 0, s, l, h => ⟨h, .inl (by simp [EntityStorage.createUpTo, EntityStorage.createN]), by simp [EntityStorage.createUpTo]⟩
  | n + 1, s, l, h => by
    rw [EntityStorage.createN, EntityStorage.createUpTo]
    rcases h.create with ⟨_, h1⟩ | ⟨_, s', h1, h2⟩
    · rw [h1]
      exact ⟨h, .inl (by simp), by simp⟩
    · rw [h1]
      simp only
      obtain ⟨h3, h4, h6⟩ := createN n h2
      refine ⟨h3, ?_, fun i e he => ?_⟩
      · rcases create_dense h1 with h7 | h7
        · rcases h4 with h4 | h4
          · left
            rw [h4, h7]
            simp
          · right
            rw [h7] at h4
            simp only [List.length_append, List.length_cons, List.length_nil] at h4 ⊢
            omega
        · right
          rcases h4 with h4 | h4
          · rw [h4]
            simp only [List.length_append, List.length_cons]
            omega
          · simp only [List.length_cons]
            omega
      · cases i with
        | zero =>
          simp only [List.getElem?_cons_zero, Option.some.injEq] at he
          simp [he, Life.run_nil]
        | succ i =>
          simp only [List.getElem?_cons_succ] at he
          simp only [List.take_succ_cons, List.map_cons, Life.run_cons]
          exact h6 i e he

theorem remove (h : Queue s l) {e : Entity} {b : Bool} (hr : s.remove e = .ok (b, s')) :
    Queue s' (if b then l.step (.killed e) else l) := by
  have hok : EntOk s' := by
    obtain ⟨b1, s1, h1, h2⟩ := h.1.remove e
    rw [h1] at hr; cases hr; exact h2
  unfold EntityStorage.remove at hr
  obtain ⟨⟨b', es⟩, h1, hr⟩ := Res.bind_ok' hr
  cases b' with
  | false => cases hr; exact ⟨hok, h.2⟩
  | true => cases hr; exact ⟨hok, (h.2.recycle e).1⟩

theorem step (h : Queue s l) {op : Op V} {r : Ret V} (hs : EntStep s op r s')
    (hf : ∀ ts it es, op = .extend ts it → r = .entities es → es.length = it.items.length) :
    Queue s' (l.run (events op r)) := by
  have same : ∀ {op : Op V}, s' = s → events op r = [] → Queue s' (l.run (events op r)) := by
    intro op h1 h2
    rw [h1, h2]
    exact h
  cases op with
  | create vs =>
    rcases hs with ⟨_, rfl, rfl⟩ | ⟨e, h1, h2⟩
    · exact h
    · rcases h.create with ⟨_, h3⟩ | ⟨_, s1, h3, h4⟩
      · rw [h3] at h1; cases h1
      · rw [h3] at h1
        cases h1
        rcases h2 with rfl | rfl <;> exact h4
  | extend ts it =>
    obtain ⟨h1, h2, _⟩ := h.createN it.items.length
    rcases hs with ⟨rfl, rfl⟩ | ⟨rfl, rfl | ⟨rfl, h3⟩⟩
    · exact h
    · exact h1
    · have h4 := hf ts it _ rfl rfl
      rcases h2 with h2 | h2
      · rw [h2] at h4 ⊢
        simp only [events, EntityStorage.len, EntityStorage.asSlice, List.drop_left]
        exact h1
      · exfalso
        have h5 := createN_len it.items.length s
        simp only [List.length_drop, EntityStorage.len, EntityStorage.asSlice] at h2 h4 h5
        omega
  | destroy e =>
    rcases hs with ⟨rfl, rfl⟩ | ⟨b, h1, rfl⟩
    · exact h
    · have := h.remove h1
      cases b <;> exact this
  | createAtomic =>
    rcases hs with ⟨_, rfl, rfl⟩ | ⟨e, h1, rfl⟩
    · exact h
    · rcases h.createAtomic with ⟨_, h3⟩ | ⟨_, s1, h3, h4⟩
      · rw [h3] at h1; cases h1
      · rw [h3] at h1
        cases h1
        exact h4
  | maintain =>
    obtain ⟨h1, rfl⟩ := hs
    obtain ⟨s1, h2, h3⟩ := h.1.maintain
    rw [h2] at h1
    cases h1
    refine ⟨h3, ?_⟩
    obtain ⟨a, h4, h5, _⟩ := h.2.maintain
    unfold EntityStorage.maintain at h2
    rw [h4, Res.bind_ok] at h2
    obtain ⟨es, _, h2⟩ := Res.bind_ok' h2
    cases h2
    exact h5
  | clear =>
    obtain ⟨h1, rfl⟩ := hs
    obtain ⟨s1, h2, h3⟩ := h.1.clear
    rw [h2] at h1
    cases h1
    refine ⟨h3, ?_⟩
    obtain ⟨a, h4, h5, _⟩ := h.2.maintain
    unfold EntityStorage.clear at h2
    rw [h4] at h2
    cases h2
    exact h5
  | reset =>
    obtain ⟨rfl, rfl⟩ := hs
    exact ⟨EntOk.reset s, AllocRep.empty⟩
  | register t => exact same hs rfl
  | setLayout rank gs => exact same hs rfl
  | insert e vs => exact same hs rfl
  | remove e ts => exact same hs rfl
  | delete e ts => exact same hs rfl
  | write t e v => exact same hs rfl
  | writeAt t pos v => exact same hs rfl

end Queue

theorem reach_queue {h : History V} {w : World V} (hr : Reach World.empty h w) (hf : FullExtends h) :
    Queue w.entities (life h) := by
  induction hr with
  | nil => exact ⟨EntOk.empty, AllocRep.empty⟩
  | @snoc h w₁ w₂ op r hr hs ih =>
    obtain ⟨h1, h2⟩ := reach_sound hr
    rw [life_snoc]
    refine (ih fun ts it es hm => hf ts it es (List.mem_append_left _ hm)).step (step_ents h1 h2 hs) ?_
    rintro ts it es rfl rfl
    exact hf ts it es (by simp)

end Sparsey
