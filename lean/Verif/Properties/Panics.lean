import Verif.Proofs.Panics
import Verif.Proofs.Versions
import Verif.Spec.Panics
import Verif.Properties.Components

/-!
C49: exactly when a call panics, in every reachable world.
-/

set_option autoImplicit false
set_option linter.unusedSimpArgs false

namespace Sparsey
variable {V : Type}

theorem createAtomic_eq (s : EntityStorage) : s.createAtomic =
    (s.allocator.allocate >>= fun p => Res.checked p.1 >>= fun e => pure (e, { s with allocator := p.2 })) := by
  unfold EntityStorage.createAtomic
  rw [EntOk.allocateAtomic]

/-- Whether entities are left depends on the allocator only. -/
theorem dry_iff : ∀ (n : Nat) (w : World V) (s : EntityStorage), w.entities.allocator = s.allocator →
    EntOk w.entities → EntOk s → (w.Dry n ↔ (s.createUpTo n).length ≠ n) ∧
      ∃ rs w', run w (List.replicate n .createAtomic) = some (rs, w')
  | 0, w, s, _, _, _ => ⟨⟨fun ⟨rs, w', h, hm⟩ => by
      simp only [List.replicate_zero, run, Option.some.injEq, Prod.mk.injEq] at h
      rw [← h.1] at hm
      simp at hm, fun h => (h rfl).elim⟩, [], w, rfl⟩
  | n + 1, w, s, ha, hw, hs => by
    rcases hs.create with h1 | ⟨e, s', h1, h2, h3⟩
    · have h4 : w.createAtomic = .panic := by
        unfold World.createAtomic
        rw [createAtomic_eq, ha]
        obtain ⟨o, a, h5, h5', _⟩ := hs.allocate
        unfold EntityStorage.create at h1
        rw [h5] at h1 ⊢
        cases o with
        | none => rfl
        | some e =>
          exfalso
          obtain ⟨o', es, h6, _⟩ := EntitySparseSet.idx_insert hs.rep e (h5' e rfl)
          simp [h6] at h1
      have h5 : step w .createAtomic = some (.panicked [], w) := by simp [step, h4, retRes]
      obtain ⟨_, rs, w', h6⟩ := dry_iff n w s ha hw hs
      have h7 : run w (List.replicate (n + 1) .createAtomic) = some (.panicked [] :: rs, w') := by
        rw [List.replicate_succ, run, h5]
        simp only [h6]
      refine ⟨⟨fun _ => ?_, fun _ => ⟨_, w', h7, by simp⟩⟩, _, w', h7⟩
      simp [EntityStorage.createUpTo, h1]
    · obtain ⟨o, a, h5, h5', _, h8⟩ := hs.allocate
      have h6 : o = some e ∧ s'.allocator = a := by
        unfold EntityStorage.create at h1
        rw [h5] at h1
        cases o with
        | none => simp at h1
        | some x =>
          obtain ⟨o', es, h6, _⟩ := EntitySparseSet.idx_insert hs.rep x (h5' x rfl)
          simp [h6] at h1
          exact ⟨by rw [h1.1], by rw [← h1.2]⟩
      obtain ⟨rfl, h6⟩ := h6
      have h4 : w.createAtomic = .ok (e, ⟨{ w.entities with allocator := a }, w.components⟩) := by
        unfold World.createAtomic
        rw [createAtomic_eq, ha, h5]
        rfl
      have h7 : step w .createAtomic = some (.entity e, ⟨{ w.entities with allocator := a }, w.components⟩) := by
        simp [step, h4, retRes]
      have hw' : EntOk { w.entities with allocator := a } := h8 w.entities.entities hw.rep
      obtain ⟨j1, rs, w', j2⟩ := dry_iff n ⟨{ w.entities with allocator := a }, w.components⟩ s' h6.symm hw' h3
      have h9 : run w (List.replicate (n + 1) .createAtomic) = some (.entity e :: rs, w') := by
        rw [List.replicate_succ, run, h7]
        simp only [j2]
      refine ⟨?_, _, w', h9⟩
      have hlen : (s.createUpTo (n + 1)).length ≠ n + 1 ↔ (s'.createUpTo n).length ≠ n := by
        simp [EntityStorage.createUpTo, h1]
      rw [hlen, ← j1]
      unfold World.Dry
      rw [h9, j2]
      simp

theorem extendEach_panics {idxs : List Nat} : ∀ (items : List (List V)) {w : World V}, EntOk w.entities →
    Sound w.components → (∀ i ∈ idxs, i < w.components.components.length) →
    ((∃ w', World.extendEach idxs items w = .panic w') ↔ (w.entities.createUpTo items.length).length ≠ items.length) ∧
    (¬ (∃ w', World.extendEach idxs items w = .panic w') → ∃ w', World.extendEach idxs items w = .ok () w')
  | [], w, _, _, _ => ⟨by simp [World.extendEach, EntityStorage.createUpTo], fun _ => ⟨w, rfl⟩⟩
  | vs :: items, w, he, hc, hi => by
    rw [World.extendEach, List.length_cons, EntityStorage.createUpTo]
    rcases he.create with h1 | ⟨e, es, h1, h2, h3⟩
    · rw [h1]
      simp
    · rw [h1]
      simp only [Outcome.ofRes_ok]
      obtain ⟨c', h4, h5, h6⟩ := Sound.insertAt e h2 (idxs.zip vs) hc (fun p hp => hi p.1 (List.of_mem_zip hp).1)
      simp only [h4, Outcome.ofRes_ok]
      obtain ⟨h7, h8⟩ := extendEach_panics items (w := ⟨es, c'⟩) h3 h5 (by simpa [h6] using hi)
      refine ⟨?_, h8⟩
      simp only [List.length_cons, ne_eq, Nat.add_right_cancel_iff]
      exact h7

theorem lookupAll_refuses {c : ComponentStorage V} (hc : Sound c) (f : ComponentMetadata → GroupMask) :
    ∀ (ts : List TypeId), (c.lookupAll f ts = .panic ↔ ∃ t ∈ ts, c.isRegistered t = false)
  | [] => by simp [ComponentStorage.lookupAll]
  | t :: ts => by
    have ih := lookupAll_refuses hc f ts
    rw [ComponentStorage.lookupAll]
    cases hm : c.meta? t with
    | none => simp [ComponentStorage.isRegistered, hm]
    | some m =>
      obtain ⟨s, h1, _⟩ := hc.at_meta hm
      have h2 : c.isRegistered t = true := by simp [ComponentStorage.isRegistered, hm]
      simp only [List.mem_cons, exists_eq_or_imp, h2, Bool.true_eq_false, false_or, ← ih]
      cases h3 : c.lookupAll f ts with
      | panic => simp
      | ub => simp
      | ok p => simp [h1]

theorem Shape.isRegistered {c c' : ComponentStorage V} (h : Shape c c') (t : TypeId) :
    c'.isRegistered t = c.isRegistered t := by
  unfold ComponentStorage.isRegistered
  rw [h.meta?]

theorem insertEach_refuses (e : Entity) (he : e.index < u32Size) : ∀ (vs : List (TypeId × V)) (m : GroupMask)
    {c : ComponentStorage V}, Sound c →
    ((∃ c', ComponentStorage.insertEach e vs m c = .panic c') ↔ ∃ p ∈ vs, c.isRegistered p.1 = false)
  | [], _, _, _ => by simp [ComponentStorage.insertEach]
  | (t, v) :: vs, m, c, h => by
    rw [ComponentStorage.insertEach]
    cases hm : c.meta? t with
    | none => simp [ComponentStorage.isRegistered, hm]
    | some md =>
      obtain ⟨s, h1, h2⟩ := h.at_meta hm
      obtain ⟨o, s', h3, h4⟩ := h2.insert e v he
      simp only [h1, Res.unchecked_some, Outcome.ofRes_ok, h3]
      rw [insertEach_refuses e he vs _ (h.set _ h4)]
      have hr : c.isRegistered t = true := by simp [ComponentStorage.isRegistered, hm]
      simp only [List.mem_cons, exists_eq_or_imp, hr, Bool.true_eq_false, false_or]
      rfl

theorem insertSet_refuses {w : World V} (hb : BoundsOK w.components) (hc : Sound w.components) (e : Entity)
    (he : e.index < u32Size) (vs : List (TypeId × V)) :
    (∃ w', w.insertSet e vs = .panic w') ↔ ∃ p ∈ vs, w.isRegistered p.1 = false := by
  have h1 := insertEach_refuses e he vs 0#64 hc
  show _ ↔ ∃ p ∈ vs, w.components.isRegistered p.1 = false
  rw [← h1]
  unfold World.insertSet ComponentStorage.insert
  have hsh := ComponentStorage.insertEach_shape (e := e) vs 0#64 w.components
  cases h2 : ComponentStorage.insertEach e vs 0#64 w.components with
  | panic c => simp
  | ub => simp
  | ok m c =>
    rw [h2] at hsh
    have h3 : c.withMask m (group · m e) ≠ .panic :=
      ComponentStorage.withMask_np (ComponentStorage.groupLoop_np _ _ _ (hb.of_shape hsh).groups)
    simp only [Outcome.bind_ok]
    cases h4 : c.withMask m (group · m e) with
    | panic => exact absurd h4 h3
    | ub => simp
    | ok c' => simp

theorem ungroup_sound {c : ComponentStorage V} (hb : BoundsOK c) (hc : Sound c) (m : GroupMask) (e : Entity) :
    c.withMask m (ungroup · m e) ≠ .panic ∧
    ∀ c', c.withMask m (ungroup · m e) = .ok c' → Sound c' ∧ c'.components.length = c.components.length := by
  refine ⟨ComponentStorage.withMask_np (ComponentStorage.ungroupLoop_np _ _ _ hb.groups), fun c' h => ?_⟩
  have h1 := ComponentStorage.withMask_shape (fun s s' => ungroupLoop_shape _ _ _ _) h
  exact ⟨⟨hc.static.of_shape h1, Stable.withMask (fun s s' => stable_idx.ungroupLoop _ _ s s') hc.sets h⟩, h1.len⟩

theorem remove_refuses {w : World V} (hb : BoundsOK w.components) (hc : Sound w.components) (e : Entity)
    (ts : List TypeId) : (w.remove e ts = .panic ↔ ∃ t ∈ ts, w.isRegistered t = false) ∧
      (w.delete e ts = .panic ↔ ∃ t ∈ ts, w.isRegistered t = false) := by
  rw [show (∃ t ∈ ts, w.isRegistered t = false) ↔ _ from (lookupAll_refuses hc (·.deleteMask) ts).symm]
  unfold World.remove ComponentStorage.remove World.delete ComponentStorage.delete
  rcases hc.lookupAll (·.deleteMask) ts with h1 | ⟨idxs, mask, h1, h2, _⟩
  · simp [h1]
  · obtain ⟨h3, h4⟩ := ungroup_sound hb hc mask e
    cases h5 : w.components.withMask mask (ungroup · mask e) with
    | panic => exact absurd h5 h3
    | ub => simp [h1, h5]
    | ok c' =>
      obtain ⟨h6, h7⟩ := h4 c' h5
      obtain ⟨r, h8⟩ := Sound.removeEach e idxs h6 (by simpa [h7] using h2)
      obtain ⟨r', h9⟩ := Sound.deleteEach e idxs h6 (by simpa [h7] using h2)
      simp [h1, h5, h8, h9]

theorem retRes_panics {α : Type} {w : World V} {r : Res α} {f : α → Ret V × World V}
    (hf : ∀ a made, (f a).1 ≠ .panicked made) :
    (∃ made w', retRes w r f = some (.panicked made, w')) ↔ r = .panic := by
  cases r with
  | ok a =>
    simp only [retRes, Option.some.injEq]
    constructor
    · rintro ⟨m, w', h⟩
      exact absurd (congrArg Prod.fst h) (hf a m)
    · intro h
      cases h
  | panic => simp [retRes]
  | ub => simp [retRes]

theorem retOutcome_panics {α : Type} {made : List Entity} {r : Outcome (World V) α} {f : α → Ret V}
    (hf : ∀ a made, f a ≠ .panicked made) :
    (∃ made' w', retOutcome made r f = some (.panicked made', w')) ↔ ∃ w', r = .panic w' := by
  cases r with
  | ok a w =>
    simp only [retOutcome, Option.some.injEq, Prod.mk.injEq]
    constructor
    · rintro ⟨m, w', h, _⟩
      exact absurd h (hf a m)
    · rintro ⟨_, h⟩
      cases h
  | panic w => simp [retOutcome]
  | ub => simp [retOutcome]

/-- **C49.** In every reachable world a call panics exactly if it is refused: an unregistered type, no entity left, a
position outside of a slice, a layout at the maxima, or an iterator given by the caller that panics. No assertion or
checked access inside of the library fails otherwise. -/
theorem C49 {h : History V} {w : World V} (hr : Reach World.empty h w) (op : Op V) :
    ((∃ made w', step w op = some (.panicked made, w')) ↔ w.Refuses op) ∧
    (op.allOrNothing → ∀ made w', step w op = some (.panicked made, w') → made = [] ∧ w' = w) := by
  obtain ⟨he, hc⟩ := reach_sound hr
  have hb := reach_bounds hr
  have hdry := fun n => (dry_iff n w w.entities rfl he he).1
  refine ⟨?_, fun ha made w' hs => ?_⟩
  · cases op with
    | register t => simp [step, World.Refuses]
    | reset => simp [step, World.Refuses]
    | setLayout rank gs =>
      simp only [step, World.Refuses]
      rw [retOutcome_panics (by simp)]
      obtain ⟨_, h2, h3⟩ := ComponentStorage.setLayout_bounds rank hb (build_fams gs) w.entities.asSlice
      unfold World.setLayout
      constructor
      · rintro ⟨w', h⟩ hf
        have h3 := h3 hf
        cases h4 : w.components.setLayout rank (GroupLayout.build gs).2 w.entities.asSlice with
        | ok a c => rw [h4] at h; cases h
        | panic c => exact h3 c h4
        | ub => rw [h4] at h; cases h
      · intro hf
        obtain ⟨c, h4⟩ := h2 hf
        exact ⟨{ w with components := c }, by rw [h4]⟩
    | create vs =>
      simp only [step, World.Refuses, hdry]
      rw [retOutcome_panics (by simp)]
      unfold World.create
      rcases he.create with h1 | ⟨e, es, h1, h2, h3⟩
      · simp [h1, EntityStorage.createUpTo]
      · have h4 := insertSet_refuses (w := { w with entities := es }) hb hc e h2 vs
        simp only [h1, Outcome.ofRes_ok, EntityStorage.createUpTo, List.length_cons, List.length_nil, ne_eq,
          not_true_eq_false, false_or]
        rw [show (∃ p ∈ vs, w.isRegistered p.1 = false) ↔ _ from h4.symm]
        cases World.insertSet { w with entities := es } e vs <;> simp
    | extend ts it =>
      simp only [step, World.Refuses, hdry]
      rw [retOutcome_panics (by simp)]
      unfold World.extend
      have h1 := lookupAll_refuses hc (·.insertMask) ts
      rw [show (∃ t ∈ ts, w.isRegistered t = false) ↔ _ from h1.symm]
      rcases hc.lookupAll (·.insertMask) ts with h2 | ⟨idxs, mask, h2, h3, _⟩
      · simp [h2]
      · obtain ⟨h4, h5⟩ := extendEach_panics it.items he hc h3
        simp only [h2, Outcome.ofRes_ok, reduceCtorEq, false_or, ← h4]
        by_cases h6 : ∃ w', World.extendEach idxs it.items w = .panic w'
        · obtain ⟨w', h6⟩ := h6
          simp [h6]
        · obtain ⟨w', h7⟩ := h5 h6
          have hle := (extendEach_safe it.items he hc h3).2 _ _ h7
          have hsh := Sparsey.extendEach_shape (idxs := idxs) it.items w
          rw [h7] at hsh
          simp only [h7, Outcome.bind_ok, reduceCtorEq, exists_false, false_or]
          cases hp : it.thenPanics with
          | true => simp
          | false =>
            simp only [Bool.false_eq_true, if_false, iff_false, not_exists]
            intro w''
            rw [if_neg (by simpa [EntityStorage.len, EntityStorage.asSlice] using hle)]
            have h8 := ComponentStorage.withMask_np (m := mask) (ComponentStorage.groupEntities_np (m := mask)
              (w'.entities.asSlice.drop w.entities.len) _ (hb.of_shape hsh).groups)
            cases h9 : w'.components.withMask mask (ComponentStorage.groupEntities mask
              (w'.entities.asSlice.drop w.entities.len)) with
            | panic => exact absurd h9 h8
            | ub => simp
            | ok c => simp
    | destroy e =>
      simp only [step, World.Refuses, iff_false]
      rw [retRes_panics (by rintro ⟨b, w⟩ made; simp)]
      unfold World.destroy
      obtain ⟨b, es, h1, _⟩ := he.remove e
      rw [h1]
      cases b with
      | false => simp
      | true =>
        simp only [Res.bind_ok, if_true]
        unfold ComponentStorage.strip ungroupAll
        cases h2 : ungroupAllLoop e w.components.groups.length (w.components.components, w.components.groups) with
        | panic => exact absurd h2 (ComponentStorage.ungroupAllLoop_np _ _ hb.groups)
        | ub => simp [h2]
        | ok s =>
          obtain ⟨comps, groups⟩ := s
          have h3 : AllSets CompSet.IdxOk comps := stable_idx.ungroupAllLoop _ _ _ hc.sets h2
          obtain ⟨l, h4⟩ := Sound.deleteAll e h3
          simp [h2, h4]
    | createAtomic =>
      simp only [step, World.Refuses, hdry]
      rw [retRes_panics (by rintro ⟨b, w⟩ made; simp)]
      have h1 := (dry_iff 1 w w.entities rfl he he).1
      rw [← h1]
      unfold World.Dry
      simp only [List.replicate_one, run, step]
      cases h2 : w.createAtomic with
      | panic => simp [retRes]
      | ub => simp [retRes]
      | ok p => simp [retRes]
    | maintain =>
      obtain ⟨w', h1⟩ := maintain_safe he
      simp [step, World.Refuses, h1, retRes]
    | clear =>
      obtain ⟨w', h1⟩ := clear_safe he
      simp [step, World.Refuses, h1, retRes]
    | insert e vs =>
      simp only [step, World.Refuses]
      rw [retOutcome_panics (by simp)]
      unfold World.insert World.containsEntity
      cases h1 : w.entities.contains e with
      | false => simp
      | true =>
        rw [← insertSet_refuses hb hc e (he.small_of_contains h1) vs]
        simp only [Bool.not_true, Bool.false_eq_true, if_false, true_and]
        cases w.insertSet e vs <;> simp
    | remove e ts =>
      simp only [step, World.Refuses]
      rw [retRes_panics (by rintro ⟨b, w⟩ made; simp)]
      exact (remove_refuses hb hc e ts).1
    | delete e ts =>
      simp only [step, World.Refuses]
      rw [retRes_panics (by simp)]
      exact (remove_refuses hb hc e ts).2
    | write t e v =>
      simp only [step, World.Refuses]
      rw [retRes_panics (by rintro ⟨b, w⟩ made; simp)]
      unfold World.writeView World.isRegistered ComponentStorage.isRegistered
      cases hm : w.components.meta? t with
      | none => simp
      | some m =>
        obtain ⟨s, h1, h2⟩ := hc.at_meta hm
        obtain ⟨b, s', h3, _⟩ := h2.setMut e v
        simp [h1, h3]
    | writeAt t pos v =>
      simp only [step, World.Refuses]
      rw [retRes_panics (by simp)]
      unfold World.writeAt World.borrow
      cases hm : w.components.meta? t with
      | none => simp
      | some m =>
        obtain ⟨s, h1, h2⟩ := hc.at_meta hm
        simp only [h1, Res.unchecked_some, Res.bind_ok, CompSet.setAt, Res.ok.injEq, forall_eq', CompSet.len, ← h2.len]
        cases h3 : s.components[pos]? with
        | none => simpa using h3
        | some v =>
          have := (List.getElem?_eq_some_iff.1 h3).1
          simpa using this
  · have key : ∀ {α : Type} {r : Res α} {f : α → Ret V × World V}, (∀ a made, (f a).1 ≠ .panicked made) →
        retRes w r f = some (.panicked made, w') → made = [] ∧ w' = w := by
      intro α r f hf h
      cases r with
      | ok a =>
        simp only [retRes, Option.some.injEq] at h
        exact absurd (congrArg Prod.fst h) (hf a made)
      | panic =>
        simp only [retRes, Option.some.injEq, Prod.mk.injEq, Ret.panicked.injEq] at h
        exact ⟨h.1.symm, h.2.symm⟩
      | ub => simp [retRes] at h
    cases op <;> simp only [Op.allOrNothing] at ha <;> simp only [step] at hs
    case register => simp at hs
    case reset => simp at hs
    all_goals exact key (by simp) hs

/-! ### How many entities are left -/

theorem createUpTo_left : ∀ (n : Nat) {s : EntityStorage}, EntOk s → (s.createUpTo n).length =
    min n (s.allocator.recycled.length - s.allocator.recycledSinceMaintain +
      (u32Size - s.allocator.nextIndexToAllocate))
  | 0, s, _ => by simp [EntityStorage.createUpTo]
  | n + 1, s, hs => by
    have ht := hs.taken
    have hn := hs.next
    obtain ⟨o, a, h5, h5', _, h8⟩ := hs.allocate
    have h9 : s.create = (Res.checked o >>= fun e => s.entities.insert e >>= fun p => pure (e, ⟨a, p.2⟩)) := by
      unfold EntityStorage.create
      rw [h5]
      rfl
    have h10 := h5
    unfold EntityAllocator.allocate at h5
    rw [EntityStorage.createUpTo]
    cases o with
    | none =>
      simp only [h9, Res.checked_none, Res.bind_panic, List.length_nil]
      split at h5
      · obtain ⟨x, _, h5⟩ := Res.bind_ok' h5
        cases h5
      · split at h5
        · cases h5
        · omega
    | some e =>
      obtain ⟨o', es, h6, h7⟩ := EntitySparseSet.idx_insert hs.rep e (h5' e rfl)
      simp only [h9, Res.checked_some, Res.bind_ok, h6, Res.pure_eq, List.length_cons]
      rw [createUpTo_left n (h8 es h7)]
      split at h5
      · obtain ⟨x, _, h5⟩ := Res.bind_ok' h5
        cases h5
        simp only
        omega
      · split at h5
        · cases h5
          simp only
          omega
        · cases h5

/-- **C49, entities left.** In every reachable world a definite number of entities is left: `create_atomic` (and
`create`, and `extend`) can hand out that many and no more. If every `extend` so far returned as many entities as it
got items, then the number is that of the destroyed indexes that wait plus that of the indexes never used. -/
theorem C49_left {h : History V} {w : World V} (hr : Reach World.empty h w) :
    (∃ k, ∀ n, w.Dry n ↔ k < n) ∧
    (FullExtends h → ∀ n, w.Dry n ↔ (life h).waiting.length + (2 ^ 32 - (life h).next) < n) := by
  obtain ⟨he, _⟩ := reach_sound hr
  have key : ∀ n, w.Dry n ↔ w.entities.allocator.recycled.length - w.entities.allocator.recycledSinceMaintain +
      (u32Size - w.entities.allocator.nextIndexToAllocate) < n := by
    intro n
    rw [(dry_iff n w w.entities rfl he he).1, createUpTo_left n he]
    omega
  refine ⟨⟨_, key⟩, fun hf n => ?_⟩
  obtain ⟨_, ha⟩ := reach_queue hr hf
  rw [key n, ha.length, ha.next, u32Size_eq]

/-! ### Examples -/

/-- Non-vacuity: in the world of `mixOps` every kind of refusal occurs, the calls beside them go through, and the
refused calls leave what they should. -/
example : holdsAfter mixOps (fun _ w =>
    (step w (.create [(9, 1)])).map (·.1) == some (.panicked [⟨2, 1⟩]) &&
    (step w (.create [(0, 1)])).map (·.1) == some (.entity ⟨2, 1⟩) &&
    (step w (.extend [0, 9] ⟨[], false⟩)).map (·.1) == some (.panicked []) &&
    (step w (.extend [0] ⟨[[1]], true⟩)).map (·.1) == some (.panicked [⟨2, 1⟩]) &&
    (step w (.insert ⟨1, 1⟩ [(9, 1)])).map (·.1) == some (.panicked []) &&
    (step w (.insert ⟨7, 1⟩ [(9, 1)])).map (·.1) == some (.bool false) &&
    (step w (.remove ⟨7, 1⟩ [0, 9])).map (·.1) == some (.panicked []) &&
    (step w (.delete ⟨7, 1⟩ [9])).map (·.1) == some (.panicked []) &&
    (step w (.write 9 ⟨1, 1⟩ 5)).map (·.1) == some (.panicked []) &&
    (step w (.writeAt 0 2 5)).map (·.1) == some (.panicked []) &&
    (step w (.writeAt 0 1 5)).map (·.1) == some .unit &&
    (w.isRegistered 9 == false) && w.isRegistered 0 && w.containsEntity ⟨1, 1⟩) = true := by decide

/-- Non-vacuity: the world is reachable, every `extend` returned one entity per item, and 4294967294 entities are left. -/
example : ∃ (h : History Nat) (w : World Nat), Reach World.empty h w ∧ FullExtends h ∧ w.Dry 4294967295 ∧
    ¬ w.Dry 4294967294 ∧ w.Refuses (.create [(9, 1)]) ∧ ¬ w.Refuses (.create [(0, 1)]) := by
  obtain ⟨w, hw, h⟩ := reach_answers (ops := mixOps)
    (rs := [.unit, .entity ⟨0, 1⟩, .bool true, .entity ⟨0, 2⟩, .entity ⟨1, 1⟩, .bool true]) (by decide)
  have hf : FullExtends (mixOps.zip [.unit, .entity ⟨0, 1⟩, .bool true, .entity ⟨0, 2⟩, .entity ⟨1, 1⟩, .bool true]) := by
    intro ts it es hm
    simp [mixOps] at hm
  have hl : (life (mixOps.zip [.unit, .entity ⟨0, 1⟩, .bool true, .entity ⟨0, 2⟩, .entity ⟨1, 1⟩, .bool true])).waiting
      = [] := by decide
  have hn : (life (mixOps.zip [.unit, .entity ⟨0, 1⟩, .bool true, .entity ⟨0, 2⟩, .entity ⟨1, 1⟩, .bool true])).next
      = 2 := by decide
  have hreg : (run World.empty mixOps).map (fun p => (p.2.isRegistered 9, p.2.isRegistered 0)) = some (false, true) := by
    decide
  rw [hw] at hreg
  simp only [Option.map_some, Option.some.injEq, Prod.mk.injEq] at hreg
  have hd := (C49_left h).2 hf
  rw [hl, hn] at hd
  refine ⟨_, w, h, hf, (hd _).2 (by simp), fun hc => ?_, .inr ⟨(9, 1), by simp, hreg.1⟩, ?_⟩
  · have := (hd _).1 hc
    simp at this
  · rintro (hc | ⟨p, hp, hc⟩)
    · have := (hd _).1 hc
      simp at this
    · rw [List.mem_singleton.1 hp, hreg.2] at hc
      cases hc

/-- C04, life span part: `destroy` returns `true` exactly for living entities, and ends the life of this entity only.
Missing: undisciplined histories. -/
theorem C04_alive_partial {h : History V} {w w' : World V} {e : Entity} {r : Ret V} (hr : Reach World.empty h w)
    (hd : Disciplined h) (hs : step w (.destroy e) = some (r, w')) :
    r = .bool (decide (e ∈ (life h).alive)) ∧ r = .bool (w.containsEntity e) ∧
    ∀ x, w'.containsEntity x = true ↔ x ≠ e ∧ w.containsEntity x = true :=
  destroy_alive hr hd hs fun hp => (C49 hr (.destroy e)).1.1 ⟨[], w', by rw [hs, hp]⟩

example : Disciplined (calmOps.zip calmRets) ∧ holdsAfter (calmOps ++ [.destroy ⟨2, 2⟩, .destroy ⟨2, 1⟩]) (fun rs w =>
    decide (rs = calmRets ++ [.bool true, .bool false]) && !w.containsEntity ⟨2, 2⟩) = true := by
  decide +kernel

end Sparsey
