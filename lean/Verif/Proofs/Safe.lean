import Verif.Proofs.AllSets
import Verif.Proofs.Static

/-!
What never runs into undefined behaviour in any reachable world: everything except the grouping of entities. For worlds
without groups that is everything.
-/

set_option autoImplicit false
set_option linter.unusedSimpArgs false

namespace Sparsey
variable {V : Type}

/-- Positions of sets are valid, slots agree with dense entities. -/
structure Sound (c : ComponentStorage V) : Prop where
  static : Static c
  sets : AllSets CompSet.IdxOk c.components

namespace Sound
variable {c : ComponentStorage V}

theorem set (h : Sound c) (i : Nat) {s : CompSet V} (hs : s.IdxOk) :
    Sound { c with components := c.components.set i s } :=
  ⟨h.static.of_shape (Shape.set c i s), h.sets.set hs i⟩

theorem at_meta (h : Sound c) {t : TypeId} {m : ComponentMetadata} (hm : c.meta? t = some m) :
    ∃ s, c.components[m.storageIndex]? = some s ∧ s.IdxOk := by
  have := h.static.idx t m hm
  exact ⟨_, List.getElem?_eq_getElem this, h.sets _ (List.getElem_mem this)⟩

theorem insertEach (e : Entity) (he : e.index < u32Size) : ∀ (vs : List (TypeId × V)) (m : GroupMask)
    {c : ComponentStorage V}, Sound c → ComponentStorage.insertEach e vs m c ≠ .ub
  | [], _, _, _ => by simp [ComponentStorage.insertEach]
  | (t, v) :: vs, m, c, h => by
    rw [ComponentStorage.insertEach]
    cases hm : c.meta? t with
    | none => simp
    | some md =>
      obtain ⟨s, h1, h2⟩ := h.at_meta hm
      obtain ⟨o, s', h3, h4⟩ := h2.insert e v he
      simp only [h1, Res.unchecked_some, Outcome.ofRes_ok, h3]
      exact insertEach e he vs _ (h.set _ h4)

theorem lookupAll (h : Sound c) (f : ComponentMetadata → GroupMask) : ∀ (ts : List TypeId),
    c.lookupAll f ts = .panic ∨ ∃ idxs mask, c.lookupAll f ts = .ok (idxs, mask) ∧
      (∀ i ∈ idxs, i < c.components.length) ∧
      ((∀ t m, c.meta? t = some m → f m = 0#64) → mask = 0#64)
  | [] => .inr ⟨[], 0#64, rfl, by simp, fun _ => rfl⟩
  | t :: ts => by
    rw [ComponentStorage.lookupAll]
    cases hm : c.meta? t with
    | none => exact .inl rfl
    | some md =>
      obtain ⟨s, h1, h2⟩ := h.at_meta hm
      have hlt := h.static.idx t md hm
      rcases h.lookupAll f ts with h3 | ⟨idxs, mask, h3, h4, h5⟩
      · exact .inl (by simp [h3])
      · refine .inr ⟨md.storageIndex :: idxs, f md ||| mask, by simp [h3, h1], ?_, fun hz => ?_⟩
        · intro i hi
          rcases List.mem_cons.1 hi with rfl | hi
          · exact hlt
          · exact h4 i hi
        · rw [hz t md hm, h5 hz]
          rfl

theorem removeEach (e : Entity) : ∀ (is : List Nat) {c : ComponentStorage V}, Sound c →
    (∀ i ∈ is, i < c.components.length) → ∃ r, ComponentStorage.removeEach e is c = .ok r
  | [], c, _, _ => ⟨_, rfl⟩
  | i :: is, c, h, hi => by
    have hlt := hi i (.head _)
    obtain ⟨o, s', h1, _, h2⟩ := (h.sets _ (List.getElem_mem hlt)).remove e
    obtain ⟨r, h3⟩ := removeEach e is (h.set i h2) (fun j hj => by simpa using hi j (List.mem_cons_of_mem _ hj))
    exact ⟨(o :: r.1, r.2), by simp [ComponentStorage.removeEach, List.getElem?_eq_getElem hlt, h1, h3]⟩

theorem deleteEach (e : Entity) : ∀ (is : List Nat) {c : ComponentStorage V}, Sound c →
    (∀ i ∈ is, i < c.components.length) → ∃ r, ComponentStorage.deleteEach e is c = .ok r
  | [], c, _, _ => ⟨_, rfl⟩
  | i :: is, c, h, hi => by
    have hlt := hi i (.head _)
    obtain ⟨o, s', _, h1, h2⟩ := (h.sets _ (List.getElem_mem hlt)).remove e
    obtain ⟨r, h3⟩ := deleteEach e is (h.set i h2) (fun j hj => by simpa using hi j (List.mem_cons_of_mem _ hj))
    exact ⟨r, by simp [ComponentStorage.deleteEach, List.getElem?_eq_getElem hlt, h1, h3]⟩

theorem deleteAll (e : Entity) : ∀ {l : List (CompSet V)}, AllSets CompSet.IdxOk l →
    ∃ l', ComponentStorage.deleteAll e l = .ok l'
  | [], _ => ⟨[], rfl⟩
  | s :: ss, h => by
    obtain ⟨o, s', _, h1, _⟩ := (h s (.head _)).remove e
    obtain ⟨l', h2⟩ := deleteAll e (fun s hs => h s (.tail _ hs))
    exact ⟨s' :: l', by simp [ComponentStorage.deleteAll, h1, h2]⟩

theorem insertAt (e : Entity) (he : e.index < u32Size) : ∀ (l : List (Nat × V)) {c : ComponentStorage V}, Sound c →
    (∀ p ∈ l, p.1 < c.components.length) → ∃ c', ComponentStorage.insertAt e l c = .ok c' ∧ Sound c' ∧
      c'.components.length = c.components.length
  | [], c, h, _ => ⟨c, rfl, h, rfl⟩
  | (i, v) :: l, c, h, hi => by
    have hlt := hi (i, v) (.head _)
    obtain ⟨o, s', h1, h2⟩ := (h.sets _ (List.getElem_mem hlt)).insert e v he
    obtain ⟨c', h3, h4, h5⟩ := insertAt e he l (h.set i h2) (fun p hp => by simpa using hi p (List.mem_cons_of_mem _ hp))
    refine ⟨c', ?_, h4, by simpa using h5⟩
    simp only at hlt
    simp [ComponentStorage.insertAt, List.getElem?_eq_getElem hlt, h1, h3]

end Sound

theorem reach_sound {h : History V} {w : World V} (hr : Reach World.empty h w) :
    EntOk w.entities ∧ Sound w.components :=
  ⟨(reach_idx hr).1, reach_static hr, (reach_idx hr).2⟩

/-- `create` never shrinks the entities. -/
theorem EntOk.create_len {s s' : EntityStorage} {e : Entity} (h : s.create = .ok (e, s')) : s.len ≤ s'.len := by
  unfold EntityStorage.create at h
  obtain ⟨⟨o, a⟩, _, h⟩ := Res.bind_ok' h
  obtain ⟨e', _, h⟩ := Res.bind_ok' h
  obtain ⟨⟨_, es⟩, h1, h⟩ := Res.bind_ok' h
  simp only [Res.pure_eq, Res.ok.injEq, Prod.mk.injEq] at h
  obtain ⟨rfl, rfl⟩ := h
  unfold EntitySparseSet.insert at h1
  obtain ⟨sl, _, h1⟩ := Res.bind_ok' h1
  cases sl with
  | some sl =>
    obtain ⟨old, _, h1⟩ := Res.bind_ok' h1
    simp only [Res.pure_eq, Res.ok.injEq, Prod.mk.injEq] at h1
    simp [EntityStorage.len, ← h1.2]
  | none =>
    obtain ⟨old, _, h1⟩ := Res.bind_ok' h1
    simp only [Res.pure_eq, Res.ok.injEq, Prod.mk.injEq] at h1
    simp [EntityStorage.len, ← h1.2]

theorem extendEach_safe {idxs : List Nat} : ∀ (items : List (List V)) {w : World V}, EntOk w.entities →
    Sound w.components → (∀ i ∈ idxs, i < w.components.components.length) →
    World.extendEach idxs items w ≠ .ub ∧
      ∀ a w', World.extendEach idxs items w = .ok a w' → w.entities.len ≤ w'.entities.len
  | [], w, _, _, _ => by
    rw [World.extendEach]
    refine ⟨by simp, fun a w' h => ?_⟩
    simp only [Outcome.ok.injEq] at h
    rw [← h.2]
  | vs :: items, w, he, hc, hi => by
    rw [World.extendEach]
    rcases he.create with h1 | ⟨e, es, h1, h2, h3⟩
    · rw [h1]
      simp
    · rw [h1]
      simp only [Outcome.ofRes_ok]
      obtain ⟨c', h4, h5, h6⟩ := Sound.insertAt e h2 (idxs.zip vs) hc (fun p hp => hi p.1 (List.of_mem_zip hp).1)
      simp only [h4, Outcome.ofRes_ok]
      obtain ⟨h7, h8⟩ := extendEach_safe items (w := ⟨es, c'⟩) h3 h5 (by simpa [h6] using hi)
      exact ⟨h7, fun a w' h => (EntOk.create_len h1).trans (h8 a w' h)⟩

/-! ### Worlds without groups -/

/-- No groups at all. -/
structure Flat (c : ComponentStorage V) : Prop where
  groups : c.groups = []
  masks : ∀ t m, c.meta? t = some m → m.insertMask = 0#64 ∧ m.deleteMask = 0#64

namespace Flat
variable {c c' : ComponentStorage V}

theorem of_shape (h : Flat c) (hs : Shape c c') : Flat c' where
  groups := by
    have := hs.stat
    unfold SameStat at this
    rw [h.groups] at this
    simpa using this
  masks t m hm := h.masks t m (by rw [← hs.meta?]; exact hm)

theorem register (h : Flat c) (t : TypeId) : Flat (c.register t).2 := by
  unfold ComponentStorage.register
  split
  · exact h
  · refine ⟨h.groups, fun t' m hm => ?_⟩
    simp only [ComponentStorage.meta?, insertMeta_lookup] at hm
    split at hm
    · cases hm
      exact ⟨rfl, rfl⟩
    · exact h.masks t' m hm

theorem addUngrouped : ∀ (l : List (TypeId × CompSet V)) {c : ComponentStorage V}, Flat c →
    Flat (ComponentStorage.addUngrouped l c)
  | [], _, h => h
  | (t, s) :: l, c, h => by
    rw [ComponentStorage.addUngrouped]
    refine addUngrouped l ⟨h.groups, fun t' m hm => ?_⟩
    simp only [ComponentStorage.meta?, insertMeta_lookup] at hm
    split at hm
    · cases hm
      exact ⟨rfl, rfl⟩
    · exact h.masks t' m hm

theorem groupEntities_zero (s : Sets V) : ∀ (es : List Entity), ComponentStorage.groupEntities 0#64 es s = .ok s
  | [] => rfl
  | e :: es => by
    have h1 : group s 0#64 e = .ok s := by
      unfold group groupLoop
      have : bitNext 0#64 = none := rfl
      rw [this]
    rw [ComponentStorage.groupEntities, h1, Res.bind_ok]
    exact groupEntities_zero s es

theorem takeSets_safe : ∀ (md : List (TypeId × ComponentMetadata)) (l : List (CompSet V)),
    ComponentStorage.takeSets md l ≠ .ub
  | [], l => by simp [ComponentStorage.takeSets]
  | (t, m) :: md, l => by
    rw [ComponentStorage.takeSets]
    cases l[m.storageIndex]? with
    | none => simp
    | some s =>
      simp only [Res.checked_some, Res.bind_ok]
      have := takeSets_safe md (l.set m.storageIndex CompSet.new)
      cases h : ComponentStorage.takeSets md (l.set m.storageIndex CompSet.new) with
      | ok p => simp
      | panic => simp
      | ub => exact absurd h this

theorem setLayout (h : Flat c) (rank : TypeId → Nat) (es : List Entity) :
    c.setLayout rank .empty es ≠ .ub ∧ (c.setLayout rank .empty es).Leaves Flat := by
  unfold ComponentStorage.setLayout ComponentStorage.extractSparseSets
  have h1 := takeSets_safe c.metadata c.components
  cases ht : ComponentStorage.takeSets c.metadata c.components with
  | ub => exact absurd ht h1
  | panic => exact ⟨by simp, h⟩
  | ok p =>
    obtain ⟨sets, comps⟩ := p
    simp only [Res.bind_ok, Res.pure_eq, GroupLayout.empty, ComponentStorage.addFamilies]
    have h2 : Flat (ComponentStorage.addUngrouped (ComponentStorage.sortByRank rank sets) ⟨[], [], comps⟩) :=
      addUngrouped _ ⟨rfl, fun t m hm => by simp [ComponentStorage.meta?] at hm⟩
    rw [h2.groups]
    have h3 : GroupMask.fromTo 0 ([] : List Group).length = .ok 0#64 := by decide
    rw [h3]
    simp only [groupEntities_zero]
    exact ⟨by simp, ⟨rfl, h2.masks⟩⟩

theorem insertEach_mask (e : Entity) : ∀ (vs : List (TypeId × V)) {c : ComponentStorage V}, Flat c →
    ∀ m c', ComponentStorage.insertEach e vs 0#64 c = .ok m c' → m = 0#64
  | [], _, _, m, c', h => by
    simp only [ComponentStorage.insertEach, Outcome.ok.injEq] at h
    exact h.1.symm
  | (t, v) :: vs, c, hf, m, c', h => by
    rw [ComponentStorage.insertEach] at h
    cases hm : c.meta? t with
    | none => rw [hm] at h; simp at h
    | some md =>
      rw [hm] at h
      simp only at h
      have hz : (0#64 ||| md.insertMask) = 0#64 := by
        rw [(hf.masks t md hm).1]
        rfl
      cases hs : c.components[md.storageIndex]? with
      | none => rw [hs] at h; simp at h
      | some s =>
        rw [hs] at h
        simp only [Res.unchecked_some, Outcome.ofRes_ok] at h
        cases hi : s.insert e v with
        | ub => rw [hi] at h; simp at h
        | panic => rw [hi] at h; simp at h
        | ok p =>
          rw [hi] at h
          simp only [Outcome.ofRes_ok, hz] at h
          exact insertEach_mask e vs (hf.of_shape (Shape.set c _ _)) m c' h

end Flat

/-- Inserting components never runs into undefined behaviour if no type is grouped. -/
theorem insertSet_safe {w : World V} (hc : Sound w.components) (hf : Flat w.components) {e : Entity}
    (he : e.index < u32Size) (vs : List (TypeId × V)) : w.insertSet e vs ≠ .ub := by
  unfold World.insertSet ComponentStorage.insert
  have h1 := Sound.insertEach e he vs 0#64 hc
  cases hi : ComponentStorage.insertEach e vs 0#64 w.components with
  | ub => exact absurd hi h1
  | panic c => simp
  | ok m c' =>
    have hm := Flat.insertEach_mask e vs hf m c' hi
    subst hm
    have h2 : ComponentStorage.withMask c' 0#64 (group · 0#64 e) = .ok c' := by
      unfold ComponentStorage.withMask
      simp
    simp [h2]

theorem retRes_safe {α : Type} {w : World V} {r : Res α} {f : α → Ret V × World V} (h : r ≠ .ub) :
    ∃ x, retRes w r f = some x := by
  cases r with
  | ok a => exact ⟨_, rfl⟩
  | panic => exact ⟨_, rfl⟩
  | ub => exact absurd rfl h

theorem retOutcome_safe {α : Type} {made : List Entity} {r : Outcome (World V) α} {f : α → Ret V} (h : r ≠ .ub) :
    ∃ x, retOutcome made r f = some x := by
  cases r with
  | ok a s => exact ⟨_, rfl⟩
  | panic s => exact ⟨_, rfl⟩
  | ub => exact absurd rfl h

theorem Outcome.bind_safe {σ α β : Type} {o : Outcome σ α} {f : α → σ → Outcome σ β} (h : o ≠ .ub)
    (hf : ∀ a s, o = .ok a s → f a s ≠ .ub) : o.bind f ≠ .ub := by
  cases o with
  | ok a s => exact hf a s rfl
  | panic s => simp
  | ub => exact absurd rfl h

theorem createAtomic_safe {w : World V} (he : EntOk w.entities) : w.createAtomic ≠ .ub := by
  unfold World.createAtomic
  rcases he.createAtomic with h | ⟨e, s, h, _⟩ <;> simp [h]

theorem maintain_safe {w : World V} (he : EntOk w.entities) : ∃ w', w.maintain = .ok w' := by
  unfold World.maintain
  obtain ⟨s, h, _⟩ := he.maintain
  exact ⟨⟨s, w.components⟩, by simp only [h, Res.bind_ok, Res.pure_eq]⟩

theorem clear_safe {w : World V} (he : EntOk w.entities) : ∃ w', w.clear = .ok w' := by
  unfold World.clear
  obtain ⟨s, h, _⟩ := he.clear
  exact ⟨⟨s, w.components.clear⟩, by simp only [h, Res.bind_ok, Res.pure_eq]⟩

theorem write_safe {w : World V} (hc : Sound w.components) (t : TypeId) (e : Entity) (v : V) :
    w.writeView t e v ≠ .ub := by
  unfold World.writeView
  cases hm : w.components.meta? t with
  | none => simp
  | some m =>
    obtain ⟨s, h1, h2⟩ := hc.at_meta hm
    obtain ⟨b, s', h3, _⟩ := h2.setMut e v
    simp [h1, h3]

theorem writeAt_safe {w : World V} (hc : Sound w.components) (t : TypeId) (pos : Nat) (v : V) :
    w.writeAt t pos v ≠ .ub := by
  unfold World.writeAt
  cases hm : w.components.meta? t with
  | none => simp
  | some m =>
    obtain ⟨s, h1, h2⟩ := hc.at_meta hm
    simp only [h1, Res.unchecked_some, Res.bind_ok, CompSet.setAt]
    cases s.components[pos]? <;> simp

theorem viewGet_safe {w : World V} (hc : Sound w.components) (t : TypeId) (e : Entity) : w.viewGet t e ≠ .ub := by
  unfold World.viewGet World.borrow
  cases hm : w.components.meta? t with
  | none => simp
  | some m =>
    obtain ⟨s, h1, h2⟩ := hc.at_meta hm
    obtain ⟨o, h3⟩ := h2.get e
    simp [h1, h3]

/-- One call in a world without groups. -/
theorem step_flat {w : World V} (he : EntOk w.entities) (hc : Sound w.components) (hf : Flat w.components) (op : Op V)
    (hop : ∀ r gs, op = .setLayout r gs → (GroupLayout.build gs).2 = .empty) :
    ∃ r w', step w op = some (r, w') ∧ Flat w'.components := by
  have hkeep : op.keepsTypes → (∃ x, step w op = some x) → ∃ r w', step w op = some (r, w') ∧ Flat w'.components := by
    rintro hk ⟨⟨r, w'⟩, hs⟩
    exact ⟨r, w', hs, hf.of_shape (step_shape hs hk)⟩
  cases op with
  | register t => exact ⟨_, _, rfl, hf.register t⟩
  | setLayout rank gs =>
    rw [step, hop rank gs rfl]
    obtain ⟨h1, h2⟩ := hf.setLayout rank w.entities.asSlice
    unfold World.setLayout
    cases hl : w.components.setLayout rank .empty w.entities.asSlice with
    | ub => exact absurd hl h1
    | panic c =>
      rw [hl] at h2
      exact ⟨_, _, rfl, h2⟩
    | ok a c =>
      rw [hl] at h2
      exact ⟨_, _, rfl, h2⟩
  | create vs =>
    refine hkeep trivial (retOutcome_safe ?_)
    unfold World.create
    rcases he.create with h1 | ⟨e, s, h1, h2, _⟩
    · simp [h1]
    · rw [h1, Outcome.ofRes_ok]
      exact Outcome.bind_safe (insertSet_safe (w := ⟨s, w.components⟩) hc hf h2 vs) (by simp)
  | extend ts it =>
    refine hkeep trivial (retOutcome_safe ?_)
    unfold World.extend
    rcases hc.lookupAll (·.insertMask) ts with h1 | ⟨idxs, mask, h1, h2, h3⟩
    · simp [h1]
    · have hz := h3 fun t m hm => (hf.masks t m hm).1
      subst hz
      rw [h1, Outcome.ofRes_ok]
      obtain ⟨h4, h5⟩ := extendEach_safe it.items he hc h2
      refine Outcome.bind_safe h4 fun a w' hw' => ?_
      have h6 := h5 a w' hw'
      split
      · simp
      · rw [if_neg (by simp only [EntityStorage.asSlice, EntityStorage.len] at h6 ⊢; omega)]
        have : ComponentStorage.withMask w'.components 0#64 (ComponentStorage.groupEntities 0#64
            (w'.entities.asSlice.drop w.entities.len)) = .ok w'.components := by
          unfold ComponentStorage.withMask
          simp
        simp [this]
  | destroy e =>
    refine hkeep trivial (retRes_safe ?_)
    unfold World.destroy
    obtain ⟨b, s, h1, _⟩ := he.remove e
    rw [h1, Res.bind_ok]
    cases b with
    | false => simp
    | true =>
      have h2 : ungroupAll (w.components.components, w.components.groups) e =
          .ok (w.components.components, w.components.groups) := by
        unfold ungroupAll
        rw [hf.groups]
        rfl
      obtain ⟨l, h3⟩ := Sound.deleteAll e hc.sets
      simp [ComponentStorage.strip, h2, h3]
  | createAtomic => exact hkeep trivial (retRes_safe (createAtomic_safe he))
  | maintain =>
    obtain ⟨w', h⟩ := maintain_safe he
    exact hkeep trivial (retRes_safe (by simp [h]))
  | insert e vs =>
    refine hkeep trivial (retOutcome_safe ?_)
    unfold World.insert
    cases hce : w.entities.contains e with
    | false => simp
    | true =>
      simp only [Bool.not_true, Bool.false_eq_true, if_false]
      exact Outcome.bind_safe (insertSet_safe hc hf (he.small_of_contains hce) vs) (by simp)
  | remove e ts =>
    refine hkeep trivial (retRes_safe ?_)
    unfold World.remove ComponentStorage.remove
    rcases hc.lookupAll (·.deleteMask) ts with h1 | ⟨idxs, mask, h1, h2, h3⟩
    · simp [h1]
    · have hz := h3 fun t m hm => (hf.masks t m hm).2
      subst hz
      obtain ⟨r, h4⟩ := Sound.removeEach e idxs hc h2
      have h5 : ComponentStorage.withMask w.components 0#64 (ungroup · 0#64 e) = .ok w.components := by
        unfold ComponentStorage.withMask
        simp
      rw [h1]
      simp only [Res.bind_ok, h5, h4]
      simp
  | delete e ts =>
    refine hkeep trivial (retRes_safe ?_)
    unfold World.delete ComponentStorage.delete
    rcases hc.lookupAll (·.deleteMask) ts with h1 | ⟨idxs, mask, h1, h2, h3⟩
    · simp [h1]
    · have hz := h3 fun t m hm => (hf.masks t m hm).2
      subst hz
      obtain ⟨r, h4⟩ := Sound.deleteEach e idxs hc h2
      have h5 : ComponentStorage.withMask w.components 0#64 (ungroup · 0#64 e) = .ok w.components := by
        unfold ComponentStorage.withMask
        simp
      rw [h1]
      simp only [Res.bind_ok, h5, h4]
      simp
  | clear =>
    obtain ⟨w', h⟩ := clear_safe he
    exact hkeep trivial (retRes_safe (by simp [h]))
  | reset => exact hkeep trivial ⟨_, rfl⟩
  | write t e v => exact hkeep trivial (retRes_safe (write_safe hc t e v))
  | writeAt t pos v => exact hkeep trivial (retRes_safe (writeAt_safe hc t pos v))

/-- Any calls in a world without groups. -/
theorem run_flat : ∀ (ops : List (Op V)) {w : World V}, Stable.World CompSet.IdxOk w → Static w.components →
    Flat w.components → (∀ op ∈ ops, ∀ r gs, op = .setLayout r gs → (GroupLayout.build gs).2 = .empty) →
    ∃ rs w', run w ops = some (rs, w')
  | [], w, _, _, _, _ => ⟨[], w, rfl⟩
  | op :: ops, w, hw, hs, hf, hops => by
    obtain ⟨r, w', h1, h2⟩ := step_flat hw.ents ⟨hs, hw.sets⟩ hf op (hops op (.head _))
    obtain ⟨rs, w'', h3⟩ := run_flat ops (stable_idx.step hw h1) (step_static h1 hs) h2
      (fun op h => hops op (.tail _ h))
    exact ⟨r :: rs, w'', by rw [run, h1]; simp only [h3]⟩

end Sparsey
