import Verif.Proofs.Tables
import Verif.Proofs.Versions

/-!
Every index below the next one was handed out since the last `reset`.
-/

set_option autoImplicit false
set_option linter.unusedSimpArgs false

namespace Sparsey
variable {V : Type}

/-- Inserting an entity keeps the indexes of the rows or appends one. -/
theorem EntitySparseSet.insert_indexes {s s' : EntitySparseSet} {e : Entity} {o : Option Entity}
    (hr : IdxRep s.sparse s.entities) (h : s.insert e = .ok (o, s')) :
    (s'.entities.map (·.index) = s.entities.map (·.index) ∧ ∃ x ∈ s.entities, x.index = e.index) ∨
    s'.entities.map (·.index) = s.entities.map (·.index) ++ [e.index] := by
  unfold EntitySparseSet.insert at h
  simp only [Entity.sparse] at h
  obtain ⟨slot, hs, h⟩ := Res.bind_ok' h
  cases slot with
  | some sl =>
    obtain ⟨old, hold, h⟩ := Res.bind_ok' h
    cases h
    obtain ⟨x, hx, hi⟩ := hr.slot ((SparseVec.allocateAt_some _ _ _ _).1 (Res.unchecked_ok hs))
    refine .inl ⟨?_, x, List.mem_of_getElem? hx, hi⟩
    show (s.entities.set sl.index e).map (·.index) = _
    rw [List.map_set, ← hi]
    refine List.ext_getElem? fun j => ?_
    rw [List.getElem?_set]
    split
    · rename_i hj
      subst hj
      split
      · rw [List.getElem?_map, hx]; rfl
      · rename_i hl
        rw [List.getElem?_eq_none (by omega)]
    · rfl
  | none =>
    obtain ⟨sp, h1, h⟩ := Res.bind_ok' h
    cases h
    exact .inr (by simp)

namespace TabEnt
variable {s s' : EntityStorage}

/-- A call of `create` uses an index up, or not. -/
theorem create_index (h : TabEnt s) {e : Entity} (hc : s.create = .ok (e, s')) :
    (s'.allocator.nextIndexToAllocate = s.allocator.nextIndexToAllocate ∧
      ∃ t, s'.entities.entities.map (·.index) = s.entities.entities.map (·.index) ++ t) ∨
    (e.index = s.allocator.nextIndexToAllocate ∧
      s'.allocator.nextIndexToAllocate = s.allocator.nextIndexToAllocate + 1 ∧
      s'.entities.entities.map (·.index) = s.entities.entities.map (·.index) ++ [e.index]) := by
  unfold EntityStorage.create at hc
  obtain ⟨⟨o, a⟩, ha, hc⟩ := Res.bind_ok' hc
  obtain ⟨x, hx, hc⟩ := Res.bind_ok' hc
  obtain ⟨⟨o', es⟩, hi, hc⟩ := Res.bind_ok' hc
  cases hc
  have hx := Res.checked_ok hx
  subst hx
  have hi := EntitySparseSet.insert_indexes h.ok.rep hi
  unfold EntityAllocator.allocate at ha
  split at ha
  · obtain ⟨x, hx, ha⟩ := Res.bind_ok' ha
    cases ha
    refine .inl ⟨rfl, ?_⟩
    rcases hi with ⟨hi, _⟩ | hi
    · exact ⟨[], by rw [hi, List.append_nil]⟩
    · exact ⟨_, hi⟩
  · split at ha
    · cases ha
      refine .inr ⟨rfl, rfl, ?_⟩
      rcases hi with ⟨_, x, hx, hxi⟩ | hi
      · have := h.dense x hx
        rw [hxi] at this
        exact absurd this (Nat.lt_irrefl _)
      · exact hi
    · cases ha

/-- A series of calls of `create`: all new indexes are among those of the rows added and of what was handed out. -/
theorem createN : ∀ (n : Nat) {s : EntityStorage}, TabEnt s →
    s.allocator.nextIndexToAllocate ≤ (s.createN n).allocator.nextIndexToAllocate ∧
    ∃ t, (s.createN n).entities.entities.map (·.index) = s.entities.entities.map (·.index) ++ t ∧
      ∀ i, s.allocator.nextIndexToAllocate ≤ i → i < (s.createN n).allocator.nextIndexToAllocate →
        i ∈ t ∧ i ∈ (s.createUpTo n).map (·.index)
  | 0, s, _ => ⟨Nat.le_refl _, [], by simp [EntityStorage.createN], fun i h1 h2 => by
      simp only [EntityStorage.createN] at h2; omega⟩
  | n + 1, s, h => by
    rw [EntityStorage.createN, EntityStorage.createUpTo]
    cases hc : s.create with
    | panic => exact ⟨Nat.le_refl _, [], by simp, fun i h1 h2 => by simp only at h2; omega⟩
    | ub => exact ⟨Nat.le_refl _, [], by simp, fun i h1 h2 => by simp only at h2; omega⟩
    | ok p =>
      obtain ⟨e, s1⟩ := p
      simp only
      obtain ⟨h1, t, h2, h3⟩ := createN n (h.create hc).1
      rcases h.create_index hc with ⟨h4, t1, h5⟩ | ⟨h4, h5, h6⟩
      · refine ⟨by omega, t1 ++ t, by rw [h2, h5, List.append_assoc], fun i g1 g2 => ?_⟩
        obtain ⟨g3, g4⟩ := h3 i (by omega) g2
        exact ⟨List.mem_append_right _ g3, List.mem_cons_of_mem _ g4⟩
      · refine ⟨by omega, [e.index] ++ t, by rw [h2, h6, List.append_assoc], fun i g1 g2 => ?_⟩
        by_cases hi : i = e.index
        · subst hi
          exact ⟨List.mem_append_left _ (by simp), by simp⟩
        · obtain ⟨g3, g4⟩ := h3 i (by omega) g2
          exact ⟨List.mem_append_right _ g3, List.mem_cons_of_mem _ g4⟩

end TabEnt

theorem Life.run_made_issued : ∀ (es : List Entity) (l : Life) (x : Entity), x ∈ (l.run (es.map .made)).issued ↔
    x ∈ es ∨ x ∈ l.issued
  | [], l, x => by simp [Life.run]
  | e :: es, l, x => by
    have := Life.run_made_issued es (l.step (.made e)) x
    rw [List.map_cons]
    show x ∈ ((l.step (.made e)).run (es.map .made)).issued ↔ _
    rw [this]
    simp only [Life.step, List.mem_cons]
    tauto

/-- Indexes used are indexes handed out. -/
def UsedIssued (s : EntityStorage) (l : Life) : Prop :=
  ∀ i, i < s.allocator.nextIndexToAllocate → ∃ e ∈ l.issued, e.index = i

theorem UsedIssued.step {s s' : EntityStorage} {l : Life} {op : Op V} {r : Ret V} (ht : TabEnt s) (hu : UsedIssued s l)
    (h : EntStep s op r s') : UsedIssued s' (l.run (events op r)) := by
  have made : ∀ es : List Entity, (∀ i, s.allocator.nextIndexToAllocate ≤ i → i < s'.allocator.nextIndexToAllocate →
      i ∈ es.map (·.index)) → UsedIssued s' (l.run (es.map .made)) := by
    intro es hes i hi
    by_cases h1 : i < s.allocator.nextIndexToAllocate
    · obtain ⟨e, he, hi⟩ := hu i h1
      exact ⟨e, (Life.run_made_issued es l e).2 (.inr he), hi⟩
    · obtain ⟨e, he, hi⟩ := List.mem_map.1 (hes i (by omega) hi)
      exact ⟨e, (Life.run_made_issued es l e).2 (.inl he), hi⟩
  cases op with
  | create vs =>
    rcases h with ⟨_, rfl, rfl⟩ | ⟨e, hc, hr⟩
    · exact hu
    · have h1 := made [e] (by
        intro i g1 g2
        rcases ht.create_index hc with ⟨h4, _⟩ | ⟨h4, h5, _⟩
        · omega
        · have : i = e.index := by omega
          simp [this])
      rcases hr with rfl | rfl <;> exact h1
  | extend ts it =>
    rcases h with ⟨rfl, rfl⟩ | ⟨rfl, hr⟩
    · exact hu
    · obtain ⟨_, t, h2, h3⟩ := ht.createN it.items.length
      rcases hr with rfl | ⟨rfl, _⟩
      · exact made _ fun i g1 g2 => (h3 i g1 g2).2
      · refine made _ fun i g1 g2 => ?_
        rw [List.map_drop]
        unfold EntityStorage.asSlice EntityStorage.len
        rw [h2, List.drop_left' (by simp)]
        exact (h3 i g1 g2).1
  | createAtomic =>
    rcases h with ⟨_, rfl, rfl⟩ | ⟨e, hc, rfl⟩
    · exact hu
    · intro i hi
      have hl : (l.run (events (Op.createAtomic : Op V) (.entity e))).issued = e :: l.issued := rfl
      rw [hl]
      unfold EntityStorage.createAtomic at hc
      rw [EntOk.allocateAtomic] at hc
      obtain ⟨⟨o, a⟩, ha, hc⟩ := Res.bind_ok' hc
      obtain ⟨x, hx, hc⟩ := Res.bind_ok' hc
      cases hc
      have hx := Res.checked_ok hx
      subst hx
      unfold EntityAllocator.allocate at ha
      split at ha
      · obtain ⟨x, hx, ha⟩ := Res.bind_ok' ha
        cases ha
        obtain ⟨y, hy, hyi⟩ := hu i hi
        exact ⟨y, .tail _ hy, hyi⟩
      · split at ha
        · cases ha
          by_cases h1 : i < s.allocator.nextIndexToAllocate
          · obtain ⟨y, hy, hyi⟩ := hu i h1
            exact ⟨y, .tail _ hy, hyi⟩
          · refine ⟨_, .head _, ?_⟩
            have : i < s.allocator.nextIndexToAllocate + 1 := hi
            show s.allocator.nextIndexToAllocate = i
            omega
        · cases ha
  | destroy e =>
    rcases h with ⟨rfl, rfl⟩ | ⟨b, hr, rfl⟩
    · exact hu
    · have hn : s'.allocator.nextIndexToAllocate = s.allocator.nextIndexToAllocate := by
        obtain ⟨⟨b', es⟩, hr', hm⟩ := Res.bind_ok' hr
        dsimp only at hm
        split at hm
        · cases hm
          show (s.allocator.recycle e).nextIndexToAllocate = _
          unfold EntityAllocator.recycle
          split <;> rfl
        · cases hm; rfl
      intro i hi
      obtain ⟨y, hy, hyi⟩ := hu i (by omega)
      refine ⟨y, ?_, hyi⟩
      cases b
      · exact hy
      · exact hy
  | maintain =>
    obtain ⟨hm, rfl⟩ := h
    obtain ⟨⟨es, a⟩, ha, hm⟩ := Res.bind_ok' hm
    obtain ⟨s1, hi, hm⟩ := Res.bind_ok' hm
    cases hm
    obtain ⟨_, h2, _⟩ := ht.maintain_alloc ha
    intro i hi
    exact hu i (by rw [← h2]; exact hi)
  | clear =>
    obtain ⟨hm, rfl⟩ := h
    obtain ⟨⟨es, a⟩, ha, hm⟩ := Res.bind_ok' hm
    cases hm
    obtain ⟨_, h2, _⟩ := ht.maintain_alloc ha
    intro i hi
    exact hu i (by rw [← h2]; exact hi)
  | reset =>
    obtain ⟨rfl, rfl⟩ := h
    intro i hi
    exact absurd hi (Nat.not_lt_zero _)
  | _ =>
    have h : s' = s := h
    subst h
    exact hu

/-- In every reachable world, the used indexes were handed out. -/
theorem reach_used {h : History V} {w : World V} (hr : Reach World.empty h w) : UsedIssued w.entities (life h) := by
  induction hr with
  | nil => exact fun i hi => absurd hi (Nat.not_lt_zero _)
  | @snoc h w₁ w₂ op r hr hs ih =>
    obtain ⟨h1, h2⟩ := reach_sound hr
    rw [life_snoc]
    exact ih.step (reach_tab hr).ents (step_ents h1 h2 hs)

end Sparsey
