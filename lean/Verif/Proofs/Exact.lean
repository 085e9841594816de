import Verif.Proofs.Indexes
import Verif.Proofs.WorldLife
import Verif.Proofs.Reach

/-!
What `maintain` does after an entity made since the last `maintain` was destroyed: it shows a dead entity.
-/

set_option autoImplicit false
set_option linter.unusedSimpArgs false

namespace Sparsey
variable {V : Type}

theorem EntitySparseSet.idx_insert_mem {s : EntitySparseSet} (h : IdxRep s.sparse s.entities) (e : Entity)
    (he : e.index < u32Size) : ∃ o s', s.insert e = .ok (o, s') ∧ IdxRep s'.sparse s'.entities ∧ e ∈ s'.entities ∧
      ∀ x ∈ s.entities, x.index ≠ e.index → x ∈ s'.entities := by
  rcases s.sparse.allocateAt_self e.index with ⟨sl, h1, h2⟩ | ⟨h1, h2⟩
  · obtain ⟨x, hx, hi⟩ := h.slot h2
    have hl := (List.getElem?_eq_some_iff.1 hx).1
    refine ⟨some x, ⟨s.sparse.allocateAt e.index, s.entities.set sl.index e⟩, ?_, ?_, ?_, ?_⟩
    · simp [EntitySparseSet.insert, Entity.sparse, h1, hx]
    · exact (h.alloc e.index).replace hx hi.symm
    · exact List.mem_iff_getElem?.2 ⟨sl.index, by simp [hl]⟩
    · intro y hy hne
      obtain ⟨d, hd⟩ := List.mem_iff_getElem?.1 hy
      refine List.mem_iff_getElem?.2 ⟨d, ?_⟩
      rw [List.getElem?_set_ne]
      · exact hd
      · rintro rfl
        rw [hd] at hx
        cases hx
        exact hne hi
  · obtain ⟨o, s', h3, h4⟩ := EntitySparseSet.idx_insert h e he
    refine ⟨o, s', h3, h4, ?_⟩
    have hl := s.sparse.allocateAt_length e.index
    simp only [EntitySparseSet.insert, Entity.sparse, h1, SparseVec.setUnchecked, hl, Res.unchecked_some, Res.bind_ok,
      if_true, Res.pure_eq, Res.ok.injEq, Prod.mk.injEq] at h3
    obtain ⟨_, rfl⟩ := h3
    exact ⟨by simp, fun x hx _ => by simp [hx]⟩

/-- The last entity with its index stays. -/
theorem insertAll_last : ∀ {post pre : List Entity} {y : Entity} {s s' : EntitySparseSet},
    IdxRep s.sparse s.entities → (∀ e ∈ pre ++ y :: post, e.index < u32Size) → (∀ z ∈ post, z.index ≠ y.index) →
    EntityStorage.insertAll s (pre ++ y :: post) = .ok s' → y ∈ s'.entities := by
  have rest : ∀ {post : List Entity} {y : Entity} {s s' : EntitySparseSet}, IdxRep s.sparse s.entities →
      (∀ e ∈ post, e.index < u32Size) → (∀ z ∈ post, z.index ≠ y.index) → y ∈ s.entities →
      EntityStorage.insertAll s post = .ok s' → y ∈ s'.entities := by
    intro post
    induction post with
    | nil =>
      intro y s s' _ _ _ hy h
      cases h
      exact hy
    | cons z post ih =>
      intro y s s' hs hlt hne hy h
      obtain ⟨o, s1, h1, h2, _, h4⟩ := EntitySparseSet.idx_insert_mem hs z (hlt z (.head _))
      simp only [EntityStorage.insertAll, h1, Res.bind_ok] at h
      exact ih h2 (fun e he => hlt e (.tail _ he)) (fun e he => hne e (.tail _ he))
        (h4 y hy (fun hc => hne z (.head _) hc.symm)) h
  intro post pre
  induction pre with
  | nil =>
    intro y s s' hs hlt hne h
    obtain ⟨o, s1, h1, h2, h3, _⟩ := EntitySparseSet.idx_insert_mem hs y (hlt y (.head _))
    simp only [List.nil_append, EntityStorage.insertAll, h1, Res.bind_ok] at h
    exact rest h2 (fun e he => hlt e (.tail _ he)) hne h3 h
  | cons x pre ih =>
    intro y s s' hs hlt hne h
    obtain ⟨o, s1, h1, h2, _, _⟩ := EntitySparseSet.idx_insert_mem hs x (hlt x (.head _))
    simp only [List.cons_append, EntityStorage.insertAll, h1, Res.bind_ok] at h
    exact ih h2 (fun e he => hlt e (.tail _ he)) hne h

/-- The last entity with the index of `x` in an ordered list. -/
theorem last_with_index : ∀ {xs : List Entity} {x : Entity},
    xs.Pairwise (fun a b => a.index = b.index → b.version < a.version) → x ∈ xs →
    ∃ pre y post, xs = pre ++ y :: post ∧ y.index = x.index ∧ y.version ≤ x.version ∧ ∀ z ∈ post, z.index ≠ x.index
  | [], x, _, hx => by cases hx
  | a :: xs, x, hp, hx => by
    rw [List.pairwise_cons] at hp
    by_cases hz : ∃ z ∈ xs, z.index = x.index
    · obtain ⟨z, hz1, hz2⟩ := hz
      have key : ∃ u ∈ xs, u.index = x.index ∧ u.version ≤ x.version := by
        rcases List.mem_cons.1 hx with rfl | hx
        · exact ⟨z, hz1, hz2, Nat.le_of_lt (hp.1 z hz1 hz2.symm)⟩
        · exact ⟨x, hx, rfl, Nat.le_refl _⟩
      obtain ⟨u, hu1, hu2, hu3⟩ := key
      obtain ⟨pre, y, post, h1, h2, h3, h4⟩ := last_with_index hp.2 hu1
      exact ⟨a :: pre, y, post, by rw [h1]; rfl, h2.trans hu2, Nat.le_trans h3 hu3, fun w hw => by rw [← hu2]; exact h4 w hw⟩
    · push Not at hz
      rcases List.mem_cons.1 hx with rfl | hx
      · exact ⟨[], x, xs, rfl, rfl, Nat.le_refl _, hz⟩
      · exact absurd rfl (hz x hx)

/-- If an entity made since the last `maintain` was destroyed, `maintain` shows an entity that is dead. -/
theorem LifeInv.maintain_wrong {s s' : EntityStorage} {l : Life} (h : LifeInv s l) (hk : l.freshKilled = true)
    (hm : s.maintain = .ok s') : ∃ y ∈ s'.entities.entities, y ∉ l.queued ++ l.alive ∧ y ∈ l.issued := by
  obtain ⟨x, hx1, hx2⟩ := h.killed hk
  obtain ⟨a', h1, _, _⟩ := h.alloc.maintain
  obtain ⟨pre, y, post, h2, h3, h4, h5⟩ := last_with_index h.order (h.freshDrained x hx1)
  have hiss : ∀ x ∈ s.allocator.drained, x ∈ l.issued := by
    intro x hx
    rcases h.drained x hx with hx | hx
    · exact h.liveIssued x (List.mem_append_left _ hx)
    · exact h.freshIssued x hx
  have hrep : IdxRep s.entities.sparse s.entities.entities :=
    ⟨fun d e he => ⟨e.version, h.wf.fwd d e he⟩, fun i d v hv => ⟨⟨i, v⟩, h.wf.bwd i d v hv, rfl⟩, h.wf.small⟩
  simp only [EntityStorage.maintain, h1, Res.bind_ok] at hm
  cases hi : EntityStorage.insertAll s.entities s.allocator.drained with
  | panic => simp [hi] at hm
  | ub => simp [hi] at hm
  | ok es =>
    simp only [hi, Res.bind_ok, Res.pure_eq, Res.ok.injEq] at hm
    subst hm
    have hs := h.alloc.small
    refine ⟨y, insertAll_last hrep (fun e he => ?_) (fun z hz => by rw [h3]; exact h5 z hz) (by rw [← h2]; exact hi), ?_, ?_⟩
    · rw [← h2] at he
      have := (h.issuedRange e (hiss e he)).1
      omega
    · intro hy
      have hy' : y ∈ l.queued ++ s.entities.entities := by
        rcases List.mem_append.1 hy with hy | hy
        · exact List.mem_append_left _ hy
        · exact List.mem_append_right _ ((h.alive y).2 hy)
      have h6 := h.issuedLive x (h.freshIssued x hx1) y hy' h3.symm
      have : y = x := by
        cases x
        cases y
        simp only at h3 h4 h6
        rw [h3, Nat.le_antisymm h4 h6]
      rw [this] at hy'
      exact hx2 hy'
    · exact hiss y (by rw [h2]; simp)

end Sparsey
