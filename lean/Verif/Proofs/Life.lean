import Verif.Proofs.EntitySet
import Verif.Spec.Life

/-!
The entity storage follows the specification of life spans.
-/

set_option autoImplicit false
set_option linter.unusedSimpArgs false

namespace Sparsey

theorem u32Size_eq : u32Size = 2 ^ 32 := by decide

/-- The entities handed out since the last `maintain`, as `EntityAllocator::maintain` computes them. -/
def EntityAllocator.drained (a : EntityAllocator) : List Entity :=
  a.recycled.drop (a.recycled.length - a.recycledSinceMaintain) ++
    (List.range' a.lastMaintainedIndex (a.nextIndexToAllocate - a.lastMaintainedIndex)).map
      (fun i => Entity.withIndex (asU32 i))

/-- The allocator holds the queue `waiting` and the counter `next`. -/
structure AllocRep (a : EntityAllocator) (ws : List Entity) (n : Nat) : Prop where
  rsm : a.recycledSinceMaintain ≤ a.recycled.length
  waiting : a.recycled.take (a.recycled.length - a.recycledSinceMaintain) = ws.reverse
  next : a.nextIndexToAllocate = n
  small : n ≤ u32Size
  last : a.lastMaintainedIndex ≤ n

namespace AllocRep
variable {a : EntityAllocator} {ws : List Entity} {next : Nat}

theorem empty : AllocRep EntityAllocator.empty [] 0 := by
  constructor <;> simp [EntityAllocator.empty]

theorem length (h : AllocRep a ws next) :
    a.recycled.length - a.recycledSinceMaintain = ws.length := by
  have := congrArg List.length h.waiting
  simp at this
  omega

theorem recycled_eq (h : AllocRep a ws next) :
    a.recycled = ws.reverse ++ a.recycled.drop ws.length := by
  rw [← h.waiting, ← h.length, List.take_append_drop]

theorem drained_eq (h : AllocRep a ws next) : a.drained = a.recycled.drop ws.length ++
    (List.range' a.lastMaintainedIndex (next - a.lastMaintainedIndex)).map
      (fun i => Entity.withIndex i) := by
  unfold EntityAllocator.drained
  rw [h.length, h.next]
  congr 1
  apply List.map_congr_left
  intro i hi
  have h1 := h.small
  have h2 := h.last
  simp only [List.mem_range'_1] at hi
  rw [asU32, Nat.mod_eq_of_lt (by omega)]

theorem mem_drained (h : AllocRep a ws next) (x : Entity) : x ∈ a.drained ↔
    x ∈ a.recycled.drop ws.length ∨ (x.version = 1 ∧ a.lastMaintainedIndex ≤ x.index ∧ x.index < next) := by
  have h1 := h.last
  rw [h.drained_eq]
  simp only [List.mem_append, List.mem_map, List.mem_range'_1, Entity.withIndex, Version.first]
  constructor
  · rintro (hx | ⟨i, hi, rfl⟩)
    · exact .inl hx
    · refine .inr ⟨rfl, ?_, ?_⟩ <;> simp only <;> omega
  · rintro (hx | ⟨hv, h1, h2⟩)
    · exact .inl hx
    · refine .inr ⟨x.index, by omega, ?_⟩
      cases x; simp at hv; simp [hv]

theorem allocate_waiting {w : Entity} (h : AllocRep a (w :: ws) next) :
    ∃ a', a.allocate = .ok (some w, a') ∧ a.allocateAtomic = .ok (some w, a') ∧ AllocRep a' ws next ∧
      (∀ x, x ∈ a'.drained ↔ x = w ∨ x ∈ a.drained) := by
  have hl := h.length
  simp only [List.length_cons] at hl
  have hr := h.rsm
  have hlt : a.recycledSinceMaintain < a.recycled.length := by omega
  have hidx : a.recycled.length - a.recycledSinceMaintain - 1 = ws.length := by omega
  have hget : a.recycled[ws.length]? = some w := by
    rw [h.recycled_eq, List.getElem?_append_left (by simp)]
    simp [List.getElem?_append_right]
  have hrep : AllocRep { a with recycledSinceMaintain := a.recycledSinceMaintain + 1 } ws next := by
    refine ⟨hlt, ?_, h.next, h.small, h.last⟩
    simp only
    rw [show a.recycled.length - (a.recycledSinceMaintain + 1) = ws.length by omega, h.recycled_eq]
    simp [List.take_append]
  refine ⟨_, ?_, ?_, hrep, ?_⟩
  · simp [EntityAllocator.allocate, hlt, hidx, hget]
  · simp [EntityAllocator.allocateAtomic, EntityAllocator.incrementRecycledSinceMaintain, hlt, hidx, hget]
  · intro x
    rw [hrep.mem_drained, h.mem_drained]
    simp only [List.length_cons]
    have hws : ws.length < a.recycled.length := by omega
    rw [List.drop_eq_getElem_cons hws]
    have : a.recycled[ws.length] = w := by
      rw [List.getElem?_eq_getElem hws] at hget
      simpa using hget
    rw [this]
    simp only [List.mem_cons]
    tauto

theorem allocate_next (h : AllocRep a [] next) (hn : next < u32Size) :
    ∃ a', a.allocate = .ok (some ⟨next, 1⟩, a') ∧ a.allocateAtomic = .ok (some ⟨next, 1⟩, a') ∧
      AllocRep a' [] (next + 1) ∧
      (∀ x, x ∈ a'.drained ↔ x = ⟨next, 1⟩ ∨ x ∈ a.drained) := by
  have hl := h.length
  simp only [List.length_nil] at hl
  have hr := h.rsm
  have hlt : ¬ a.recycledSinceMaintain < a.recycled.length := by omega
  have hrep : AllocRep { a with nextIndexToAllocate := a.nextIndexToAllocate + 1 } [] (next + 1) := by
    refine ⟨h.rsm, h.waiting, by simp [h.next], by omega, ?_⟩
    have := h.last
    simp only; omega
  have hn' : a.nextIndexToAllocate < u32Size := by rw [h.next]; exact hn
  refine ⟨_, ?_, ?_, hrep, ?_⟩
  · simp only [EntityAllocator.allocate, hlt, hn', hn, if_true, if_false, Entity.withIndex, Version.first, h.next]
  · simp only [EntityAllocator.allocateAtomic, EntityAllocator.incrementRecycledSinceMaintain, hlt,
      EntityAllocator.incrementNextIndexToAllocate, hn, if_true, if_false, Entity.withIndex, Version.first,
      h.next]
  · intro x
    rw [hrep.mem_drained, h.mem_drained]
    have := h.last
    simp only
    cases x with
    | mk i v =>
      simp only [Entity.mk.injEq]
      constructor
      · rintro (h1 | ⟨h1, h2, h3⟩)
        · exact .inr (.inl h1)
        · by_cases hc : i = next
          · exact .inl ⟨hc, h1⟩
          · exact .inr (.inr ⟨h1, h2, by omega⟩)
      · rintro (⟨h1, h2⟩ | h1 | ⟨h1, h2, h3⟩)
        · exact .inr ⟨h2, by omega, by omega⟩
        · exact .inl h1
        · exact .inr ⟨h1, h2, by omega⟩

/-- Where the entity handed out goes in the list of `maintain`. -/
theorem allocate_drained (h : AllocRep a ws next) {e : Entity} {a' : EntityAllocator}
    (hal : a.allocate = .ok (some e, a')) :
    a'.drained = e :: a.drained ∨ (a'.drained = a.drained ++ [e] ∧ e.version = 1) := by
  have hr := h.rsm
  unfold EntityAllocator.allocate at hal
  split at hal
  · rename_i hlt
    have hi : a.recycled.length - a.recycledSinceMaintain - 1 < a.recycled.length := by omega
    rw [List.getElem?_eq_getElem hi, Res.checked_some, Res.bind_ok] at hal
    cases hal
    refine .inl ?_
    have h1 : a.recycled.length - (a.recycledSinceMaintain + 1) =
      a.recycled.length - a.recycledSinceMaintain - 1 := by omega
    have h2 : a.recycled.length - a.recycledSinceMaintain - 1 + 1 =
      a.recycled.length - a.recycledSinceMaintain := by omega
    simp only [EntityAllocator.drained]
    rw [h1, List.drop_eq_getElem_cons hi, h2]
    rfl
  · split at hal
    · cases hal
      refine .inr ⟨?_, rfl⟩
      simp only [EntityAllocator.drained]
      have h3 := h.last
      rw [← h.next] at h3
      rw [show a.nextIndexToAllocate + 1 - a.lastMaintainedIndex =
        (a.nextIndexToAllocate - a.lastMaintainedIndex) + 1 by omega, List.range'_concat]
      simp only [List.map_append, List.map_cons, List.map_nil, Nat.one_mul, List.append_assoc]
      rename_i hlt
      rw [show a.lastMaintainedIndex + (a.nextIndexToAllocate - a.lastMaintainedIndex) = a.nextIndexToAllocate by omega,
        show asU32 a.nextIndexToAllocate = a.nextIndexToAllocate from Nat.mod_eq_of_lt hlt]
    · cases hal

theorem recycle_drained (h : AllocRep a ws next) (e : Entity) : (a.recycle e).drained = a.drained := by
  have hr := h.rsm
  unfold EntityAllocator.recycle
  split
  · simp only [EntityAllocator.drained, List.length_cons]
    rw [show a.recycled.length + 1 - a.recycledSinceMaintain =
      (a.recycled.length - a.recycledSinceMaintain) + 1 by omega]
    rfl
  · rfl

theorem allocate_none (h : AllocRep a [] next) (hn : ¬ next < u32Size) :
    a.allocate = .ok (none, a) ∧ a.allocateAtomic = .ok (none, a) := by
  have hl := h.length
  simp only [List.length_nil] at hl
  have hr := h.rsm
  have hlt : ¬ a.recycledSinceMaintain < a.recycled.length := by omega
  have hn' : ¬ a.nextIndexToAllocate < u32Size := by rw [h.next]; exact hn
  constructor
  · simp only [EntityAllocator.allocate, hlt, hn', if_false]
  · simp only [EntityAllocator.allocateAtomic, EntityAllocator.incrementRecycledSinceMaintain, hlt,
      EntityAllocator.incrementNextIndexToAllocate, hn', if_false]

theorem recycle (h : AllocRep a ws next) (e : Entity) :
    AllocRep (a.recycle e)
      (if e.version + 1 < 2 ^ 32 then ws ++ [⟨e.index, e.version + 1⟩] else ws) next ∧
      (∀ x, x ∈ (a.recycle e).drained ↔ x ∈ a.drained) := by
  unfold EntityAllocator.recycle Version.next
  rw [u32Size_eq]
  by_cases hv : e.version + 1 < 2 ^ 32
  · simp only [hv, if_true]
    have hl := h.length
    have hr := h.rsm
    have hrep : AllocRep { a with recycled := ⟨e.index, e.version + 1⟩ :: a.recycled }
        (ws ++ [⟨e.index, e.version + 1⟩]) next := by
      refine ⟨by simp only [List.length_cons]; omega, ?_, h.next, h.small, h.last⟩
      simp only [List.length_cons]
      rw [show a.recycled.length + 1 - a.recycledSinceMaintain = ws.length + 1 by omega, List.take_succ_cons,
        ← hl, h.waiting]
      simp
    refine ⟨hrep, fun x => ?_⟩
    rw [hrep.mem_drained, h.mem_drained]
    simp
  · simp only [hv, if_false]
    exact ⟨h, fun _ => by simp⟩

theorem maintain (h : AllocRep a ws next) :
    ∃ a', a.maintain = .ok (a.drained, a') ∧ AllocRep a' ws next ∧ a'.drained = [] := by
  have hl := h.length
  have hrep : AllocRep ⟨a.nextIndexToAllocate, a.nextIndexToAllocate,
      a.recycled.take (a.recycled.length - a.recycledSinceMaintain), 0⟩ ws next := by
    refine ⟨by simp, ?_, h.next, h.small, by simp [h.next]⟩
    simp [List.take_take, h.waiting]
  refine ⟨_, ?_, hrep, ?_⟩
  · simp [EntityAllocator.maintain, h.rsm, EntityAllocator.drained]
  · rw [hrep.drained_eq, hl, h.next]
    simp

end AllocRep

/-! ### The storage and the life spans -/

/-- The entity storage agrees with the life spans. -/
structure LifeInv (s : EntityStorage) (l : Life) : Prop where
  alloc : AllocRep s.allocator l.waiting l.next
  wf : s.entities.WF
  alive : ∀ e, e ∈ s.entities.entities ↔ e ∈ l.alive
  nodup : ((l.waiting ++ l.queued ++ s.entities.entities).map (·.index)).Nodup
  range : ∀ e ∈ l.waiting ++ l.queued ++ s.entities.entities,
    e.index < l.next ∧ 1 ≤ e.version ∧ e.version < u32Size
  issuedMono : l.issued.Pairwise (fun y x => x.index = y.index → x.version < y.version)
  issuedRange : ∀ x ∈ l.issued, x.index < l.next ∧ 1 ≤ x.version ∧ x.version < u32Size
  issuedWaiting : ∀ x ∈ l.issued, ∀ y ∈ l.waiting, x.index = y.index → x.version < y.version
  issuedLive : ∀ x ∈ l.issued, ∀ y ∈ l.queued ++ s.entities.entities, x.index = y.index →
    x.version ≤ y.version
  liveIssued : ∀ y ∈ l.queued ++ s.entities.entities, y ∈ l.issued
  drained : ∀ x ∈ s.allocator.drained, x ∈ l.queued ∨ x ∈ l.fresh
  queuedDrained : ∀ x ∈ l.queued, x ∈ s.allocator.drained
  fresh : l.freshKilled = false → ∀ x ∈ l.fresh, x ∈ s.entities.entities
  freshIssued : ∀ x ∈ l.fresh, x ∈ l.issued
  freshDrained : ∀ x ∈ l.fresh, x ∈ s.allocator.drained
  order : s.allocator.drained.Pairwise (fun a b => a.index = b.index → b.version < a.version)
  killed : l.freshKilled = true → ∃ x ∈ l.fresh, x ∉ l.queued ++ s.entities.entities

namespace LifeInv
variable {s : EntityStorage} {l : Life}

theorem init : LifeInv EntityStorage.empty Life.init where
  alloc := AllocRep.empty
  wf := EntitySparseSet.wf_empty
  alive := by simp [EntityStorage.empty, EntitySparseSet.empty, Life.init]
  nodup := by simp [EntityStorage.empty, EntitySparseSet.empty, Life.init]
  range := by simp [EntityStorage.empty, EntitySparseSet.empty, Life.init]
  issuedMono := by simp [Life.init]
  issuedRange := by simp [Life.init]
  issuedWaiting := by simp [Life.init]
  issuedLive := by simp [Life.init]
  liveIssued := by simp [EntityStorage.empty, EntitySparseSet.empty, Life.init]
  drained := by
    intro x hx
    have hx : x ∈ EntityAllocator.empty.drained := hx
    rw [AllocRep.empty.mem_drained] at hx
    simp [EntityAllocator.empty] at hx
  queuedDrained := by simp [Life.init]
  fresh := by simp [Life.init]
  freshIssued := by simp [Life.init]
  freshDrained := by simp [Life.init]
  order := by
    have : EntityAllocator.empty.drained = [] := by decide
    show EntityAllocator.empty.drained.Pairwise _
    rw [this]
    exact .nil
  killed := by simp [Life.init]

theorem issuedNodup (h : LifeInv s l) : l.issued.Nodup := by
  refine List.Pairwise.imp ?_ h.issuedMono
  intro a b hab hc
  subst hc
  exact absurd (hab rfl) (Nat.lt_irrefl _)

theorem contains_iff (h : LifeInv s l) (e : Entity) : s.contains e = true ↔ e ∈ l.alive := by
  rw [← h.alive]
  exact h.wf.contains_iff e

/-- The entity about to be handed out is new. -/
theorem next_new (h : LifeInv s l) (hx : ¬ l.exhausted) :
    (∀ x ∈ l.issued, x.index = l.nextEntity.index → x.version < l.nextEntity.version) ∧
    (∀ x ∈ l.queued ++ s.entities.entities, x.index ≠ l.nextEntity.index) ∧
    l.nextEntity.index < u32Size ∧ 1 ≤ l.nextEntity.version ∧ l.nextEntity.version < u32Size := by
  unfold Life.nextEntity
  cases hw : l.waiting with
  | nil =>
    have hn : l.next < u32Size := by
      have := h.alloc.small
      unfold Life.exhausted at hx
      rw [hw, ← u32Size_eq] at hx
      simp at hx
      omega
    refine ⟨fun x hx hi => ?_, fun x hx hi => ?_, hn, Nat.le_refl _, (by decide : 1 < u32Size)⟩
    · have := (h.issuedRange x hx).1
      simp only at hi; omega
    · have := (h.range x (by simp only [List.append_assoc, List.mem_append] at hx ⊢; tauto)).1
      simp only at hi; omega
  | cons w ws =>
    have hr := h.range w (by simp [hw])
    have hs := h.alloc.small
    refine ⟨fun x hx hi => h.issuedWaiting x hx w (by simp [hw]) hi, fun x hx hi => ?_, by simp only; omega,
      hr.2.1, hr.2.2⟩
    have hn := h.nodup
    rw [hw] at hn
    simp only [List.append_assoc, List.cons_append, List.map_cons, List.nodup_cons] at hn
    apply hn.1
    rw [List.mem_map]
    exact ⟨x, by simp only [List.append_assoc, List.mem_append] at hx ⊢; tauto, hi⟩

/-- Common part of `create` and `create_atomic`. -/
theorem take_alloc (h : LifeInv s l) (hx : ¬ l.exhausted) :
    ∃ a', s.allocator.allocate = .ok (some l.nextEntity, a') ∧
      s.allocator.allocateAtomic = .ok (some l.nextEntity, a') ∧
      AllocRep a' l.take.waiting l.take.next ∧
      (∀ x, x ∈ a'.drained ↔ x = l.nextEntity ∨ x ∈ s.allocator.drained) ∧
      l.next ≤ l.take.next ∧ l.nextEntity.index < l.take.next ∧
      (∀ x, x ∈ l.take.waiting → x ∈ l.waiting ∧ x.index ≠ l.nextEntity.index) ∧
      (l.take.waiting.map (·.index)).Nodup ∧ (l.take.waiting ⊆ l.waiting) ∧
      l.take.waiting.Sublist l.waiting := by
  have ha := h.alloc
  have hnd : (l.waiting.map (·.index)).Nodup := by
    have hn := h.nodup
    rw [List.append_assoc, List.map_append] at hn
    exact (List.nodup_append.1 hn).1
  unfold Life.nextEntity Life.take
  cases hw : l.waiting with
  | nil =>
    rw [hw] at ha
    have hn : l.next < u32Size := by
      have := h.alloc.small
      unfold Life.exhausted at hx
      rw [hw, ← u32Size_eq] at hx
      simp at hx
      omega
    obtain ⟨a', h1, h2, h3, h4⟩ := ha.allocate_next hn
    refine ⟨a', h1, h2, ?_, h4, ?_, ?_, ?_, ?_, ?_, ?_⟩
    · simpa [hw] using h3
    · simp
    · simp
    · simp [hw]
    · simp [hw]
    · simp [hw]
    · simp [hw]
  | cons w ws =>
    rw [hw] at ha hnd
    obtain ⟨a', h1, h2, h3, h4⟩ := ha.allocate_waiting
    simp only [List.map_cons, List.nodup_cons] at hnd
    refine ⟨a', h1, h2, h3, h4, Nat.le_refl _, ?_, ?_, hnd.2, ?_, ?_⟩
    · exact (h.range w (by simp [hw])).1
    · intro x hx
      refine ⟨by simp [hx], fun hc => hnd.1 ?_⟩
      rw [← hc]
      exact List.mem_map_of_mem hx
    · simp
    · simp

/-- The list of `maintain` stays ordered when an entity is handed out. -/
theorem take_order (h : LifeInv s l) (hx : ¬ l.exhausted) {a' : EntityAllocator}
    (hal : s.allocator.allocate = .ok (some l.nextEntity, a')) :
    a'.drained.Pairwise (fun a b => a.index = b.index → b.version < a.version) := by
  obtain ⟨hv, _⟩ := h.next_new hx
  have hiss : ∀ x ∈ s.allocator.drained, x ∈ l.issued := by
    intro x hx
    rcases h.drained x hx with hx | hx
    · exact h.liveIssued x (List.mem_append_left _ hx)
    · exact h.freshIssued x hx
  rcases h.alloc.allocate_drained hal with h1 | ⟨h1, h2⟩
  · rw [h1, List.pairwise_cons]
    exact ⟨fun b hb hi => hv b (hiss b hb) hi.symm, h.order⟩
  · rw [h1, List.pairwise_append]
    refine ⟨h.order, List.pairwise_singleton _ _, fun a ha b hb hi => ?_⟩
    rw [List.mem_singleton] at hb
    subst hb
    have h3 := hv a (hiss a ha) hi
    have h4 := (h.issuedRange a (hiss a ha)).2.1
    omega

theorem create_exhausted (h : LifeInv s l) (hx : l.exhausted) :
    s.create = .panic ∧ s.createAtomic = .panic := by
  have ha := h.alloc
  rw [hx.1] at ha
  obtain ⟨h1, h2⟩ := ha.allocate_none (by rw [hx.2, u32Size_eq]; omega)
  simp [EntityStorage.create, EntityStorage.createAtomic, h1, h2]

theorem nodup_take (h : LifeInv s l) (hx : ¬ l.exhausted) (q q' : List Entity)
    (hq : (q ++ s.entities.entities).Perm (l.queued ++ s.entities.entities))
    (hp : q'.Perm (l.nextEntity :: (q ++ s.entities.entities))) :
    ((l.take.waiting ++ q').map (·.index)).Nodup := by
  obtain ⟨a', _, _, _, _, _, _, h1, h2, _, hsub⟩ := h.take_alloc hx
  obtain ⟨_, h3, _⟩ := h.next_new hx
  have hn := h.nodup
  rw [List.append_assoc] at hn
  have hp' : (l.take.waiting ++ q').Perm
      (l.nextEntity :: (l.take.waiting ++ (l.queued ++ s.entities.entities))) :=
    (List.Perm.append_left _ (hp.trans (List.Perm.cons _ hq))).trans List.perm_middle
  rw [(hp'.map _).nodup_iff, List.map_cons, List.nodup_cons]
  refine ⟨?_, ?_⟩
  · rw [List.mem_map]
    rintro ⟨x, hx, hi⟩
    rw [List.mem_append] at hx
    rcases hx with hx | hx
    · exact (h1 x hx).2 hi
    · exact h3 x hx hi
  · exact hn.sublist ((hsub.append_right _).map _)

theorem create (h : LifeInv s l) (hx : ¬ l.exhausted) :
    ∃ s', s.create = .ok (l.nextEntity, s') ∧ LifeInv s' (l.step (.made l.nextEntity)) ∧
      s'.entities.entities = s.entities.entities ++ [l.nextEntity] := by
  obtain ⟨a', h1, _, h3, h4, h5, h6, h7, h8, h9, h10⟩ := h.take_alloc hx
  obtain ⟨hv, hi, hlt, hv1, hv2⟩ := h.next_new hx
  obtain ⟨es, he1, he2, he3⟩ := h.wf.insert_new (e := l.nextEntity)
    (fun x hx => hi x (List.mem_append_right _ hx)) hlt
  have hq : l.take.queued = l.queued := by unfold Life.take; split <;> rfl
  refine ⟨⟨a', es⟩, ?_, ?_, he3⟩
  · simp [EntityStorage.create, h1, he1]
  · refine ⟨h3, he2, ?_, ?_, ?_, ?_, ?_, ?_, ?_, ?_, ?_, ?_, ?_, ?_, ?_, h.take_order hx h1, ?_⟩
    · intro e
      simp only [he3, List.mem_append, List.mem_singleton, Life.step, List.mem_cons, h.alive]
      tauto
    · have := h.nodup_take hx l.queued (l.queued ++ (s.entities.entities ++ [l.nextEntity]))
        (List.Perm.refl _)
        (by rw [← List.append_assoc]; exact List.perm_append_singleton _ _)
      simp only [Life.step, he3, List.append_assoc, hq]
      exact this
    · intro e he
      simp only [Life.step, he3, List.mem_append, List.mem_singleton, hq] at he ⊢
      rcases he with (he | he) | he | he
      · have := h.range e (by simp [(h7 e he).1]); omega
      · have := h.range e (by simp [he]); omega
      · have := h.range e (by simp [he]); omega
      · subst he; exact ⟨h6, hv1, hv2⟩
    · simp only [Life.step, List.pairwise_cons]
      exact ⟨fun x hx hxi => hv x hx hxi, h.issuedMono⟩
    · intro x hx
      simp only [Life.step, List.mem_cons] at hx ⊢
      rcases hx with rfl | hx
      · exact ⟨h6, hv1, hv2⟩
      · have := h.issuedRange x hx; omega
    · intro x hx y hy hxy
      simp only [Life.step, List.mem_cons] at hx hy
      rcases hx with rfl | hx
      · exact absurd hxy.symm (h7 y hy).2
      · exact h.issuedWaiting x hx y (h7 y hy).1 hxy
    · intro x hx y hy hxy
      simp only [Life.step, List.mem_cons, he3, List.mem_append, List.not_mem_nil, or_false, hq] at hx hy
      rcases hx with rfl | hx
      · rcases hy with hy | hy | rfl
        · exact absurd hxy.symm (hi y (by simp [hy]))
        · exact absurd hxy.symm (hi y (by simp [hy]))
        · exact Nat.le_refl _
      · rcases hy with hy | hy | rfl
        · exact h.issuedLive x hx y (by simp [hy]) hxy
        · exact h.issuedLive x hx y (by simp [hy]) hxy
        · exact Nat.le_of_lt (hv x hx hxy)
    · intro y hy
      simp only [Life.step, he3, List.mem_append, List.not_mem_nil, or_false, List.mem_cons, hq] at hy ⊢
      rcases hy with hy | hy | hy
      · exact .inr (h.liveIssued y (by simp [hy]))
      · exact .inr (h.liveIssued y (by simp [hy]))
      · exact .inl hy
    · intro x hx
      simp only [Life.step, List.mem_cons, hq]
      rcases (h4 x).1 hx with hx | hx
      · exact .inr (.inl hx)
      · rcases h.drained x hx with hx | hx
        · exact .inl hx
        · exact .inr (.inr hx)
    · intro x hx
      simp only [Life.step, hq] at hx
      exact (h4 x).2 (.inr (h.queuedDrained x hx))
    · intro hk x hx
      simp only [Life.step, List.mem_cons, he3, List.mem_append, List.not_mem_nil, or_false] at hx ⊢
      have hk' : l.freshKilled = false := by
        simp only [Life.step] at hk
        unfold Life.take at hk
        split at hk <;> exact hk
      rcases hx with hx | hx
      · exact .inr hx
      · exact .inl (h.fresh hk' x hx)
    · intro x hx
      simp only [Life.step, List.mem_cons] at hx ⊢
      exact hx.imp_right (h.freshIssued x)
    · intro x hx
      simp only [Life.step, List.mem_cons] at hx
      exact (h4 x).2 (hx.imp_right (h.freshDrained x))
    · intro hk
      have hk' : l.freshKilled = true := by
        simp only [Life.step] at hk
        unfold Life.take at hk
        split at hk <;> exact hk
      obtain ⟨x, hx1, hx2⟩ := h.killed hk'
      refine ⟨x, List.mem_cons_of_mem _ hx1, ?_⟩
      simp only [Life.step, he3, hq, ← List.append_assoc]
      rw [List.mem_append, List.mem_singleton]
      rintro (hc | rfl)
      · exact hx2 hc
      · exact absurd (hv _ (h.freshIssued _ hx1) rfl) (Nat.lt_irrefl _)

theorem createAtomic (h : LifeInv s l) (hx : ¬ l.exhausted) :
    ∃ s', s.createAtomic = .ok (l.nextEntity, s') ∧ LifeInv s' (l.step (.queued l.nextEntity)) ∧
      s'.entities = s.entities := by
  obtain ⟨a', h1, h2, h3, h4, h5, h6, h7, h8, h9, h10⟩ := h.take_alloc hx
  obtain ⟨hv, hi, hlt, hv1, hv2⟩ := h.next_new hx
  have hf : l.take.fresh = l.fresh := by unfold Life.take; split <;> rfl
  refine ⟨⟨a', s.entities⟩, ?_, ?_, rfl⟩
  · simp [EntityStorage.createAtomic, h2]
  · refine ⟨h3, h.wf, ?_, ?_, ?_, ?_, ?_, ?_, ?_, ?_, ?_, ?_, ?_, ?_, ?_, h.take_order hx h1, ?_⟩
    · intro e
      simp only [Life.step, h.alive]
      unfold Life.take
      split <;> rfl
    · have := h.nodup_take hx l.queued (l.nextEntity :: l.queued ++ s.entities.entities)
        (List.Perm.refl _) (by simp)
      simp only [Life.step, List.append_assoc]
      exact this
    · intro e he
      simp only [Life.step, List.mem_append, List.mem_cons] at he ⊢
      rcases he with (he | he | he) | he
      · have := h.range e (by simp [(h7 e he).1]); omega
      · subst he; exact ⟨h6, hv1, hv2⟩
      · have := h.range e (by simp [he]); omega
      · have := h.range e (by simp [he]); omega
    · simp only [Life.step, List.pairwise_cons]
      exact ⟨fun x hx hxi => hv x hx hxi, h.issuedMono⟩
    · intro x hx
      simp only [Life.step, List.mem_cons] at hx ⊢
      rcases hx with rfl | hx
      · exact ⟨h6, hv1, hv2⟩
      · have := h.issuedRange x hx; omega
    · intro x hx y hy hxy
      simp only [Life.step, List.mem_cons] at hx hy
      rcases hx with rfl | hx
      · exact absurd hxy.symm (h7 y hy).2
      · exact h.issuedWaiting x hx y (h7 y hy).1 hxy
    · intro x hx y hy hxy
      simp only [Life.step, List.mem_cons, List.mem_append] at hx hy
      rcases hx with rfl | hx
      · rcases hy with (rfl | hy) | hy
        · exact Nat.le_refl _
        · exact absurd hxy.symm (hi y (by simp [hy]))
        · exact absurd hxy.symm (hi y (by simp [hy]))
      · rcases hy with (rfl | hy) | hy
        · exact Nat.le_of_lt (hv x hx hxy)
        · exact h.issuedLive x hx y (by simp [hy]) hxy
        · exact h.issuedLive x hx y (by simp [hy]) hxy
    · intro y hy
      simp only [Life.step, List.mem_append, List.mem_cons] at hy ⊢
      rcases hy with (hy | hy) | hy
      · exact .inl hy
      · exact .inr (h.liveIssued y (by simp [hy]))
      · exact .inr (h.liveIssued y (by simp [hy]))
    · intro x hx
      simp only [Life.step, List.mem_cons, hf]
      rcases (h4 x).1 hx with hx | hx
      · exact .inl (.inl hx)
      · rcases h.drained x hx with hx | hx
        · exact .inl (.inr hx)
        · exact .inr hx
    · intro x hx
      simp only [Life.step, List.mem_cons] at hx
      rcases hx with hx | hx
      · exact (h4 x).2 (.inl hx)
      · exact (h4 x).2 (.inr (h.queuedDrained x hx))
    · intro hk x hx
      simp only [Life.step, hf] at hx ⊢
      have hk' : l.freshKilled = false := by
        simp only [Life.step] at hk
        unfold Life.take at hk
        split at hk <;> exact hk
      exact h.fresh hk' x hx
    · intro x hx
      simp only [Life.step, hf, List.mem_cons] at hx ⊢
      exact .inr (h.freshIssued x hx)
    · intro x hx
      simp only [Life.step, hf] at hx
      exact (h4 x).2 (.inr (h.freshDrained x hx))
    · intro hk
      have hk' : l.freshKilled = true := by
        simp only [Life.step] at hk
        unfold Life.take at hk
        split at hk <;> exact hk
      obtain ⟨x, hx1, hx2⟩ := h.killed hk'
      refine ⟨x, by simp only [Life.step, hf]; exact hx1, ?_⟩
      simp only [Life.step, List.cons_append, List.mem_cons]
      rintro (rfl | hc)
      · exact absurd (hv _ (h.freshIssued _ hx1) rfl) (Nat.lt_irrefl _)
      · exact hx2 hc

theorem remove_absent (h : LifeInv s l) {e : Entity} (he : e ∉ l.alive) : s.remove e = .ok (false, s) := by
  rw [← h.alive] at he
  simp [EntityStorage.remove, h.wf.remove_absent he]

theorem remove_present (h : LifeInv s l) {e : Entity} (he : e ∈ l.alive) :
    ∃ s', s.remove e = .ok (true, s') ∧ LifeInv s' (l.step (.killed e)) ∧
      ∀ x, x ∈ s'.entities.entities ↔ x ∈ s.entities.entities ∧ x ≠ e := by
  rw [← h.alive] at he
  obtain ⟨es, h1, h2, h3⟩ := h.wf.remove_present he
  obtain ⟨h4, h5⟩ := h.alloc.recycle e
  have hr := h.range e (by simp [he])
  have hesn : (es.entities.map (·.index)).Nodup := Rep.nodup_index h2
  have hidx : ∀ x ∈ l.waiting ++ l.queued ++ s.entities.entities, x.index = e.index → x = e := by
    intro x hx hxe
    exact List.inj_on_of_nodup_map h.nodup hx (by simp [he]) hxe
  have hn := h.nodup
  have hwq : ∀ x ∈ l.waiting ++ l.queued, x.index ≠ e.index := by
    intro x hx hc
    have := hidx x (List.mem_append_left _ hx) hc
    subst this
    rw [List.map_append] at hn
    exact (List.nodup_append.1 hn).2.2 _ (List.mem_map_of_mem hx) _ (List.mem_map_of_mem he) rfl
  refine ⟨⟨s.allocator.recycle e, es⟩, ?_, ?_, h3⟩
  · simp [EntityStorage.remove, h1]
  · refine ⟨h4, h2, ?_, ?_, ?_, h.issuedMono, h.issuedRange, ?_, ?_, ?_, ?_, ?_, ?_, h.freshIssued, ?_, ?_, ?_⟩
    · intro x
      simp [Life.step, h3, h.alive]
    · -- indexes stay distinct
      simp only [Life.step]
      have hbase : ((l.waiting ++ l.queued ++ es.entities).map (·.index)).Nodup := by
        rw [List.map_append, List.nodup_append] at hn ⊢
        refine ⟨hn.1, hesn, ?_⟩
        intro a ha b hb
        obtain ⟨y, hy, rfl⟩ := List.mem_map.1 hb
        exact hn.2.2 a ha _ (List.mem_map_of_mem ((h3 y).1 hy).1)
      split
      · have hp : (l.waiting ++ [(⟨e.index, e.version + 1⟩ : Entity)] ++ l.queued ++ es.entities).Perm
            ((⟨e.index, e.version + 1⟩ : Entity) :: (l.waiting ++ l.queued ++ es.entities)) := by
          rw [List.append_assoc, List.append_assoc, List.append_assoc]
          exact List.perm_middle
        rw [(hp.map _).nodup_iff, List.map_cons, List.nodup_cons]
        refine ⟨?_, hbase⟩
        rw [List.mem_map]
        rintro ⟨x, hx, hxe⟩
        simp only at hxe
        rcases List.mem_append.1 hx with hx | hx
        · exact hwq x hx hxe
        · have := (h3 x).1 hx
          exact this.2 (hidx x (by simp [this.1]) hxe)
      · exact hbase
    · intro x hx
      simp only [Life.step, List.mem_append] at hx ⊢
      rcases hx with (hx | hx) | hx
      · split at hx
        · rename_i hv
          rw [List.mem_append, List.mem_singleton] at hx
          rcases hx with hx | rfl
          · exact h.range x (by simp [hx])
          · exact ⟨hr.1, Nat.le_add_left _ _, by rw [u32Size_eq]; exact hv⟩
        · exact h.range x (by simp [hx])
      · exact h.range x (by simp [hx])
      · exact h.range x (by simp [((h3 x).1 hx).1])
    · intro x hx y hy hxy
      simp only [Life.step] at hx hy
      split at hy
      · rw [List.mem_append, List.mem_singleton] at hy
        rcases hy with hy | rfl
        · exact h.issuedWaiting x hx y hy hxy
        · have := h.issuedLive x hx e (by simp [he]) hxy
          simp only; omega
      · exact h.issuedWaiting x hx y hy hxy
    · intro x hx y hy hxy
      simp only [Life.step, List.mem_append] at hx hy
      rcases hy with hy | hy
      · exact h.issuedLive x hx y (by simp [hy]) hxy
      · exact h.issuedLive x hx y (by simp [((h3 y).1 hy).1]) hxy
    · intro y hy
      simp only [Life.step, List.mem_append] at hy ⊢
      rcases hy with hy | hy
      · exact h.liveIssued y (by simp [hy])
      · exact h.liveIssued y (by simp [((h3 y).1 hy).1])
    · intro x hx
      exact h.drained x ((h5 x).1 hx)
    · intro x hx
      exact (h5 x).2 (h.queuedDrained x hx)
    · intro hk x hx
      simp only [Life.step, Bool.or_eq_false_iff] at hk hx
      refine (h3 x).2 ⟨h.fresh hk.1 x hx, ?_⟩
      rintro rfl
      simp [hx] at hk
    · intro x hx
      exact (h5 x).2 (h.freshDrained x hx)
    · show (s.allocator.recycle e).drained.Pairwise _
      rw [h.alloc.recycle_drained e]
      exact h.order
    · intro hk
      simp only [Life.step, Bool.or_eq_true] at hk ⊢
      rcases hk with hk | hk
      · obtain ⟨x, hx1, hx2⟩ := h.killed hk
        refine ⟨x, hx1, fun hc => hx2 ?_⟩
        rcases List.mem_append.1 hc with hc | hc
        · exact List.mem_append_left _ hc
        · exact List.mem_append_right _ ((h3 x).1 hc).1
      · refine ⟨e, List.contains_iff_mem.1 hk, fun hc => ?_⟩
        rcases List.mem_append.1 hc with hc | hc
        · exact hwq e (List.mem_append_right _ hc) rfl
        · exact ((h3 e).1 hc).2 rfl

/-- Inserting entities that are either there already or have unused indexes. -/
theorem insertAll_eq : ∀ (xs : List Entity) (es : EntitySparseSet), es.WF →
    (∀ x ∈ xs, x.index < u32Size) →
    (∀ x ∈ xs, ∀ y ∈ xs ++ es.entities, x.index = y.index → x = y) →
    ∃ es', EntityStorage.insertAll es xs = .ok es' ∧ es'.WF ∧
      ∀ y, y ∈ es'.entities ↔ y ∈ xs ∨ y ∈ es.entities := by
  intro xs
  induction xs with
  | nil => intro es h _ _; exact ⟨es, rfl, h, by simp⟩
  | cons x xs ih =>
    intro es h hlt hxy
    have hstep : ∃ o es1, es.insert x = .ok (o, es1) ∧ es1.WF ∧
        ∀ y, y ∈ es1.entities ↔ y = x ∨ y ∈ es.entities := by
      by_cases hx : x ∈ es.entities
      · obtain ⟨es1, h1, h2, h3⟩ := h.insert_old hx
        refine ⟨_, es1, h1, h2, fun y => ?_⟩
        rw [h3]
        constructor
        · exact .inr
        · rintro (rfl | hy)
          · exact hx
          · exact hy
      · obtain ⟨es1, h1, h2, h3⟩ := h.insert_new (e := x)
          (fun y hy hc => hx (hxy x (by simp) y (by simp [hy]) hc.symm ▸ hy)) (hlt x (by simp))
        refine ⟨_, es1, h1, h2, fun y => ?_⟩
        rw [h3]
        simp [or_comm]
    obtain ⟨o, es1, h1, h2, h3⟩ := hstep
    obtain ⟨es2, h4, h5, h6⟩ := ih es1 h2 (fun y hy => hlt y (by simp [hy])) (by
      intro y hy z hz hyz
      refine hxy y (by simp [hy]) z ?_ hyz
      rw [List.mem_append, h3] at hz
      simp only [List.cons_append, List.mem_cons, List.mem_append]
      tauto)
    refine ⟨es2, ?_, h5, fun y => ?_⟩
    · simp [EntityStorage.insertAll, h1, h4]
    · rw [h6, h3]
      simp only [List.mem_cons]
      tauto

theorem drained_mem (h : LifeInv s l) (hk : l.freshKilled = false) (x : Entity)
    (hx : x ∈ s.allocator.drained) : x ∈ l.queued ++ s.entities.entities := by
  rcases h.drained x hx with hx | hx
  · simp [hx]
  · simp [h.fresh hk x hx]

theorem maintain (h : LifeInv s l) (hk : l.freshKilled = false) :
    ∃ s', s.maintain = .ok s' ∧ LifeInv s' (l.step .maintained) := by
  obtain ⟨a', h1, h2, h3⟩ := h.alloc.maintain
  have hn : ((l.queued ++ s.entities.entities).map (·.index)).Nodup := by
    have hn := h.nodup
    rw [List.append_assoc, List.map_append] at hn
    exact (List.nodup_append.1 hn).2.1
  have hs := h.alloc.small
  obtain ⟨es, h4, h5, h6⟩ := insertAll_eq s.allocator.drained s.entities h.wf
    (fun x hx => by
      have := h.drained_mem hk x hx
      have := (h.range x (by rw [List.append_assoc]; exact List.mem_append_right _ this)).1
      omega)
    (fun x hx y hy hxy => by
      have hx' := h.drained_mem hk x hx
      have hy' : y ∈ l.queued ++ s.entities.entities := by
        rcases List.mem_append.1 hy with hy | hy
        · exact h.drained_mem hk y hy
        · simp [hy]
      exact List.inj_on_of_nodup_map hn hx' hy' hxy)
  have hmem : ∀ y, y ∈ es.entities ↔ y ∈ l.queued ++ s.entities.entities := by
    intro y
    rw [h6]
    constructor
    · rintro (hy | hy)
      · exact h.drained_mem hk y hy
      · simp [hy]
    · intro hy
      rcases List.mem_append.1 hy with hy | hy
      · exact .inl (h.queuedDrained y hy)
      · exact .inr hy
  refine ⟨⟨a', es⟩, ?_, ?_⟩
  · simp [EntityStorage.maintain, h1, h4]
  · refine ⟨h2, h5, ?_, ?_, ?_, h.issuedMono, h.issuedRange, h.issuedWaiting, ?_, ?_, ?_, ?_, ?_, ?_, ?_, ?_, ?_⟩
    · intro x
      simp only [Life.step, hmem, List.mem_append, h.alive]
    · simp only [Life.step, List.append_nil]
      have hn' := h.nodup
      rw [List.append_assoc] at hn'
      rw [List.map_append, List.nodup_append] at hn' ⊢
      refine ⟨hn'.1, Rep.nodup_index h5, ?_⟩
      intro a ha b hb
      obtain ⟨y, hy, rfl⟩ := List.mem_map.1 hb
      exact hn'.2.2 a ha _ (List.mem_map_of_mem ((hmem y).1 hy))
    · intro x hx
      simp only [Life.step, List.append_nil, List.mem_append] at hx ⊢
      rcases hx with hx | hx
      · exact h.range x (by simp [hx])
      · refine h.range x ?_
        rw [List.append_assoc]
        exact List.mem_append_right _ ((hmem x).1 hx)
    · intro x hx y hy hxy
      simp only [Life.step, List.nil_append] at hx hy
      exact h.issuedLive x hx y ((hmem y).1 hy) hxy
    · intro y hy
      simp only [Life.step, List.nil_append] at hy
      exact h.liveIssued y ((hmem y).1 hy)
    · intro x hx
      simp only [h3] at hx
      simp at hx
    · intro x hx
      simp [Life.step] at hx
    · intro _ x hx
      simp [Life.step] at hx
    · simp [Life.step]
    · simp [Life.step]
    · show a'.drained.Pairwise _
      rw [h3]
      exact .nil
    · simp [Life.step]

theorem clear (h : LifeInv s l) :
    ∃ s', s.clear = .ok s' ∧ LifeInv s' (l.step .cleared) ∧ s'.entities.entities = [] := by
  obtain ⟨a', h1, h2, h3⟩ := h.alloc.maintain
  refine ⟨⟨a', s.entities.clear⟩, ?_, ?_, rfl⟩
  · simp [EntityStorage.clear, h1]
  · refine ⟨h2, EntitySparseSet.wf_clear _, ?_, ?_, ?_, h.issuedMono, h.issuedRange, h.issuedWaiting,
      ?_, ?_, ?_, ?_, ?_, ?_, ?_, ?_, ?_⟩
    · simp [Life.step, EntitySparseSet.clear]
    · have hn := h.nodup
      rw [List.append_assoc, List.map_append] at hn
      simpa [Life.step, EntitySparseSet.clear] using (List.nodup_append.1 hn).1
    · intro x hx
      simp only [Life.step, EntitySparseSet.clear, List.append_nil] at hx ⊢
      exact h.range x (by simp [hx])
    · simp [Life.step, EntitySparseSet.clear]
    · simp [Life.step, EntitySparseSet.clear]
    · intro x hx
      simp only [h3] at hx
      simp at hx
    · simp [Life.step]
    · simp [Life.step]
    · simp [Life.step]
    · simp [Life.step]
    · show a'.drained.Pairwise _
      rw [h3]
      exact .nil
    · simp [Life.step]

theorem reset (s : EntityStorage) : LifeInv s.reset Life.init := init

end LifeInv
end Sparsey
