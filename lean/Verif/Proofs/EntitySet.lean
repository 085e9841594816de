import Verif.Proofs.Sparse

/-!
Lemmas about `EntitySparseSet`.
-/

set_option autoImplicit false
set_option linter.unusedSimpArgs false

namespace Sparsey
namespace EntitySparseSet

/-- Representation invariant. -/
def WF (s : EntitySparseSet) : Prop := Rep s.sparse s.entities

theorem wf_empty : empty.WF := Rep.nil

theorem wf_clear (s : EntitySparseSet) : s.clear.WF := Rep.nil

theorem WF.contains_iff {s : EntitySparseSet} (h : s.WF) (e : Entity) :
    s.contains e = true ↔ e ∈ s.entities := Rep.contains_iff h e

theorem WF.insert_new {s : EntitySparseSet} (h : s.WF) {e : Entity}
    (hi : ∀ x ∈ s.entities, x.index ≠ e.index) (hs : e.index < u32Size) :
    ∃ s', s.insert e = .ok (none, s') ∧ s'.WF ∧ s'.entities = s.entities ++ [e] := by
  have hslot : (s.sparse.allocateAt e.index).slots[e.index]? = some none := by
    rcases s.sparse.allocateAt_self e.index with ⟨x, _, hx⟩ | ⟨h1, _⟩
    · exfalso
      have := h.bwd e.index x.index x.version hx
      exact hi _ (List.mem_iff_getElem?.2 ⟨_, this⟩) rfl
    · exact h1
  have hl := s.sparse.allocateAt_length e.index
  obtain ⟨hrep, _⟩ := (Rep.alloc h e.index).push hi hl hs
  refine ⟨⟨⟨(s.sparse.allocateAt e.index).slots.set e.index
    (some ⟨asU32 s.entities.length, e.version⟩)⟩, s.entities ++ [e]⟩, ?_, hrep, rfl⟩
  simp only [insert, Entity.sparse, hslot, SparseVec.setUnchecked, hl, Res.unchecked_some,
      Res.bind_ok, if_true, Res.pure_eq]

theorem WF.insert_old {s : EntitySparseSet} (h : s.WF) {e : Entity} (he : e ∈ s.entities) :
    ∃ s', s.insert e = .ok (some e, s') ∧ s'.WF ∧ s'.entities = s.entities := by
  obtain ⟨d, hd⟩ := List.mem_iff_getElem?.1 he
  have hslot := (Rep.alloc h e.index).fwd d e hd
  have hdl : d < s.entities.length := (List.getElem?_eq_some_iff.1 hd).1
  have hset : s.entities.set d e = s.entities := by
    apply List.ext_getElem?
    intro j
    rw [Rep.set_index_get _ _ _ _ hdl]
    split
    · rename_i hj; rw [hj, hd]
    · rfl
  refine ⟨⟨s.sparse.allocateAt e.index, s.entities⟩, ?_, Rep.alloc h _, rfl⟩
  simp [insert, Entity.sparse, hslot, hd, hset]

theorem WF.remove_absent {s : EntitySparseSet} (h : s.WF) {e : Entity} (he : e ∉ s.entities) :
    s.remove e = .ok (false, s) := by
  have hrem : s.sparse.remove e = (none, s.sparse) := by
    unfold SparseVec.remove
    split
    · rename_i sl hs
      split
      · rename_i hv
        exfalso
        have := h.bwd e.index sl.index sl.version hs
        simp at hv
        rw [hv] at this
        exact he (List.mem_iff_getElem?.2 ⟨_, this⟩)
      · rfl
    · rfl
  simp [EntitySparseSet.remove, hrem]

theorem swapRemove_eq {α : Type} (l : List α) (d : Nat) (last : α) (hl : l[l.length - 1]? = some last) :
    swapRemove l d = (l.set d last).take (l.length - 1) := by
  unfold swapRemove
  rw [List.getLast?_eq_getElem?, hl]
  simp [List.dropLast_eq_take]

theorem WF.remove_present {s : EntitySparseSet} (h : s.WF) {e : Entity} (he : e ∈ s.entities) :
    ∃ s', s.remove e = .ok (true, s') ∧ s'.WF ∧
      ∀ x, x ∈ s'.entities ↔ x ∈ s.entities ∧ x ≠ e := by
  obtain ⟨d, hd⟩ := List.mem_iff_getElem?.1 he
  have hdl : d < s.entities.length := (List.getElem?_eq_some_iff.1 hd).1
  obtain ⟨last, hlast⟩ : ∃ x, s.entities[s.entities.length - 1]? = some x :=
    ⟨_, List.getElem?_eq_getElem (by omega)⟩
  have hrem : s.sparse.remove e = (some d, ⟨s.sparse.slots.set e.index none⟩) := by
    unfold SparseVec.remove
    simp [Entity.sparse, h.fwd d e hd]
  have hrep := Rep.removeAt h hd hlast
  have hls := Rep.slot_lt h hlast
  have hget := fun j => Rep.removeAt_get s.entities (last := last) hdl j
  refine ⟨⟨⟨if d < s.entities.length - 1 then
      (s.sparse.slots.set e.index none).set last.index (some ⟨d, last.version⟩)
      else s.sparse.slots.set e.index none⟩,
    (s.entities.set d last).take (s.entities.length - 1)⟩, ?_, hrep, ?_⟩
  · unfold EntitySparseSet.remove
    simp only [hrem, hdl, decide_true, Res.assert_true, Res.bind_ok, swapRemove_eq _ d last hlast, hget,
      Entity.sparse]
    by_cases hdn : d < s.entities.length - 1
    · simp only [hdn, if_true, SparseVec.setUnchecked, List.length_set, hls, Res.bind_ok, Res.pure_eq]
    · simp only [hdn, if_false, Res.pure_eq]
  · intro x
    simp only [List.mem_iff_getElem?, hget]
    constructor
    · rintro ⟨j, hj⟩
      split at hj
      · split at hj
        · rename_i hjn hjd
          refine ⟨⟨_, by rw [hlast]; exact hj⟩, ?_⟩
          rintro rfl
          simp at hj
          subst hj
          have := Rep.pos_unique h hd hlast rfl
          omega
        · rename_i hjn hjd
          refine ⟨⟨j, hj⟩, ?_⟩
          rintro rfl
          exact hjd (Rep.pos_unique h hj hd rfl)
      · simp at hj
    · rintro ⟨⟨j, hj⟩, hx⟩
      have hjl : j < s.entities.length := (List.getElem?_eq_some_iff.1 hj).1
      have hjd : j ≠ d := by
        rintro rfl
        rw [hd] at hj
        simp at hj
        exact hx hj.symm
      by_cases hjn : j < s.entities.length - 1
      · exact ⟨j, by simp [hjn, hjd, hj]⟩
      · have : j = s.entities.length - 1 := by omega
        subst this
        rw [hlast] at hj
        exact ⟨d, by simp [show d < s.entities.length - 1 by omega]; simpa using hj⟩

end EntitySparseSet
end Sparsey
