import Verif.Spec.SparseMap
import Verif.Proofs.Sparse

/-!
Properties of `SparseVec` as a public type: C48.
-/

set_option autoImplicit false
set_option linter.unusedSimpArgs false

namespace Sparsey

/-- The map a sparse vector stands for. -/
def SparseVec.toMap (s : SparseVec) : SvMap := fun i => s.slots[i]?.join

theorem SparseVec.toMap_allocate (s : SparseVec) (i : Nat) : (s.allocateAt i).toMap = s.toMap := by
  funext j
  simp only [SparseVec.toMap]
  rcases s.allocateAt_get i j with h | ⟨h1, h2⟩
  · rw [h]
  · rw [h1, h2]
    rfl

theorem SparseVec.toMap_set {l : List (Option Slot)} {i : Nat} (x : Option Slot) (hi : i < l.length) :
    SparseVec.toMap ⟨l.set i x⟩ = (SparseVec.toMap ⟨l⟩).update i x := by
  funext j
  simp only [SparseVec.toMap, SvMap.update]
  by_cases h : j = i
  · subst h
    simp [hi]
  · rw [if_neg h, List.getElem?_set_ne (Ne.symm h)]

theorem SparseVec.call_ok (s : SparseVec) (c : SvCall) :
    ∃ s', s.call c = .ok ((s.toMap.call c).1, s') ∧ s'.toMap = (s.toMap.call c).2 := by
  have hget : ∀ e, s.get e = s.toMap.find e := by
    intro e
    simp only [SparseVec.get, SvMap.find, SparseVec.toMap, Entity.sparse]
    cases s.slots[e.index]? with
    | none => rfl
    | some o => cases o with
      | none => rfl
      | some sl => by_cases h : sl.version = e.version <;> simp [h]
  cases c with
  | get e => exact ⟨s, by simp [SparseVec.call, SvMap.call, hget], rfl⟩
  | contains e =>
    refine ⟨s, ?_, rfl⟩
    simp only [SparseVec.call, SvMap.call, Rep.contains_eq, hget]
  | remove e =>
    simp only [SparseVec.call, SvMap.call, SparseVec.remove, Entity.sparse]
    cases h : s.slots[e.index]? with
    | none =>
      have hf : s.toMap.find e = none := by simp [SvMap.find, SparseVec.toMap, h]
      exact ⟨s, by rw [hf], by simp [hf]⟩
    | some o => cases o with
      | none =>
        have hf : s.toMap.find e = none := by simp [SvMap.find, SparseVec.toMap, h]
        exact ⟨s, by rw [hf], by simp [hf]⟩
      | some sl =>
        by_cases hv : sl.version = e.version
        · have hf : s.toMap.find e = some sl.index := by simp [SvMap.find, SparseVec.toMap, h, hv]
          refine ⟨⟨s.slots.set e.index none⟩, by simp [hf, hv], ?_⟩
          rw [SparseVec.toMap_set _ (List.getElem?_eq_some_iff.1 h).1]
          simp [hf]
        · have hf : s.toMap.find e = none := by simp [SvMap.find, SparseVec.toMap, h, hv]
          exact ⟨s, by simp [hf, hv], by simp [hf]⟩
  | getSparse i =>
    refine ⟨s, ?_, rfl⟩
    simp only [SparseVec.call, SvMap.call, SparseVec.getSparse, SparseVec.toMap]
    cases s.slots[i]? <;> simp
  | containsSparse i =>
    refine ⟨s, ?_, rfl⟩
    simp only [SparseVec.call, SvMap.call, SparseVec.containsSparse, SparseVec.toMap]
    cases s.slots[i]? with
    | none => rfl
    | some o => cases o <;> rfl
  | removeSparse i =>
    simp only [SparseVec.call, SvMap.call, SparseVec.removeSparse]
    have hu : s.toMap i = none → s.toMap.update i none = s.toMap := by
      intro hm
      funext j
      simp only [SvMap.update]
      by_cases h : j = i
      · rw [if_pos h, h, hm]
      · rw [if_neg h]
    cases h : s.slots[i]? with
    | none =>
      have hm : s.toMap i = none := by simp [SparseVec.toMap, h]
      exact ⟨s, by rw [hm], (hu hm).symm⟩
    | some o => cases o with
      | none =>
        have hm : s.toMap i = none := by simp [SparseVec.toMap, h]
        exact ⟨s, by rw [hm], (hu hm).symm⟩
      | some sl =>
        have hm : s.toMap i = some sl := by simp [SparseVec.toMap, h]
        exact ⟨_, by rw [hm], SparseVec.toMap_set _ (List.getElem?_eq_some_iff.1 h).1⟩
  | peek i =>
    have hl := s.allocateAt_length i
    refine ⟨s.allocateAt i, ?_, s.toMap_allocate i⟩
    have hm : (s.allocateAt i).toMap i = s.toMap i := by rw [s.toMap_allocate]
    simp only [SparseVec.call, SvMap.call]
    rw [List.getElem?_eq_getElem hl, Res.unchecked_some, Res.bind_ok, ← hm]
    simp [SparseVec.toMap, hl]
  | put i x =>
    have hl := s.allocateAt_length i
    refine ⟨⟨(s.allocateAt i).slots.set i x⟩, ?_, ?_⟩
    · simp only [SparseVec.call, SvMap.call, SparseVec.setUnchecked, if_pos hl, Res.bind_ok]
    · rw [SparseVec.toMap_set x hl]
      show ((s.allocateAt i).toMap).update i x = _
      rw [s.toMap_allocate]
      rfl
  | clear => exact ⟨_, rfl, by funext j; simp [SparseVec.toMap, SparseVec.clear, SvMap.call]⟩

/-- C48: a `SparseVec` is a map from indexes to versions and positions. Whatever safe calls are made, in whatever order, no
unchecked access fails and every answer is that of the map. -/
theorem C48 (cs : List SvCall) : ∃ s, SparseVec.new.calls cs = .ok ((SvMap.calls (fun _ => none) cs).1, s) ∧
    s.toMap = (SvMap.calls (fun _ => none) cs).2 := by
  have key : ∀ (cs : List SvCall) (s : SparseVec), ∃ s', s.calls cs = .ok ((s.toMap.calls cs).1, s') ∧
      s'.toMap = (s.toMap.calls cs).2 := by
    intro cs
    induction cs with
    | nil => exact fun s => ⟨s, rfl, rfl⟩
    | cons c cs ih =>
      intro s
      obtain ⟨s1, h1, h2⟩ := s.call_ok c
      obtain ⟨s2, h3, h4⟩ := ih s1
      refine ⟨s2, ?_, ?_⟩
      · simp only [SparseVec.calls, h1, Res.bind_ok, h3, h2, SvMap.calls]
      · rw [h4, h2]
        rfl
  have h0 : SparseVec.new.toMap = fun _ => none := by
    funext j
    simp [SparseVec.toMap, SparseVec.new]
  rw [← h0]
  exact key cs SparseVec.new

/-- Non-vacuity: growing, stale handles, removal with and without a version. -/
example : (SparseVec.new.calls [.put 5 (some ⟨0, 3⟩), .put 2 (some ⟨1, 1⟩), .get ⟨5, 3⟩, .get ⟨5, 2⟩, .remove ⟨5, 2⟩,
      .containsSparse 5, .remove ⟨5, 3⟩, .containsSparse 5, .removeSparse 2, .get ⟨2, 1⟩, .peek 9]).bind (fun p => .ok p.1) =
    .ok [.unit, .unit, .dense (some 0), .dense none, .dense none, .bool true, .dense (some 0), .bool false,
      .slot (some ⟨1, 1⟩), .dense none, .slot none] := by decide

end Sparsey
