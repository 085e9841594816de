import Verif.Proofs.EraseStep
import Verif.Proofs.EraseMap

/-!
A history and what is left of it on some component types.
-/

set_option autoImplicit false
set_option linter.unusedSimpArgs false

namespace Sparsey
variable {V : Type}

theorem LaysFor.left {K : List TypeId} {a b : List (Op V)} (h : LaysFor K (a ++ b)) : LaysFor K a := by
  intro gs hg
  exact h gs (by rw [List.filterMap_append]; exact List.mem_append_left _ hg)

theorem LaysFor.last {K : List TypeId} {a : List (Op V)} {rank : TypeId → Nat} {gs : List (List TypeId)}
    (h : LaysFor K (a ++ [.setLayout rank gs])) : LayoutOK (GroupLayout.build gs).2 ∧ LayoutFits (GroupLayout.build gs).2 ∧
    Splits K (layoutGroups (GroupLayout.build gs).2) :=
  h gs (by rw [List.filterMap_append]; exact List.mem_append_right _ (by simp [Op.layout]))

theorem LaysFor.settled {K : List TypeId} {ops : List (Op V)} (h : LaysFor K ops) : Settled ops := by
  intro gs hg
  have hm : gs ∈ ops.filterMap Op.layout := by
    unfold lastLayout at hg
    obtain ⟨op, h1, h2⟩ := List.exists_of_findSome?_eq_some hg
    exact List.mem_filterMap.2 ⟨op, List.mem_reverse.1 h1, h2⟩
  exact ⟨(h gs hm).1, (h gs hm).2.1⟩

theorem LaysFor.splits {K : List TypeId} {ops : List (Op V)} (h : LaysFor K ops) : Splits K (mapOf ops).groups := by
  induction ops using List.reverseRecOn with
  | nil => exact fun g hg => by cases hg
  | append_singleton ops op ih =>
    rw [mapOf_snoc]
    by_cases hl : ∃ rank gs, op = .setLayout rank gs
    · obtain ⟨rank, gs, rfl⟩ := hl
      exact h.last.2.2
    · have : ((mapOf ops).next op).groups = (mapOf ops).groups := by
        cases op <;> first | rfl | exact absurd ⟨_, _, rfl⟩ hl
      rw [this]
      exact ih h.left

theorem step_lays {K : List TypeId} {w w2 : World V} (hb : BoundsOK w.components) {ops : List (Op V)} {op : Op V} {r : Ret V}
    (hs : step w op = some (r, w2)) (hl : LaysFor K (ops ++ [op])) : op.lays r := by
  cases op with
  | setLayout rank gs =>
    show r = .unit
    obtain ⟨_, h2, _⟩ := hl.last
    have h3 := (ComponentStorage.setLayout_bounds rank hb (build_fams gs) w.entities.asSlice).2.2 h2
    simp only [step, World.setLayout] at hs
    cases hc : w.components.setLayout rank (GroupLayout.build gs).2 w.entities.asSlice with
    | ub => rw [hc] at hs; cases hs
    | panic c => exact absurd hc (h3 c)
    | ok u c =>
      rw [hc] at hs
      cases hs
      rfl
  | _ => trivial

theorem reach_laid {K : List TypeId} {h : History V} {w : World V} (hr : Reach World.empty h w) (hl : LaysFor K (calls h)) :
    Laid h := by
  induction hr with
  | nil => exact fun p hp => by cases hp
  | @snoc h w1 w2 op r hr hs ih =>
    rw [calls_snoc] at hl
    intro p hp
    rcases List.mem_append.1 hp with hp | hp
    · exact ih hl.left p hp
    · rw [List.mem_singleton.1 hp]
      exact step_lays (reach_bounds hr) hs hl

theorem AgreeWorld.empty (K : List TypeId) : AgreeWorld K (fun _ => False) (World.empty : World V) World.empty where
  ents := rfl
  comps := by
    have h0 : LayStat (World.empty : World V).components [] := LayStat.empty
    refine ⟨rfl, h0.store.mds, fun t m hm => ?_, h0.store.gstat, ?_, rfl, fun _ h => h.elim, ?_, SameStat.refl _, ?_⟩
    · simp [World.empty, ComponentStorage.empty, ComponentStorage.meta?] at hm
    · exact fun _ _ _ _ _ _ _ h => h
    · intro i x _ hx
      cases hx
    · intro j g hg
      cases hg

/-- What is left of a history is a history too; the worlds agree. -/
theorem reach_agree {K : List TypeId} {h : History V} {w : World V} (hr : Reach World.empty h w)
    (hl : LaysFor K (calls h)) : ∃ B w', Reach World.empty (erase K h) w' ∧ AgreeWorld K B w w' := by
  induction hr with
  | nil => exact ⟨_, _, .nil, AgreeWorld.empty K⟩
  | @snoc h w1 w2 op r hr hs ih =>
    have hl2 := hl
    rw [calls_snoc] at hl2
    obtain ⟨B, w', h1, h2⟩ := ih hl2.left
    have hreg : SameReg w1 (mapOf (calls h)) := reach_sameReg hr (reach_laid hr hl2.left)
    have hst := step_agree h2 hreg hs (step_lays (reach_bounds hr) hs hl2)
      (reach_lay (hr.snoc hs) hl.settled) hl.splits
    rw [erase_snoc]
    unfold StepSim at hst
    cases ho : (mapOf (calls h)).eraseOp K op with
    | none =>
      rw [ho] at hst
      obtain ⟨B2, h3⟩ := hst
      simp only [Option.toList_none, List.map_nil, List.append_nil]
      exact ⟨B2, w', h1, h3⟩
    | some op' =>
      rw [ho] at hst
      obtain ⟨B2, w2', h3, h4⟩ := hst
      simp only [Option.toList_some, List.map_cons, List.map_nil]
      exact ⟨B2, w2', h1.snoc h3, h4⟩

end Sparsey
