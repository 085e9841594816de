import Verif.Proofs.Exact
import Verif.Properties.Entities

/-!
The discipline of C03 is exactly what is needed.
-/

set_option autoImplicit false
set_option linter.unusedSimpArgs false

namespace Sparsey
variable {V : Type}

/-- One `maintain` too many is noticed at once: after it `entities()` has an entity that was handed out before and is dead. -/
theorem C03_maintain {h : History V} {w w' : World V} (hr : Reach World.empty h w) (hd : Disciplined h)
    (hm : w.maintain = .ok w') (hk : (life h).freshKilled = true) :
    ∃ e ∈ w'.entitiesSlice, e ∈ (life h).issued ∧ e ∉ (life (h ++ [(.maintain, .unit)])).alive := by
  have hl := reach_life hr hd
  unfold World.maintain at hm
  cases hs : w.entities.maintain with
  | panic => rw [hs] at hm; cases hm
  | ub => rw [hs] at hm; cases hm
  | ok s' =>
    rw [hs] at hm
    cases hm
    obtain ⟨y, h1, h2, h3⟩ := hl.maintain_wrong hk hs
    refine ⟨y, h1, h3, ?_⟩
    rw [life_snoc]
    exact h2

/-- C03 with the exact guard: for any history, `entities()` has exactly the living entities after every call if and only if
the discipline was kept at every call. -/
theorem C03_exact {h : History V} {w : World V} (hr : Reach World.empty h w) :
    (∀ a, a <+: h → Disciplined a) ↔
      ∀ a w₁, a <+: h → Reach World.empty a w₁ → ∀ e, e ∈ w₁.entitiesSlice ↔ e ∈ (life a).alive := by
  constructor
  · intro hd a w₁ ha hra
    exact (C03_partial hra (hd a ha)).2.2.1
  · induction hr with
    | nil =>
      intro _ a ha
      rw [List.prefix_nil.1 ha]
      rfl
    | @snoc h w1 w2 op r hr hs ih =>
      intro hall a ha
      have hih := ih fun a w₁ ha => hall a w₁ (ha.trans (List.prefix_append _ _))
      rcases List.prefix_concat_iff.1 ha with rfl | ha
      · have hd := hih h (List.prefix_refl _)
        by_contra hnd
        have hlast := hall _ w2 (List.prefix_refl _) (.snoc hr hs)
        have hev : events op r = [.maintained] ∧ (life h).freshKilled = true := by
          unfold Disciplined at hd hnd
          rw [life_snoc] at hnd
          have hgen : ∀ (evs : List Ev) (l : Life), l.disciplined = true → (∀ ev ∈ evs, ev ≠ .maintained) →
              (l.run evs).disciplined = true := by
            intro evs
            induction evs with
            | nil => exact fun l hl _ => hl
            | cons ev evs ih =>
              intro l hl hne
              rw [Life.run_cons]
              refine ih _ ?_ fun e he => hne e (.tail _ he)
              cases ev with
              | maintained => exact absurd rfl (hne _ (.head _))
              | made e => simp only [Life.step]; unfold Life.take; split <;> exact hl
              | queued e => simp only [Life.step]; unfold Life.take; split <;> exact hl
              | killed e => exact hl
              | cleared => exact hl
              | reset => rfl
          by_cases hm : .maintained ∈ events op r
          · have : events op r = [.maintained] := by
              revert hm
              cases op <;> cases r <;> simp [events]
              split <;> simp
            refine ⟨this, ?_⟩
            rw [this] at hnd
            simp only [Life.run, List.foldl_cons, List.foldl_nil, Life.step, hd, Bool.true_and, Bool.not_eq_true',
              Bool.not_eq_false] at hnd
            exact hnd
          · exact absurd (hgen _ _ hd fun ev hev hc => hm (hc ▸ hev)) hnd
        obtain ⟨hev, hk⟩ := hev
        have hop : op = .maintain ∧ r = .unit := by
          revert hev
          cases op <;> cases r <;> simp [events]
          rename_i b
          cases b <;> simp
        obtain ⟨rfl, rfl⟩ := hop
        simp only [step, retRes] at hs
        cases hm : w1.maintain with
        | panic => rw [hm] at hs; simp at hs
        | ub => rw [hm] at hs; simp at hs
        | ok w' =>
          rw [hm] at hs
          simp only [Option.some.injEq, Prod.mk.injEq, true_and] at hs
          subst hs
          obtain ⟨e, h1, _, h2⟩ := C03_maintain hr hd hm hk
          exact h2 ((hlast e).1 h1)
      · exact hih a ha

/-- Non-vacuity: a history that breaks the discipline with its last call, and one that destroys freely but keeps it. -/
example : ∃ (h : History Nat) (w : World Nat), Reach World.empty h w ∧ ¬ Disciplined h ∧
    w.entitiesSlice = [⟨1, 1⟩, ⟨0, 1⟩] ∧ (life h).alive = [⟨1, 1⟩] := by
  obtain ⟨w, _, h⟩ := reach_answers
    (ops := ([.create [], .create [], .destroy ⟨0, 1⟩, .maintain] : List (Op Nat)))
    (rs := [.entity ⟨0, 1⟩, .entity ⟨1, 1⟩, .bool true, .unit]) (by decide)
  have hw : (run World.empty ([.create [], .create [], .destroy ⟨0, 1⟩, .maintain] : List (Op Nat))).map
      (fun p => p.2.entitiesSlice) = some [⟨1, 1⟩, ⟨0, 1⟩] := by decide
  rw [(by assumption : run World.empty _ = _)] at hw
  exact ⟨_, w, h, by decide, by simpa using hw, by decide⟩

example : ∀ a, a <+: calmOps.zip calmRets → Disciplined a := by
  intro a ha
  have : ∀ n, n ≤ (calmOps.zip calmRets).length → Disciplined ((calmOps.zip calmRets).take n) := by decide
  have := this a.length ha.length_le
  rwa [← List.prefix_iff_eq_take.1 ha] at this

end Sparsey
