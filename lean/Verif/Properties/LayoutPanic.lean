import Verif.Proofs.LayoutPanic
import Verif.Properties.Types
import Verif.Properties.Rows

/-!
C77: what a `set_layout` that panics leaves behind.
-/

set_option autoImplicit false
set_option linter.unusedSimpArgs false

namespace Sparsey
variable {V : Type}

theorem World.borrow_setOf {w : World V} {t : TypeId} {s : CompSet V} (h : w.components.setOf t = some s) :
    w.borrow t = .ok s := by
  unfold ComponentStorage.setOf at h
  unfold World.borrow
  cases hm : w.components.meta? t with
  | none => rw [hm] at h; cases h
  | some m =>
    rw [hm] at h
    simp only [Option.bind_some] at h
    simp [h, Res.unchecked]

theorem World.setOf_borrow {w : World V} {t : TypeId} {s : CompSet V} (h : w.borrow t = .ok s) :
    w.components.setOf t = some s := by
  unfold World.borrow at h
  unfold ComponentStorage.setOf
  cases hm : w.components.meta? t with
  | none => rw [hm] at h; cases h
  | some m =>
    rw [hm] at h
    simp only [Option.bind_some]
    cases hs : w.components.components[m.storageIndex]? with
    | none => simp [hs, Res.unchecked] at h
    | some s' => simpa [hs, Res.unchecked] using h

/-- The components in the view of a type; none without a view. -/
def World.shelf (w : World V) (t : TypeId) : List V :=
  match w.borrow t with
  | .ok s => s.components
  | _ => []

/-- C77. A `set_layout` panics exactly if the layout is not below the maxima. The entities stay. Afterwards exactly the types
placed before the panic are registered. The view of one placed once is as before, empty if the type was not registered; that of one
placed twice is empty. The components of the types that are not placed are dropped, and no others. -/
theorem C77 {h : History V} {w : World V} (hr : Reach World.empty h w) (rank : TypeId → Nat) (gs : List (List TypeId)) :
    (¬ LayoutFits (GroupLayout.build gs).2 ↔ ∃ es w', step w (.setLayout rank gs) = some (.panicked es, w')) ∧
    ∀ es w', step w (.setLayout rank gs) = some (.panicked es, w') →
      es = [] ∧ w'.entities = w.entities ∧
      (∀ t, w'.isRegistered t = true ↔ t ∈ placedTypes (GroupLayout.build gs).2) ∧
      (∀ t s, (placedTypes (GroupLayout.build gs).2).count t = 1 → w.borrow t = .ok s → w'.borrow t = .ok s) ∧
      (∀ t, (placedTypes (GroupLayout.build gs).2).count t = 1 → w.isRegistered t = false → w'.borrow t = .ok CompSet.new) ∧
      (∀ t, 2 ≤ (placedTypes (GroupLayout.build gs).2).count t → w'.borrow t = .ok CompSet.new) ∧
      ∀ ts, w.TypesAre ts →
        (w.drops (.setLayout rank gs)).Perm ((ts.filter (· ∉ placedTypes (GroupLayout.build gs).2)).flatMap w.shelf) := by
  obtain ⟨_, j2, j3⟩ := ComponentStorage.setLayout_bounds rank (reach_bounds hr) (build_fams gs) w.entities.asSlice
  refine ⟨⟨fun hf => ?_, ?_⟩, fun es w' hs => ?_⟩
  · obtain ⟨c, hc⟩ := j2 hf
    exact ⟨[], { w with components := c }, by simp [step, World.setLayout, hc, retOutcome]⟩
  · rintro ⟨es, w', hs⟩ hf
    simp only [step, World.setLayout] at hs
    cases hc : w.components.setLayout rank (GroupLayout.build gs).2 w.entities.asSlice with
    | ub => rw [hc] at hs; cases hs
    | ok u c => rw [hc] at hs; cases hs
    | panic c => exact j3 hf c hc
  · simp only [step, World.setLayout] at hs
    cases hc : w.components.setLayout rank (GroupLayout.build gs).2 w.entities.asSlice with
    | ub => rw [hc] at hs; cases hs
    | ok u c => rw [hc] at hs; cases hs
    | panic c =>
      rw [hc] at hs
      cases hs
      obtain ⟨k1, k2, k3, _, k4⟩ := ComponentStorage.setLayout_stuck (reach_static hr) (reach_bounds hr) (reach_keys hr)
        (build_fams gs) hc
      refine ⟨rfl, rfl, k1, fun t s ht hb => ?_, fun t ht hn => ?_, fun t ht => World.borrow_setOf (k3 t ht), fun ts hts => ?_⟩
      · refine World.borrow_setOf ?_
        rw [k2 t ht, World.setOf_borrow hb]
        rfl
      · refine World.borrow_setOf ?_
        have hn' : w.components.meta? t = none := by
          simpa [World.isRegistered, ComponentStorage.isRegistered] using hn
        rw [k2 t ht, ComponentStorage.setOf, hn']
        rfl
      · have k5 := k4 ts hts.1 hts.2
        have e1 : w.shelf = fun t => ((w.components.setOf t).map (·.components)).getD [] := by
          funext t
          unfold World.shelf
          cases hm : w.components.setOf t with
          | some s => rw [World.borrow_setOf hm]; rfl
          | none =>
            cases hb : w.borrow t with
            | ok s => rw [World.setOf_borrow hb] at hm; cases hm
            | _ => rfl
        rw [e1]
        exact k5

/-- C22, exactly what a `set_layout` keeps, whether it panics or not, in every reachable world: all rows of the view of a type that
it keeps, and none of another type. -/
theorem C22_exact {h : History V} {w w' : World V} {rank : TypeId → Nat} {gs : List (List TypeId)} {r : Ret V}
    (hr : Reach World.empty h w) (hs : step w (.setLayout rank gs) = some (r, w')) (t : TypeId) :
    (w'.rows t).Perm (if (GroupLayout.build gs).2.Keeps t then w.rows t else []) := by
  obtain ⟨j1, j2⟩ := C77 hr rank gs
  by_cases hf : LayoutFits (GroupLayout.build gs).2
  · simp only [GroupLayout.Keeps, if_pos hf, rows_eq]
    simp only [step, World.setLayout] at hs
    cases hc : w.components.setLayout rank (GroupLayout.build gs).2 w.entities.asSlice with
    | ub => rw [hc] at hs; cases hs
    | panic c => exact absurd ⟨[], { w with components := c }, by simp [step, World.setLayout, hc, retOutcome]⟩ (mt j1.2 (not_not.2 hf))
    | ok u c =>
      rw [hc] at hs
      cases hs
      exact ComponentStorage.setLayout_rows_ok (reach_static hr) (reach_keys hr) (build_fams gs) hc t
  · obtain ⟨es, w1, h1⟩ := j1.1 hf
    rw [hs] at h1
    cases h1
    obtain ⟨_, _, k1, k2, k3, k4, _⟩ := j2 es w' hs
    simp only [GroupLayout.Keeps, if_neg hf]
    by_cases hn : (placedTypes (GroupLayout.build gs).2).count t = 1
    · rw [if_pos hn]
      by_cases hreg : w.isRegistered t = true
      · obtain ⟨m, hm⟩ := Option.isSome_iff_exists.1 (show (w.components.meta? t).isSome = true from hreg)
        have hb : w.borrow t = .ok (w.components.components[m.storageIndex]'((reach_static hr).idx t m hm)) := by
          unfold World.borrow
          rw [hm]
          simp [Res.unchecked, List.getElem?_eq_getElem ((reach_static hr).idx t m hm)]
        simp only [World.rows, k2 t _ hn hb, hb]
        exact List.Perm.refl _
      · have hreg' : w.isRegistered t = false := by simpa using hreg
        have hm : w.components.meta? t = none := by
          simpa [World.isRegistered, ComponentStorage.isRegistered] using hreg'
        have hb : w.borrow t = .panic := by simp [World.borrow, hm]
        simp only [World.rows, k3 t hn hreg', hb]
        exact List.Perm.refl _
    · rw [if_neg hn]
      by_cases hm : t ∈ placedTypes (GroupLayout.build gs).2
      · have h2 := List.count_pos_iff.2 hm
        simp only [World.rows, k4 t (by omega)]
        exact List.Perm.refl _
      · have hm' : w'.components.meta? t = none := by
          have := mt (k1 t).1 hm
          simpa [World.isRegistered, ComponentStorage.isRegistered] using this
        have hb : w'.borrow t = .panic := by simp [World.borrow, hm']
        simp only [World.rows, hb]
        exact List.Perm.refl _

/-- C22, exactly when a `set_layout` keeps all rows of all views. -/
theorem C22_all {h : History V} {w w' : World V} {rank : TypeId → Nat} {gs : List (List TypeId)} {r : Ret V}
    (hr : Reach World.empty h w) (hs : step w (.setLayout rank gs) = some (r, w')) :
    (∀ t, (w'.rows t).Perm (w.rows t)) ↔ ∀ t, w.rows t ≠ [] → (GroupLayout.build gs).2.Keeps t := by
  constructor
  · intro ha t ht
    by_contra hk
    have h1 := C22_exact hr hs t
    rw [if_neg hk] at h1
    exact ht ((ha t).symm.trans h1).eq_nil
  · intro ha t
    have h1 := C22_exact hr hs t
    by_cases hk : (GroupLayout.build gs).2.Keeps t
    · rwa [if_pos hk] at h1
    · rw [if_neg hk] at h1
      rw [not_not.1 (mt (ha t) hk)]
      exact h1

example : (GroupLayout.build [[0, 1], [2, 3], [0, 1, 2]]).2.Keeps 3 ∧ ¬ (GroupLayout.build [[0, 1], [2, 3], [0, 1, 2]]).2.Keeps 2 ∧
    (GroupLayout.build [[0, 1], [2, 3], [0, 1, 2]]).2.Keeps 9 ∧
    ¬ (GroupLayout.build [[0, 1], (List.range 16).map (· + 2)]).2.Keeps 9 := by decide +kernel

/-- A group of two types and then one of 16: the types of the first are kept, 5 and 40 are lost. -/
def stuckOps : List (Op Nat) :=
  [.register 0, .register 5, .register 40, .create [(0, 10), (5, 15), (40, 50)], .create [(0, 20)],
    .setLayout anyOrder [[0, 1], (List.range 16).map (· + 2)]]

example : placedTypes (GroupLayout.build [[0, 1], (List.range 16).map (· + 2)]).2 = [0, 1] := by decide +kernel

example : holdsAfter stuckOps (fun rs w => decide (rs.getLast? = some (.panicked []) ∧ w.viewGet 0 ⟨0, 1⟩ = .ok (some 10) ∧
    w.isRegistered 1 = true ∧ w.isRegistered 5 = false ∧ w.isRegistered 40 = false)) = true := by
  decide +kernel

example : holdsAfter stuckOps (fun _ w => decide (w.rows 0 = [(⟨0, 1⟩, 10), (⟨1, 1⟩, 20)] ∧ w.rows 5 = [])) = true := by
  decide +kernel

example : holdsAfter stuckOps.dropLast (fun _ w => decide
    ((w.drops (.setLayout anyOrder [[0, 1], (List.range 16).map (· + 2)])).Perm [15, 50] ∧
      ([0, 5, 40] : List TypeId).all w.isRegistered = true)) = true := by
  decide +kernel

/-- Nested groups of 2 and 16 types: the smaller one is placed. -/
example : placedTypes (GroupLayout.build [[0, 1], List.range 16]).2 = [0, 1] := by decide +kernel

/-- Here `2` is placed twice, in `(0, 1, 2)` and `(2, 3)`: its view is empty afterwards, and nothing is dropped. -/
example : (placedTypes (GroupLayout.build [[0, 1], [2, 3], [0, 1, 2], (List.range 16).map (· + 4)]).2).count 2 = 2 := by
  decide +kernel

example : holdsAfter (V := Nat) [.register 2, .create [(2, 12)]] (fun _ w =>
    decide (w.drops (.setLayout anyOrder [[0, 1], [2, 3], [0, 1, 2], (List.range 16).map (· + 4)]) = [])) = true := by
  decide +kernel

example : holdsAfter (V := Nat) [.register 2, .create [(2, 12)],
    .setLayout anyOrder [[0, 1], [2, 3], [0, 1, 2], (List.range 16).map (· + 4)]] (fun rs w =>
    decide (rs.getLast? = some (.panicked []) ∧ w.viewGet 2 ⟨0, 1⟩ = .ok none ∧ w.entities.asSlice = [⟨0, 1⟩])) = true := by
  decide +kernel

end Sparsey
