import Verif.Proofs.Types
import Verif.Proofs.LayoutPanic
import Verif.Properties.Leftover

/-!
C18 and C61: exactly which types are registered and how many component sets there are.
-/

set_option autoImplicit false
set_option linter.unusedSimpArgs false

namespace Sparsey
variable {V : Type}

theorem typesFrom_append : ∀ (a b : List (Op V)) (ts : List TypeId), typesFrom ts (a ++ b) = typesFrom (typesFrom ts a) b
  | [], _, _ => rfl
  | op :: a, b, ts => typesFrom_append a b (typesNext ts op)

theorem setsFrom_append : ∀ (a b : List (Op V)) (ts : List TypeId),
    setsFrom ts (a ++ b) = setsFrom ts a + setsFrom (typesFrom ts a) b
  | [], _, _ => by simp [setsFrom, typesFrom]
  | op :: a, b, ts => by
    show setsAdded ts op + setsFrom _ (a ++ b) = setsAdded ts op + setsFrom _ a + _
    rw [setsFrom_append a b, Nat.add_assoc]
    rfl

theorem typesFrom_mem (t : TypeId) : ∀ (ops : List (Op V)) (ts : List TypeId),
    (∀ rank gs, .setLayout rank gs ∈ ops → LayoutFits (GroupLayout.build gs).2) →
    (t ∈ typesFrom ts ops ↔ t ∈ ts ∨ ∃ op ∈ ops, t ∈ op.registers)
  | [], ts, _ => by simp [typesFrom]
  | op :: ops, ts, hf => by
    have e1 : typesNext ts op = op.registers ++ ts := by
      cases op with
      | setLayout rank gs => simp only [typesNext, if_pos (hf rank gs (.head _)), Op.registers]
      | _ => rfl
    rw [typesFrom, typesFrom_mem t ops _ fun rank gs hm => hf rank gs (.tail _ hm), e1, List.mem_append]
    simp only [List.mem_cons, exists_eq_or_imp]
    tauto

/-- One call. -/
theorem step_types {h : History V} {w w' : World V} {op : Op V} {r : Ret V} (hr : Reach World.empty h w)
    (hs : step w op = some (r, w')) {ts : List TypeId} (ht : ∀ t, (w.components.meta? t).isSome ↔ t ∈ ts) :
    (∀ t, (w'.components.meta? t).isSome ↔ t ∈ typesNext ts op) ∧
      w'.components.components.length = w.components.components.length + setsAdded ts op := by
  have hsame : SameReg w { (MapWorld.init : MapWorld V) with reg := ts } := ht
  cases op with
  | register t =>
    have h1 := step_sameReg (reach_static hr) (reach_keys hr) hsame hs trivial
    refine ⟨h1, ?_⟩
    have h4 : ∃ b, r = .bool b := by
      simp only [step, Option.some.injEq, Prod.mk.injEq] at hs
      exact ⟨_, hs.1.symm⟩
    obtain ⟨b, rfl⟩ := h4
    rw [(C61_register hs).2]
    have h5 : w.isRegistered t = true ↔ t ∈ ts := ht t
    simp only [setsAdded, h5]
  | setLayout rank gs =>
    obtain ⟨_, j2, j3⟩ := ComponentStorage.setLayout_bounds rank (reach_bounds hr) (build_fams gs) w.entities.asSlice
    have hs' := hs
    simp only [step, World.setLayout] at hs
    cases hc : w.components.setLayout rank (GroupLayout.build gs).2 w.entities.asSlice with
    | ub => rw [hc] at hs; cases hs
    | panic c =>
      rw [hc] at hs
      cases hs
      have hnf : ¬ LayoutFits (GroupLayout.build gs).2 := fun hf => j3 hf c hc
      obtain ⟨k1, _, _, k4, _⟩ := ComponentStorage.setLayout_stuck (reach_static hr) (reach_bounds hr) (reach_keys hr)
        (build_fams gs) hc
      simp only [typesNext, setsAdded, if_neg hnf]
      exact ⟨k1, k4⟩
    | ok u c =>
      rw [hc] at hs
      cases hs
      have hf : LayoutFits (GroupLayout.build gs).2 := by
        by_contra hnf
        obtain ⟨c', h1⟩ := j2 hnf
        rw [hc] at h1
        cases h1
      have h1 := step_sameReg (reach_static hr) (reach_keys hr) hsame hs' rfl
      simp only [typesNext, setsAdded, if_pos hf]
      exact ⟨h1, ComponentStorage.setLayout_length rank (reach_keys hr) (build_fams gs) _ hc fun t => (ht t).symm⟩
  | _ => exact ⟨step_sameReg (reach_static hr) (reach_keys hr) hsame hs trivial, C61_other hs (by simp) (by simp)⟩

theorem reach_types {h : History V} {w : World V} (hr : Reach World.empty h w) :
    (∀ t, (w.components.meta? t).isSome ↔ t ∈ typesFrom [] (calls h)) ∧
      w.components.components.length = setsFrom [] (calls h) := by
  induction hr with
  | nil => exact ⟨fun t => by simp [World.empty, ComponentStorage.empty, ComponentStorage.meta?, typesFrom, calls], rfl⟩
  | @snoc h w1 w2 op r hr hs ih =>
    have hcalls : calls (h ++ [(op, r)]) = calls h ++ [op] := by simp [calls]
    obtain ⟨h1, h2⟩ := step_types hr hs ih.1
    rw [hcalls, typesFrom_append, setsFrom_append, ← ih.2]
    exact ⟨h1, h2⟩

/-- C18, which types are registered after any calls, also after a `set_layout` that panicked. -/
theorem C18_types {h : History V} {w : World V} (hr : Reach World.empty h w) (t : TypeId) :
    w.isRegistered t = true ↔ t ∈ typesFrom [] (calls h) := (reach_types hr).1 t

/-- C18, with layouts below the maxima: the types named by a `register` call or by the groups of a `set_layout` call. Missing: other
layouts, see `C18_types`. -/
theorem C18_types_partial {h : History V} {w : World V} (hr : Reach World.empty h w)
    (hf : ∀ rank gs, .setLayout rank gs ∈ calls h → LayoutFits (GroupLayout.build gs).2) (t : TypeId) :
    w.isRegistered t = true ↔ .register t ∈ calls h ∨
      ∃ rank gs, .setLayout rank gs ∈ calls h ∧ t ∈ layoutTypes (GroupLayout.build gs).2 := by
  rw [C18_types hr t, typesFrom_mem t _ _ hf]
  constructor
  · rintro (h2 | ⟨op, h2, h3⟩)
    · cases h2
    · cases op with
      | register t' =>
        rw [List.mem_singleton.1 h3]
        exact .inl h2
      | setLayout rank gs => exact .inr ⟨rank, gs, h2, h3⟩
      | _ => cases h3
  · rintro (h2 | ⟨rank, gs, h2, h3⟩)
    · exact .inr ⟨_, h2, List.mem_singleton.2 rfl⟩
    · exact .inr ⟨_, h2, h3⟩

/-- C61, the number of component sets, from the calls: each new type adds one when it is registered, each `set_layout` one for
every type of every family of the layout and every other registered type, or, if it panics, one for each type that it placed. -/
theorem C61_count {h : History V} {w : World V} (hr : Reach World.empty h w) :
    w.components.components.length = setsFrom [] (calls h) := (reach_types hr).2

/-- The families of the first layout are `(0, 1, 2)` and `(2, 3)`. The calls add 1, 6, 0, 1, 6 and 2 sets; the last one panics. -/
def countOps : List (Op Nat) :=
  [.register 5, .setLayout anyOrder [[0, 1], [2, 3], [0, 1, 2]], .register 0, .register 7, .setLayout anyOrder [[0, 7]],
    .setLayout anyOrder [[8, 5], (List.range 16).map (· + 10)]]

example : holdsAfter countOps (fun rs w => decide (
    rs = [.bool true, .unit, .bool false, .bool true, .unit, .panicked []] ∧ w.components.components.length = 16 ∧
    setsFrom [] countOps = 16 ∧ typesFrom [] countOps = [5, 8] ∧
    ([5, 8] : List TypeId).all w.isRegistered = true ∧ w.isRegistered 0 = false)) = true := by decide +kernel

example : holdsAfter countOps.dropLast (fun rs w => decide (rs.length = 5 ∧ w.components.components.length = 14 ∧
    setsFrom [] countOps.dropLast = 14 ∧ ([5, 0, 1, 2, 3, 7] : List TypeId).all w.isRegistered = true)) = true := by
  decide +kernel

end Sparsey
