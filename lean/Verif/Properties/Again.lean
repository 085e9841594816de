import Verif.Spec.Again
import Verif.Proofs.LoneStep
import Verif.Proofs.Fresh
import Verif.Proofs.Safe
import Verif.Proofs.Panics
import Verif.Proofs.Versions
import Verif.Properties.Storage

/-!
C79: calls that have nothing to do, and calls made superfluous by the next one.
-/

set_option autoImplicit false
set_option linter.unusedSimpArgs false

namespace Sparsey
variable {V : Type}

theorem SparseVec.remove_absent {s : SparseVec} {e : Entity} (h : s.contains e = false) : s.remove e = (none, s) := by
  unfold SparseVec.contains at h
  unfold SparseVec.remove
  split at h
  · rename_i sl hs
    simp [hs, h]
  · rfl

/-- After a removal the entity is not there; a removal of one that is not there changes nothing. -/
theorem EntitySparseSet.remove_gone {s s' : EntitySparseSet} (h : IdxRep s.sparse s.entities) {e : Entity} {b : Bool}
    (hr : s.remove e = .ok (b, s')) : s'.contains e = false ∧ (b = false → s' = s) := by
  cases hc : s.sparse.contains e with
  | false =>
    have : s.remove e = .ok (false, s) := by simp [EntitySparseSet.remove, SparseVec.remove_absent hc]
    rw [this] at hr
    cases hr
    exact ⟨hc, fun _ => rfl⟩
  | true =>
    rcases h.remove_cases e with hn | ⟨d, x, hr', hd, hi⟩
    · exfalso
      unfold SparseVec.contains at hc
      unfold SparseVec.remove at hn
      split at hc
      · rename_i sl hs
        simp [hs, hc] at hn
      · cases hc
    · have hdl : d < s.entities.length := (List.getElem?_eq_some_iff.1 hd).1
      obtain ⟨last, hlast⟩ : ∃ y, s.entities[s.entities.length - 1]? = some y :=
        ⟨_, List.getElem?_eq_getElem (by omega)⟩
      have hls := h.slot_lt hlast
      have hget := Rep.removeAt_get s.entities (last := last) hdl d
      unfold EntitySparseSet.remove at hr
      by_cases hlt : d < s.entities.length - 1
      · have hne : last.index ≠ e.index := by
          intro heq
          obtain ⟨v1, h1⟩ := h.fwd _ _ hd
          obtain ⟨v2, h2⟩ := h.fwd _ _ hlast
          rw [heq, ← hi, h1] at h2
          simp only [Option.some.injEq, Slot.mk.injEq] at h2
          omega
        simp [hr', hdl, swapRemove_eq _ d last hlast, hget, hlt, SparseVec.setUnchecked, Entity.sparse, hls] at hr
        obtain ⟨rfl, rfl⟩ := hr
        refine ⟨?_, by simp⟩
        simp only [EntitySparseSet.contains, SparseVec.contains, Entity.sparse, List.getElem?_set]
        rw [if_neg hne]
        simp
      · simp [hr', hdl, swapRemove_eq _ d last hlast, hget, hlt] at hr
        obtain ⟨rfl, rfl⟩ := hr
        refine ⟨?_, by simp⟩
        simp only [EntitySparseSet.contains, SparseVec.contains, Entity.sparse, List.getElem?_set]
        simp

theorem EntityStorage.remove_absent {s : EntityStorage} {e : Entity} (h : s.contains e = false) : s.remove e = .ok (false, s) := by
  unfold EntityStorage.remove EntitySparseSet.remove
  rw [SparseVec.remove_absent h]
  rfl

theorem step_destroy_absent {w : World V} {e : Entity} (h : w.entities.contains e = false) :
    step w (.destroy e) = some (.bool false, w) := by
  simp [step, World.destroy, EntityStorage.remove_absent h, retRes]

theorem step_insert_absent {w : World V} {e : Entity} (vs : List (TypeId × V)) (h : w.entities.contains e = false) :
    step w (.insert e vs) = some (.bool false, w) := by
  simp [step, World.insert, h, retOutcome]

theorem step_destroy_gone {h : History V} {w w' : World V} (hr : Reach World.empty h w) {e : Entity} {r : Ret V}
    (hs : step w (.destroy e) = some (r, w')) : w'.entities.contains e = false := by
  obtain ⟨he, hc⟩ := reach_sound hr
  obtain ⟨b, s', h1, h2⟩ := he.remove e
  have h3 := h1
  unfold EntityStorage.remove at h3
  obtain ⟨⟨b2, es⟩, h4, h5⟩ := Res.bind_ok' h3
  have h6 : s'.contains e = false := by
    have := (EntitySparseSet.remove_gone he.rep h4).1
    cases b2 <;> simp at h5 <;> obtain ⟨-, rfl⟩ := h5 <;> exact this
  simp only [step, World.destroy, h1, Res.bind_ok] at hs
  cases b with
  | false =>
    cases hs
    exact h6
  | true =>
    cases hst : w.components.strip e with
    | panic => exact absurd hst (strip_np (reach_bounds hr) hc e)
    | ub => rw [hst] at hs; cases hs
    | ok c =>
      rw [hst] at hs
      cases hs
      exact h6

theorem EntityAllocator.maintain_again {a a' : EntityAllocator} {es : List Entity} (h : a.maintain = .ok (es, a')) :
    a'.maintain = .ok ([], a') := by
  unfold EntityAllocator.maintain at h
  cases hd : decide (a.recycledSinceMaintain ≤ a.recycled.length) with
  | false => rw [hd] at h; cases h
  | true =>
    rw [hd] at h
    cases h
    simp [EntityAllocator.maintain]

theorem step_maintain_some {w w' : World V} {r : Ret V} {h : History V} (hr : Reach World.empty h w)
    (hs : step w .maintain = some (r, w')) : ∃ es a, w.entities.allocator.maintain = .ok (es, a) ∧
      w'.entities.allocator = a ∧ w'.components = w.components := by
  obtain ⟨es, a, h1, h2, -⟩ := (reach_sound hr).1.maintain_alloc
  refine ⟨es, a, h1, ?_⟩
  obtain ⟨s, h3, -⟩ := EntOk.insertAll (reach_sound hr).1.rep h2
  simp only [step, World.maintain, EntityStorage.maintain, h1, h3, Res.bind_ok] at hs
  cases hs
  exact ⟨rfl, rfl⟩

theorem step_clear_eq {w : World V} {es : List Entity} {a : EntityAllocator} (h : w.entities.allocator.maintain = .ok (es, a)) :
    step w .clear = some (.unit, ⟨⟨a, ⟨⟨[]⟩, []⟩⟩, w.components.clear⟩) := by
  simp [step, World.clear, EntityStorage.clear, h, retRes, EntitySparseSet.clear, SparseVec.clear]

theorem step_maintain_idle {w : World V} (h : w.entities.allocator.maintain = .ok ([], w.entities.allocator)) :
    step w .maintain = some (.unit, w) := by
  simp [step, World.maintain, EntityStorage.maintain, h, retRes, EntityStorage.insertAll]

theorem step_clear_some {w w' : World V} {r : Ret V} {h : History V} (hr : Reach World.empty h w)
    (hs : step w .clear = some (r, w')) : ∃ es a, w.entities.allocator.maintain = .ok (es, a) ∧
      w' = ⟨⟨a, ⟨⟨[]⟩, []⟩⟩, w.components.clear⟩ := by
  obtain ⟨es, a, h1, -⟩ := (reach_sound hr).1.maintain_alloc
  rw [step_clear_eq h1] at hs
  cases hs
  exact ⟨es, a, h1, rfl⟩

/-- C79, calls with nothing to do: in every reachable world, after a call that leaves nothing to do for another one, the other
one gives the answer of the specification and changes nothing at all. -/
theorem C79_leaves {h : History V} {w w' : World V} {a b : Op V} {r q : Ret V} (hr : Reach World.empty h w)
    (hs : step w a = some (r, w')) (hl : a.leaves b = some q) : step w' b = some (q, w') := by
  cases a <;> cases b <;> simp only [Op.leaves, reduceCtorEq, Option.ite_none_right_eq_some, Option.some.injEq] at hl
  case register.register t t' =>
    obtain ⟨rfl, rfl⟩ := hl
    simp only [step, Option.some.injEq, Prod.mk.injEq] at hs
    obtain ⟨-, rfl⟩ := hs
    obtain ⟨w', h1, h2, -⟩ := C18_register hr t
    simp only [step, Option.some.injEq, Prod.mk.injEq] at h1
    obtain ⟨-, rfl⟩ := h1
    obtain ⟨m, hm⟩ := Option.isSome_iff_exists.1
      (show ((w.register t).2.components.meta? t).isSome = true from (h2 t).2 (.inl rfl))
    simp [step, World.register, ComponentStorage.register] at hm ⊢
    simp [hm]
  case destroy.destroy e e' =>
    obtain ⟨rfl, rfl⟩ := hl
    exact step_destroy_absent (step_destroy_gone hr hs)
  case destroy.insert e e' vs =>
    obtain ⟨rfl, rfl⟩ := hl
    exact step_insert_absent vs (step_destroy_gone hr hs)
  case maintain.maintain =>
    subst hl
    obtain ⟨es, al, h1, rfl, -⟩ := step_maintain_some hr hs
    exact step_maintain_idle (EntityAllocator.maintain_again h1)
  case clear.maintain =>
    subst hl
    obtain ⟨es, al, h1, rfl⟩ := step_clear_some hr hs
    exact step_maintain_idle (EntityAllocator.maintain_again h1)
  case clear.clear =>
    subst hl
    obtain ⟨es, al, h1, rfl⟩ := step_clear_some hr hs
    rw [step_clear_eq (EntityAllocator.maintain_again h1)]
    simp [ComponentStorage.clear_clear]
  case clear.destroy e =>
    subst hl
    obtain ⟨es, al, h1, rfl⟩ := step_clear_some hr hs
    exact step_destroy_absent rfl
  case clear.insert e vs =>
    subst hl
    obtain ⟨es, al, h1, rfl⟩ := step_clear_some hr hs
    exact step_insert_absent vs rfl
  all_goals
    subst hl
    cases hs
  case reset.maintain => exact step_maintain_idle rfl
  case reset.clear =>
    rw [step_clear_eq (w := w.reset) (es := []) (a := ⟨0, 0, [], 0⟩) rfl]
    simp [World.reset, ComponentStorage.clear_clear, EntityStorage.reset, EntityAllocator.reset, EntitySparseSet.clear,
      SparseVec.clear]
  case reset.reset =>
    simp [step, World.reset, ComponentStorage.clear_clear, EntityStorage.reset, EntityAllocator.reset, EntitySparseSet.clear,
      SparseVec.clear]
  case reset.destroy e => exact step_destroy_absent rfl
  case reset.insert e vs => exact step_insert_absent vs rfl

/-- C79, wasted calls: in every reachable world, a call that is wasted before another one makes no difference to the answer of the
other one and to the world after it. -/
theorem C79_wasted {h : History V} {w w' : World V} {a b : Op V} {r : Ret V} (hr : Reach World.empty h w)
    (hs : step w a = some (r, w')) (hw : a.wasted b = true) : step w' b = step w b := by
  have h1 := step_reset hs
  obtain ⟨he, hc⟩ := reach_sound hr
  have h2 := step_ents he hc hs
  obtain ⟨es, al, hm, -⟩ := he.maintain_alloc
  have hclear : a.isSetup = false → w'.entities = w.entities → step w' .clear = step w .clear := by
    intro hi hent
    rw [hi] at h1
    simp only [Bool.false_eq_true, if_false] at h1
    rw [step_clear_eq hm, step_clear_eq (w := w') (by rw [hent]; exact hm)]
    have : w'.components.clear = w.components.clear := congrArg World.components h1
    rw [this]
  cases b <;> try (cases a <;> simp [Op.wasted] at hw; done)
  case reset =>
    have hi : a.isSetup = false := by cases a <;> simp [Op.wasted] at hw <;> rfl
    rw [hi] at h1
    simp only [Bool.false_eq_true, if_false] at h1
    simp [step, h1]
  case clear =>
    cases a <;> simp [Op.wasted] at hw
    case maintain =>
      obtain ⟨es', al', h3, h4, h5⟩ := step_maintain_some hr hs
      rw [step_clear_eq h3, step_clear_eq (w := w') (by rw [h4]; exact EntityAllocator.maintain_again h3), h5]
    case clear =>
      obtain ⟨es', al', h3, rfl⟩ := step_clear_some hr hs
      rw [step_clear_eq h3, step_clear_eq (EntityAllocator.maintain_again h3)]
      simp [ComponentStorage.clear_clear]
    all_goals exact hclear rfl h2

/-- Calls with two types in a group, a destroyed entity, one that waits for `maintain` and one with components. -/
def againOps : List (Op Nat) :=
  [.setLayout anyOrder [[0, 1]], .create [(0, 1), (1, 2)], .create [(1, 3)], .destroy ⟨0, 1⟩, .createAtomic, .createAtomic]

/-- The hypotheses of `C79_leaves` with a first call that does something: the second one then does nothing. -/
example : ∀ p ∈ ([(.register 7, .register 7), (.destroy ⟨1, 1⟩, .destroy ⟨1, 1⟩), (.destroy ⟨1, 1⟩, .insert ⟨1, 1⟩ [(0, 5)]),
      (.maintain, .maintain), (.clear, .maintain), (.clear, .clear), (.clear, .destroy ⟨1, 1⟩), (.reset, .clear),
      (.reset, .insert ⟨1, 1⟩ [(0, 5)])] : List (Op Nat × Op Nat)),
    (p.1.leaves p.2).isSome = true ∧
    (do let (_, w) ← run World.empty againOps
        let (_, w₁) ← step w p.1
        let (q, w₂) ← step w₁ p.2
        some (decide (w₁ ≠ w) && decide (w₂ = w₁) && decide (p.1.leaves p.2 = some q))) = some true := by
  decide +kernel

/-- The hypotheses of `C79_wasted` with a first call that does something. -/
example : ∀ p ∈ ([(.maintain, .clear), (.insert ⟨1, 1⟩ [(0, 5)], .clear), (.remove ⟨1, 1⟩ [1], .clear), (.write 1 ⟨1, 1⟩ 9, .clear),
      (.create [(0, 4)], .reset), (.destroy ⟨1, 1⟩, .reset), (.createAtomic, .reset)] : List (Op Nat × Op Nat)),
    p.1.wasted p.2 = true ∧
    (do let (_, w) ← run World.empty againOps
        let (_, w₁) ← step w p.1
        some (decide (w₁ ≠ w) && decide (step w₁ p.2 = step w p.2))) = some true := by
  decide +kernel

/-- C79, other calls: `create_atomic`, `create` and `destroy` before `clear` and `register` before `reset` do make a difference. -/
theorem C79_others_false : ∀ p ∈ ([(.createAtomic, .clear), (.create [], .clear), (.destroy ⟨1, 1⟩, .clear), (.register 7, .reset)] :
      List (Op Nat × Op Nat)), ∃ (h : History Nat) (w w₁ : World Nat) (r : Ret Nat),
      Reach World.empty h w ∧ step w p.1 = some (r, w₁) ∧ step w₁ p.2 ≠ step w p.2 := by
  intro p hp
  obtain ⟨rs, w, h1, h2⟩ := reach_witness (V := Nat) (ops := againOps) (f := fun (_ : List (Ret Nat)) w =>
    match step w p.1 with
    | some (_, w₁) => decide (step w₁ p.2 ≠ step w p.2)
    | none => false) (by revert p; decide +kernel)
  cases hs : step w p.1 with
  | none => rw [hs] at h2; cases h2
  | some q =>
    rw [hs] at h2
    exact ⟨_, w, q.2, q.1, h1, hs, of_decide_eq_true h2⟩

end Sparsey
