import Verif.Proofs.HashQuery
import Verif.Properties.Components

/-!
C64: the order in which a hash map is gone through is not visible.
-/

set_option autoImplicit false
set_option linter.unusedSimpArgs false

namespace Sparsey
variable {V : Type}

/-- The answers to the same call on alike worlds. -/
def SameStep : Option (Ret V × World V) → Option (Ret V × World V) → Prop
  | none, none => True
  | some (r, w), some (r', w') => r' = r ∧ AlikeWorlds w w'
  | _, _ => False

theorem retRes_same {α : Type} {w w' : World V} (hw : AlikeWorlds w w') {R : α → α → Prop} {r r' : Res α} (h : r.Same R r')
    {f : α → Ret V × World V} (hf : ∀ a a', R a a' → (f a').1 = (f a).1 ∧ AlikeWorlds (f a).2 (f a').2) :
    SameStep (retRes w r f) (retRes w' r' f) := by
  cases r <;> cases r' <;> first | exact h.elim | exact trivial | exact ⟨rfl, hw⟩ | exact hf _ _ h

theorem retOutcome_same {α : Type} {made made' : List Entity} {r r' : Outcome (World V) α} (h : r.Same AlikeWorlds r')
    (hm : ∀ w w', r = .panic w → r' = .panic w' → made' = made) {f : α → Ret V} :
    SameStep (retOutcome made r f) (retOutcome made' r' f) := by
  cases r <;> cases r' <;> first
    | exact h.elim
    | exact trivial
    | exact ⟨congrArg Ret.panicked (hm _ _ rfl rfl), h⟩
    | exact ⟨by rw [h.1], h.2⟩

theorem step_alike {h h' : History V} {w w' : World V} (hr : Reach World.empty h w) (hr' : Reach World.empty h' w')
    (ha : AlikeWorlds w w') {op op' : Op V} (hop : op.SameCall op') : SameStep (step w op) (step w' op') := by
  obtain ⟨n, hc⟩ := ha.components
  by_cases hl : ∃ r gs r' gs', op = .setLayout r gs ∧ op' = .setLayout r' gs'
  · obtain ⟨r, gs, r', gs', rfl, rfl⟩ := hl
    have : gs = gs' := hop
    subst this
    rw [step, step]
    exact retOutcome_same (reachable_layout_alike hr hr' ha r r' gs) fun _ _ _ _ => rfl
  · have : op = op' := by
      cases op <;> cases op' <;> first | exact hop | exact absurd ⟨_, _, _, _, rfl, rfl⟩ hl
    subst this
    cases op with
    | register t =>
      obtain ⟨h1, h2⟩ := hc.register t
      rw [step, step]
      exact ⟨congrArg Ret.bool h1, ha.entities, n, h2⟩
    | setLayout r gs => exact absurd ⟨_, _, _, _, rfl, rfl⟩ hl
    | create vs =>
      rw [step, step, ha.entities]
      exact retOutcome_same (ha.create vs) fun _ _ _ _ => rfl
    | extend ts it =>
      rw [step, step]
      refine retOutcome_same (ha.extend ts it) fun _ _ _ _ => ?_
      have := hc.lookupAll (fun _ _ ha => ha.ins) ts
      unfold extendMade
      rw [ha.entities]
      revert this
      cases w.components.lookupAll (·.insertMask) ts <;> cases w'.components.lookupAll (·.insertMask) ts <;> intro this <;>
        first | exact this.elim | rfl
    | destroy e =>
      rw [step, step]
      exact retRes_same ha (ha.destroy e) fun a a' h => ⟨congrArg Ret.bool h.1.symm, h.2⟩
    | createAtomic =>
      rw [step, step]
      refine retRes_same (R := fun a a' => a'.1 = a.1 ∧ AlikeWorlds a.2 a'.2) ha ?_ fun a a' h => ⟨congrArg Ret.entity h.1, h.2⟩
      unfold World.createAtomic
      rw [ha.entities]
      exact (Res.Same.refl (R := Eq) (fun _ => rfl) _).bind fun a b hab => by subst hab; exact ⟨rfl, rfl, n, hc⟩
    | maintain =>
      rw [step, step]
      refine retRes_same (R := AlikeWorlds) ha ?_ fun a a' h => ⟨rfl, h⟩
      unfold World.maintain
      rw [ha.entities]
      exact (Res.Same.refl (R := Eq) (fun _ => rfl) _).bind fun a b hab => by subst hab; exact ⟨rfl, n, hc⟩
    | insert e vs =>
      rw [step, step]
      exact retOutcome_same (ha.insert e vs) fun _ _ _ _ => rfl
    | remove e ts =>
      rw [step, step]
      refine retRes_same (R := fun a a' => a'.1 = a.1 ∧ AlikeWorlds a.2 a'.2) ha ?_ fun a a' h => ⟨congrArg Ret.values h.1, h.2⟩
      exact (hc.remove e ts).bind fun a a' h => ⟨h.1.symm, ha.entities, n, h.2⟩
    | delete e ts =>
      rw [step, step]
      refine retRes_same (R := AlikeWorlds) ha ?_ fun a a' h => ⟨rfl, h⟩
      exact (hc.delete e ts).bind fun a a' h => ⟨ha.entities, n, h⟩
    | clear =>
      rw [step, step]
      refine retRes_same (R := AlikeWorlds) ha ?_ fun a a' h => ⟨rfl, h⟩
      unfold World.clear
      rw [ha.entities]
      exact (Res.Same.refl (R := Eq) (fun _ => rfl) _).bind fun a b hab => by subst hab; exact ⟨rfl, n, hc.clear⟩
    | reset =>
      rw [step, step]
      exact ⟨rfl, by show w'.entities.reset = _; rw [ha.entities]; rfl, n, hc.clear⟩
    | write t e v =>
      rw [step, step]
      exact retRes_same ha (ha.writeView t e v) fun a a' h => ⟨congrArg Ret.bool h.1.symm, h.2⟩
    | writeAt t pos v =>
      rw [step, step]
      exact retRes_same ha (ha.writeAt t pos v) fun a a' h => ⟨rfl, h⟩

theorem run_alike {ops ops' : List (Op V)} (hs : List.Forall₂ Op.SameCall ops ops') :
    ∀ {h h' : History V} {w w' : World V}, Reach World.empty h w → Reach World.empty h' w' → AlikeWorlds w w' →
    (run w ops = none ∧ run w' ops' = none) ∨
    ∃ rs v v', run w ops = some (rs, v) ∧ run w' ops' = some (rs, v') ∧ AlikeWorlds v v' := by
  induction hs with
  | nil => exact fun _ _ ha => .inr ⟨[], _, _, rfl, rfl, ha⟩
  | @cons op op' ops ops' hop _ ih =>
    intro h h' w w' hr hr' ha
    have := step_alike hr hr' ha hop
    rw [run, run]
    cases hx : step w op with
    | none =>
      cases hx' : step w' op' with
      | none => exact .inl ⟨rfl, rfl⟩
      | some p => rw [hx, hx'] at this; exact this.elim
    | some p =>
      cases hx' : step w' op' with
      | none => rw [hx, hx'] at this; exact this.elim
      | some p' =>
        rw [hx, hx'] at this
        obtain ⟨r, w₁⟩ := p
        obtain ⟨r', w₁'⟩ := p'
        obtain ⟨rfl, hw⟩ := this
        dsimp only
        rcases ih (hr.snoc hx) (hr'.snoc hx') hw with ⟨h1, h2⟩ | ⟨rs, v, v', h1, h2, h3⟩
        · rw [h1, h2]
          exact .inl ⟨rfl, rfl⟩
        · rw [h1, h2]
          exact .inr ⟨_, v, v', rfl, rfl, h3⟩

theorem alike_empty : AlikeWorlds (World.empty : World V) World.empty := by
  refine ⟨rfl, 0, ⟨rfl, rfl, Nat.zero_le _, rfl, ?_, fun t => Iff.rfl, ?_, ?_, ?_, ?_, ?_⟩⟩
  · intro g hg
    cases hg
  · intro t m m' h
    cases h
  · intro i _ hi
    exact absurd hi (Nat.not_lt_zero i)
  · intro i _ hi
    exact absurd hi (Nat.not_lt_zero i)
  all_goals exact reach_static (.nil : Reach (World.empty : World V) [] _)

/-- **C64** Two runs of the same calls, in which `set_layout` goes through the hash map of sets in different orders: either
both have undefined behaviour, or all answers (panics included) are the same and the resulting worlds show the same. -/
theorem C64 {ops ops' : List (Op V)} (hs : List.Forall₂ Op.SameCall ops ops') :
    (run World.empty ops = none ∧ run World.empty ops' = none) ∨
    ∃ rs w w', run World.empty ops = some (rs, w) ∧ run World.empty ops' = some (rs, w') ∧ SameSight w w' := by
  rcases run_alike hs .nil .nil alike_empty with h | ⟨rs, w, w', h1, h2, h3⟩
  · exact .inl h
  · exact .inr ⟨rs, w, w', h1, h2, h3.sight⟩

/-- Six types, a layout set while four of them have components, groups used, layout set again. -/
def hashOps (rank : TypeId → Nat) : List (Op Nat) :=
  [.register 0, .register 1, .register 2, .register 3, .create [(0, 10), (2, 12), (3, 13)], .create [(1, 21), (3, 23), (2, 22)],
   .setLayout rank [[0, 1]], .create [(1, 31), (0, 30), (3, 33)], .insert ⟨0, 1⟩ [(1, 11)], .remove ⟨1, 1⟩ [2],
   .setLayout rank [[2, 3]], .destroy ⟨0, 1⟩, .write 3 ⟨2, 1⟩ 99]

example : List.Forall₂ Op.SameCall (hashOps id) (hashOps fun t => 10 - t) ∧
    (run World.empty (hashOps id)).isSome = true ∧
    (run World.empty (hashOps id)).map (fun p => p.2.components) ≠
      (run World.empty (hashOps fun t => 10 - t)).map (fun p => p.2.components) ∧
    holdsAfter (hashOps id) (fun _ w => decide (seeAll w [] [.entity, .ref 0, .opt 3] [.ref 1] [] = .ok (false,
      [[.entity ⟨2, 1⟩, .ref 0 0 30, .opt (some (0, 0, 99))]], none))) = true := by
  refine ⟨?_, by decide +kernel, by decide +kernel, by decide +kernel⟩
  simp [hashOps, Op.SameCall]

end Sparsey
