import Verif.Proofs.EraseLayout
import Verif.Proofs.LoneStep
import Verif.Proofs.EraseMap

/-!
A history and what is left of it on some component types lead to worlds that agree on these types.
-/

set_option autoImplicit false
set_option linter.unusedSimpArgs false

namespace Sparsey
variable {V : Type}

/-- The same entities; storages that agree on the types in `K`. -/
structure AgreeWorld (K : List TypeId) (B : Nat → Prop) (w w' : World V) : Prop where
  ents : w'.entities = w.entities
  comps : AgreeOn (· ∈ K) B w.components w'.components

theorem SameReg.keepFor {w : World V} {s : MapWorld V} (h : SameReg w s) (K : List TypeId) :
    KeepFor (· ∈ K) w.components (s.keeps K) := by
  intro t
  unfold MapWorld.keeps
  rw [decide_eq_true_eq, ← h t]
  simp

namespace AgreeWorld
variable {K : List TypeId} {B : Nat → Prop} {w w' : World V} {s : MapWorld V}

theorem insertSet (h : AgreeWorld K B w w') (hs : SameReg w s) (e : Entity) (vs : List (TypeId × V)) :
    (w.insertSet e vs).Sim (w'.insertSet e (s.kept K vs)) (AgreeWorld K B) (fun _ _ => AgreeWorld K B) := by
  have hi := h.comps.insert (hs.keepFor K) e vs
  unfold World.insertSet MapWorld.kept
  cases hc : w.components.insert e vs with
  | ub => trivial
  | panic c =>
    rw [hc] at hi
    obtain ⟨c', h1, h2⟩ := hi
    rw [h1]
    exact ⟨_, rfl, h.ents, h2⟩
  | ok a c =>
    rw [hc] at hi
    obtain ⟨a', c', h1, h2⟩ := hi
    rw [h1]
    exact ⟨_, _, rfl, h.ents, h2⟩

theorem create (h : AgreeWorld K B w w') (hs : SameReg w s) (vs : List (TypeId × V)) :
    (w.create vs).Sim (w'.create (s.kept K vs)) (AgreeWorld K B) (fun e e' w w' => e' = e ∧ AgreeWorld K B w w') := by
  unfold World.create
  rw [h.ents]
  refine Outcome.Sim.ofRes (Res.Sim.refl _ (R := Eq) fun _ _ => rfl) h ?_
  rintro ⟨e, es⟩ _ rfl
  have h1 : AgreeWorld K B { w with entities := es } { w' with entities := es } := ⟨rfl, h.comps⟩
  refine Outcome.Sim.bind (h1.insertSet (s := s) hs e vs) ?_
  intro _ _ w1 w1' h2
  exact ⟨_, _, rfl, rfl, h2⟩

theorem insert (h : AgreeWorld K B w w') (hs : SameReg w s) (e : Entity) (vs : List (TypeId × V)) :
    (w.insert e vs).Sim (w'.insert e (s.kept K vs)) (AgreeWorld K B) (fun b b' w w' => b' = b ∧ AgreeWorld K B w w') := by
  unfold World.insert
  rw [h.ents]
  split
  · exact ⟨_, _, rfl, rfl, h⟩
  · refine Outcome.Sim.bind (h.insertSet (s := s) hs e vs) ?_
    intro _ _ w1 w1' h2
    exact ⟨_, _, rfl, rfl, h2⟩

theorem extendEach (hk : ∀ t, (w.components.meta? t).isSome → (s.keeps K t = true ↔ t ∈ K)) {ts : List TypeId}
    (ht : ∀ t ∈ ts, (w.components.meta? t).isSome) : ∀ (items : List (List V)) {w1 w1' : World V}, AgreeWorld K B w1 w1' →
    Shape w.components w1.components → SameReg w1 s →
    (World.extendEach (ts.map w.components.idxOf) items w1).Sim
      (World.extendEach ((ts.filter (s.keeps K)).map w.components.idxOf)
        (items.map fun vs => (s.kept K (ts.zip vs)).map (·.2)) w1') (AgreeWorld K B) (fun _ _ => AgreeWorld K B)
  | [], w1, w1', h, _, _ => ⟨_, _, rfl, h⟩
  | vs :: items, w1, w1', h, hsh, hs => by
    rw [World.extendEach, List.map_cons, World.extendEach]
    rw [h.ents]
    refine Outcome.Sim.ofRes (Res.Sim.refl _ (R := Eq) fun _ _ => rfl) h ?_
    rintro ⟨e, es⟩ _ rfl
    simp only
    have e1 : (ts.map w.components.idxOf).zip vs = (ts.zip vs).map fun p => (w1.components.idxOf p.1, p.2) := by
      rw [ComponentStorage.idxOf_same hsh.md, List.zip_map_left]
      rfl
    have e2 : ((ts.filter (s.keeps K)).map w.components.idxOf).zip ((s.kept K (ts.zip vs)).map (·.2)) =
        ((ts.zip vs).filter fun p => s.keeps K p.1).map fun p => (w1.components.idxOf p.1, p.2) := by
      rw [ComponentStorage.idxOf_same hsh.md, List.zip_map_left, MapWorld.kept, zip_kept]
      rfl
    rw [e1, e2]
    have hi := AgreeOn.insertAt (e := e) (ts.zip vs) h.comps (hs.keepFor K) (fun p hp => by
      rw [hsh.meta?]
      exact ht p.1 (List.of_mem_zip hp).1)
    cases hc : w1.components.insertAt e ((ts.zip vs).map fun p => (w1.components.idxOf p.1, p.2)) with
    | ub => trivial
    | panic =>
      exact (ComponentStorage.insertAt_ne_panic _ _ hc).elim
    | ok c =>
      rw [hc] at hi
      obtain ⟨c', h1, h2⟩ := hi
      rw [h1]
      simp only [Outcome.ofRes_ok]
      have hsc := ComponentStorage.insertAt_shape _ _ _ hc
      exact extendEach hk ht items ⟨rfl, h2⟩ (hsh.trans hsc) (fun x => by
        show (c.meta? x).isSome ↔ _
        rw [hsc.meta?]
        exact hs x)

theorem extend (h : AgreeWorld K B w w') (hs : SameReg w s) (ts : List TypeId) (it : Items V) :
    (w.extend ts it).Sim
      (w'.extend (ts.filter (s.keeps K)) ⟨it.items.map fun vs => (s.kept K (ts.zip vs)).map (·.2), it.thenPanics⟩)
      (AgreeWorld K B) (fun l l' w w' => l' = l ∧ AgreeWorld K B w w') := by
  have hk := hs.keepFor K
  unfold World.extend
  refine Outcome.Sim.ofRes (h.comps.lookupAll hk h.comps.insertMask ts) h ?_
  rintro ⟨i, m⟩ ⟨i', m'⟩ ⟨h1, h2, h3, h4⟩
  simp only at h1 h2 h3
  subst h1 h2
  simp only
  rw [h.ents]
  have hE := extendEach (s := s) (fun t ht => AgreeOn.keep_iff hk ht) h4 it.items h (Shape.refl _) hs
  have hsh := extendEach_shape (idxs := ts.map w.components.idxOf) it.items w
  cases hx : World.extendEach (ts.map w.components.idxOf) it.items w with
  | ub => trivial
  | panic w1 =>
    rw [hx] at hE
    obtain ⟨w1', h5, h6⟩ := hE
    rw [h5]
    exact ⟨_, rfl, h6⟩
  | ok u w1 =>
    rw [hx] at hE hsh
    obtain ⟨_, w1', h5, h6⟩ := hE
    rw [h5]
    simp only [Outcome.bind_ok]
    rw [h6.ents]
    split
    · exact ⟨_, rfl, h6⟩
    · split
      · trivial
      · refine Outcome.Sim.ofRes (h6.comps.groupEntities (h3.of_same hsh.stat) _) h6 ?_
        intro c c' hc
        exact ⟨_, _, rfl, rfl, rfl, hc⟩

end AgreeWorld

/-! ### A step -/

theorem retOutcome_sim {α : Type} {P : World V → World V → Prop} {made : List Entity} {o o' : Outcome (World V) α}
    {f : α → Ret V} {r : Ret V} {w : World V} (h : o.Sim o' P (fun a a' s s' => a' = a ∧ P s s'))
    (hr : retOutcome made o f = some (r, w)) : ∃ w', retOutcome made o' f = some (r, w') ∧ P w w' := by
  cases o with
  | ub => cases hr
  | panic s =>
    obtain ⟨s', h1, h2⟩ := h
    subst h1
    cases hr
    exact ⟨s', rfl, h2⟩
  | ok a s =>
    obtain ⟨a', s', h1, h2, h3⟩ := h
    subst h1 h2
    cases hr
    exact ⟨s', rfl, h3⟩

/-- The effect of a call on two worlds in agreement. -/
def StepSim (K : List TypeId) (s : MapWorld V) (op : Op V) (r : Ret V) (w2 w' : World V) : Prop :=
  match s.eraseOp K op with
  | some op' => ∃ B2 w2', step w' op' = some (s.eraseRet K op r, w2') ∧ AgreeWorld K B2 w2 w2'
  | none => ∃ B2, AgreeWorld K B2 w2 w'

theorem step_agree {K : List TypeId} {B : Nat → Prop} {w w' w2 : World V} {s : MapWorld V} (h : AgreeWorld K B w w')
    (hs : SameReg w s) {op : Op V} {r : Ret V} (hst : step w op = some (r, w2)) (hu : op.lays r)
    {gl : List (List TypeId)} (hl : LayStat w2.components gl) (hk : Splits K gl) : StepSim K s op r w2 w' := by
  have hK := hs.keepFor K
  cases op with
  | register t =>
    simp only [step, Option.some.injEq, Prod.mk.injEq] at hst
    obtain ⟨rfl, rfl⟩ := hst
    obtain ⟨h1, B2, h2⟩ := h.comps.register t hl hk
    refine ⟨B2, (w'.register t).2, ?_, h.ents, h2⟩
    show some (Ret.bool (w'.register t).1, _) = some (Ret.bool (w.register t).1, _)
    have : (w'.register t).1 = (w.register t).1 := h1
    rw [this]
  | setLayout rank gs =>
    have hu : r = .unit := hu
    subst hu
    simp only [step, World.setLayout] at hst
    cases hc : w.components.setLayout rank (GroupLayout.build gs).2 w.entities.asSlice with
    | ub => rw [hc] at hst; cases hst
    | panic c => rw [hc] at hst; cases hst
    | ok u c =>
      rw [hc] at hst
      simp only [retOutcome, Option.some.injEq, Prod.mk.injEq, true_and] at hst
      subst hst
      obtain ⟨B2, c', h1, h2⟩ := h.comps.setLayout hc hl hk
      refine ⟨B2, { w' with components := c' }, ?_, h.ents, h2⟩
      simp only [step, World.setLayout, h.ents, h1]
      rfl
  | create vs =>
    simp only [step] at hst
    obtain ⟨w2', h1, h2⟩ := retOutcome_sim (P := AgreeWorld K B) (h.create hs vs) hst
    refine ⟨B, w2', ?_, h2⟩
    simp only [step, h.ents]
    exact h1
  | extend ts it =>
    simp only [step] at hst
    obtain ⟨w2', h1, h2⟩ := retOutcome_sim (P := AgreeWorld K B) (h.extend hs ts it) hst
    refine ⟨B, w2', ?_, h2⟩
    simp only [step]
    have : extendMade w' (ts.filter (s.keeps K))
        ⟨it.items.map fun vs => (s.kept K (ts.zip vs)).map (·.2), it.thenPanics⟩ = extendMade w ts it ∨
        w.components.lookupAll (·.insertMask) ts = .ub := by
      have hla := h.comps.lookupAll hK h.comps.insertMask ts
      unfold extendMade
      cases hq : w.components.lookupAll (·.insertMask) ts with
      | ub => exact .inr rfl
      | panic =>
        rw [hq] at hla
        simp only [Res.Sim] at hla
        rw [hla]
        exact .inl rfl
      | ok p =>
        rw [hq] at hla
        obtain ⟨p', h3, _⟩ := hla
        rw [h3, h.ents]
        left
        simp
    rcases this with h3 | h3
    · rw [h3]
      exact h1
    · exfalso
      unfold World.extend at hst
      rw [h3] at hst
      cases hst
  | destroy e =>
    simp only [step] at hst
    show ∃ B2 w2', step w' (.destroy e) = some (r, w2') ∧ _
    have hd : w.destroy e = .ub ∨ (w.destroy e).Sim (w'.destroy e) fun p p' => p'.1 = p.1 ∧ AgreeWorld K B p.2 p'.2 := by
      right
      unfold World.destroy
      rw [h.ents]
      refine Res.Sim.bind (Res.Sim.refl _ (R := Eq) fun _ _ => rfl) ?_
      rintro ⟨b, es⟩ _ rfl
      dsimp only
      by_cases hb : b = true
      · rw [if_pos hb, if_pos hb]
        cases hc : w.components.strip e with
        | ub => trivial
        | panic =>
          exfalso
          unfold ComponentStorage.strip ungroupAll at hc
          cases hx : ungroupAllLoop e (w.components.components, w.components.groups).2.length
              (w.components.components, w.components.groups) with
          | ub => rw [hx] at hc; cases hc
          | panic => exact ComponentStorage.ungroupAllLoop_np _ _ h.comps.bounds hx
          | ok p =>
            rw [hx] at hc
            simp only [Res.bind_ok] at hc
            exact bind_ne_panic (ComponentStorage.deleteAll_ne_panic _)
              (fun _ => ok_ne_panic _) hc
        | ok c =>
          obtain ⟨c', h1, h2⟩ := h.comps.strip hc
          rw [h1]
          exact ⟨_, rfl, rfl, rfl, h2⟩
      · rw [if_neg hb, if_neg hb]
        exact ⟨_, rfl, rfl, rfl, h.comps⟩
    rcases hd with hd | hd
    · rw [hd] at hst; cases hst
    · cases hq : w.destroy e with
      | ub => rw [hq] at hst; cases hst
      | panic =>
        rw [hq] at hst hd
        simp only [Res.Sim] at hd
        simp only [retRes, Option.some.injEq, Prod.mk.injEq] at hst
        obtain ⟨rfl, rfl⟩ := hst
        exact ⟨B, w', by simp only [step, hd]; rfl, h⟩
      | ok p =>
        rw [hq] at hst hd
        obtain ⟨p', h1, h2, h3⟩ := hd
        simp only [retRes, Option.some.injEq, Prod.mk.injEq] at hst
        obtain ⟨rfl, rfl⟩ := hst
        exact ⟨B, p'.2, by simp only [step, h1, retRes, h2], h3⟩
  | createAtomic =>
    simp only [step, World.createAtomic] at hst
    show ∃ B2 w2', step w' .createAtomic = some (r, w2') ∧ _
    simp only [step, World.createAtomic, h.ents]
    cases hq : w.entities.createAtomic with
    | ub => rw [hq] at hst; cases hst
    | panic =>
      rw [hq] at hst
      cases hst
      exact ⟨B, w', rfl, h⟩
    | ok p =>
      rw [hq] at hst
      cases hst
      exact ⟨B, _, rfl, rfl, h.comps⟩
  | maintain =>
    simp only [step, World.maintain] at hst
    show ∃ B2 w2', step w' .maintain = some (r, w2') ∧ _
    simp only [step, World.maintain, h.ents]
    cases hq : w.entities.maintain with
    | ub => rw [hq] at hst; cases hst
    | panic =>
      rw [hq] at hst
      cases hst
      exact ⟨B, w', rfl, h⟩
    | ok p =>
      rw [hq] at hst
      cases hst
      exact ⟨B, _, rfl, rfl, h.comps⟩
  | insert e vs =>
    simp only [step] at hst
    obtain ⟨w2', h1, h2⟩ := retOutcome_sim (P := AgreeWorld K B) (h.insert hs e vs) hst
    exact ⟨B, w2', h1, h2⟩
  | remove e ts =>
    simp only [step, World.remove] at hst
    have hd := h.comps.remove hK e ts
    show ∃ B2 w2', step w' (.remove e (ts.filter (s.keeps K))) = some (s.eraseRet K (.remove e ts) r, w2') ∧ _
    simp only [step, World.remove]
    cases hq : w.components.remove e ts with
    | ub => rw [hq] at hst; cases hst
    | panic =>
      rw [hq] at hst hd
      simp only [Res.Sim] at hd
      cases hst
      rw [hd]
      exact ⟨B, w', rfl, h⟩
    | ok p =>
      obtain ⟨vs, c⟩ := p
      rw [hq] at hst hd
      obtain ⟨p', h1, h2, h3, h4⟩ := hd
      cases hst
      rw [h1]
      refine ⟨B, { w' with components := p'.2 }, ?_, h.ents, h2⟩
      show some (Ret.values p'.1, _) = some (Ret.values _, _)
      rw [h4]
      rfl
  | delete e ts =>
    simp only [step, World.delete] at hst
    have hd := h.comps.delete hK e ts
    show ∃ B2 w2', step w' (.delete e (ts.filter (s.keeps K))) = some (r, w2') ∧ _
    simp only [step, World.delete]
    cases hq : w.components.delete e ts with
    | ub => rw [hq] at hst; cases hst
    | panic =>
      rw [hq] at hst hd
      simp only [Res.Sim] at hd
      cases hst
      rw [hd]
      exact ⟨B, w', rfl, h⟩
    | ok c =>
      rw [hq] at hst hd
      obtain ⟨c', h1, h2⟩ := hd
      cases hst
      rw [h1]
      exact ⟨B, _, rfl, h.ents, h2⟩
  | clear =>
    simp only [step, World.clear] at hst
    show ∃ B2 w2', step w' .clear = some (r, w2') ∧ _
    simp only [step, World.clear, h.ents]
    cases hq : w.entities.clear with
    | ub => rw [hq] at hst; cases hst
    | panic =>
      rw [hq] at hst
      cases hst
      exact ⟨B, w', rfl, h⟩
    | ok p =>
      rw [hq] at hst
      cases hst
      exact ⟨B, _, rfl, rfl, h.comps.clear⟩
  | reset =>
    simp only [step, Option.some.injEq, Prod.mk.injEq] at hst
    obtain ⟨rfl, rfl⟩ := hst
    refine ⟨B, w'.reset, rfl, ?_, h.comps.clear⟩
    show w'.entities.reset = w.entities.reset
    rw [h.ents]
  | write t e v =>
    simp only [step, World.writeView] at hst
    unfold StepSim
    simp only [MapWorld.eraseOp]
    cases ht : w.components.meta? t with
    | none =>
      rw [ht] at hst
      cases hst
      rw [if_pos ((hK t).2 (.inr ht))]
      refine ⟨B, w', ?_, h⟩
      simp only [step, World.writeView, h.comps.meta?, ht]
      rfl
    | some m =>
      rw [ht] at hst
      simp only at hst
      by_cases hKt : t ∈ K
      · rw [if_pos ((hK t).2 (.inl hKt))]
        simp only [step, World.writeView, h.comps.meta?, ht, h.comps.set_eq ht hKt]
        cases hc : w.components.components[m.storageIndex]? with
        | none => rw [hc] at hst; cases hst
        | some x =>
          rw [hc] at hst
          simp only [Res.unchecked_some, Res.bind_ok] at hst ⊢
          cases hx : x.setMut e v with
          | ub => rw [hx] at hst; cases hst
          | panic =>
            rw [hx] at hst
            cases hst
            exact ⟨B, w', rfl, h⟩
          | ok p =>
            rw [hx] at hst
            cases hst
            exact ⟨B, _, rfl, h.ents, h.comps.setBoth ht hKt p.2⟩
      · have hkt : ¬ s.keeps K t = true := fun hc => hKt ((AgreeOn.keep_iff hK (by rw [ht]; rfl)).1 hc)
        rw [if_neg hkt]
        cases hc : w.components.components[m.storageIndex]? with
        | none => rw [hc] at hst; cases hst
        | some x =>
          rw [hc] at hst
          simp only [Res.unchecked_some, Res.bind_ok] at hst
          cases hx : x.setMut e v with
          | ub => rw [hx] at hst; cases hst
          | panic =>
            rw [hx] at hst
            cases hst
            exact ⟨B, h⟩
          | ok p =>
            rw [hx] at hst
            cases hst
            exact ⟨B, h.ents, h.comps.setLeft ht hKt p.2⟩
  | writeAt t pos v =>
    simp only [step, World.writeAt] at hst
    unfold StepSim
    simp only [MapWorld.eraseOp]
    cases ht : w.components.meta? t with
    | none =>
      rw [ht] at hst
      cases hst
      rw [if_pos ((hK t).2 (.inr ht))]
      refine ⟨B, w', ?_, h⟩
      simp only [step, World.writeAt, h.comps.meta?, ht]
      rfl
    | some m =>
      rw [ht] at hst
      simp only at hst
      by_cases hKt : t ∈ K
      · rw [if_pos ((hK t).2 (.inl hKt))]
        simp only [step, World.writeAt, h.comps.meta?, ht, h.comps.set_eq ht hKt]
        cases hc : w.components.components[m.storageIndex]? with
        | none => rw [hc] at hst; cases hst
        | some x =>
          rw [hc] at hst
          simp only [Res.unchecked_some, Res.bind_ok] at hst ⊢
          cases hx : x.setAt pos v with
          | ub => rw [hx] at hst; cases hst
          | panic =>
            rw [hx] at hst
            cases hst
            exact ⟨B, w', rfl, h⟩
          | ok p =>
            rw [hx] at hst
            cases hst
            exact ⟨B, _, rfl, h.ents, h.comps.setBoth ht hKt p⟩
      · have hkt : ¬ s.keeps K t = true := fun hc => hKt ((AgreeOn.keep_iff hK (by rw [ht]; rfl)).1 hc)
        rw [if_neg hkt]
        cases hc : w.components.components[m.storageIndex]? with
        | none => rw [hc] at hst; cases hst
        | some x =>
          rw [hc] at hst
          simp only [Res.unchecked_some, Res.bind_ok] at hst
          cases hx : x.setAt pos v with
          | ub => rw [hx] at hst; cases hst
          | panic =>
            rw [hx] at hst
            cases hst
            exact ⟨B, h⟩
          | ok p =>
            rw [hx] at hst
            cases hst
            exact ⟨B, h.ents, h.comps.setLeft ht hKt p⟩

end Sparsey
