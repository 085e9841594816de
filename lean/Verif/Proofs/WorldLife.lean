import Verif.Proofs.Life

/-!
Every call on a world acts on the entity storage as its events say.
-/

set_option autoImplicit false
set_option linter.unusedSimpArgs false

namespace Sparsey
variable {V : Type}

theorem CompSet.insert_ne_panic (s : CompSet V) (e : Entity) (v : V) : s.insert e v ≠ .panic := by
  unfold CompSet.insert
  simp only []
  cases h1 : (s.sparse.allocateAt e.sparse).slots[e.sparse]? with
  | none => simp
  | some o =>
    cases o with
    | none =>
      simp only [Res.unchecked_some, Res.bind_ok]
      unfold SparseVec.setUnchecked
      split <;> simp
    | some sl =>
      simp only [Res.unchecked_some, Res.bind_ok]
      cases s.entities[sl.index]? <;> cases s.components[sl.index]? <;> simp

theorem ComponentStorage.insertAt_ne_panic (e : Entity) : ∀ (l : List (Nat × V)) (c : ComponentStorage V),
    ComponentStorage.insertAt e l c ≠ .panic := by
  intro l
  induction l with
  | nil => intro c; simp [ComponentStorage.insertAt]
  | cons p l ih =>
    intro c
    obtain ⟨i, v⟩ := p
    unfold ComponentStorage.insertAt
    cases c.components[i]? with
    | none => simp
    | some s =>
      simp only [Res.unchecked_some, Res.bind_ok]
      cases hs : s.insert e v with
      | ok x => simp only [Res.bind_ok]; exact ih _
      | panic => exact absurd hs (CompSet.insert_ne_panic s e v)
      | ub => simp

theorem Life.run_nil (l : Life) : l.run [] = l := rfl

theorem Life.run_cons (l : Life) (e : Ev) (es : List Ev) : l.run (e :: es) = (l.step e).run es := rfl

theorem Life.run_append (l : Life) (a b : List Ev) : l.run (a ++ b) = (l.run a).run b := by
  simp [Life.run, List.foldl_append]

/-- Repeated creation. -/
theorem LifeInv.createUpTo_one {s : EntityStorage} {l : Life} (h : LifeInv s l) :
    (l.exhausted ∧ s.createUpTo 1 = [] ∧ s.create = .panic) ∨
    (¬ l.exhausted ∧ s.createUpTo 1 = [l.nextEntity] ∧ ∃ s', s.create = .ok (l.nextEntity, s') ∧
      LifeInv s' (l.step (.made l.nextEntity)) ∧
      s'.entities.entities = s.entities.entities ++ [l.nextEntity]) := by
  by_cases hx : l.exhausted
  · left
    have := (h.create_exhausted hx).1
    exact ⟨hx, by simp [EntityStorage.createUpTo, this], this⟩
  · right
    obtain ⟨s', h1, h2, h3⟩ := h.create hx
    exact ⟨hx, by simp [EntityStorage.createUpTo, h1], s', h1, h2, h3⟩

theorem World.insertSet_entities {w w' : World V} {e : Entity} {vs : List (TypeId × V)} :
    (∀ u, w.insertSet e vs = .ok u w' → w'.entities = w.entities) ∧
    (w.insertSet e vs = .panic w' → w'.entities = w.entities) := by
  unfold World.insertSet
  constructor
  · intro u h
    split at h
    · injection h with _ h; rw [← h]
    · cases h
    · cases h
  · intro h
    split at h
    · cases h
    · injection h with h; rw [← h]
    · cases h

/-- What `create` does to the entities. -/
theorem World.create_entities {w w' : World V} {l : Life} {vs : List (TypeId × V)}
    (h : LifeInv w.entities l) :
    (∀ e, w.create vs = .ok e w' → ¬ l.exhausted ∧ e = l.nextEntity ∧
      LifeInv w'.entities (l.step (.made l.nextEntity)) ∧
      w'.entities.entities.entities = w.entities.entities.entities ++ [l.nextEntity]) ∧
    (w.create vs = .panic w' → LifeInv w'.entities (l.run ((w.entities.createUpTo 1).map .made))) := by
  unfold World.create
  rcases h.createUpTo_one with ⟨hx, h0, h1⟩ | ⟨hx, h0, s', h1, h2, h3⟩
  · rw [h1, h0]
    simp only [Outcome.ofRes_panic]
    refine ⟨fun e he => (by cases he), fun he => ?_⟩
    injection he with he
    rw [← he]
    exact h
  · rw [h1, h0]
    simp only [Outcome.ofRes_ok]
    constructor
    · intro e he
      cases hi : World.insertSet { entities := s', components := w.components } l.nextEntity vs with
      | ok u w1 =>
        rw [hi] at he
        simp only [Outcome.bind_ok] at he
        injection he with he1 he2
        have := World.insertSet_entities.1 u hi
        rw [← he2, this]
        exact ⟨hx, he1.symm, h2, h3⟩
      | panic w1 => rw [hi] at he; cases he
      | ub => rw [hi] at he; cases he
    · intro he
      cases hi : World.insertSet { entities := s', components := w.components } l.nextEntity vs with
      | ok u w1 => rw [hi] at he; cases he
      | panic w1 =>
        rw [hi] at he
        simp only [Outcome.bind_panic] at he
        injection he with he2
        have := World.insertSet_entities.2 hi
        rw [← he2, this]
        exact h2
      | ub => rw [hi] at he; cases he

/-- What the loop of `extend` does to the entities. -/
theorem World.extendEach_entities (idxs : List Nat) : ∀ (items : List (List V)) (w w' : World V) (l : Life),
    LifeInv w.entities l →
    (∀ u, World.extendEach idxs items w = .ok u w' →
      LifeInv w'.entities (l.run ((w.entities.createUpTo items.length).map .made)) ∧
      w'.entities.entities.entities =
        w.entities.entities.entities ++ w.entities.createUpTo items.length ∧
      (w.entities.createUpTo items.length).length = items.length) ∧
    (World.extendEach idxs items w = .panic w' →
      LifeInv w'.entities (l.run ((w.entities.createUpTo items.length).map .made))) := by
  intro items
  induction items with
  | nil =>
    intro w w' l h
    simp only [World.extendEach]
    refine ⟨fun u he => ?_, fun he => (by cases he)⟩
    injection he with _ he
    rw [← he]
    exact ⟨h, by simp [EntityStorage.createUpTo], rfl⟩
  | cons vs items ih =>
    intro w w' l h
    unfold World.extendEach
    rcases h.createUpTo_one with ⟨hx, h0, h1⟩ | ⟨hx, h0, s', h1, h2, h3⟩
    · rw [h1]
      simp only [Outcome.ofRes_panic, List.length_cons, EntityStorage.createUpTo, h1]
      refine ⟨fun u he => (by cases he), fun he => ?_⟩
      injection he with he
      rw [← he]
      exact h
    · rw [h1]
      simp only [Outcome.ofRes_ok, List.length_cons, EntityStorage.createUpTo, h1, List.map_cons,
        Life.run_cons]
      cases hi : ComponentStorage.insertAt l.nextEntity (idxs.zip vs) w.components with
      | ok c =>
        simp only [Outcome.ofRes_ok]
        obtain ⟨ih1, ih2⟩ := ih { entities := s', components := c } w' _ h2
        refine ⟨fun u he => ?_, fun he => ?_⟩
        · obtain ⟨h4, h5, h6⟩ := ih1 u he
          refine ⟨h4, ?_, by simpa using h6⟩
          rw [h5, h3]
          simp
        · exact ih2 he
      | panic => exact absurd hi (ComponentStorage.insertAt_ne_panic _ _ _)
      | ub =>
        simp only [Outcome.ofRes_ub]
        exact ⟨fun u he => (by cases he), fun he => (by cases he)⟩

theorem World.extend_entities {w w' : World V} {l : Life} {ts : List TypeId} {it : Items V}
    (h : LifeInv w.entities l) :
    (∀ es, w.extend ts it = .ok es w' → es = w.entities.createUpTo it.items.length ∧
      es.length = it.items.length ∧
      LifeInv w'.entities (l.run (es.map .made))) ∧
    (w.extend ts it = .panic w' → LifeInv w'.entities (l.run ((extendMade w ts it).map .made))) := by
  unfold World.extend extendMade
  cases hl : w.components.lookupAll (·.insertMask) ts with
  | panic =>
    simp only [Outcome.ofRes_panic]
    refine ⟨fun es he => (by cases he), fun he => ?_⟩
    injection he with he
    rw [← he]
    exact h
  | ub =>
    simp only [Outcome.ofRes_ub]
    exact ⟨fun es he => (by cases he), fun he => (by cases he)⟩
  | ok p =>
    obtain ⟨idxs, mask⟩ := p
    simp only [Outcome.ofRes_ok]
    cases hx : World.extendEach idxs it.items w with
    | ub =>
      simp only [Outcome.bind_ub]
      exact ⟨fun es he => (by cases he), fun he => (by cases he)⟩
    | panic w1 =>
      simp only [Outcome.bind_panic]
      refine ⟨fun es he => (by cases he), fun he => ?_⟩
      injection he with he
      rw [← he]
      exact (World.extendEach_entities idxs it.items w w1 l h).2 hx
    | ok u w1 =>
      simp only [Outcome.bind_ok]
      obtain ⟨h1, h2, h3⟩ := (World.extendEach_entities idxs it.items w w1 l h).1 u hx
      have hdrop : w1.entities.asSlice.drop w.entities.len = w.entities.createUpTo it.items.length := by
        simp [EntityStorage.asSlice, EntityStorage.len, h2]
      split
      · refine ⟨fun es he => (by cases he), fun he => ?_⟩
        injection he with he
        rw [← he]
        exact h1
      · split
        · exact ⟨fun es he => (by cases he), fun he => (by cases he)⟩
        · cases hg : w1.components.withMask mask (ComponentStorage.groupEntities mask
            (w1.entities.asSlice.drop w.entities.len)) with
          | ok c =>
            simp only [Outcome.ofRes_ok]
            refine ⟨fun es he => ?_, fun he => (by cases he)⟩
            injection he with he1 he2
            rw [hdrop] at he1
            rw [← he2, ← he1]
            exact ⟨rfl, h3, h1⟩
          | panic =>
            simp only [Outcome.ofRes_panic]
            refine ⟨fun es he => (by cases he), fun he => ?_⟩
            injection he with he
            rw [← he]
            exact h1
          | ub =>
            simp only [Outcome.ofRes_ub]
            exact ⟨fun es he => (by cases he), fun he => (by cases he)⟩

theorem World.insert_entities {w w' : World V} {e : Entity} {vs : List (TypeId × V)} :
    (∀ b, w.insert e vs = .ok b w' → w'.entities = w.entities) ∧
    (w.insert e vs = .panic w' → w'.entities = w.entities) := by
  unfold World.insert
  split
  · refine ⟨fun b he => ?_, fun he => (by cases he)⟩
    injection he with _ he
    rw [he]
  · cases hi : w.insertSet e vs with
    | ok u w1 =>
      simp only [Outcome.bind_ok]
      refine ⟨fun b he => ?_, fun he => (by cases he)⟩
      injection he with _ he
      rw [← he]
      exact World.insertSet_entities.1 u hi
    | panic w1 =>
      simp only [Outcome.bind_panic]
      refine ⟨fun es he => (by cases he), fun he => ?_⟩
      injection he with he
      rw [← he]
      exact World.insertSet_entities.2 hi
    | ub => exact ⟨fun es he => (by cases he), fun he => (by cases he)⟩

/-- A call keeps the invariant; `maintain` needs the discipline. -/
theorem step_life {w w' : World V} {l : Life} {op : Op V} {r : Ret V} (h : LifeInv w.entities l)
    (hs : step w op = some (r, w')) (hk : op = .maintain → l.freshKilled = false) :
    LifeInv w'.entities (l.run (events op r)) := by
  cases op with
  | register t =>
    simp only [step, Option.some.injEq, Prod.mk.injEq] at hs
    obtain ⟨rfl, rfl⟩ := hs
    exact h
  | setLayout rank gs =>
    simp only [step, retOutcome, World.setLayout] at hs
    split at hs
    · rename_i h1
      split at h1
      · injection h1 with _ h1
        simp only [Option.some.injEq, Prod.mk.injEq] at hs
        obtain ⟨rfl, rfl⟩ := hs
        rw [← h1]; exact h
      · cases h1
      · cases h1
    · rename_i h1
      split at h1
      · cases h1
      · injection h1 with h1
        simp only [Option.some.injEq, Prod.mk.injEq] at hs
        obtain ⟨rfl, rfl⟩ := hs
        rw [← h1]; exact h
      · cases h1
    · cases hs
  | create vs =>
    simp only [step, retOutcome] at hs
    split at hs
    · rename_i e w1 h1
      simp only [Option.some.injEq, Prod.mk.injEq] at hs
      obtain ⟨rfl, rfl⟩ := hs
      obtain ⟨_, he, h2, _⟩ := (World.create_entities h).1 e h1
      subst he
      exact h2
    · rename_i w1 h1
      simp only [Option.some.injEq, Prod.mk.injEq] at hs
      obtain ⟨rfl, rfl⟩ := hs
      exact (World.create_entities h).2 h1
    · cases hs
  | extend ts it =>
    simp only [step, retOutcome] at hs
    split at hs
    · rename_i es w1 h1
      simp only [Option.some.injEq, Prod.mk.injEq] at hs
      obtain ⟨rfl, rfl⟩ := hs
      exact ((World.extend_entities h).1 es h1).2.2
    · rename_i w1 h1
      simp only [Option.some.injEq, Prod.mk.injEq] at hs
      obtain ⟨rfl, rfl⟩ := hs
      exact (World.extend_entities h).2 h1
    · cases hs
  | destroy e =>
    simp only [step, retRes] at hs
    split at hs
    · rename_i p h1
      obtain ⟨b, w1⟩ := p
      simp only [Option.some.injEq, Prod.mk.injEq] at hs
      obtain ⟨rfl, rfl⟩ := hs
      unfold World.destroy at h1
      by_cases he : e ∈ l.alive
      · obtain ⟨s', h2, h3, _⟩ := h.remove_present he
        rw [h2] at h1
        simp only [Res.bind_ok, if_true] at h1
        rw [Res.bind_eq_ok] at h1
        obtain ⟨c, _, h1⟩ := h1
        simp only [Res.pure_eq, Res.ok.injEq, Prod.mk.injEq] at h1
        obtain ⟨rfl, rfl⟩ := h1
        exact h3
      · rw [h.remove_absent he] at h1
        simp only [Res.bind_ok, Bool.false_eq_true, if_false, Res.pure_eq, Res.ok.injEq, Prod.mk.injEq] at h1
        obtain ⟨rfl, rfl⟩ := h1
        exact h
    · simp only [Option.some.injEq, Prod.mk.injEq] at hs
      obtain ⟨rfl, rfl⟩ := hs
      exact h
    · cases hs
  | createAtomic =>
    simp only [step, retRes] at hs
    by_cases hx : l.exhausted
    · simp only [World.createAtomic, (h.create_exhausted hx).2, Res.bind_panic, Option.some.injEq,
        Prod.mk.injEq] at hs
      obtain ⟨rfl, rfl⟩ := hs
      exact h
    · obtain ⟨s', h1, h2, _⟩ := h.createAtomic hx
      simp only [World.createAtomic, h1, Res.bind_ok, Res.pure_eq, Option.some.injEq, Prod.mk.injEq] at hs
      obtain ⟨rfl, rfl⟩ := hs
      exact h2
  | maintain =>
    obtain ⟨s', h1, h2⟩ := h.maintain (hk rfl)
    simp only [step, retRes, World.maintain, h1, Res.bind_ok, Res.pure_eq, Option.some.injEq,
      Prod.mk.injEq] at hs
    obtain ⟨rfl, rfl⟩ := hs
    exact h2
  | insert e vs =>
    simp only [step, retOutcome] at hs
    split at hs
    · rename_i b w1 h1
      simp only [Option.some.injEq, Prod.mk.injEq] at hs
      obtain ⟨rfl, rfl⟩ := hs
      rw [World.insert_entities.1 b h1]; exact h
    · rename_i w1 h1
      simp only [Option.some.injEq, Prod.mk.injEq] at hs
      obtain ⟨rfl, rfl⟩ := hs
      rw [World.insert_entities.2 h1]; exact h
    · cases hs
  | remove e ts =>
    simp only [step, retRes] at hs
    split at hs
    · rename_i p h1
      obtain ⟨b, w1⟩ := p
      simp only [Option.some.injEq, Prod.mk.injEq] at hs
      obtain ⟨rfl, rfl⟩ := hs
      unfold World.remove at h1
      rw [Res.bind_eq_ok] at h1
      obtain ⟨⟨vs, c⟩, _, h1⟩ := h1
      simp only [Res.pure_eq, Res.ok.injEq, Prod.mk.injEq] at h1
      obtain ⟨rfl, rfl⟩ := h1
      exact h
    · simp only [Option.some.injEq, Prod.mk.injEq] at hs
      obtain ⟨rfl, rfl⟩ := hs
      exact h
    · cases hs
  | delete e ts =>
    simp only [step, retRes] at hs
    split at hs
    · rename_i w1 h1
      simp only [Option.some.injEq, Prod.mk.injEq] at hs
      obtain ⟨rfl, rfl⟩ := hs
      unfold World.delete at h1
      rw [Res.bind_eq_ok] at h1
      obtain ⟨c, _, h1⟩ := h1
      simp only [Res.pure_eq, Res.ok.injEq] at h1
      subst h1
      exact h
    · simp only [Option.some.injEq, Prod.mk.injEq] at hs
      obtain ⟨rfl, rfl⟩ := hs
      exact h
    · cases hs
  | clear =>
    obtain ⟨s', h1, h2, _⟩ := h.clear
    simp only [step, retRes, World.clear, h1, Res.bind_ok, Res.pure_eq, Option.some.injEq,
      Prod.mk.injEq] at hs
    obtain ⟨rfl, rfl⟩ := hs
    exact h2
  | reset =>
    simp only [step, Option.some.injEq, Prod.mk.injEq] at hs
    obtain ⟨rfl, rfl⟩ := hs
    exact LifeInv.reset _
  | writeAt t pos v =>
    simp only [step, retRes] at hs
    split at hs
    · rename_i w1 h1
      simp only [Option.some.injEq, Prod.mk.injEq] at hs
      obtain ⟨rfl, rfl⟩ := hs
      unfold World.writeAt at h1
      split at h1
      · cases h1
      · rw [Res.bind_eq_ok] at h1
        obtain ⟨s1, _, h1⟩ := h1
        rw [Res.bind_eq_ok] at h1
        obtain ⟨s2, _, h1⟩ := h1
        simp only [Res.pure_eq, Res.ok.injEq] at h1
        rw [← h1]
        exact h
    · simp only [Option.some.injEq, Prod.mk.injEq] at hs
      obtain ⟨rfl, rfl⟩ := hs
      exact h
    · cases hs
  | write t e v =>
    simp only [step, retRes] at hs
    split at hs
    · rename_i p h1
      obtain ⟨b, w1⟩ := p
      simp only [Option.some.injEq, Prod.mk.injEq] at hs
      obtain ⟨rfl, rfl⟩ := hs
      unfold World.writeView at h1
      split at h1
      · cases h1
      · rw [Res.bind_eq_ok] at h1
        obtain ⟨s1, _, h1⟩ := h1
        rw [Res.bind_eq_ok] at h1
        obtain ⟨⟨b', s2⟩, _, h1⟩ := h1
        simp only [Res.pure_eq, Res.ok.injEq, Prod.mk.injEq] at h1
        obtain ⟨rfl, rfl⟩ := h1
        exact h
    · simp only [Option.some.injEq, Prod.mk.injEq] at hs
      obtain ⟨rfl, rfl⟩ := hs
      exact h
    · cases hs

theorem historyEvents_append (a b : History V) :
    historyEvents (a ++ b) = historyEvents a ++ historyEvents b := by
  induction a with
  | nil => rfl
  | cons x a ih => obtain ⟨op, r⟩ := x; simp [historyEvents, ih]

theorem life_snoc (h : History V) (op : Op V) (r : Ret V) :
    life (h ++ [(op, r)]) = (life h).run (events op r) := by
  simp [life, historyEvents_append, Life.run_append, historyEvents]

/-- Only `reset` can restore the discipline. -/
theorem Life.disciplined_step {l : Life} {ev : Ev} (h : (l.step ev).disciplined = true) (hr : ev ≠ .reset) :
    l.disciplined = true ∧ (ev = .maintained → l.freshKilled = false) := by
  cases ev with
  | reset => exact absurd rfl hr
  | maintained =>
    simp only [Life.step, Bool.and_eq_true, Bool.not_eq_true'] at h
    exact ⟨h.1, fun _ => h.2⟩
  | made e =>
    simp only [Life.step] at h
    refine ⟨?_, fun hc => by cases hc⟩
    unfold Life.take at h
    split at h <;> exact h
  | queued e =>
    simp only [Life.step] at h
    refine ⟨?_, fun hc => by cases hc⟩
    unfold Life.take at h
    split at h <;> exact h
  | killed e => exact ⟨h, fun hc => by cases hc⟩
  | cleared => exact ⟨h, fun hc => by cases hc⟩

theorem Life.disciplined_run {evs : List Ev} : ∀ {l : Life}, (l.run evs).disciplined = true →
    (∀ ev ∈ evs, ev ≠ .reset) → l.disciplined = true := by
  induction evs with
  | nil => intro l h _; exact h
  | cons ev evs ih =>
    intro l h hr
    rw [Life.run_cons] at h
    exact (Life.disciplined_step (ih h (fun e he => hr e (by simp [he]))) (hr ev (by simp))).1

theorem events_no_reset {op : Op V} {r : Ret V} (h : op ≠ .reset) : ∀ ev ∈ events op r, ev ≠ .reset := by
  intro ev hev hc
  subst hc
  cases op <;> cases r <;> simp [events] at hev <;> try exact h rfl
  rename_i b
  cases b <;> simp at hev

/-- The entity storage of every world reached by a disciplined history agrees with the life spans. -/
theorem reach_life {h : History V} {w : World V} (hr : Reach World.empty h w) (hd : Disciplined h) :
    LifeInv w.entities (life h) := by
  induction hr with
  | nil => exact LifeInv.init
  | @snoc h w1 w2 op r hr hs ih =>
    unfold Disciplined at hd
    rw [life_snoc] at hd ⊢
    by_cases hop : op = .reset
    · subst hop
      simp only [step, Option.some.injEq, Prod.mk.injEq] at hs
      obtain ⟨rfl, rfl⟩ := hs
      exact LifeInv.reset _
    · have hd' := Life.disciplined_run hd (events_no_reset hop)
      by_cases hm : op = .maintain
      · subst hm
        cases r with
        | unit =>
          refine step_life (ih hd') hs (fun _ => ?_)
          exact (Life.disciplined_step (l := life h) (ev := .maintained) hd (by simp)).2 rfl
        | _ =>
          simp only [step, retRes] at hs
          split at hs
          · simp at hs
          · simp only [Option.some.injEq, Prod.mk.injEq] at hs
            obtain ⟨_, rfl⟩ := hs
            exact ih hd'
          · cases hs
      · exact step_life (ih hd') hs (fun hc => absurd hc hm)

end Sparsey
