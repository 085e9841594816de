import Verif.Proofs.Reach

/-!
Properties of entity handles and life spans (C01, C02, C03, C05, C07, C10, C11, C35).

`Reach World.empty h w` says that `h` is a history of calls with their answers that leads from an empty world to
`w`; `life h` is the specification of life spans computed from the calls and answers alone (`Verif/Spec/Life.lean`).

C01, C02, C03, C05 and C07 are false of the code in general: `maintain` revives entities that were made and
destroyed since the previous `maintain`. The `_false` theorems give concrete histories, the `_partial` theorems hold
for all histories that keep to the discipline `Disciplined` (never call `maintain` in that situation).
-/

set_option autoImplicit false

namespace Sparsey
variable {V : Type}

/-! ### Witness histories -/

/-- make, destroy, `maintain` (revives `0v1`), destroy again, make twice (both times `0v2`) -/
def reviveOps : List (Op Nat) :=
  [.create [], .destroy ⟨0, 1⟩, .maintain, .destroy ⟨0, 1⟩, .create [], .create []]

/-- The answers of the model to `reviveOps`. -/
def reviveRets : List (Ret Nat) :=
  [.entity ⟨0, 1⟩, .bool true, .unit, .bool true, .entity ⟨0, 2⟩, .entity ⟨0, 2⟩]

/-- A history that mixes all entity operations and keeps to the discipline. -/
def calmOps : List (Op Nat) :=
  [.register 7, .create [(7, 10)], .createAtomic, .extend [7] ⟨[[11], [12]], false⟩, .maintain, .destroy ⟨0, 1⟩,
    .destroy ⟨2, 1⟩, .createAtomic, .create [], .create [], .maintain, .destroy ⟨0, 2⟩, .createAtomic]

/-- The answers of the model to `calmOps`. -/
def calmRets : List (Ret Nat) :=
  [.bool true, .entity ⟨0, 1⟩, .entity ⟨1, 1⟩, .entities [⟨2, 1⟩, ⟨3, 1⟩], .unit, .bool true, .bool true,
    .entity ⟨0, 2⟩, .entity ⟨2, 2⟩, .entity ⟨4, 1⟩, .unit, .bool true, .entity ⟨0, 3⟩]

theorem calm_reach : ∃ w, Reach World.empty (calmOps.zip calmRets) w :=
  let ⟨w, _, h⟩ := reach_answers (ops := calmOps) (rs := calmRets) (by decide)
  ⟨w, h⟩

/-! ### C01 -/

/-- C01 is false in general. -/
theorem C01_false : ∃ (h : History Nat) (w : World Nat), Reach World.empty h w ∧ ¬ (life h).issued.Nodup := by
  obtain ⟨w, _, h⟩ := reach_answers (ops := reviveOps) (rs := reviveRets) (by decide)
  exact ⟨_, w, h, by decide⟩

/-- C01: the entities handed out since the last reset are pairwise different. Missing: undisciplined histories. -/
theorem C01_partial {h : History V} {w : World V} (hr : Reach World.empty h w) (hd : Disciplined h) :
    (life h).issued.Nodup :=
  (reach_life hr hd).issuedNodup

example : Disciplined (calmOps.zip calmRets) ∧
    (life (calmOps.zip calmRets)).issued =
      [⟨0, 3⟩, ⟨4, 1⟩, ⟨2, 2⟩, ⟨0, 2⟩, ⟨3, 1⟩, ⟨2, 1⟩, ⟨1, 1⟩, ⟨0, 1⟩] := by decide

/-! ### C02 -/

/-- C02 is false in general. -/
theorem C02_false : ∃ (h : History Nat) (w : World Nat) (e : Entity), Reach World.empty h w ∧
    w.containsEntity e = true ∧ e ∉ (life h).alive := by
  obtain ⟨w, hw, h⟩ := reach_answers (ops := reviveOps.take 3) (rs := reviveRets.take 3) (by decide)
  refine ⟨_, w, ⟨0, 1⟩, h, ?_, by decide⟩
  have : (run World.empty (reviveOps.take 3)).map (fun p => p.2.containsEntity ⟨0, 1⟩) = some true := by decide
  rw [hw] at this
  simpa using this

/-- C02: `contains_entity` is exactly the life span. Missing: undisciplined histories. -/
theorem C02_partial {h : History V} {w : World V} (hr : Reach World.empty h w) (hd : Disciplined h) (e : Entity) :
    w.containsEntity e = true ↔ e ∈ (life h).alive :=
  (reach_life hr hd).contains_iff e

example : (life (calmOps.zip calmRets)).alive = [⟨4, 1⟩, ⟨2, 2⟩, ⟨1, 1⟩, ⟨3, 1⟩] := by decide

/-! ### C03 -/

/-- make, destroy, make (`0v2`), `maintain`: the slot still says `0v2`, the dense list says `0v1` -/
theorem C03_false : ∃ (h : History Nat) (w : World Nat) (e : Entity), Reach World.empty h w ∧
    w.containsEntity e = true ∧ e ∉ w.entitiesSlice := by
  obtain ⟨w, hw, h⟩ := reach_answers (ops := [.create [], .destroy ⟨0, 1⟩, .create [], .maintain])
    (rs := ([.entity ⟨0, 1⟩, .bool true, .entity ⟨0, 2⟩, .unit] : List (Ret Nat))) (by decide)
  refine ⟨_, w, ⟨0, 2⟩, h, ?_⟩
  have : (run (World.empty : World Nat) [.create [], .destroy ⟨0, 1⟩, .create [], .maintain]).map
      (fun p => decide (p.2.containsEntity ⟨0, 2⟩ = true ∧ (⟨0, 2⟩ : Entity) ∉ p.2.entitiesSlice)) = some true := by
    decide
  rw [hw] at this
  simpa using this

/-- C03: `entities()` lists the living entities, once each. Missing: undisciplined histories. -/
theorem C03_partial {h : History V} {w : World V} (hr : Reach World.empty h w) (hd : Disciplined h) :
    w.entitiesSlice.Nodup ∧ (∀ e, e ∈ w.entitiesSlice ↔ w.containsEntity e = true) ∧
    (∀ e, e ∈ w.entitiesSlice ↔ e ∈ (life h).alive) ∧
    (w.isEmpty = true ↔ w.entitiesSlice = []) := by
  have hl := reach_life hr hd
  refine ⟨Rep.nodup hl.wf, fun e => (hl.wf.contains_iff e).symm, hl.alive, ?_⟩
  simp [World.isEmpty, EntityStorage.isEmpty, World.entitiesSlice, EntityStorage.asSlice]

/-! ### C04 -/

/-- `C04_alive_partial` (Verif/Properties/Panics.lean) for calls that do not panic. -/
theorem destroy_alive {h : History V} {w w' : World V} {e : Entity} {r : Ret V} (hr : Reach World.empty h w)
    (hd : Disciplined h) (hs : step w (.destroy e) = some (r, w')) (hp : r ≠ .panicked []) :
    r = .bool (decide (e ∈ (life h).alive)) ∧ r = .bool (w.containsEntity e) ∧
    ∀ x, w'.containsEntity x = true ↔ x ≠ e ∧ w.containsEntity x = true := by
  have hl := reach_life hr hd
  have hc := hl.contains_iff e
  by_cases he : e ∈ (life h).alive
  · obtain ⟨s', h1, h2, h3⟩ := hl.remove_present he
    rw [show step w (.destroy e) = retRes w (w.destroy e) fun (b, w) => (.bool b, w) from rfl] at hs
    unfold World.destroy at hs
    simp only [h1, Res.bind_ok, if_true] at hs
    cases hc' : w.components.strip e with
    | panic =>
      rw [hc'] at hs
      cases hs
      exact absurd rfl hp
    | ub => rw [hc'] at hs; cases hs
    | ok c =>
      rw [hc'] at hs
      cases hs
      refine ⟨by simp [he], ?_, fun x => ?_⟩
      · rw [show w.containsEntity e = true from hc.2 he]
      · show (s'.entities.contains x = true) ↔ x ≠ e ∧ w.entities.entities.contains x = true
        rw [h2.wf.contains_iff, hl.wf.contains_iff, h3, and_comm]
  · rw [show step w (.destroy e) = retRes w (w.destroy e) fun (b, w) => (.bool b, w) from rfl] at hs
    unfold World.destroy at hs
    simp only [hl.remove_absent he, Res.bind_ok, Bool.false_eq_true, if_false] at hs
    cases hs
    have hf : w.containsEntity e = false := by
      rw [Bool.eq_false_iff]
      exact fun h => he (hc.1 h)
    refine ⟨by simp [he], by rw [hf], fun x => ⟨fun hx => ⟨?_, hx⟩, fun hx => hx.2⟩⟩
    rintro rfl
    exact he (hc.1 hx)

example : ∃ w, Reach World.empty (calmOps.zip calmRets) w ∧ Disciplined (calmOps.zip calmRets) ∧
    (step w (.destroy ⟨2, 2⟩)).map (·.1) = some (.bool true) ∧
    (step w (.destroy ⟨2, 1⟩)).map (·.1) = some (.bool false) := by
  obtain ⟨w, hw, h⟩ := reach_answers (ops := calmOps) (rs := calmRets) (by decide)
  have : (run World.empty calmOps).map (fun p => decide ((step p.2 (.destroy ⟨2, 2⟩)).map (·.1) = some (.bool true) ∧
    (step p.2 (.destroy ⟨2, 1⟩)).map (·.1) = some (.bool false))) = some true := by decide
  rw [hw] at this
  exact ⟨w, h, by decide, by simpa using this⟩

/-! ### C05 -/

/-- C05 is false in general. -/
theorem C05_false : ∃ (h₁ h₂ : History Nat) (e : Entity) (w : World Nat),
    Reach World.empty (h₁ ++ (.destroy e, .bool true) :: h₂) w ∧ (∀ p ∈ h₂, p.1 ≠ .reset) ∧
    w.containsEntity e = true := by
  obtain ⟨w, hw, h⟩ := reach_answers (ops := reviveOps.take 3) (rs := reviveRets.take 3) (by decide)
  refine ⟨[(.create [], .entity ⟨0, 1⟩)], [(.maintain, .unit)], ⟨0, 1⟩, w, h, by simp, ?_⟩
  have : (run World.empty (reviveOps.take 3)).map (fun p => p.2.containsEntity ⟨0, 1⟩) = some true := by decide
  rw [hw] at this
  simpa using this

/-- C05, life span part: a destroyed handle stays dead until `reset`. -/
theorem C05_alive_partial {h₁ h₂ : History V} {e : Entity} {w : World V}
    (hr : Reach World.empty (h₁ ++ (.destroy e, .bool true) :: h₂) w)
    (hd : Disciplined (h₁ ++ (.destroy e, .bool true) :: h₂)) (hn : ∀ p ∈ h₂, p.1 ≠ .reset) :
    w.containsEntity e = false := by
  have hf := reach_life hr hd
  have hn' : ∀ p ∈ ((.destroy e, .bool true) :: h₂ : History V), p.1 ≠ .reset := by
    intro p hp
    rcases List.mem_cons.1 hp with rfl | hp
    · simp
    · exact hn p hp
  obtain ⟨m, hm, hr2⟩ := hr.split h₁ _ rfl
  have hl := reach_life hm (hd.prefix hn')
  obtain ⟨m', hm', _⟩ := hr2.split [(.destroy e, .bool true)] h₂ rfl
  have he := step_destroy_true hl hm'.step_of_single
  rw [Bool.eq_false_iff, ne_eq]
  intro hc
  have hc := (hf.contains_iff e).1 hc
  rw [life_append] at hc
  have hnd := hf.issuedNodup
  rw [life_append] at hnd
  simp only [historyEvents, events, List.cons_append, List.nil_append, Life.run_cons] at hc hnd
  refine (Life.dead_run (e := e) (historyEvents_no_reset hn) hnd ?_ ?_ ?_).1 hc
  · exact hl.liveIssued e (by simp [(hl.alive e).2 he])
  · simp [Life.step]
  · exact fun hq => hl.queued_not_alive hq he

example : ∃ w, Reach World.empty
    (calmOps.zip calmRets) w ∧ Disciplined (calmOps.zip calmRets) ∧
    calmOps.zip calmRets = (calmOps.zip calmRets).take 5 ++ (.destroy ⟨0, 1⟩, .bool true) ::
      (calmOps.zip calmRets).drop 6 ∧ (⟨0, 1⟩ : Entity) ∈ (life ((calmOps.zip calmRets).take 5)).alive := by
  obtain ⟨w, hw⟩ := calm_reach
  exact ⟨w, hw, by decide, rfl, by decide⟩

/-! ### C07 -/

/-- C07 is false in general: `maintain` makes an entity alive that was not queued. -/
theorem C07_false : ∃ (h : History Nat) (w w' : World Nat) (e : Entity), Reach World.empty h w ∧
    step w .maintain = some (.unit, w') ∧ w.containsEntity e = false ∧ w'.containsEntity e = true ∧
    e ∉ (life h).queued := by
  obtain ⟨w, hw, h⟩ := reach_answers (ops := reviveOps.take 2) (rs := reviveRets.take 2) (by decide)
  have : (run World.empty (reviveOps.take 2)).bind (fun p => (step p.2 .maintain).map (fun q =>
      decide (p.2.containsEntity ⟨0, 1⟩ = false ∧ q.1 = .unit ∧ q.2.containsEntity ⟨0, 1⟩ = true))) =
      some true := by decide
  rw [hw] at this
  simp only [Option.bind_some] at this
  cases hs : step w .maintain with
  | none => rw [hs] at this; cases this
  | some q =>
    obtain ⟨r, w'⟩ := q
    rw [hs] at this
    simp only [Option.map_some, Option.some.injEq, decide_eq_true_eq] at this
    obtain ⟨h1, h2, h3⟩ := this
    subst h2
    exact ⟨_, w, w', ⟨0, 1⟩, h, hs, h1, h3, by decide⟩

/-- C07: queued entities are not alive before `maintain`; `maintain` returns normally, makes exactly the queued
entities alive and changes no component. Missing: undisciplined histories. -/
theorem C07_partial {h : History V} {w w' : World V} {r : Ret V} (hr : Reach World.empty h w)
    (hd : Disciplined (h ++ [(.maintain, .unit)])) (hs : step w .maintain = some (r, w')) :
    r = .unit ∧ (∀ e ∈ (life h).queued, w.containsEntity e = false) ∧
    (∀ e, w'.containsEntity e = true ↔ w.containsEntity e = true ∨ e ∈ (life h).queued) ∧
    w'.components = w.components := by
  have hl := reach_life hr (hd.prefix (by simp))
  unfold Disciplined at hd
  rw [life_snoc] at hd
  have hk := (Life.disciplined_step (l := life h) (ev := .maintained) hd (by simp)).2 rfl
  obtain ⟨s', h1, h2⟩ := hl.maintain hk
  simp only [step, retRes, World.maintain, h1, Res.bind_ok, Res.pure_eq, Option.some.injEq,
    Prod.mk.injEq] at hs
  obtain ⟨rfl, rfl⟩ := hs
  refine ⟨rfl, fun e he => ?_, fun e => ?_, rfl⟩
  · rw [Bool.eq_false_iff, ne_eq]
    intro hc
    exact hl.queued_not_alive he ((hl.contains_iff e).1 hc)
  · have h3 := h2.contains_iff e
    have h4 := hl.contains_iff e
    unfold World.containsEntity
    rw [h3, h4]
    simp only [Life.step, List.mem_append]
    tauto

example : (life ((calmOps.zip calmRets).take 10)).queued = [⟨0, 2⟩] ∧
    Disciplined ((calmOps.zip calmRets).take 10 ++ [(.maintain, .unit)]) := by decide

/-! ### C10 -/

/-- C10: handed out entities are in range; if two of them have the same index the later one has the greater version
(so an index is never handed out again after its last version); `create` panics exactly when every index is used up,
and then changes nothing. Missing: undisciplined histories. -/
theorem C10_partial {h : History V} {w : World V} (hr : Reach World.empty h w) (hd : Disciplined h) :
    (∀ e ∈ (life h).issued, e.index < 2 ^ 32 ∧ 1 ≤ e.version ∧ e.version < 2 ^ 32) ∧
    (life h).issued.Pairwise (fun later earlier => earlier.index = later.index →
      earlier.version < later.version) ∧
    ((life h).exhausted → step w (.create []) = some (.panicked [], w)) ∧
    ((life h).exhausted → step w .createAtomic = some (.panicked [], w)) ∧
    (¬ (life h).exhausted → ∃ e w', step w (.create []) = some (.entity e, w') ∧ e ∉ (life h).issued) := by
  have hl := reach_life hr hd
  refine ⟨fun e he => ?_, hl.issuedMono, fun hx => ?_, fun hx => ?_, fun hx => ?_⟩
  · have h1 := hl.issuedRange e he
    have h2 := hl.alloc.small
    have h3 := u32Size_eq
    omega
  · simp [step, retOutcome, World.create, (hl.create_exhausted hx).1, EntityStorage.createUpTo]
  · simp [step, retRes, World.createAtomic, (hl.create_exhausted hx).2]
  · obtain ⟨s', h1, _, _⟩ := hl.create hx
    refine ⟨(life h).nextEntity, ⟨s', w.components⟩, ?_, fun hc => ?_⟩
    · simp [step, retOutcome, World.create, h1, World.insertSet, ComponentStorage.insert,
        ComponentStorage.insertEach, ComponentStorage.withMask]
    · exact absurd ((hl.next_new hx).1 _ hc rfl) (Nat.lt_irrefl _)

/-- The exhausted state is possible for the storage and makes `create` panic. -/
example :
    let s : EntityStorage := ⟨⟨4294967296, 4294967296, [], 0⟩, EntitySparseSet.empty⟩
    s.create = .panic ∧ s.createAtomic = .panic := by decide

/-- The last version is not recycled. -/
example :
    let s : EntityStorage := ⟨⟨4294967296, 4294967296, [⟨3, 4294967295⟩], 0⟩, EntitySparseSet.empty⟩
    (s.create.bind fun p => p.2.remove p.1).bind (fun p => p.2.create) = .panic := by decide

/-! ### C11 -/

/-- C11: `create`, `create_atomic` and `extend` hand out the destroyed index that waits longest, with its next
version, and a new index only if none waits. `Life.waiting` is the queue of destroyed indexes (`Life.step` appends on
`killed` and removes the first on `made`/`queued`). Missing: undisciplined histories. -/
theorem C11_partial {h : History V} {w w' : World V} {r : Ret V} {op : Op V} (hr : Reach World.empty h w)
    (hd : Disciplined h) (hs : step w op = some (r, w')) :
    (∀ e, (∃ vs, op = .create vs) ∨ op = .createAtomic → r = .entity e → e = (life h).nextEntity) ∧
    (∀ es, (∃ ts it, op = .extend ts it) → r = .entities es →
      ∀ (i : Nat) (e : Entity), es[i]? = some e →
        e = ((life h).run ((es.take i).map .made)).nextEntity) := by
  have hl := reach_life hr hd
  constructor
  · rintro e (⟨vs, rfl⟩ | rfl) rfl
    · simp only [step, retOutcome] at hs
      split at hs
      · rename_i e' w1 h1
        simp only [Option.some.injEq, Prod.mk.injEq, Ret.entity.injEq] at hs
        obtain ⟨rfl, rfl⟩ := hs
        exact ((World.create_entities hl).1 _ h1).2.1
      · simp at hs
      · cases hs
    · by_cases hx : (life h).exhausted
      · simp only [step, retRes, World.createAtomic, (hl.create_exhausted hx).2, Res.bind_panic,
          Option.some.injEq, Prod.mk.injEq] at hs
        cases hs.1
      · obtain ⟨s', h1, h2, _⟩ := hl.createAtomic hx
        simp only [step, retRes, World.createAtomic, h1, Res.bind_ok, Res.pure_eq, Option.some.injEq,
          Prod.mk.injEq, Ret.entity.injEq] at hs
        exact hs.1.symm
  · rintro es ⟨ts, it, rfl⟩ rfl i e he
    simp only [step, retOutcome] at hs
    split at hs
    · rename_i es' w1 h1
      simp only [Option.some.injEq, Prod.mk.injEq, Ret.entities.injEq] at hs
      obtain ⟨rfl, rfl⟩ := hs
      obtain ⟨h2, h2a, h2b⟩ := (World.extend_entities hl).1 _ h1
      clear h2a h2b
      subst h2
      generalize w.entities = s at *
      generalize life h = l at *
      clear h1
      generalize it.items.length = n at *
      induction n generalizing s l i with
      | zero => simp [EntityStorage.createUpTo] at he
      | succ n ih =>
        rcases hl.createUpTo_one with ⟨hx, h0, h1⟩ | ⟨hx, h0, s', h1, h2, h3⟩
        · simp [EntityStorage.createUpTo, h1] at he
        · simp only [EntityStorage.createUpTo, h1] at he ⊢
          cases i with
          | zero =>
            simp at he
            simp [he, Life.run_nil]
          | succ i =>
            simp only [List.getElem?_cons_succ] at he
            simp only [List.take_succ_cons, List.map_cons, Life.run_cons]
            exact ih i s' _ h2 he
    · simp at hs
    · cases hs

example : (life ((calmOps.zip calmRets).take 7)).waiting = [⟨0, 2⟩, ⟨2, 2⟩] := by decide

/-! ### C35 -/

/-- C35: the order on entities is total, antisymmetric, transitive and consistent with equality; `Version::next` is
strictly increasing and fails only at the last version. -/
theorem C35 :
    (∀ a b : Entity, a.cmp b = .eq ↔ a = b) ∧
    (∀ a b : Entity, b.cmp a = (a.cmp b).swap) ∧
    (∀ a b c : Entity, a.cmp b ≠ .gt → b.cmp c ≠ .gt → a.cmp c ≠ .gt) ∧
    (∀ a b : Entity, a.version < b.version → a.cmp b = .lt) ∧
    (∀ v v', Version.next v = some v' → v < v' ∧ v' = v + 1 ∧ v' ≤ Version.last) ∧
    (∀ v, v ≤ Version.last → (Version.next v = none ↔ v = Version.last)) := by
  have key : ∀ a b : Entity, a.cmp b = if a.version < b.version then .lt else if b.version < a.version then .gt
      else if a.index < b.index then .lt else if b.index < a.index then .gt else .eq := by
    intro a b
    unfold Entity.cmp
    simp only [Nat.compare_eq_ite_lt]
    split
    · simp
    · split
      · simp
      · simp
  refine ⟨fun a b => ?_, fun a b => ?_, fun a b c => ?_, fun a b h => ?_, fun v v' h => ?_, fun v hv => ?_⟩
  · rw [key]
    cases a; cases b
    simp only [Entity.mk.injEq]
    split_ifs <;> simp <;> omega
  · rw [key, key]
    split_ifs <;> first | rfl | omega
  · rw [key, key, key]
    split_ifs <;> simp <;> omega
  · rw [key, if_pos h]
  · unfold Version.next at h
    split at h
    · simp only [Option.some.injEq] at h
      unfold Version.last
      omega
    · cases h
  · unfold Version.next
    unfold Version.last at *
    split
    · simp; omega
    · simp; omega

example : Entity.cmp ⟨5, 1⟩ ⟨2, 3⟩ = .lt ∧ Version.next 4294967295 = none ∧ Version.next 1 = some 2 := by decide

/-- C35, second part: a recycled entity is greater than every entity with the same index handed out before it. -/
theorem C35_recycled {h : History V} {w : World V} (hr : Reach World.empty h w) (hd : Disciplined h) :
    (life h).issued.Pairwise (fun later earlier => earlier.index = later.index → earlier.cmp later = .lt) := by
  refine List.Pairwise.imp ?_ (reach_life hr hd).issuedMono
  intro a b hab hi
  exact C35.2.2.2.1 b a (hab hi)

end Sparsey
