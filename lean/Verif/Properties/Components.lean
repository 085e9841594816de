import Verif.Proofs.Observe
import Verif.Proofs.Fresh
import Verif.Properties.Entities

/-!
Properties of the calls that change a world, in terms of what a caller reads: C04, C05 (components), C08, C09, C12 to
C18, C31 (calls), C42.

`w.viewGet t e` is `World::borrow::<View<T>>()` followed by `View::get(e)`; it panics for unregistered types.
`Reach World.empty h w` says that the history `h` (calls and answers) leads from a new world to `w`.

Most of these are false of the code in general (`_false` theorems with concrete histories): `maintain` revives
entities (DESIGN.md, finding 1), grouping entities of different versions corrupts the sparse slots of both (finding 9),
`set_layout` can panic half way (findings 6, 7). The `_partial` theorems hold for all histories that are `Fair`
(`Verif/Spec/Map.lean`), i.e. keep clear of these. For worlds without groups that is only the discipline of `maintain`
(`good_of_ungrouped`).
-/

set_option autoImplicit false
set_option linter.unusedSimpArgs false

namespace Sparsey
variable {V : Type}

/-! ### Witness histories -/

/-- The iteration order of the hash map in the witnesses. -/
def anyOrder : TypeId → Nat := fun _ => 0

/-- Group `(0, 1)`; index 0 is recycled (`0v2`) and gets component 0; `1v1` gets both and is grouped, which swaps the
slots of `0v2` and `1v1` in the set of type 0, versions included. -/
def mixOps : List (Op Nat) :=
  [.setLayout anyOrder [[0, 1]], .create [], .destroy ⟨0, 1⟩, .create [(0, 10)], .create [(0, 20)],
    .insert ⟨1, 1⟩ [(1, 30)]]

/-- Checks a property of the answers and the final world of a series of calls. -/
def holdsAfter (ops : List (Op V)) (f : List (Ret V) → World V → Bool) : Bool :=
  match run World.empty ops with
  | some (rs, w) => f rs w
  | none => false

theorem reach_witness {ops : List (Op V)} {f : List (Ret V) → World V → Bool} (h : holdsAfter ops f = true) :
    ∃ rs w, Reach World.empty (ops.zip rs) w ∧ f rs w = true := by
  unfold holdsAfter at h
  cases hr : run World.empty ops with
  | none => rw [hr] at h; cases h
  | some p =>
    rw [hr] at h
    exact ⟨p.1, p.2, reach_run _ _ _ _ hr, h⟩

/-- A history that uses every call, with nested groups, interrupted calls and recycled indexes, and is `Good`. -/
def goodOps : List (Op Nat) :=
  [.register 9, .create [(9, 1)], .setLayout anyOrder [[0, 1], [0, 1, 2], [4, 5]],
    .create [(0, 10), (1, 11)], .create [(2, 12), (0, 13), (1, 14)], .extend [0, 9] ⟨[[20, 21], [22, 23]], false⟩,
    .insert ⟨3, 1⟩ [(1, 30), (2, 31), (1, 32)], .createAtomic, .write 1 ⟨3, 1⟩ 33, .maintain, .destroy ⟨1, 1⟩,
    .remove ⟨2, 1⟩ [1, 1, 9], .create [(9, 2), (8, 3)], .extend [9] ⟨[[5], [6]], true⟩, .delete ⟨3, 1⟩ [0],
    .insert ⟨1, 1⟩ [(0, 1)], .remove ⟨1, 1⟩ [0]]

example : Good goodOps ∧ holdsAfter goodOps (fun rs w =>
    decide (rs = [.bool true, .entity ⟨0, 1⟩, .unit, .entity ⟨1, 1⟩, .entity ⟨2, 1⟩, .entities [⟨3, 1⟩, ⟨4, 1⟩],
      .bool true, .entity ⟨5, 1⟩, .bool true, .unit, .bool true, .values [some 14, none, none], .panicked [⟨1, 2⟩],
      .panicked [⟨6, 1⟩, ⟨7, 1⟩], .unit, .bool false, .values [none]]) &&
    decide (w.viewGet 1 ⟨3, 1⟩ = .ok (some 33) ∧ w.viewGet 2 ⟨2, 1⟩ = .ok (some 12))) = true := by
  decide +kernel

/-- A history that is `Fair` and not `Good`: an interrupted `create` completes a group, and the same entity is changed
further. -/
example : let ops := goodOps ++ [.create [(4, 40), (5, 50), (8, 60)], .insert ⟨8, 1⟩ [(5, 51)], .remove ⟨8, 1⟩ [4]]
    Fair ops ∧ ¬ Good ops ∧ holdsAfter ops (fun rs w =>
      decide (rs.drop 17 = [.panicked [⟨8, 1⟩], .bool true, .values [some 40]] ∧
        w.viewGet 4 ⟨8, 1⟩ = .ok none ∧ w.viewGet 5 ⟨8, 1⟩ = .ok (some 51))) = true := by
  decide +kernel

/-- A `Fair` history in which entities of different versions share the types of a group, and in which an interrupted
`insert` attaches a component of a grouped type. -/
example : let ops : List (Op Nat) := [.setLayout anyOrder [[0, 1]], .create [], .destroy ⟨0, 1⟩,
      .create [(0, 10), (1, 2)], .create [(1, 7)], .insert ⟨1, 1⟩ [(1, 8), (2, 3)], .create [(0, 3), (1, 6)]]
    Fair ops ∧ ¬ (mapOf ops).table.Uniform (mapOf ops).groups ∧ holdsAfter ops (fun rs w =>
      decide (rs = [.unit, .entity ⟨0, 1⟩, .bool true, .entity ⟨0, 2⟩, .entity ⟨1, 1⟩, .panicked [], .entity ⟨2, 1⟩]) &&
      decide (w.viewGet 1 ⟨1, 1⟩ = .ok (some 8))) = true := by
  decide +kernel

/-- The history of the defect is excluded because of the exchange in its last call. -/
example : ¬ Fair mixOps ∧ Fair (mixOps.take 5) ∧ MapWorld.init.AllFair mixOps := by decide +kernel

/-! ### Reading back -/

/-- The last value given for type `t`. -/
def lastOf (vs : List (TypeId × V)) (t : TypeId) : Option V := vs.reverse.lookup t

theorem lastOf_cons (p : TypeId × V) (vs : List (TypeId × V)) (t : TypeId) :
    lastOf (p :: vs) t = (lastOf vs t).or (if t = p.1 then some p.2 else none) := by
  obtain ⟨t', v⟩ := p
  unfold lastOf
  rw [List.reverse_cons]
  generalize vs.reverse = l
  induction l with
  | nil =>
    by_cases h : t = t'
    · simp [List.lookup, h]
    · have : (t == t') = false := by simpa using h
      simp [List.lookup, h, this]
  | cons q l ih =>
    obtain ⟨t'', v''⟩ := q
    by_cases h : t = t''
    · subst h; simp [List.lookup]
    · have : (t == t'') = false := by simpa using h
      simpa [List.lookup, this] using ih

theorem Table.get_setAll_last (e : Entity) : ∀ (vs : List (TypeId × V)) (tb : Table V) (t : TypeId) (x : Entity),
    (tb.setAll e vs).get t x = if x = e then (lastOf vs t).or (tb.get t x) else tb.get t x
  | [], tb, t, x => by simp [Table.setAll, lastOf]
  | (t', v) :: vs, tb, t, x => by
    rw [Table.setAll, Table.get_setAll_last e vs, Table.get_set, lastOf_cons]
    by_cases hx : x = e
    · subst hx
      by_cases ht : t = t'
      · subst ht; simp [Content.set, Option.or_assoc]
      · simp [Content.set, ht]
    · simp [Content.set, hx]

theorem lastOf_reg {vs : List (TypeId × V)} {t : TypeId} (h : (lastOf vs t).isSome) : t ∈ vs.map (·.1) := by
  induction vs with
  | nil => simp [lastOf] at h
  | cons p vs ih =>
    rw [lastOf_cons] at h
    by_cases ht : t = p.1
    · simp [ht]
    · simp only [ht, if_false, Option.or_none] at h
      simp only [List.map_cons, List.mem_cons]
      exact .inr (ih h)

/-! ### C04 -/

/-- C04 is false in general: `destroy` kills an entity a second time (after a `maintain` revived it). -/
theorem C04_false : ∃ (h : History Nat) (w w' : World Nat) (e : Entity), Reach World.empty h w ∧
    step w (.destroy e) = some (.bool true, w') ∧ e ∉ (life h).alive := by
  obtain ⟨rs, w, hr, hf⟩ := reach_witness (ops := ([.create [], .destroy ⟨0, 1⟩, .maintain] : List (Op Nat)))
    (f := fun rs w => decide (rs = [.entity ⟨0, 1⟩, .bool true, .unit]) &&
      decide ((step w (.destroy ⟨0, 1⟩)).map (·.1) = some (.bool true))) (by decide)
  simp only [Bool.and_eq_true, decide_eq_true_eq] at hf
  obtain ⟨rfl, hf⟩ := hf
  cases hs : step w (.destroy ⟨0, 1⟩) with
  | none => rw [hs] at hf; cases hf
  | some p =>
    rw [hs] at hf
    obtain ⟨r, w'⟩ := p
    simp only [Option.map_some, Option.some.injEq] at hf
    subst hf
    exact ⟨_, w, w', _, hr, hs, by decide⟩

/-- C04: `destroy` returns whether the entity was alive; afterwards it is dead and has no components, every other
entity is unchanged; if it returns `false` nothing at all changes. Missing: histories that are not `Fair`. -/
theorem C04_partial {h : History V} {w : World V} (hr : Reach World.empty h w) {e : Entity}
    (hg : Fair (calls h ++ [.destroy e])) :
    ∃ b w', step w (.destroy e) = some (.bool b, w') ∧
      (b = true ↔ e ∈ (life h).alive) ∧
      (b = true ↔ w.containsEntity e = true) ∧
      (∀ x, w'.containsEntity x = true ↔ x ≠ e ∧ w.containsEntity x = true) ∧
      (∀ t, w.isRegistered t = true → w'.viewGet t e = .ok none) ∧
      (∀ t x, x ≠ e → w'.viewGet t x = w.viewGet t x) ∧
      (∀ t, w'.isRegistered t = w.isRegistered t) ∧
      (b = false → w' = w) := by
  obtain ⟨hg, hf, hv⟩ := hg.snoc hr
  have hi := reach_invL hr hg
  obtain ⟨w', hs, hi'⟩ := reach_nextL hr hg hf hv
  have hl := reach_lifeL_eq hr hg
  refine ⟨decide (e ∈ (mapOf (calls h)).life.alive), w', hs, by simp [hl], by simp [hi.contains_iff], fun x => ?_,
    fun t ht => ?_, fun t x hx => ?_, fun t => ?_, fun hb => ?_⟩
  · rw [hi'.contains_iff, hi.contains_iff]
    simp only [MapWorld.next, MapWorld.answer]
    by_cases he : e ∈ (mapOf (calls h)).life.alive
    · simp [he, events, Life.run, Life.step, and_comm]
    · simp only [he, decide_false, events, Life.run, List.foldl_nil]
      refine ⟨fun hx => ⟨?_, hx⟩, fun hx => hx.2⟩
      rintro rfl
      exact he hx
  · have ht := (hi.registered_iff t).1 ht
    rw [hi'.viewGet, if_pos (show t ∈ ((mapOf (calls h)).next (.destroy e)).reg from ht)]
    congr 1
    by_cases he : e ∈ (mapOf (calls h)).life.alive
    · simp [MapWorld.next, MapWorld.tableAfter, he, Table.get_strip, Content.strip]
    · simp only [MapWorld.next, MapWorld.tableAfter, he, if_false]
      exact hi.get_dead he t
  · rw [hi'.viewGet, hi.viewGet]
    simp only [MapWorld.next, MapWorld.tableAfter, MapWorld.regAfter]
    by_cases he : e ∈ (mapOf (calls h)).life.alive
    · simp [he, Table.get_strip, Content.strip, hx]
    · simp [he]
  · rw [hi'.registered_eq, hi.registered_eq]
    rfl
  · have he : e ∉ (mapOf (calls h)).life.alive := by simpa using hb
    have h1 := hi.life.remove_absent he
    simp only [step, retRes, World.destroy, h1, Res.bind_ok, Res.pure_eq, Bool.false_eq_true, if_false,
      Option.some.injEq, Prod.mk.injEq] at hs
    exact hs.2.symm

example : Fair (goodOps.take 10 ++ [.destroy ⟨1, 1⟩]) ∧ (mapOf (goodOps.take 10)).life.alive.contains ⟨1, 1⟩ = true ∧
    (mapOf (goodOps.take 10)).table.get 0 ⟨1, 1⟩ = some 10 := by decide

/-! ### C05, components -/

/-- The component part of C05 is false in general: `0v1` is destroyed, no `reset` or `maintain` follows, and yet a
component is read through `0v1`. -/
theorem C05_component_false : ∃ (h₁ h₂ : History Nat) (e : Entity) (w : World Nat) (t v : Nat),
    Reach World.empty (h₁ ++ (.destroy e, .bool true) :: h₂) w ∧ (∀ p ∈ h₂, p.1 ≠ .reset) ∧
    w.viewGet t e = .ok (some v) := by
  obtain ⟨rs, w, hr, hf⟩ := reach_witness (ops := mixOps)
    (f := fun rs w => decide (rs = [.unit, .entity ⟨0, 1⟩, .bool true, .entity ⟨0, 2⟩, .entity ⟨1, 1⟩, .bool true]) &&
      decide (w.viewGet 0 ⟨0, 1⟩ = .ok (some 10))) (by decide)
  simp only [Bool.and_eq_true, decide_eq_true_eq] at hf
  obtain ⟨rfl, hf⟩ := hf
  exact ⟨[(.setLayout anyOrder [[0, 1]], .unit), (.create [], .entity ⟨0, 1⟩)],
    [(.create [(0, 10)], .entity ⟨0, 2⟩), (.create [(0, 20)], .entity ⟨1, 1⟩), (.insert ⟨1, 1⟩ [(1, 30)], .bool true)],
    ⟨0, 1⟩, w, 0, 10, hr, by simp, hf⟩

/-- C05: after `destroy(e)` returned `true`, `e` is dead and no component can be read through it until `reset`.
Missing: histories that are not `Fair`. -/
theorem C05_partial {h₁ h₂ : History V} {e : Entity} {w : World V}
    (hr : Reach World.empty (h₁ ++ (.destroy e, .bool true) :: h₂) w)
    (hg : Fair (calls (h₁ ++ (.destroy e, .bool true) :: h₂))) (hn : ∀ p ∈ h₂, p.1 ≠ .reset) :
    w.containsEntity e = false ∧ ∀ t, w.isRegistered t = true → w.viewGet t e = .ok none := by
  have hc := C05_alive_partial hr (Fair.disciplined hr hg) hn
  have hi := reach_invL hr hg
  refine ⟨hc, fun t ht => ?_⟩
  rw [hi.viewGet, if_pos ((hi.registered_iff t).1 ht), hi.get_dead]
  rw [← hi.contains_iff, hc]
  simp

/-! ### C08 -/

/-- C08 is false in general: after `clear` an entity is handed out that had been handed out before. -/
theorem C08_false : ∃ (h : History Nat) (w w' w'' : World Nat) (e : Entity), Reach World.empty h w ∧
    step w .clear = some (.unit, w') ∧ step w' (.create []) = some (.entity e, w'') ∧ e ∈ (life h).issued := by
  obtain ⟨rs, w, hr, hf⟩ := reach_witness
    (ops := ([.create [], .destroy ⟨0, 1⟩, .maintain, .destroy ⟨0, 1⟩, .create []] : List (Op Nat)))
    (f := fun rs w => decide (rs = [.entity ⟨0, 1⟩, .bool true, .unit, .bool true, .entity ⟨0, 2⟩]) &&
      decide ((step w .clear).map (·.1) = some .unit) &&
      decide (((step w .clear).bind fun p => step p.2 (.create [])).map (·.1) = some (.entity ⟨0, 2⟩))) (by decide)
  simp only [Bool.and_eq_true, decide_eq_true_eq] at hf
  obtain ⟨⟨rfl, h1⟩, h2⟩ := hf
  cases hs : step w .clear with
  | none => rw [hs] at h1; cases h1
  | some p =>
    rw [hs] at h1 h2
    obtain ⟨r, w'⟩ := p
    simp only [Option.map_some, Option.some.injEq] at h1
    subst h1
    simp only [Option.bind_some] at h2
    cases hs' : step w' (.create []) with
    | none => rw [hs'] at h2; cases h2
    | some q =>
      rw [hs'] at h2
      obtain ⟨r', w''⟩ := q
      simp only [Option.map_some, Option.some.injEq] at h2
      subst h2
      exact ⟨_, w, w', w'', _, hr, hs, hs', by decide⟩

/-- C08, later calls: what was handed out before a `clear` (queued or not) is never alive after it, and entities handed
out later are different from all of it (up to the next `reset`). Missing: undisciplined histories. -/
theorem C08_later_partial {h h₂ : History V} {w : World V} (hr : Reach World.empty (h ++ (.clear, .unit) :: h₂) w)
    (hd : Disciplined (h ++ (.clear, .unit) :: h₂)) (hn : ∀ p ∈ h₂, p.1 ≠ .reset) :
    (∀ e ∈ (life h).issued, w.containsEntity e = false) ∧
    (∀ e ∈ (life h).queued, w.containsEntity e = false) ∧
    ∃ later, (life (h ++ (.clear, .unit) :: h₂)).issued = later ++ (life h).issued ∧
      ∀ e ∈ later, e ∉ (life h).issued := by
  have hf := reach_life hr hd
  have hn' : ∀ p ∈ ((.clear, .unit) :: h₂ : History V), p.1 ≠ .reset := by
    intro p hp
    rcases List.mem_cons.1 hp with rfl | hp
    · simp
    · exact hn p hp
  obtain ⟨m, hm, _⟩ := hr.split h _ rfl
  have hl := reach_life hm (hd.prefix hn')
  have hnd := hf.issuedNodup
  have key : ∀ e ∈ (life h).issued, w.containsEntity e = false := by
    intro e he
    rw [Bool.eq_false_iff, ne_eq]
    intro hc
    have hc := (hf.contains_iff e).1 hc
    rw [life_append] at hc hnd
    simp only [historyEvents, events, List.cons_append, List.nil_append, Life.run_cons] at hc hnd
    exact (Life.dead_run (e := e) (historyEvents_no_reset hn) hnd he (by simp [Life.step]) (by simp [Life.step])).1 hc
  refine ⟨key, fun e he => key e (hl.liveIssued e (by simp [he])), ?_⟩
  rw [life_append] at hnd ⊢
  obtain ⟨later, h1⟩ := Life.issued_suffix (l := life h) (historyEvents_no_reset hn')
  refine ⟨later, h1.symm, fun e he hc => ?_⟩
  rw [← h1, List.nodup_append] at hnd
  exact hnd.2.2 e he e hc rfl

example : Disciplined (calmOps.zip calmRets ++ [(.clear, .unit), (.create [], .entity ⟨0, 4⟩)]) ∧
    (life (calmOps.zip calmRets)).queued = [⟨0, 3⟩] := by decide

example : Fair (goodOps ++ [.clear, .maintain]) := by decide +kernel

/-! ### C09 -/

/-- C09, state after `reset`: for every world whatsoever, `reset` returns normally, no entity is alive, no component can
be read, the registered types are unchanged, the groups are those of before but empty, and all of the entity
bookkeeping is that of a new world. -/
theorem C09 (w : World V) : step w .reset = some (.unit, w.reset) ∧
    w.reset.entities = (World.empty : World V).entities ∧
    w.reset.entitiesSlice = [] ∧ (∀ e, w.reset.containsEntity e = false) ∧
    (∀ t e v, w.reset.viewGet t e ≠ .ok (some v)) ∧
    (∀ t, w.reset.isRegistered t = w.isRegistered t) := by
  refine ⟨rfl, rfl, rfl, fun e => rfl, fun t e v => ?_, fun t => rfl⟩
  intro h
  unfold World.viewGet World.borrow at h
  cases hm : w.reset.components.meta? t with
  | none => simp [hm] at h
  | some m =>
    simp only [hm] at h
    cases hc : w.reset.components.components[m.storageIndex]? with
    | none => simp [hc] at h
    | some c =>
      simp only [hc, Res.unchecked_some, Res.bind_ok] at h
      simp only [World.reset, ComponentStorage.clear, List.getElem?_map, Option.map_eq_some_iff] at hc
      obtain ⟨c', _, rfl⟩ := hc
      simp [CompSet.get, CompSet.clear, SparseVec.clear, SparseVec.get] at h

/-- C09, later calls, every reachable world: `reset` leads to exactly the world that the `register` and `set_layout` calls
of the history alone would have built from a new world. So all later calls, in whatever order, have the same answers
and effects as in that newly built world; in particular the same entities are handed out. -/
theorem C09_fresh {h : History V} {w : World V} (hr : Reach World.empty h w) :
    (∃ h₀ : History V, calls h₀ = (calls h).filter Op.isSetup ∧ Reach World.empty h₀ w.reset) ∧
    ∀ (h₀ : History V) (w₀ : World V), Reach World.empty h₀ w₀ → calls h₀ = (calls h).filter Op.isSetup →
      w.reset = w₀ ∧ ∀ ops, run w.reset ops = run w₀ ops := by
  obtain ⟨h₁, h2, h3⟩ := reach_reset hr
  refine ⟨⟨h₁, h2, h3⟩, fun h₀ w₀ hr₀ hc => ?_⟩
  have h4 := h3.run
  have h5 := hr₀.run
  have hc' : h₀.map (·.1) = h₁.map (·.1) := hc.trans h2.symm
  rw [hc', h4] at h5
  simp only [Option.some.injEq, Prod.mk.injEq] at h5
  exact ⟨h5.2, fun ops => by rw [h5.2]⟩

/-- Non-vacuity: also for a history that is not `Fair`, and one with a panicking `set_layout`. -/
example : (∀ ops ∈ ([mixOps, goodOps, .setLayout anyOrder [List.range 16] :: mixOps] : List (List (Op Nat))),
    ((run World.empty ops).map fun p => p.2.reset).isSome ∧
    (run World.empty ops).map (fun p => p.2.reset) = (run World.empty (ops.filter Op.isSetup)).map (·.2)) := by
  decide +kernel

/-- Worlds as maps that differ at most in how the registered types are listed. -/
structure MapWorld.Alike (s s' : MapWorld V) : Prop where
  life : s.life = s'.life
  reg : ∀ t, t ∈ s.reg ↔ t ∈ s'.reg
  groups : s.groups = s'.groups
  table : s.table = s'.table

namespace MapWorld.Alike
variable {s s' : MapWorld V}

theorem knows (h : s.Alike s') (ts : List TypeId) : s.knows ts ↔ s'.knows ts := by
  simp [MapWorld.knows, h.reg]

theorem known (h : s.Alike s') (vs : List (TypeId × V)) : s.known vs = s'.known vs := by
  simp [MapWorld.known, h.reg]

theorem extendMakes (h : s.Alike s') (ts : List TypeId) (it : Items V) : s.extendMakes ts it = s'.extendMakes ts it := by
  simp [MapWorld.extendMakes, h.knows, h.life]

theorem answer (h : s.Alike s') (op : Op V) : s.answer op = s'.answer op := by
  cases op <;> simp only [MapWorld.answer, h.knows, h.life, h.reg, h.table, h.extendMakes]

theorem next (h : s.Alike s') (op : Op V) : (s.next op).Alike (s'.next op) where
  life := by simp only [MapWorld.next, h.answer, h.life]
  reg t := by cases op <;> simp [MapWorld.next, MapWorld.regAfter, h.reg]
  groups := by cases op <;> simp [MapWorld.next, MapWorld.groupsAfter, h.groups]
  table := by
    cases op <;> simp only [MapWorld.next, MapWorld.tableAfter, h.knows, h.life, h.table, h.extendMakes, h.known]

theorem run : ∀ (ops : List (Op V)) {s s' : MapWorld V}, s.Alike s' →
    s.answers ops = s'.answers ops ∧ (s.run ops).Alike (s'.run ops)
  | [], _, _, h => ⟨rfl, h⟩
  | op :: ops, s, s', h => by
    obtain ⟨h1, h3⟩ := run ops (h.next op)
    exact ⟨by simp [MapWorld.answers, h.answer, h1], h3⟩

end MapWorld.Alike

/-- C09, later calls: after `reset` every series of calls is answered exactly as by a newly built world with the same
registered types and groups (a world to which only `register` and `set_layout` were applied). In particular the same
entities are handed out. Missing: histories that are not `Fair`. -/
theorem C09_partial {h h₀ : History V} {w w₀ : World V} (hr : Reach World.empty h w) (hr₀ : Reach World.empty h₀ w₀)
    (hb : ∀ op ∈ calls h₀, (∃ t, op = .register t) ∨ ∃ r gs, op = .setLayout r gs)
    (hreg : ∀ t, w.isRegistered t = w₀.isRegistered t) (hgr : (mapOf (calls h)).groups = (mapOf (calls h₀)).groups)
    (ops : List (Op V)) (hg : Fair (calls h ++ .reset :: ops)) (hg₀ : Fair (calls h₀ ++ ops)) :
    ∃ rs v v₀, run w.reset ops = some (rs, v) ∧ run w₀ ops = some (rs, v₀) ∧
      (∀ t e, v.viewGet t e = v₀.viewGet t e) ∧ (∀ e, v.containsEntity e = v₀.containsEntity e) := by
  obtain ⟨hg1, _, _, hf⟩ := (FairFrom.split _ (.reset :: ops) hr.run).1 hg
  obtain ⟨hg₀, a2⟩ := (FairFrom.split _ ops hr₀.run).1 hg₀
  have hi := reach_invL hr hg1
  have hi₀ := reach_invL hr₀ hg₀
  obtain ⟨w', hs, hi'⟩ := reach_nextL hr hg1 (op := .reset) trivial w.even_reset
  have hw : w' = w.reset := by
    have := (C09 w).1
    rw [this] at hs
    simp only [Option.some.injEq, Prod.mk.injEq] at hs
    exact hs.2.symm
  subst hw
  have key : ∀ (l : List (Op V)), (∀ op ∈ l, (∃ t, op = .register t) ∨ ∃ r gs, op = .setLayout r gs) →
      ∀ s : MapWorld V, s.life = .init → s.table = [] → (s.run l).life = .init ∧ (s.run l).table = [] := by
    intro l
    induction l with
    | nil => exact fun _ s h1 h2 => ⟨h1, h2⟩
    | cons op l ih =>
      intro hl s h1 h2
      refine ih (fun o ho => hl o (by simp [ho])) (s.next op) ?_ ?_
      · rcases hl op (by simp) with ⟨t, rfl⟩ | ⟨r, gs, rfl⟩ <;> simpa [MapWorld.next, MapWorld.answer, events, Life.run]
      · rcases hl op (by simp) with ⟨t, rfl⟩ | ⟨r, gs, rfl⟩ <;> simpa [MapWorld.next, MapWorld.tableAfter]
  obtain ⟨k1, k2⟩ := key (calls h₀) hb MapWorld.init rfl rfl
  have hal : ((mapOf (calls h)).next .reset).Alike (mapOf (calls h₀)) := by
    refine ⟨k1.symm, fun t => ?_, hgr, k2.symm⟩
    rw [← hi'.registered_iff, ← hi₀.registered_iff, ← hreg]
    rfl
  obtain ⟨a1, a3⟩ := hal.run ops
  obtain ⟨v, r1, i1⟩ := run_fair ops _ _ hi' hf
  obtain ⟨v₀, r2, i2⟩ := run_fair ops _ _ hi₀ a2
  refine ⟨_, v, v₀, r1, by rw [a1]; exact r2, fun t e => ?_, fun e => ?_⟩
  · rw [i1.viewGet, i2.viewGet, a3.table]
    simp only [a3.reg]
  · rw [i1.contains_eq, i2.contains_eq, a3.life]

example : Fair (goodOps ++ .reset :: (goodOps.drop 3)) ∧
    Fair (goodOps.take 1 ++ (goodOps.drop 2).take 1 ++ goodOps.drop 3) := by
  decide +kernel

/-! ### C12, C13 -/

/-- C12 is false in general: inserting component 1 into `1v1` changes what component 0 of `0v2` reads as. -/
theorem C12_false : ∃ (h : History Nat) (w w' : World Nat) (e x : Entity) (vs : List (TypeId × Nat)) (t : TypeId),
    Reach World.empty h w ∧ step w (.insert e vs) = some (.bool true, w') ∧ x ≠ e ∧ x ∈ (life h).alive ∧
    w.viewGet t x = .ok (some 10) ∧ w'.viewGet t x = .ok none := by
  obtain ⟨rs, w, hr, hf⟩ := reach_witness (ops := mixOps.take 5)
    (f := fun rs w => decide (rs = [.unit, .entity ⟨0, 1⟩, .bool true, .entity ⟨0, 2⟩, .entity ⟨1, 1⟩]) &&
      decide (w.viewGet 0 ⟨0, 2⟩ = .ok (some 10)) &&
      decide ((step w (.insert ⟨1, 1⟩ [(1, 30)])).map (fun p => (p.1, p.2.viewGet 0 ⟨0, 2⟩)) =
        some (.bool true, .ok none))) (by decide)
  simp only [Bool.and_eq_true, decide_eq_true_eq] at hf
  obtain ⟨⟨rfl, h1⟩, h2⟩ := hf
  cases hs : step w (.insert ⟨1, 1⟩ [(1, 30)]) with
  | none => rw [hs] at h2; cases h2
  | some p =>
    rw [hs] at h2
    obtain ⟨r, w'⟩ := p
    simp only [Option.map_some, Option.some.injEq, Prod.mk.injEq] at h2
    obtain ⟨rfl, h2⟩ := h2
    exact ⟨_, w, w', ⟨1, 1⟩, ⟨0, 2⟩, [(1, 30)], 0, hr, hs, by decide, by decide, h1, h2⟩

/-- C12: `insert` into a living entity returns `true`; afterwards every inserted type reads as the (last) inserted value
through `e` and everything else reads as before. Missing: histories that are not `Fair`. -/
theorem C12_partial {h : History V} {w : World V} (hr : Reach World.empty h w) {e : Entity} {vs : List (TypeId × V)}
    (hg : Fair (calls h ++ [.insert e vs])) (he : e ∈ (life h).alive)
    (hreg : ∀ p ∈ vs, w.isRegistered p.1 = true) :
    ∃ w', step w (.insert e vs) = some (.bool true, w') ∧
      (∀ t v, lastOf vs t = some v → w'.viewGet t e = .ok (some v)) ∧
      (∀ t x, x ≠ e ∨ lastOf vs t = none → w'.viewGet t x = w.viewGet t x) ∧
      (∀ x, w'.containsEntity x = w.containsEntity x) ∧ (∀ t, w'.isRegistered t = w.isRegistered t) := by
  obtain ⟨hg, hf, hv⟩ := hg.snoc hr
  have hi := reach_invL hr hg
  obtain ⟨w', hs, hi'⟩ := reach_nextL hr hg hf hv
  rw [reach_lifeL_eq hr hg] at he
  have hk : (mapOf (calls h)).knows (vs.map (·.1)) := by
    intro t ht
    obtain ⟨p, hp, rfl⟩ := List.mem_map.1 ht
    exact (hi.registered_iff _).1 (hreg p hp)
  have hkn := known_all hk
  have ha : (mapOf (calls h)).answer (.insert e vs) = .bool true := by
    simp [MapWorld.answer, he, hk]
  rw [ha] at hs
  refine ⟨w', hs, fun t v hv => ?_, fun t x hx => ?_, fun x => ?_, fun t => ?_⟩
  · have ht : t ∈ (mapOf (calls h)).reg := hk t (lastOf_reg (by simp [hv]))
    rw [hi'.viewGet, if_pos (show t ∈ ((mapOf (calls h)).next (.insert e vs)).reg from ht)]
    simp [MapWorld.next, MapWorld.tableAfter, he, hkn, Table.get_setAll_last, hv]
  · rw [hi'.viewGet, hi.viewGet]
    simp only [MapWorld.next, MapWorld.tableAfter, MapWorld.regAfter, he, if_true, hkn, Table.get_setAll_last]
    rcases hx with hx | hx <;> simp [hx]
  · rw [Bool.eq_iff_iff, hi'.contains_iff, hi.contains_iff]
    simp only [MapWorld.next, ha, events, Life.run, List.foldl_nil]
  · rw [hi'.registered_eq, hi.registered_eq]
    rfl

example : Fair (goodOps.take 6 ++ [.insert ⟨3, 1⟩ [(1, 30), (2, 31), (1, 32)]]) ∧
    (⟨3, 1⟩ : Entity) ∈ (mapOf (goodOps.take 6)).life.alive ∧
    lastOf [(1, 30), (2, 31), (1, 32)] 1 = some 32 := by decide +kernel

/-- C13: if `e` is not alive, `insert` returns `false` and the world is unchanged. For every world. -/
theorem C13 (w : World V) (e : Entity) (vs : List (TypeId × V)) (he : w.containsEntity e = false) :
    step w (.insert e vs) = some (.bool false, w) := by
  unfold World.containsEntity at he
  simp [step, World.insert, he, retOutcome]

/-- C13 with the specification of life spans. Missing: undisciplined histories, in which `contains_entity` is wrong. -/
theorem C13_life_partial {h : History V} {w : World V} (hr : Reach World.empty h w) (hd : Disciplined h) {e : Entity}
    (he : e ∉ (life h).alive) (vs : List (TypeId × V)) : step w (.insert e vs) = some (.bool false, w) := by
  refine C13 w e vs ?_
  rw [Bool.eq_false_iff, ne_eq, C02_partial hr hd]
  exact he

/-! ### C14, C15 -/

/-- C14 is false in general: `remove` through the destroyed handle `0v1` returns a component. -/
theorem C14_false : ∃ (h : History Nat) (w w' : World Nat) (e : Entity) (t v : Nat), Reach World.empty h w ∧
    e ∉ (life h).alive ∧ step w (.remove e [t]) = some (.values [some v], w') := by
  obtain ⟨rs, w, hr, hf⟩ := reach_witness (ops := mixOps)
    (f := fun rs w => decide (rs = [.unit, .entity ⟨0, 1⟩, .bool true, .entity ⟨0, 2⟩, .entity ⟨1, 1⟩, .bool true]) &&
      decide ((step w (.remove ⟨0, 1⟩ [0])).map (·.1) = some (.values [some 10]))) (by decide)
  simp only [Bool.and_eq_true, decide_eq_true_eq] at hf
  obtain ⟨rfl, hf⟩ := hf
  cases hs : step w (.remove ⟨0, 1⟩ [0]) with
  | none => rw [hs] at hf; cases hf
  | some p =>
    rw [hs] at hf
    obtain ⟨r, w'⟩ := p
    simp only [Option.map_some, Option.some.injEq] at hf
    subst hf
    exact ⟨_, w, w', _, 0, 10, hr, by decide, hs⟩

theorem Table.removed_get (e : Entity) : ∀ (ts : List TypeId) (tb : Table V) (i : Nat) (t : TypeId), ts[i]? = some t →
    (tb.removed e ts)[i]? = some (if t ∈ ts.take i then none else tb.get t e)
  | [], _, _, _, h => by simp at h
  | t' :: ts, tb, 0, t, h => by
    simp only [List.getElem?_cons_zero, Option.some.injEq] at h
    simp [Table.removed, h]
  | t' :: ts, tb, i + 1, t, h => by
    simp only [List.getElem?_cons_succ] at h
    rw [Table.removed, List.getElem?_cons_succ, Table.removed_get e ts _ i t h, Table.get_erase]
    by_cases h1 : t = t'
    · simp [Content.erase, h1]
    · simp [Content.erase, h1]

theorem Table.removed_length (e : Entity) : ∀ (ts : List TypeId) (tb : Table V), (tb.removed e ts).length = ts.length
  | [], _ => rfl
  | _ :: ts, _ => by simp [Table.removed, Table.removed_length e ts]

/-- C14: `remove` returns for each type what was read before (`None` if the type already occurred earlier in the tuple),
afterwards these types read as `None` through `e` and everything else as before. For dead or foreign handles all
answers are `None` (last clause). Missing: histories that are not `Fair`. -/
theorem C14_partial {h : History V} {w : World V} (hr : Reach World.empty h w) {e : Entity} {ts : List TypeId}
    (hg : Fair (calls h ++ [.remove e ts])) (hreg : ∀ t ∈ ts, w.isRegistered t = true) :
    ∃ vs w', step w (.remove e ts) = some (.values vs, w') ∧ vs.length = ts.length ∧
      (∀ (i : Nat) t, ts[i]? = some t → ∃ u, w.viewGet t e = .ok u ∧
        vs[i]? = some (if t ∈ ts.take i then none else u)) ∧
      (∀ t ∈ ts, w'.viewGet t e = .ok none) ∧
      (∀ t x, x ≠ e ∨ t ∉ ts → w'.viewGet t x = w.viewGet t x) ∧
      (∀ x, w'.containsEntity x = w.containsEntity x) ∧ (∀ t, w'.isRegistered t = w.isRegistered t) ∧
      (e ∉ (life h).alive → ∀ u ∈ vs, u = none) := by
  obtain ⟨hg, hf, hv⟩ := hg.snoc hr
  have hi := reach_invL hr hg
  obtain ⟨w', hs, hi'⟩ := reach_nextL hr hg hf hv
  have hk : (mapOf (calls h)).knows ts := fun t ht => (hi.registered_iff t).1 (hreg t ht)
  have ha : (mapOf (calls h)).answer (.remove e ts) = .values ((mapOf (calls h)).table.removed e ts) := by
    simp [MapWorld.answer, hk]
  rw [ha] at hs
  have hget : ∀ t x, ((mapOf (calls h)).next (.remove e ts)).table.get t x =
      if t ∈ ts ∧ x = e then none else (mapOf (calls h)).table.get t x := by
    intro t x
    simp only [MapWorld.next, MapWorld.tableAfter, hk, if_true, Table.get_eraseAll, Content.eraseAll_eq]
  have hval : ∀ (i : Nat) t, ts[i]? = some t → ∃ u, w.viewGet t e = .ok u ∧
      ((mapOf (calls h)).table.removed e ts)[i]? = some (if t ∈ ts.take i then none else u) := by
    intro i t ht
    refine ⟨(mapOf (calls h)).table.get t e, ?_, Table.removed_get e ts _ i t ht⟩
    rw [hi.viewGet, if_pos (hk t (List.mem_of_getElem? ht))]
  refine ⟨_, w', hs, Table.removed_length e ts _, hval, fun t ht => ?_, fun t x hx => ?_, fun x => ?_, fun t => ?_,
    fun hd u hu => ?_⟩
  · rw [hi'.viewGet, if_pos (show t ∈ ((mapOf (calls h)).next (.remove e ts)).reg from hk t ht), hget]
    simp [ht]
  · rw [hi'.viewGet, hi.viewGet, hget]
    have : ¬ (t ∈ ts ∧ x = e) := by tauto
    simp only [this, if_false]
    rfl
  · rw [Bool.eq_iff_iff, hi'.contains_iff, hi.contains_iff]
    simp only [MapWorld.next, ha, events, Life.run, List.foldl_nil]
  · rw [hi'.registered_eq, hi.registered_eq]
    rfl
  · obtain ⟨i, hlt, hgi⟩ := List.getElem_of_mem hu
    rw [Table.removed_length] at hlt
    have h1 := Table.removed_get e ts (mapOf (calls h)).table i ts[i] (List.getElem?_eq_getElem hlt)
    rw [reach_lifeL_eq hr hg] at hd
    rw [hi.get_dead hd, ite_self, List.getElem?_eq_some_iff] at h1
    obtain ⟨_, h1⟩ := h1
    rw [← hgi, h1]

example : Fair (goodOps.take 11 ++ [.remove ⟨2, 1⟩ [1, 1, 9]]) ∧
    (mapOf (goodOps.take 11)).table.removed ⟨2, 1⟩ [1, 1, 9] = [some 14, none, none] := by
  decide +kernel

theorem CompSet.delete_remove (s : CompSet V) (e : Entity) :
    s.delete e = (s.remove e).bind fun p => .ok p.2 := by
  unfold CompSet.delete CompSet.remove
  rcases h : s.sparse.remove e with ⟨_ | index, sparse⟩
  · rfl
  · simp only
    cases h1 : s.entities[s.entities.length - 1]? with
    | none => rfl
    | some le =>
      cases h2 : s.entities[index]? with
      | none => rfl
      | some ie =>
        simp only [Res.unchecked_some, Res.bind_ok]
        have key : ∀ r : Res SparseVec,
            (do
              let sparse ← r
              let _dropped ← Res.unchecked (s.components[index]?)
              let last ← Res.unchecked (s.components[s.entities.length - 1]?)
              pure (⟨sparse, (s.entities.set index le).take (s.entities.length - 1),
                (s.components.set index last).take (s.entities.length - 1)⟩ : CompSet V)) =
            Res.bind (do
              let sparse ← r
              let v ← Res.unchecked (s.components[index]?)
              let last ← Res.unchecked (s.components[s.entities.length - 1]?)
              pure (some v, (⟨sparse, (s.entities.set index le).take (s.entities.length - 1),
                (s.components.set index last).take (s.entities.length - 1)⟩ : CompSet V))) fun p => .ok p.2 := by
          intro r
          cases r with
          | panic => rfl
          | ub => rfl
          | ok sp =>
            cases h3 : s.components[index]? with
            | none => rfl
            | some c =>
              cases h4 : s.components[s.entities.length - 1]? with
              | none => rfl
              | some l => rfl
        split
        · exact key _
        · exact key _

theorem ComponentStorage.deleteEach_removeEach (e : Entity) : ∀ (is : List Nat) (c : ComponentStorage V),
    ComponentStorage.deleteEach e is c = (ComponentStorage.removeEach e is c).bind fun p => .ok p.2
  | [], _ => rfl
  | i :: is, c => by
    simp only [ComponentStorage.deleteEach, ComponentStorage.removeEach, CompSet.delete_remove]
    cases c.components[i]? with
    | none => rfl
    | some s =>
      simp only [Res.unchecked_some, Res.bind_ok]
      cases s.remove e with
      | panic => rfl
      | ub => rfl
      | ok p =>
        obtain ⟨v, s'⟩ := p
        have hd := ComponentStorage.deleteEach_removeEach e is { c with components := c.components.set i s' }
        show ComponentStorage.deleteEach e is _ = _
        rw [hd]
        simp only [Res.bind_ok]
        cases ComponentStorage.removeEach e is { c with components := c.components.set i s' } <;> rfl

/-- C15: `delete` leaves the world in the same state as `remove`: for every world, entity and type tuple they both panic,
both run into undefined behaviour, or both return with the same new world. -/
theorem C15 (w : World V) (e : Entity) (ts : List TypeId) :
    (step w (.delete e ts)).map (·.2) = (step w (.remove e ts)).map (·.2) ∧
    (step w (.delete e ts) = some (.panicked [], w) ↔ step w (.remove e ts) = some (.panicked [], w)) ∧
    (∀ w', step w (.delete e ts) = some (.unit, w') ↔ ∃ vs, step w (.remove e ts) = some (.values vs, w')) := by
  have key : w.delete e ts = (w.remove e ts).bind fun p => .ok p.2 := by
    simp only [World.delete, World.remove, ComponentStorage.delete, ComponentStorage.remove,
      ComponentStorage.deleteEach_removeEach]
    cases w.components.lookupAll (·.deleteMask) ts with
    | panic => rfl
    | ub => rfl
    | ok p =>
      simp only [Res.bind_ok]
      cases w.components.withMask p.2 (ungroup · p.2 e) with
      | panic => rfl
      | ub => rfl
      | ok c =>
        simp only [Res.bind_ok]
        cases ComponentStorage.removeEach e p.1 c <;> rfl
  simp only [step, key]
  cases w.remove e ts with
  | panic => simp [Res.bind, retRes]
  | ub => simp [Res.bind, retRes]
  | ok p => simp [Res.bind, retRes]

/-! ### C16 -/

/-- C16 is false in general: right after `create` a given component does not read back. -/
theorem C16_false : ∃ (h : History Nat) (w w' : World Nat) (e : Entity), Reach World.empty h w ∧
    step w (.create [(0, 20), (1, 30)]) = some (.entity e, w') ∧ w'.viewGet 0 e = .ok none := by
  obtain ⟨rs, w, hr, hf⟩ := reach_witness (ops := mixOps.take 4)
    (f := fun _ w => decide ((step w (.create [(0, 20), (1, 30)])).map (fun p => (p.1, p.2.viewGet 0 ⟨1, 1⟩)) =
        some (.entity ⟨1, 1⟩, .ok none))) (by decide)
  simp only [decide_eq_true_eq] at hf
  cases hs : step w (.create [(0, 20), (1, 30)]) with
  | none => rw [hs] at hf; cases hf
  | some p =>
    rw [hs] at hf
    obtain ⟨r, w'⟩ := p
    simp only [Option.map_some, Option.some.injEq, Prod.mk.injEq] at hf
    obtain ⟨rfl, hf⟩ := hf
    exact ⟨_, w, w', _, hr, hs, hf⟩

/-- C16: `create` returns a new living entity with exactly the given components; everything else is unchanged.
Missing: histories that are not `Fair`. -/
theorem C16_partial {h : History V} {w : World V} (hr : Reach World.empty h w) {vs : List (TypeId × V)}
    (hg : Fair (calls h ++ [.create vs])) (hx : ¬ (life h).exhausted)
    (hreg : ∀ p ∈ vs, w.isRegistered p.1 = true) :
    ∃ e w', step w (.create vs) = some (.entity e, w') ∧ e ∉ (life h).issued ∧
      (∀ x, w'.containsEntity x = true ↔ x = e ∨ w.containsEntity x = true) ∧
      (∀ t, w.isRegistered t = true → w'.viewGet t e = .ok (lastOf vs t)) ∧
      (∀ t x, x ≠ e → w'.viewGet t x = w.viewGet t x) ∧
      (∀ t, w'.isRegistered t = w.isRegistered t) := by
  obtain ⟨hg, hf, hv⟩ := hg.snoc hr
  have hi := reach_invL hr hg
  obtain ⟨w', hs, hi'⟩ := reach_nextL hr hg hf hv
  rw [reach_lifeL_eq hr hg] at hx ⊢
  have hk : (mapOf (calls h)).knows (vs.map (·.1)) := by
    intro t ht
    obtain ⟨p, hp, rfl⟩ := List.mem_map.1 ht
    exact (hi.registered_iff _).1 (hreg p hp)
  have ha : (mapOf (calls h)).answer (.create vs) = .entity (mapOf (calls h)).life.nextEntity := by
    simp [MapWorld.answer, hx, hk]
  rw [ha] at hs
  have hnew : (mapOf (calls h)).life.nextEntity ∉ (mapOf (calls h)).life.issued := fun hc =>
    absurd ((hi.life.next_new hx).1 _ hc rfl) (Nat.lt_irrefl _)
  have hdead : (mapOf (calls h)).life.nextEntity ∉ (mapOf (calls h)).life.alive := fun hc =>
    hnew (hi.life.liveIssued _ (by simp [(hi.life.alive _).2 hc]))
  have hget : ∀ t x, ((mapOf (calls h)).next (.create vs)).table.get t x =
      if x = (mapOf (calls h)).life.nextEntity then (lastOf vs t).or ((mapOf (calls h)).table.get t x)
      else (mapOf (calls h)).table.get t x := by
    intro t x
    simp only [MapWorld.next, MapWorld.tableAfter, hx, if_false, known_all hk, Table.get_setAll_last]
  refine ⟨_, w', hs, hnew, fun x => ?_, fun t ht => ?_, fun t x hne => ?_, fun t => ?_⟩
  · rw [hi'.contains_iff, hi.contains_iff]
    simp only [MapWorld.next, ha, events, Life.run, List.foldl_cons, List.foldl_nil, Life.step, List.mem_cons]
  · rw [hi'.viewGet, if_pos (show t ∈ ((mapOf (calls h)).next (.create vs)).reg from (hi.registered_iff t).1 ht), hget,
      if_pos rfl, hi.get_dead hdead, Option.or_none]
  · rw [hi'.viewGet, hi.viewGet, hget, if_neg hne]
    rfl
  · rw [hi'.registered_eq, hi.registered_eq]
    rfl

example : Fair (goodOps.take 4 ++ [.create [(2, 12), (0, 13), (1, 14)]]) := by decide +kernel

/-! ### C31 (calls), C42 -/

/-- C31 is false in general: seven safe calls lead to undefined behaviour. -/
theorem C31_false : run World.empty
    ([.setLayout anyOrder [[0, 1]], .create [], .destroy ⟨0, 1⟩, .create [(0, 10)], .create [(0, 20), (1, 30)],
      .delete ⟨1, 1⟩ [1], .create [(0, 50), (1, 60)]] : List (Op Nat)) = none := by decide

/-- C31, calls: no good history runs into undefined behaviour. (Queries in between: `C31_query_partial`.) Missing:
histories that are not `Fair`. -/
theorem C31_partial {ops : List (Op V)} (hg : Fair ops) : ∃ rs w, run World.empty ops = some (rs, w) := by
  obtain ⟨w, hw, _⟩ := run_fair ops _ _ Inv.init.loose hg
  exact ⟨_, w, hw⟩

/-- C42 is false in general: the answers differ from those of the map. -/
theorem C42_false : ∃ (ops : List (Op Nat)) (rs : List (Ret Nat)), (run World.empty ops).map (·.1) = some rs ∧
    rs ≠ MapWorld.init.answers ops :=
  ⟨[.create [], .destroy ⟨0, 1⟩, .maintain, .destroy ⟨0, 1⟩], _, rfl, by decide⟩

/-- C42: every good history is answered as by the map of `Verif/Spec/Map.lean`, and afterwards liveness, registrations
and all reads agree with the map. Missing: histories that are not `Fair`. -/
theorem C42_partial {ops : List (Op V)} (hg : Fair ops) :
    ∃ w, run World.empty ops = some (MapWorld.init.answers ops, w) ∧
      (∀ e, w.containsEntity e = true ↔ e ∈ (mapOf ops).life.alive) ∧
      (∀ e, e ∈ w.entitiesSlice ↔ e ∈ (mapOf ops).life.alive) ∧
      (∀ t, w.isRegistered t = true ↔ t ∈ (mapOf ops).reg) ∧
      (∀ t e, w.viewGet t e = if t ∈ (mapOf ops).reg then .ok ((mapOf ops).table.get t e) else .panic) := by
  obtain ⟨w, hw, hi⟩ := run_fair ops _ _ Inv.init.loose hg
  exact ⟨w, hw, hi.contains_iff, hi.life.alive, hi.registered_iff, hi.viewGet⟩

/-- For worlds without groups the discipline of `maintain` is the only guard. (Writes to positions: `C21_at_partial`.) -/
theorem C42_ungrouped_partial {h : History V} {w : World V} (hr : Reach World.empty h w)
    (hn : ∀ op ∈ calls h, (∀ r gs, op ≠ .setLayout r gs) ∧ ∀ t pos v, op ≠ .writeAt t pos v)
    (hm : ∀ (h₁ h₂ : History V) (r : Ret V), h = h₁ ++ (.maintain, r) :: h₂ → (life h₁).freshKilled = false) :
    h.map (·.2) = MapWorld.init.answers (calls h) ∧
      (∀ t e, w.viewGet t e = if t ∈ (mapOf (calls h)).reg then .ok ((mapOf (calls h)).table.get t e) else .panic) := by
  have hg := (good_of_ungrouped hr hn hm).1.fair
  exact ⟨(reach_fair hr hg).2.1, (reach_invL hr hg).viewGet⟩

end Sparsey
