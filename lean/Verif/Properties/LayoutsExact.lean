import Verif.Properties.Grouped

/-!
C25: exactly when a query gives the same in two worlds whose histories differ in their layouts only.
-/

set_option autoImplicit false
set_option linter.unusedSimpArgs false

namespace Sparsey
variable {V : Type}

theorem shows_injective {tb : Table V} {e e' : Entity} : ∀ {q : Query}, Part.entity ∈ q → ∀ {l : List (Shown V)},
    shows tb e q = some l → shows tb e' q = some l → e = e'
  | p :: ps, hm, l, h, h' => by
    rw [shows] at h h'
    rw [Option.bind_eq_some_iff] at h h'
    obtain ⟨x, h1, h2⟩ := h
    obtain ⟨x', h1', h2'⟩ := h'
    rw [Option.map_eq_some_iff] at h2 h2'
    obtain ⟨l1, h3, h4⟩ := h2
    obtain ⟨l1', h3', h4'⟩ := h2'
    rw [← h4'] at h4
    simp only [List.cons.injEq] at h4
    rcases List.mem_cons.1 hm with rfl | hm
    · simp only [Part.shows, Option.some.injEq] at h1 h1'
      rw [← h1, ← h1'] at h4
      simpa using h4.1
    · rw [h4.2] at h3
      exact shows_injective hm h3 h3'

/-- C25, exactly: if the same entities are yielded (`Yields`, computed from the calls) the items are the same up to order;
for queries that show the entity only then. Missing: the claim is that this is always so (`C25_false`); guards on the
histories as for C24. -/
theorem C25_exact_partial {h h' : History V} {w w' : World V} (hr : Reach World.empty h w) (hr' : Reach World.empty h' w')
    (hg : Fair (calls h)) (hg' : Fair (calls h')) (hsame : SameButLayouts (calls h) (calls h'))
    (hk : MapWorld.init.LayoutsKnown (calls h)) (hk' : MapWorld.init.LayoutsKnown (calls h'))
    {b b₁ b' b₁' : Borrows} {g i x : Query} {q q' : QueryAll V} (hq : QueryAll.new w b g i x = .ok (q, b₁))
    (hq' : QueryAll.new w' b' g i x = .ok (q', b₁')) :
    ∃ its its', q.items = .ok its ∧ q'.items = .ok its' ∧
      ((∀ e, (mapOf (calls h)).Yields (hidden (calls h)) g i x e ↔ (mapOf (calls h')).Yields (hidden (calls h')) g i x e) →
        (its.map Item.shown).Perm (its'.map Item.shown)) ∧
      (Part.entity ∈ g → (its.map Item.shown).Perm (its'.map Item.shown) →
        ∀ e, (mapOf (calls h)).Yields (hidden (calls h)) g i x e ↔
          (mapOf (calls h')).Yields (hidden (calls h')) g i x e) := by
  obtain ⟨es, its, h1, h2, h3, h4⟩ := C53_yields_partial hr hg hq
  obtain ⟨es', its', h1', h2', h3', h4'⟩ := C53_yields_partial hr' hg' hq'
  have hal : (mapOf (calls h)).SameData (mapOf (calls h')) := MapWorld.SameData.run ⟨rfl, rfl, fun _ => Iff.rfl⟩ hsame hk hk'
  refine ⟨its, its', h1, h1', fun hy => ?_, fun hm hp e => ?_⟩
  · have hp : es.Perm es' := (List.perm_ext_iff_of_nodup h2 h2').2 fun e => by rw [h4, h4', hy]
    have hp' : (its.map (fun it => some (Item.shown it))).Perm (its'.map fun it => some (Item.shown it)) := by
      rw [h3, h3', hal.table]
      exact hp.map _
    have := hp'.filterMap id
    simpa [List.filterMap_map, Function.comp_def] using this
  · have hp' : (es.map (fun e => shows (mapOf (calls h)).table e g)).Perm
        (es'.map fun e => shows (mapOf (calls h)).table e g) := by
      have := hp.map some
      rw [List.map_map, List.map_map] at this
      have h3'' : List.map (some ∘ Item.shown) its = _ := h3
      have h4'' : List.map (some ∘ Item.shown) its' = _ := h3'
      rw [h3'', h4'', ← hal.table] at this
      exact this
    have hone : ∀ {a c : List Entity} {u : List (Item V)},
        u.map (fun it => some it.shown) = a.map (fun e => shows (mapOf (calls h)).table e g) →
        (a.map (fun e => shows (mapOf (calls h)).table e g)).Perm (c.map fun e => shows (mapOf (calls h)).table e g) →
        ∀ e ∈ a, e ∈ c := by
      intro a c u hu hac e he
      have h5 := List.mem_map_of_mem (f := fun e => shows (mapOf (calls h)).table e g) he
      have h6 := h5
      rw [← hu] at h6
      obtain ⟨it, _, h7⟩ := List.mem_map.1 h6
      obtain ⟨e', h8, h9⟩ := List.mem_map.1 (hac.subset h5)
      have h7 : some it.shown = shows (mapOf (calls h)).table e g := h7
      have h9 : shows (mapOf (calls h)).table e' g = shows (mapOf (calls h)).table e g := h9
      rw [← h7] at h9
      rw [shows_injective hm h7.symm h9]
      exact h8
    rw [← h4, ← h4']
    constructor
    · exact hone h3 hp' e
    · refine hone (u := its') ?_ hp'.symm e
      rw [h3', ← hal.table]

/-- C25, exactly, after histories whose interrupted calls left no entity outside of its groups, for queries that exclude
components only: the same entities are yielded if and only if the query is iterated with a group in both worlds or in
neither, or no entity that has the required components has some of the excluded ones but not all. -/
theorem C25_grouping_partial {h h' : History V} (hsame : SameButLayouts (calls h) (calls h'))
    (hk : MapWorld.init.LayoutsKnown (calls h)) (hk' : MapWorld.init.LayoutsKnown (calls h'))
    (hh : hidden (calls h) = []) (hh' : hidden (calls h') = []) {g i x : Query} (hne : required g ++ required i ≠ [])
    (hx : AllRequired x) :
    (∀ e, (mapOf (calls h)).Yields (hidden (calls h)) g i x e ↔ (mapOf (calls h')).Yields (hidden (calls h')) g i x e) ↔
      ((Grouped (mapOf (calls h)).groups (required g ++ required i) (required x) ↔
        Grouped (mapOf (calls h')).groups (required g ++ required i) (required x)) ∨
      ∀ e, (mapOf (calls h)).Has (required g ++ required i) e → (∃ t ∈ required x, (mapOf (calls h)).table.get t e = none) →
        ∀ t ∈ required x, (mapOf (calls h)).table.get t e = none) := by
  have hal : (mapOf (calls h)).SameData (mapOf (calls h')) := MapWorld.SameData.run ⟨rfl, rfl, fun _ => Iff.rfl⟩ hsame hk hk'
  rw [hh, hh']
  simp only [MapWorld.Yields, MapWorld.LeftOut, MapWorld.Has, ← hal.table, ← hal.life, List.not_mem_nil, false_and,
    exists_false, not_false_eq_true, true_and, or_false]
  have hx' : ∀ p ∈ x, p.required.isSome = true := hx
  by_cases hG : Grouped (mapOf (calls h)).groups (required g ++ required i) (required x) <;>
  by_cases hG' : Grouped (mapOf (calls h')).groups (required g ++ required i) (required x) <;>
  simp only [hG, hG', true_implies, not_true_eq_false, not_false_eq_true, false_implies, and_true, true_and, iff_true,
    true_iff, iff_false, false_iff, true_or, false_or, iff_self, implies_true, hne, ne_eq]
  · constructor
    · intro hy e he hm
      exact (((hy e).1 ⟨he, .inr hm⟩).2).2
    · intro hy e
      constructor
      · rintro ⟨he, h1 | h1⟩
        · exact ⟨he, hx', by rw [h1]; simp⟩
        · exact ⟨he, hx', hy e he h1⟩
      · rintro ⟨he, _, h1⟩
        refine ⟨he, ?_⟩
        cases hq : required x with
        | nil => exact .inl rfl
        | cons t ts => exact .inr ⟨t, .head _, h1 t (by rw [hq]; exact .head _)⟩
  · constructor
    · intro hy e he hm
      exact (((hy e).2 ⟨he, .inr hm⟩).2).2
    · intro hy e
      constructor
      · rintro ⟨he, _, h1⟩
        refine ⟨he, ?_⟩
        cases hq : required x with
        | nil => exact .inl rfl
        | cons t ts => exact .inr ⟨t, .head _, h1 t (by rw [hq]; exact .head _)⟩
      · rintro ⟨he, h1 | h1⟩
        · exact ⟨he, hx', by rw [h1]; simp⟩
        · exact ⟨he, hx', hy e he h1⟩

/-- Histories that differ in their layouts: the second and third entity have some or all of the excluded components. The
query that excludes one component is iterated with a group in `b` but not in `c`, and agrees nevertheless. The query that
excludes two does not agree: with the group, in `a`, it yields the entity that has one of them. -/
example :
    let ops := fun gs => ([.register 0, .register 1, .register 2, .register 3, .setLayout anyOrder gs,
      .create [(0, 10), (1, 11)], .create [(0, 20), (1, 21), (2, 22)],
      .create [(0, 30), (1, 31), (2, 32), (3, 33)]] : List (Op Nat))
    let a := ops [[0, 1], [0, 1, 2, 3]]
    let b := ops [[0, 1], [0, 1, 2]]
    let c := ops []
    let y := fun o x => (mapOf o).life.alive.filter fun e => (mapOf o).Yields (hidden o) [.entity, .ref 0] [.ref 1] x e
    Fair a ∧ Fair b ∧ Fair c ∧ hidden a = [] ∧ hidden b = [] ∧ hidden c = [] ∧
    Grouped (mapOf a).groups [0, 1] [2, 3] ∧ Grouped (mapOf b).groups [0, 1] [2] ∧
    ¬ Grouped (mapOf c).groups [0, 1] [2, 3] ∧ ¬ Grouped (mapOf c).groups [0, 1] [2] ∧
    y a [.ref 2, .ref 3] = [⟨1, 1⟩, ⟨0, 1⟩] ∧ y c [.ref 2, .ref 3] = [⟨0, 1⟩] ∧
    y b [.ref 2] = [⟨0, 1⟩] ∧ y c [.ref 2] = [⟨0, 1⟩] := by
  decide +kernel

end Sparsey
