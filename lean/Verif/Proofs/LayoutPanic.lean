import Verif.Spec.LayoutPanic
import Verif.Proofs.LoneStep

/-!
What a `set_layout` that panics has placed.
-/

set_option autoImplicit false
set_option linter.unusedSimpArgs false

namespace Sparsey

open Res

variable {V : Type}

namespace ComponentStorage

theorem addGroups_stuck {f : GroupFamily} {ss gs ge : Nat} (h64 : ge < 64) : ∀ (rest : List Nat) (prev : Nat)
    (x y : Building V), MetasOK x.1 → gs ≤ x.1.groups.length → x.1.groups.length + rest.length = ge →
    (prev :: rest).Pairwise (· < ·) → (∀ a ∈ rest, a ≤ f.components.length) → addGroups f ss gs ge prev rest x = .panic y →
    Placed ((f.components.drop prev).take (((rest.filter (· < 16)).getLast?.getD prev) - prev)) x y
  | [], prev, x, y, _, _, _, _, _, h => by cases h
  | a :: rest, prev, (c, sets), y, hb, hgs, hge, hp, hl, h => by
    simp only [List.length_cons] at hge
    simp only at hgs hge
    have hpa : prev < a := (List.pairwise_cons.1 hp).1 a (.head _)
    have hp' := (List.pairwise_cons.1 hp).2
    rw [addGroups] at h
    obtain ⟨m1, e1, _⟩ := GroupMask.skipFromTo_ok (a := c.groups.length) (b := ge) h64 (by omega)
    by_cases h16 : a < 16
    · obtain ⟨m2, e2⟩ := QueryMask.include_ok h16
      obtain ⟨m3, e3⟩ := QueryMask.exclude_ok (Nat.le_of_lt hpa) h16
      simp only [e1, e2, e3, Res.bind_ok, Res.pure_eq, Outcome.ofRes_ok] at h
      have hal := hl a (.head _)
      obtain ⟨z, h4, h5, h6, h7⟩ := addComponents_total (f := f) (gs := gs) (ngs := c.groups.length) (ge := ge) hgs (by omega)
        h64 (a - prev) prev ({ c with groups := c.groups ++ [⟨ss, ss + prev, ss + a, m1, m2, m3, 0⟩] }, sets)
        hb (by omega) (by omega)
      simp only at h5 h6
      simp only [h4, Outcome.bind_ok] at h
      have hgl : z.1.groups.length = c.groups.length + 1 := by simp [h5]
      have h8 := addComponents_placed _ _ _ _ h4
      have h9 := addGroups_stuck h64 rest a z y h7 (by omega) (by omega) hp' (fun b hb => hl b (.tail _ hb)) h
      have hlast : ∃ q, ((a :: rest).filter (· < 16)).getLast?.getD prev = a + q ∧
          (rest.filter (· < 16)).getLast?.getD a = a + q := by
        have e0 : (a :: rest).filter (· < 16) = a :: rest.filter (· < 16) := by simp [h16]
        rw [e0]
        cases hr : rest.filter (· < 16) with
        | nil => exact ⟨0, by simp, by simp⟩
        | cons k l =>
          have hm : (k :: l).getLast (by simp) ∈ rest := by
            have h0 : (k :: l).getLast (by simp) ∈ k :: l := List.getLast_mem _
            have h0' : ∀ b ∈ k :: l, b ∈ rest := fun b hb => (List.mem_filter.1 (hr ▸ hb)).1
            exact h0' _ h0
          have := (List.pairwise_cons.1 hp').1 _ hm
          refine ⟨(k :: l).getLast (by simp) - a, ?_, ?_⟩
          · rw [List.getLast?_cons_cons, List.getLast?_eq_getLast_of_ne_nil (by simp)]
            simp only [Option.getD_some]
            omega
          · rw [List.getLast?_eq_getLast_of_ne_nil (by simp)]
            simp only [Option.getD_some]
            omega
      obtain ⟨q, e4, e5⟩ := hlast
      rw [e5] at h9
      rw [e4]
      have h10 : Placed ((f.components.drop prev).take (a - prev)) (c, sets) z :=
        ⟨h8.reg, h8.sets, h8.gone, h8.keys, h8.more, h8.other, h8.once, h8.twice⟩
      have h11 := h10.trans h9
      have e6 : a + q - prev = (a - prev) + q := by omega
      have e7 : a + q - a = q := by omega
      rw [e6, List.take_add, List.drop_drop]
      rw [e7] at h11
      rw [show prev + (a - prev) = a by omega]
      exact h11
    · simp only [e1, QueryMask.include_panic h16, Res.bind_ok, Res.bind_panic, Outcome.ofRes_panic] at h
      cases h
      have e0 : (a :: rest).filter (· < 16) = [] := by
        refine List.filter_eq_nil_iff.2 fun b hb => ?_
        have : a ≤ b := by
          rcases List.mem_cons.1 hb with rfl | hb
          · exact Nat.le_refl _
          · exact Nat.le_of_lt ((List.pairwise_cons.1 hp').1 b hb)
        simp only [decide_eq_true_eq]
        omega
      rw [e0]
      simpa using Placed.refl _

theorem addFamilies_stuck : ∀ (fs : List GroupFamily) (x y : Building V), FamsOK fs → BoundsOK x.1 →
    addFamilies fs x = .panic y → Placed (placedFrom x.1.groups.length fs) x y
  | [], x, y, _, _, h => by cases h
  | f :: fs, (c, sets), y, hf, hb, h => by
    obtain ⟨hF, _⟩ := hf f (.head _)
    have hlast : f.components.length ∈ f.arities := List.mem_of_getLast? hF.2.2
    have hne : f.arities ≠ [] := List.ne_nil_of_mem hlast
    have hpw : (0 :: f.arities).Pairwise (· < ·) :=
      List.pairwise_cons.2 ⟨fun a ha => by have := hF.2.1 a ha; omega, hF.1⟩
    obtain ⟨j1, j2⟩ := addGroups_bounds (f := f) (ss := c.components.length) (gs := c.groups.length)
      (ge := c.groups.length + f.arities.length) f.arities 0 (c, sets) hb rfl (Nat.le_refl _) rfl hpw
      (fun a ha => hF.mem_le ha)
    rw [addFamilies] at h
    rw [placedFrom]
    by_cases h64 : 64 ≤ c.groups.length + f.arities.length
    · rw [if_pos h64]
      obtain ⟨a, l, ha⟩ := List.exists_cons_of_ne_nil hne
      rw [ha, addGroups, GroupMask.skipFromTo_panic (by rw [ha] at h64; omega)] at h
      simp only [Res.bind_panic, Outcome.ofRes_panic, Outcome.bind_panic] at h
      cases h
      exact Placed.refl _
    · rw [if_neg h64]
      replace h64 : c.groups.length + f.arities.length < 64 := Nat.lt_of_not_le h64
      by_cases h16 : f.components.length < 16
      · rw [if_pos h16]
        obtain ⟨z, h1, h2, h3⟩ := j1 (.inr ⟨by omega, fun a ha => Nat.lt_of_le_of_lt (hF.mem_le ha) h16⟩)
        rw [h1, Outcome.bind_ok] at h
        have h4 := addGroups_placed _ _ _ _ hpw h1
        rw [hF.2.2] at h4
        simp only [Option.getD_some, Nat.sub_zero, List.drop_zero, List.take_length] at h4
        have h5 := addFamilies_stuck fs z y (fun f h => hf f (.tail _ h)) h2 h
        rw [h3] at h5
        exact h4.trans h5
      · rw [if_neg h16]
        obtain ⟨z, h1, h2⟩ := j2 fun hc => by
          rcases hc with hc | hc
          · exact hne hc
          · exact h16 (hc.2 _ hlast)
        rw [h1, Outcome.bind_panic] at h
        cases h
        have := addGroups_stuck h64 _ _ _ _ hb.metas (Nat.le_refl _) rfl hpw (fun a ha => hF.mem_le ha) h1
        simpa [GroupFamily.fitting] using this

theorem flatMap_keys {β : Type} : ∀ (sets : List (TypeId × CompSet V)), (sets.map (·.1)).Nodup → ∀ (g : CompSet V → List β),
    sets.flatMap (fun p => g p.2) = (sets.map (·.1)).flatMap fun t => ((sets.lookup t).map g).getD []
  | [], _, _ => rfl
  | (t, s) :: sets, h, g => by
    simp only [List.map_cons, List.nodup_cons] at h
    simp only [List.flatMap_cons, List.map_cons, List.lookup_cons, beq_self_eq_true, Option.map_some, Option.getD_some]
    rw [flatMap_keys sets h.2 g]
    congr 1
    refine List.flatMap_congr fun t' ht => ?_
    have hne : (t' == t) = false := by
      simp only [beq_eq_false_iff_ne, ne_eq]
      rintro rfl
      exact h.1 ht
    rw [hne]

/-- A `set_layout` that panics. -/
theorem setLayout_stuck {rank : TypeId → Nat} {c c' : ComponentStorage V} {l : GroupLayout} {es : List Entity}
    (hc : Static c) (hb : BoundsOK c) (hk : (c.metadata.map Prod.fst).Nodup) (hl : FamsOK l.families)
    (h : c.setLayout rank l es = .panic c') :
    (∀ t, (c'.meta? t).isSome ↔ t ∈ placedTypes l) ∧
    (∀ t, (placedTypes l).count t = 1 → c'.setOf t = some ((c.setOf t).getD CompSet.new)) ∧
    (∀ t, 2 ≤ (placedTypes l).count t → c'.setOf t = some CompSet.new) ∧
    c'.components.length = c.components.length + (placedTypes l).length ∧
    ∀ ts : List TypeId, ts.Nodup → (∀ t, t ∈ ts ↔ (c.meta? t).isSome) →
      (c.setLayoutDrops l).Perm ((ts.filter (· ∉ placedTypes l)).flatMap fun t => ((c.setOf t).map (·.components)).getD []) := by
  have hnf : ¬ LayoutFits l := fun hf => (setLayout_bounds rank hb hl es).2.2 hf c' h
  obtain ⟨sets, comps0, h1, h2, _, h4, _, h6⟩ := takeSets_ok c.metadata c.components hk
    (fun t m hm => hc.idx t m ((lookup_some hk t m).2 hm))
    (fun t t' m m' hm hm' => hc.inj t t' m m' ((lookup_some hk t m).2 hm) ((lookup_some hk t' m').2 hm'))
  have hex : c.extractSparseSets = .ok (sets, ⟨[], [], comps0⟩) := by simp [extractSparseSets, h1]
  have hb0 : BoundsOK (⟨[], [], comps0⟩ : ComponentStorage V) := ⟨by simp, by simp⟩
  obtain ⟨_, j2⟩ := addFamilies_bounds l.families (⟨[], [], comps0⟩, sets) hl hb0 (by simp)
  simp only [List.length_nil, Nat.zero_add] at j2
  obtain ⟨⟨c1, sets1⟩, k1, _⟩ := j2 fun hx => hnf ⟨fun f hf => by have := hx.1 f hf; omega, by
    rw [layoutGroups_eq]; have := hx.2; omega⟩
  have hpl := addFamilies_stuck _ _ _ hl hb0 k1
  unfold setLayout at h
  unfold setLayoutDrops
  rw [hex] at h ⊢
  simp only [k1] at h ⊢
  cases h
  have hlk : ∀ t, sets.lookup t = c.setOf t := h6
  refine ⟨fun t => ?_, fun t ht => ?_, fun t ht => ?_, ?_, fun ts hts htm => ?_⟩
  · rw [hpl.reg]
    simp [meta?, placedTypes]
  · obtain ⟨m, i1, i2⟩ := hpl.once t ht
    rw [setOf_meta i1, i2, hlk]
  · obtain ⟨m, i1, i2⟩ := hpl.twice t ht
    rw [setOf_meta i1, i2]
  · obtain ⟨l', i1, i2⟩ := hpl.more
    simp only at i1
    rw [i1, List.length_append, i2, h2]
    rfl
  · have hks : (sets1.map (·.1)).Nodup :=
      hpl.keys (by rw [show sets.map (·.1) = sets.map Prod.fst from rfl, h4]; exact hk)
    have hgone : ∀ t, t ∈ sets1.map (·.1) ↔ (c.meta? t).isSome ∧ t ∉ placedTypes l := by
      intro t
      rw [hpl.gone, show sets.map (·.1) = sets.map Prod.fst from rfl, h4, meta?, lookup_isSome]
      rfl
    have e1 : sets1.flatMap (fun p => p.2.clearDrops) = (sets1.map (·.1)).flatMap fun t =>
        ((c.setOf t).map (·.components)).getD [] := by
      rw [flatMap_keys sets1 hks CompSet.clearDrops]
      refine List.flatMap_congr fun t ht => ?_
      rw [hpl.sets t ((hgone t).1 ht).2, hlk]
      rfl
    rw [e1]
    refine List.Perm.flatMap_right _ ((List.perm_ext_iff_of_nodup hks (hts.filter _)).2 fun t => ?_)
    rw [hgone, List.mem_filter, htm, decide_eq_true_eq]

end ComponentStorage

end Sparsey
