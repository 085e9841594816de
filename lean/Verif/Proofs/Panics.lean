import Verif.Proofs.Ranges
import Verif.Proofs.LayoutLimits

/-!
Group ranges are in bounds and never empty in every reachable world, even after caught panics of `add_group` and
`set_layout`. Grouping and ungrouping therefore never panic.
-/

set_option autoImplicit false
set_option linter.unusedSimpArgs false

namespace Sparsey
variable {V : Type}

/-! ### Families of a layout built with caught panics -/

/-- Every family is well formed by itself; families may overlap. -/
def FamsOK (fs : List GroupFamily) : Prop := ∀ f ∈ fs, FamilyOK f ∧ f.components.Nodup

theorem FamsOK.cons {f : GroupFamily} {fs : List GroupFamily} (hf : FamilyOK f ∧ f.components.Nodup) (h : FamsOK fs) :
    FamsOK (f :: fs) := fun x hx => by
  rcases List.mem_cons.1 hx with rfl | hx
  · exact hf
  · exact h x hx

theorem tryAddGroup_fam {f f' : GroupFamily} (hf : FamilyOK f ∧ f.components.Nodup) {cs : List TypeId} (hcs : cs.Nodup)
    (h2 : 2 ≤ cs.length) {b : Bool} (h : f.tryAddGroup cs = .ok (b, f')) : FamilyOK f' ∧ f'.components.Nodup := by
  have hk := tryAddGroup_ok hf.1 hf.2 hcs h2
  by_cases hm : Meet f.components cs
  · by_cases hfit : Fits f cs
    · obtain ⟨f1, h3, h4, h5, _⟩ := hk.fits hm hfit
      rw [h3] at h
      cases h
      exact ⟨h4, h5⟩
    · rcases hk.unfit hm hfit with h3 | ⟨f1, h3, h4, h5, _⟩
      · rw [h3] at h
        cases h
      · rw [h3] at h
        cases h
        exact ⟨h4, h5⟩
  · rw [hk.apart hm] at h
    cases h
    exact hf

theorem tryAll_fams {cs : List TypeId} (hcs : cs.Nodup) (h2 : 2 ≤ cs.length) : ∀ (fs : List GroupFamily), FamsOK fs →
    (GroupLayout.tryAll cs fs).Leaves FamsOK
  | [], h => h
  | f :: fs, h => by
    rw [GroupLayout.tryAll]
    have ih := tryAll_fams hcs h2 fs (fun f hf => h f (.tail _ hf))
    cases h1 : f.tryAddGroup cs with
    | panic => exact h
    | ub => trivial
    | ok p =>
      obtain ⟨b, f'⟩ := p
      have hf := tryAddGroup_fam (h f (.head _)) hcs h2 h1
      simp only
      cases h3 : GroupLayout.tryAll cs fs with
      | ok n fs' => rw [h3] at ih; exact FamsOK.cons hf ih
      | panic fs' => rw [h3] at ih; exact FamsOK.cons hf ih
      | ub => trivial

theorem FamilyOK.new {cs : List TypeId} (h2 : 2 ≤ cs.length) : FamilyOK (GroupFamily.new cs) :=
  ⟨by simp [GroupFamily.new], by simp [GroupFamily.new, h2], rfl⟩

theorem addGroup_fams {l : GroupLayout} (h : FamsOK l.families) (g : List TypeId) :
    (l.addGroup g).Leaves (fun l => FamsOK l.families) := by
  unfold GroupLayout.addGroup
  have hn : (dedupTypes (sortTypes g)).Nodup := normal_nodup g
  simp only
  split
  · exact h
  · rename_i h1
    split
    · exact h
    · have ht := tryAll_fams hn (by omega) l.families h
      cases h3 : GroupLayout.tryAll (dedupTypes (sortTypes g)) l.families with
      | panic fs => rw [h3] at ht; exact ht
      | ub => trivial
      | ok n fs =>
        rw [h3] at ht
        simp only
        split
        · intro f hf
          rcases List.mem_append.1 hf with hf | hf
          · exact ht f hf
          · simp only [List.mem_singleton] at hf
            subst hf
            exact ⟨FamilyOK.new (by omega), hn⟩
        · split <;> exact ht

theorem addGroups_fams : ∀ (gs : List (List TypeId)) (l : GroupLayout), FamsOK l.families →
    FamsOK (l.addGroups gs).2.families
  | [], _, h => h
  | g :: gs, l, h => by
    have h1 := addGroup_fams h g
    rw [GroupLayout.addGroups]
    cases h2 : l.addGroup g with
    | ok u l' => rw [h2] at h1; exact addGroups_fams gs l' h1
    | panic l' => rw [h2] at h1; exact addGroups_fams gs l' h1
    | ub => exact addGroups_fams gs l h

/-- However the layout was built, its families are well formed one by one. -/
theorem build_fams (gs : List (List TypeId)) : FamsOK (GroupLayout.build gs).2.families :=
  addGroups_fams gs .empty (by simp [FamsOK, GroupLayout.empty])

/-! ### Bounds of group ranges -/

/-- The ranges of all groups are in order, not empty and in bounds; so are the storage indexes. -/
structure BoundsOK (c : ComponentStorage V) : Prop where
  groups : ∀ g ∈ c.groups, g.storageStart ≤ g.newStorageStart ∧ g.newStorageStart < g.storageEnd ∧
    g.storageEnd ≤ c.components.length
  metas : ∀ p ∈ c.metadata, p.2.storageIndex < c.components.length

theorem BoundsOK.of_shape {c c' : ComponentStorage V} (h : BoundsOK c) (hs : Shape c c') : BoundsOK c' where
  groups g hg := by
    obtain ⟨i, hi⟩ := List.mem_iff_getElem?.1 hg
    obtain ⟨g', h1, h2⟩ := hs.stat.get hi
    rw [Group.stat_start h2, Group.stat_newStart h2, Group.stat_end h2, hs.len]
    exact h.groups g' (List.mem_of_getElem? h1)
  metas p hp := by
    rw [hs.len]
    exact h.metas p (by rw [← hs.md]; exact hp)

/-- Adding a set with its metadata. -/
theorem BoundsOK.push {c : ComponentStorage V} (h : BoundsOK c) (t : TypeId) (m : ComponentMetadata)
    (hm : m.storageIndex = c.components.length) (s : CompSet V) :
    BoundsOK { c with metadata := ComponentStorage.insertMeta c.metadata t m, components := c.components ++ [s] } where
  groups g hg := by
    obtain ⟨h1, h2, h3⟩ := h.groups g hg
    exact ⟨h1, h2, by simp only [List.length_append]; omega⟩
  metas p hp := by
    simp only [ComponentStorage.insertMeta, List.mem_cons, List.mem_filter] at hp
    simp only [List.length_append, List.length_singleton]
    rcases hp with rfl | hp
    · simp only
      omega
    · have := h.metas p hp.1
      omega

namespace ComponentStorage

/-- Without regard to the groups: storage indexes are in bounds. -/
def MetasOK (c : ComponentStorage V) : Prop := ∀ p ∈ c.metadata, p.2.storageIndex < c.components.length

/-- With indexes and masks in range the loop over the components of a group succeeds. -/
theorem addComponents_total {f : GroupFamily} {gs ngs ge : Nat} (h1 : gs ≤ ngs) (h2 : ngs ≤ ge) (h3 : ge < 64) :
    ∀ (n idx : Nat) (x : Building V), MetasOK x.1 → idx + n ≤ f.components.length → idx + n ≤ 16 →
      ∃ y, addComponents f gs ngs ge idx n x = .ok () y ∧ y.1.groups = x.1.groups ∧
        y.1.components.length = x.1.components.length + n ∧ MetasOK y.1
  | 0, _, x, hx, _, _ => ⟨x, rfl, rfl, rfl, hx⟩
  | n + 1, idx, (c, sets), hx, hl, h16 => by
    rw [addComponents]
    obtain ⟨m1, e1, _⟩ := GroupMask.fromTo_ok (a := gs) (b := ge) h3 (by omega)
    obtain ⟨m2, e2, _⟩ := GroupMask.fromTo_ok (a := ngs) (b := ge) h3 (by omega)
    obtain ⟨m3, e3, _⟩ := StorageMask.single_ok (a := idx) (by omega)
    have hidx : idx < f.components.length := by omega
    simp only [List.getElem?_eq_getElem hidx, Res.checked_some, Res.bind_ok, e1, e2, e3, Res.pure_eq, Outcome.ofRes_ok]
    obtain ⟨y, h4, h5, h6, h7⟩ := addComponents_total (f := f) h1 h2 h3 n (idx + 1)
      (⟨c.groups, insertMeta c.metadata f.components[idx]
        ⟨c.components.length, m1, m2, some ⟨asU8 gs, asU8 c.groups.length, m3⟩⟩,
        c.components ++ [(removeSet sets f.components[idx]).1.getD CompSet.new]⟩,
        (removeSet sets f.components[idx]).2)
      (fun p hp => by
        simp only [insertMeta, List.mem_cons, List.mem_filter] at hp
        simp only [List.length_append, List.length_singleton]
        rcases hp with rfl | hp
        · simp only
          omega
        · have := hx p hp.1
          simp only at this
          omega) (by omega) (by omega)
    refine ⟨y, h4, h5, ?_, h7⟩
    simp only [List.length_append, List.length_singleton] at h6
    omega

theorem QueryMask.include_ok {a : Nat} (h : a < 16) : ∃ m, QueryMask.include a = .ok m := by
  obtain ⟨m, e, _⟩ := StorageMask.fromTo_ok h (Nat.zero_le a)
  exact ⟨⟨m, 0#16⟩, by simp [QueryMask.include, e]⟩

theorem QueryMask.exclude_ok {p a : Nat} (hp : p ≤ a) (h : a < 16) : ∃ m, QueryMask.exclude p a = .ok m := by
  obtain ⟨m, e, _⟩ := StorageMask.fromTo_ok (show p < 16 by omega) (Nat.zero_le p)
  obtain ⟨m', e', _⟩ := StorageMask.fromTo_ok h hp
  exact ⟨⟨m, m'⟩, by simp [QueryMask.exclude, e, e']⟩

theorem QueryMask.include_panic {a : Nat} (h : ¬ a < 16) : QueryMask.include a = .panic := by
  simp [QueryMask.include, StorageMask.fromTo_panic (a := 0) (b := a) (by omega)]

/-- The loop over the groups of a family succeeds exactly below the maxima; either way all ranges are in bounds. -/
theorem addGroups_bounds {f : GroupFamily} {ss gs ge : Nat} : ∀ (rest : List Nat) (prev : Nat) (x : Building V),
    BoundsOK x.1 → x.1.components.length = ss + prev → gs ≤ x.1.groups.length → x.1.groups.length + rest.length = ge →
    (prev :: rest).Pairwise (· < ·) → (∀ a ∈ rest, a ≤ f.components.length) →
    (rest = [] ∨ (ge < 64 ∧ ∀ a ∈ rest, a < 16) → ∃ y, addGroups f ss gs ge prev rest x = .ok () y ∧ BoundsOK y.1 ∧
      y.1.groups.length = ge) ∧
    (¬ (rest = [] ∨ (ge < 64 ∧ ∀ a ∈ rest, a < 16)) → ∃ y, addGroups f ss gs ge prev rest x = .panic y ∧ BoundsOK y.1)
  | [], prev, x, hb, _, _, hge, _, _ => ⟨fun _ => ⟨x, rfl, hb, by simpa using hge⟩, fun h => (h (.inl rfl)).elim⟩
  | a :: rest, prev, (c, sets), hb, hc, hgs, hge, hp, hl => by
    simp only [List.length_cons] at hge
    simp only at hc hgs hge
    have hpa : prev < a := (List.pairwise_cons.1 hp).1 a (.head _)
    rw [addGroups]
    by_cases h64 : ge < 64
    · obtain ⟨m1, e1, _⟩ := GroupMask.skipFromTo_ok (a := c.groups.length) (b := ge) h64 (by omega)
      by_cases h16 : a < 16
      · obtain ⟨m2, e2⟩ := QueryMask.include_ok h16
        obtain ⟨m3, e3⟩ := QueryMask.exclude_ok (Nat.le_of_lt hpa) h16
        simp only [e1, e2, e3, Res.bind_ok, Res.pure_eq, Outcome.ofRes_ok]
        have hal := hl a (.head _)
        obtain ⟨y, h4, h5, h6, h7⟩ := addComponents_total (f := f) (gs := gs) (ngs := c.groups.length) (ge := ge) hgs (by omega)
          h64 (a - prev) prev ({ c with groups := c.groups ++ [⟨ss, ss + prev, ss + a, m1, m2, m3, 0⟩] }, sets)
          hb.metas (by omega) (by omega)
        simp only at h5 h6
        simp only [h4, Outcome.bind_ok]
        have hy : y.1.components.length = ss + a := by omega
        have hgl : y.1.groups.length = c.groups.length + 1 := by simp [h5]
        have hby : BoundsOK y.1 := by
          refine ⟨fun g hg => ?_, h7⟩
          rw [h5] at hg
          rcases List.mem_append.1 hg with hg | hg
          · obtain ⟨i1, i2, i3⟩ := hb.groups g hg
            exact ⟨i1, i2, by simp only at i3; omega⟩
          · simp only [List.mem_singleton] at hg
            subst hg
            exact ⟨Nat.le_add_right _ _, by simp only; omega, by simp only; omega⟩
        obtain ⟨j1, j2⟩ := addGroups_bounds (f := f) (ss := ss) (gs := gs) (ge := ge) rest a y hby hy (by omega) (by omega)
          (List.pairwise_cons.1 hp).2 (fun b hb => hl b (.tail _ hb))
        refine ⟨fun h => j1 ?_, fun h => j2 fun hr => h ?_⟩
        · rcases h with h | h
          · cases h
          · exact .inr ⟨h.1, fun b hb => h.2 b (.tail _ hb)⟩
        · refine .inr ⟨h64, fun b hb => ?_⟩
          rcases List.mem_cons.1 hb with rfl | hb
          · exact h16
          · rcases hr with rfl | hr
            · cases hb
            · exact hr.2 b hb
      · simp only [e1, QueryMask.include_panic h16, Res.bind_ok, Res.bind_panic, Outcome.ofRes_panic]
        refine ⟨fun h => ?_, fun _ => ⟨_, rfl, hb⟩⟩
        rcases h with h | h
        · cases h
        · exact absurd (h.2 a (.head _)) h16
    · rw [GroupMask.skipFromTo_panic (by omega)]
      simp only [Res.bind_panic, Outcome.ofRes_panic]
      refine ⟨fun h => ?_, fun _ => ⟨_, rfl, hb⟩⟩
      rcases h with h | h
      · cases h
      · exact absurd h.1 h64

/-- The loop over the families succeeds exactly below the maxima; either way all ranges are in bounds. -/
theorem addFamilies_bounds : ∀ (fs : List GroupFamily) (x : Building V), FamsOK fs → BoundsOK x.1 →
    x.1.groups.length < 64 →
    ((∀ f ∈ fs, f.components.length < 16) ∧ x.1.groups.length + (fs.flatMap famGroups).length < 64 →
      ∃ y, addFamilies fs x = .ok () y ∧ BoundsOK y.1 ∧
        y.1.groups.length = x.1.groups.length + (fs.flatMap famGroups).length) ∧
    (¬ ((∀ f ∈ fs, f.components.length < 16) ∧ x.1.groups.length + (fs.flatMap famGroups).length < 64) →
      ∃ y, addFamilies fs x = .panic y ∧ BoundsOK y.1)
  | [], x, _, hb, h64 => ⟨fun _ => ⟨x, rfl, hb, rfl⟩, fun h => (h ⟨by simp, h64⟩).elim⟩
  | f :: fs, (c, sets), hf, hb, h64 => by
    obtain ⟨hF, _⟩ := hf f (.head _)
    have hlast : f.components.length ∈ f.arities := List.mem_of_getLast? hF.2.2
    have hne : f.arities ≠ [] := List.ne_nil_of_mem hlast
    have hfl : (famGroups f).length = f.arities.length := by simp [famGroups]
    have hpw : (0 :: f.arities).Pairwise (· < ·) :=
      List.pairwise_cons.2 ⟨fun a ha => by have := hF.2.1 a ha; omega, hF.1⟩
    obtain ⟨j1, j2⟩ := addGroups_bounds (f := f) (ss := c.components.length) (gs := c.groups.length)
      (ge := c.groups.length + f.arities.length) f.arities 0 (c, sets) hb rfl (Nat.le_refl _) rfl hpw
      (fun a ha => hF.mem_le ha)
    have hall : (∀ a ∈ f.arities, a < 16) ↔ f.components.length < 16 :=
      ⟨fun h => h _ hlast, fun h a ha => Nat.lt_of_le_of_lt (hF.mem_le ha) h⟩
    simp only [List.flatMap_cons, List.length_append, hfl, List.forall_mem_cons]
    rw [addFamilies]
    by_cases hok : c.groups.length + f.arities.length < 64 ∧ f.components.length < 16
    · obtain ⟨y, h1, h2, h3⟩ := j1 (.inr ⟨hok.1, hall.2 hok.2⟩)
      simp only [h1, Outcome.bind_ok]
      obtain ⟨i1, i2⟩ := addFamilies_bounds fs y (fun f h => hf f (.tail _ h)) h2 (by omega)
      rw [h3] at i1 i2
      refine ⟨fun h => ?_, fun h => i2 fun h' => h ⟨⟨hok.2, h'.1⟩, by omega⟩⟩
      obtain ⟨z, k1, k2, k3⟩ := i1 ⟨h.1.2, by have := h.2; omega⟩
      exact ⟨z, k1, k2, by omega⟩
    · obtain ⟨y, h1, h2⟩ := j2 (fun h => by
        rcases h with h | h
        · exact hne h
        · exact hok ⟨h.1, hall.1 h.2⟩)
      simp only [h1, Outcome.bind_panic]
      refine ⟨fun h => ?_, fun _ => ⟨y, rfl, h2⟩⟩
      exact absurd ⟨by have := h.2; omega, h.1.1⟩ hok

theorem addUngrouped_bounds : ∀ (l : List (TypeId × CompSet V)) (c : ComponentStorage V), BoundsOK c →
    BoundsOK (addUngrouped l c) ∧ (addUngrouped l c).groups = c.groups
  | [], c, h => ⟨h, rfl⟩
  | (t, s) :: l, c, h => by
    rw [addUngrouped]
    exact addUngrouped_bounds l _ (h.push t _ rfl s)

/-! ### Grouping does not panic -/

theorem swapAllTo_np {q x : Nat} : ∀ (l : List (CompSet V)), swapAllTo q x l ≠ .panic
  | [] => by simp [swapAllTo]
  | s :: ss => by
    have ih := swapAllTo_np (q := q) (x := x) ss
    have h1 : swapTo s q x ≠ .panic := by
      unfold swapTo
      have h2 : s.sparse.getSparseUnchecked x ≠ .panic := by
        unfold SparseVec.getSparseUnchecked
        split <;> simp
      cases h3 : s.sparse.getSparseUnchecked x with
      | panic => exact absurd h3 h2
      | ub => simp
      | ok d =>
        simp only [Res.bind_ok]
        split
        · unfold CompSet.swap SparseVec.swapNonoverlapping
          cases s.entities[d]? with
          | none => simp
          | some ea =>
            cases s.entities[q]? with
            | none => simp
            | some eb =>
              simp only [Res.unchecked_some, Res.bind_ok]
              split
              · split
                · simp
                · cases s.components[d]? with
                  | none => simp
                  | some a =>
                    cases s.components[q]? with
                    | none => simp
                    | some b => simp
              · simp
        · simp
    rw [swapAllTo]
    cases h3 : swapTo s q x with
    | panic => exact absurd h3 h1
    | ub => simp
    | ok s' =>
      cases h4 : swapAllTo q x ss with
      | panic => exact absurd h4 ih
      | ub => simp
      | ok ss' => simp

theorem getGroupStatus_np (l : List (CompSet V)) (n : Nat) (e : Entity) : getGroupStatus l n e ≠ .panic := by
  unfold getGroupStatus
  cases l with
  | nil => simp
  | cons a l =>
    simp only
    split
    · simp
    · split <;> simp

theorem swapRange_np {comps : List (CompSet V)} {a b q x : Nat} (h1 : a ≤ b) (h2 : b ≤ comps.length) :
    swapRange comps a b q x ≠ .panic := by
  unfold swapRange compRange
  rw [if_pos ⟨h1, h2⟩]
  simp only [Res.bind_ok]
  cases h : swapAllTo q x ((comps.drop a).take (b - a)) with
  | panic => exact absurd h (swapAllTo_np _)
  | ub => simp
  | ok l => simp

/-- Ranges in bounds, for the sets and groups alone. -/
def SetsBounds (s : Sets V) : Prop :=
  ∀ g ∈ s.2, g.storageStart ≤ g.newStorageStart ∧ g.newStorageStart < g.storageEnd ∧ g.storageEnd ≤ s.1.length

theorem SetsBounds.of_shape {a b : Sets V} (h : SetsBounds a) (hs : SetsShape a b) : SetsBounds b := by
  intro g hg
  obtain ⟨i, hi⟩ := List.mem_iff_getElem?.1 hg
  obtain ⟨g', h1, h2⟩ := hs.2.get hi
  rw [Group.stat_start h2, Group.stat_newStart h2, Group.stat_end h2, hs.1]
  exact h g' (List.mem_of_getElem? h1)

theorem groupLoop_np {e : Entity} : ∀ (fuel : Nat) (m : BitVec 64) (s : Sets V), SetsBounds s →
    groupLoop e fuel m s ≠ .panic := by
  intro fuel
  induction fuel with
  | zero =>
    intro m s hs
    obtain ⟨comps, groups⟩ := s
    rw [groupLoop]
    cases bitNext m <;> simp
  | succ fuel ih =>
    intro m s hs
    obtain ⟨comps, groups⟩ := s
    rw [groupLoop]
    cases hm : bitNext m with
    | none => simp
    | some p =>
      obtain ⟨i, m'⟩ := p
      simp only
      cases hg : groups[i]? with
      | none => simp
      | some g =>
        obtain ⟨b1, b2, b3⟩ := hs g (List.mem_of_getElem? hg)
        simp only at b3
        simp only [Res.unchecked_some, Res.bind_ok, compRange, if_pos (show g.newStorageStart ≤ g.storageEnd ∧
          g.storageEnd ≤ comps.length from ⟨by omega, b3⟩)]
        cases hst : getGroupStatus ((comps.drop g.newStorageStart).take (g.storageEnd - g.newStorageStart)) g.len e with
        | panic => exact absurd hst (getGroupStatus_np _ _ _)
        | ub => simp
        | ok st =>
          simp only [Res.bind_ok]
          cases st with
          | incomplete => exact ih _ _ hs
          | grouped => exact ih _ _ hs
          | ungrouped =>
            simp only
            cases hgc : groupComponents comps g e with
            | panic =>
              exfalso
              unfold groupComponents at hgc
              cases h1 : swapRange comps g.storageStart g.storageEnd g.len e.sparse with
              | panic => exact swapRange_np (by omega) b3 h1
              | ub => rw [h1] at hgc; simp at hgc
              | ok c => rw [h1] at hgc; simp at hgc
            | ub => simp
            | ok r =>
              obtain ⟨comps', g'⟩ := r
              obtain ⟨l1, n, rfl⟩ := groupComponents_shape hgc
              exact ih _ _ (hs.of_shape ⟨l1, SameStat.set hg n⟩)

theorem ungroupStep_np {e : Entity} {i : Nat} {s : Sets V} (hs : SetsBounds s) : ungroupStep e i s ≠ .panic := by
  obtain ⟨comps, groups⟩ := s
  rw [ungroupStep]
  cases hg : groups[i]? with
  | none => simp
  | some g =>
    obtain ⟨b1, b2, b3⟩ := hs g (List.mem_of_getElem? hg)
    simp only at b3
    simp only [Res.unchecked_some, Res.bind_ok, compRange, if_pos (show g.newStorageStart ≤ g.storageEnd ∧
      g.storageEnd ≤ comps.length from ⟨by omega, b3⟩)]
    cases hst : getGroupStatus ((comps.drop g.newStorageStart).take (g.storageEnd - g.newStorageStart)) g.len e with
    | panic => exact absurd hst (getGroupStatus_np _ _ _)
    | ub => simp
    | ok st =>
      simp only [Res.bind_ok]
      cases st with
      | incomplete => simp
      | ungrouped => simp
      | grouped =>
        simp only
        cases hgc : ungroupComponents comps g e with
        | panic =>
          exfalso
          unfold ungroupComponents at hgc
          split at hgc
          · cases hgc
          · cases h1 : swapRange comps g.storageStart g.storageEnd (g.len - 1) e.sparse with
            | panic => exact swapRange_np (by omega) b3 h1
            | ub => rw [h1] at hgc; simp at hgc
            | ok c => rw [h1] at hgc; simp at hgc
        | ub => simp
        | ok r => simp

theorem ungroupLoop_np {e : Entity} : ∀ (fuel : Nat) (m : BitVec 64) (s : Sets V), SetsBounds s →
    ungroupLoop e fuel m s ≠ .panic := by
  intro fuel
  induction fuel with
  | zero =>
    intro m s hs
    rw [ungroupLoop]
    cases bitNextBack m <;> simp
  | succ fuel ih =>
    intro m s hs
    rw [ungroupLoop]
    cases hm : bitNextBack m with
    | none => simp
    | some p =>
      obtain ⟨i, m'⟩ := p
      simp only
      cases h1 : ungroupStep e i s with
      | panic => exact absurd h1 (ungroupStep_np hs)
      | ub => simp
      | ok s' => exact ih _ _ (hs.of_shape (ungroupStep_shape h1))

theorem ungroupAllLoop_np {e : Entity} : ∀ (n : Nat) (s : Sets V), SetsBounds s → ungroupAllLoop e n s ≠ .panic
  | 0, s, _ => by simp [ungroupAllLoop]
  | n + 1, s, hs => by
    rw [ungroupAllLoop]
    cases h1 : ungroupStep e n s with
    | panic => exact absurd h1 (ungroupStep_np hs)
    | ub => simp
    | ok s' => exact ungroupAllLoop_np n s' (hs.of_shape (ungroupStep_shape h1))

theorem groupEntities_np {m : GroupMask} : ∀ (es : List Entity) (s : Sets V), SetsBounds s →
    groupEntities m es s ≠ .panic
  | [], s, _ => by simp [groupEntities]
  | e :: es, s, hs => by
    rw [groupEntities]
    cases h1 : group s m e with
    | panic => exact absurd h1 (groupLoop_np _ _ _ hs)
    | ub => simp
    | ok s' => exact groupEntities_np es s' (hs.of_shape (groupLoop_shape _ _ _ _ h1))

theorem withMask_np {c : ComponentStorage V} {m : GroupMask} {f : Sets V → Res (Sets V)}
    (hf : f (c.components, c.groups) ≠ .panic) : c.withMask m f ≠ .panic := by
  unfold withMask
  split
  · simp
  · cases h1 : f (c.components, c.groups) with
    | panic => exact absurd h1 hf
    | ub => simp
    | ok s => simp

theorem takeSets_total : ∀ (md : List (TypeId × ComponentMetadata)) (comps : List (CompSet V)),
    (∀ p ∈ md, p.2.storageIndex < comps.length) → ∃ sets comps', takeSets md comps = .ok (sets, comps') ∧
      comps'.length = comps.length
  | [], comps, _ => ⟨[], comps, rfl, rfl⟩
  | (t, m) :: md, comps, h => by
    have hlt := h (t, m) (.head _)
    simp only at hlt
    obtain ⟨sets, comps', h1, h2⟩ := takeSets_total md (comps.set m.storageIndex CompSet.new)
      (fun p hp => by rw [List.length_set]; exact h p (.tail _ hp))
    exact ⟨(t, comps[m.storageIndex]) :: sets, comps', by simp [takeSets, List.getElem?_eq_getElem hlt, h1],
      by simpa using h2⟩

/-- `set_layout` panics exactly for layouts at the maxima; either way all ranges are in bounds. -/
theorem setLayout_bounds (rank : TypeId → Nat) {c : ComponentStorage V} (hc : BoundsOK c) {l : GroupLayout}
    (hl : FamsOK l.families) (es : List Entity) :
    (c.setLayout rank l es).Leaves BoundsOK ∧
    (¬ LayoutFits l → ∃ c', c.setLayout rank l es = .panic c') ∧
    (LayoutFits l → ∀ c', c.setLayout rank l es ≠ .panic c') := by
  obtain ⟨sets, comps', h1, h2⟩ := takeSets_total c.metadata c.components hc.metas
  have hex : c.extractSparseSets = .ok (sets, ⟨[], [], comps'⟩) := by simp [extractSparseSets, h1]
  have hb0 : BoundsOK (⟨[], [], comps'⟩ : ComponentStorage V) := ⟨by simp, by simp⟩
  obtain ⟨j1, j2⟩ := addFamilies_bounds l.families (⟨[], [], comps'⟩, sets) hl hb0 (by simp)
  simp only [List.length_nil, Nat.zero_add] at j1 j2
  have hfit : ((∀ f ∈ l.families, f.components.length < 16) ∧ (l.families.flatMap famGroups).length < 64) ↔
      LayoutFits l := by
    unfold LayoutFits
    rw [layoutGroups_eq]
    constructor
    · rintro ⟨i1, i2⟩
      exact ⟨fun f hf => by have := i1 f hf; omega, by omega⟩
    · rintro ⟨i1, i2⟩
      exact ⟨fun f hf => by have := i1 f hf; omega, by omega⟩
  rw [hfit] at j1 j2
  unfold setLayout
  rw [hex]
  simp only
  by_cases hf : LayoutFits l
  · obtain ⟨⟨c1, sets1⟩, k1, k2, k3⟩ := j1 hf
    rw [k1]
    simp only at k2 k3 ⊢
    obtain ⟨k4, k5⟩ := addUngrouped_bounds (sortByRank rank sets1) c1 k2
    have h64 : (addUngrouped (sortByRank rank sets1) c1).groups.length < 64 := by
      rw [k5, k3]
      have := hf.2
      rw [layoutGroups_eq] at this
      omega
    obtain ⟨m, e, _⟩ := GroupMask.fromTo_ok h64 (Nat.zero_le _)
    rw [e]
    simp only
    have hnp := groupEntities_np (m := m) es
      ((addUngrouped (sortByRank rank sets1) c1).components, (addUngrouped (sortByRank rank sets1) c1).groups) k4.groups
    cases hge : groupEntities m es
      ((addUngrouped (sortByRank rank sets1) c1).components, (addUngrouped (sortByRank rank sets1) c1).groups) with
    | panic => exact absurd hge hnp
    | ub => exact ⟨trivial, fun h => absurd hf h, by simp⟩
    | ok s =>
      obtain ⟨comps2, groups2⟩ := s
      obtain ⟨s1, s2⟩ := groupEntities_shape _ _ _ hge
      exact ⟨k4.of_shape ⟨rfl, s1, s2⟩, fun h => absurd hf h, by simp⟩
  · obtain ⟨⟨c1, sets1⟩, k1, k2⟩ := j2 hf
    rw [k1]
    exact ⟨k2, fun _ => ⟨_, rfl⟩, fun h => absurd h hf⟩

theorem register_bounds {c : ComponentStorage V} (h : BoundsOK c) (t : TypeId) : BoundsOK (c.register t).2 := by
  unfold register
  split
  · exact h
  · exact h.push t _ rfl _

end ComponentStorage

/-! ### Every reachable world -/

theorem step_bounds {w w' : World V} {op : Op V} {r : Ret V} (h : step w op = some (r, w'))
    (hw : BoundsOK w.components) : BoundsOK w'.components := by
  by_cases hk : op.keepsTypes
  · exact hw.of_shape (step_shape h hk)
  · cases op <;> simp only [Op.keepsTypes, not_true_eq_false] at hk
    · rename_i t
      simp only [step, Option.some.injEq, Prod.mk.injEq] at h
      rw [← h.2]
      exact ComponentStorage.register_bounds hw t
    · rename_i rank gs
      simp only [step] at h
      refine retOutcome_some (P := fun w => BoundsOK w.components) h ?_
      have := (ComponentStorage.setLayout_bounds rank hw (build_fams gs) w.entities.asSlice).1
      unfold World.setLayout
      generalize w.components.setLayout rank (GroupLayout.build gs).2 w.entities.asSlice = o at this ⊢
      cases o with
      | ok a c => exact this
      | panic c => exact this
      | ub => trivial

theorem reach_bounds {h : History V} {w : World V} (hr : Reach World.empty h w) : BoundsOK w.components := by
  induction hr with
  | nil => exact ⟨by simp [World.empty, ComponentStorage.empty], by simp [World.empty, ComponentStorage.empty]⟩
  | snoc _ hs ih => exact step_bounds hs ih

end Sparsey
