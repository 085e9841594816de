import Verif.Proofs.LoneStep

/-!
How many sets a storage has: `set_layout` adds a set for every type and never removes one.
-/

set_option autoImplicit false
set_option linter.unusedSimpArgs false

namespace Sparsey

open Res

variable {V : Type}

namespace ComponentStorage

theorem insertMeta_length_le (md : List (TypeId × ComponentMetadata)) (t : TypeId) (m : ComponentMetadata) :
    (insertMeta md t m).length ≤ md.length + 1 := by
  simpa [insertMeta] using List.length_filter_le _ _

theorem insertMeta_length_new {md : List (TypeId × ComponentMetadata)} {t : TypeId} (h : t ∉ md.map Prod.fst)
    (m : ComponentMetadata) : (insertMeta md t m).length = md.length + 1 := by
  have : md.filter (fun p => p.1 != t) = md := by
    refine List.filter_eq_self.2 fun p hp => ?_
    have : p.1 ≠ t := fun h' => h (List.mem_map.2 ⟨p, hp, h'⟩)
    simpa using this
  simp [insertMeta, this]

theorem insertMeta_fst (md : List (TypeId × ComponentMetadata)) (t x : TypeId) (m : ComponentMetadata) :
    x ∈ (insertMeta md t m).map Prod.fst ↔ x = t ∨ x ∈ md.map Prod.fst := by
  by_cases h : x = t <;> simp [insertMeta, h]

/-- There are at least `k` more sets than types. -/
def Grown (k : Nat) (b : Building V) : Prop := k + b.1.metadata.length ≤ b.1.components.length

theorem addComponents_grown {k : Nat} {f : GroupFamily} {a b c : Nat} : ∀ (n idx : Nat) (x : Building V), Grown k x →
    (addComponents f a b c idx n x).Leaves (Grown k)
  | 0, _, x, h => h
  | n + 1, idx, (st, sets), h => by
    rw [addComponents]
    refine Outcome.Leaves.ofRes h fun p _ => ?_
    obtain ⟨t, m⟩ := p
    refine addComponents_grown n (idx + 1) _ ?_
    have := insertMeta_length_le st.metadata t m
    simp only [Grown, List.length_append, List.length_singleton] at h ⊢
    omega

theorem addGroups_grown {k : Nat} {f : GroupFamily} {a b c : Nat} : ∀ (l : List Nat) (prev : Nat) (x : Building V),
    Grown k x → (addGroups f a b c prev l x).Leaves (Grown k)
  | [], _, x, h => h
  | n :: l, prev, (st, sets), h => by
    rw [addGroups]
    refine Outcome.Leaves.ofRes h fun g _ => ?_
    exact Outcome.Leaves.bind (addComponents_grown _ _ _ h) fun _ y hy => addGroups_grown l n y hy

theorem addFamilies_grown {k : Nat} : ∀ (fs : List GroupFamily) (x : Building V), Grown k x →
    (addFamilies fs x).Leaves (Grown k)
  | [], x, h => h
  | f :: fs, (c, sets), h => by
    rw [addFamilies]
    exact Outcome.Leaves.bind (addGroups_grown _ _ _ h) fun _ y hy => addFamilies_grown fs y hy

theorem addUngrouped_grown {k : Nat} : ∀ (l : List (TypeId × CompSet V)) (c : ComponentStorage V),
    k + c.metadata.length ≤ c.components.length →
    k + (addUngrouped l c).metadata.length ≤ (addUngrouped l c).components.length
  | [], c, h => h
  | (t, s) :: l, c, h => by
    rw [addUngrouped]
    refine addUngrouped_grown l _ ?_
    have := insertMeta_length_le c.metadata t ⟨c.components.length, 0#64, 0#64, none⟩
    simp only [List.length_append, List.length_singleton]
    omega

/-- There are `k` more sets than types, and none of the types in `ts` has been placed. -/
structure Exactly (k : Nat) (ts : List TypeId) (b : Building V) : Prop where
  count : k + b.1.metadata.length = b.1.components.length
  new : ∀ t ∈ ts, t ∉ b.1.metadata.map Prod.fst
  apart : ∀ t ∈ b.2.map Prod.fst, t ∉ b.1.metadata.map Prod.fst
  keys : (b.2.map Prod.fst).Nodup
  nodup : ts.Nodup

theorem addComponents_exactly {k : Nat} {f : GroupFamily} {a b c : Nat} {ts : List TypeId} : ∀ (n idx : Nat)
    (x y : Building V), Exactly k (f.components.drop idx ++ ts) x → addComponents f a b c idx n x = .ok () y →
    Exactly k (f.components.drop (idx + n) ++ ts) y
  | 0, _, x, y, h, hr => by cases hr; exact h
  | n + 1, idx, (st, sets), y, h, hr => by
    rw [addComponents] at hr
    cases hp : f.components[idx]? with
    | none => simp [hp, Res.checked, Outcome.ofRes] at hr
    | some t =>
      simp only [hp, Res.checked, Res.bind_ok] at hr
      cases hm : (do
        let insertMask ← GroupMask.fromTo a c
        let deleteMask ← GroupMask.fromTo b c
        let storageMask ← StorageMask.single idx
        pure (t, (⟨st.components.length, insertMask, deleteMask,
          some ⟨asU8 a, asU8 st.groups.length, storageMask⟩⟩ : ComponentMetadata)) : Res (TypeId × ComponentMetadata)) with
      | panic => rw [hm] at hr; cases hr
      | ub => rw [hm] at hr; cases hr
      | ok p =>
        rw [hm] at hr
        obtain ⟨t', m⟩ := p
        have ht : t' = t := by
          obtain ⟨_, _, hm⟩ := Res.bind_ok' hm
          obtain ⟨_, _, hm⟩ := Res.bind_ok' hm
          obtain ⟨_, _, hm⟩ := Res.bind_ok' hm
          cases hm
          rfl
        subst ht
        simp only [Outcome.ofRes, removeSet] at hr
        have hd : f.components.drop idx = t' :: f.components.drop (idx + 1) := by
          obtain ⟨hl, rfl⟩ := List.getElem?_eq_some_iff.1 hp
          exact List.drop_eq_getElem_cons hl
        rw [hd] at h
        have hnew : t' ∉ st.metadata.map Prod.fst := h.new t' (by simp)
        have hnd := h.nodup
        rw [List.cons_append, List.nodup_cons] at hnd
        have := addComponents_exactly (k := k) n (idx + 1) _ y ⟨?_, ?_, ?_, ?_, hnd.2⟩ hr
        · rw [show idx + (n + 1) = idx + 1 + n by omega]
          exact this
        · have := h.count
          simp only [insertMeta_length_new hnew, List.length_append, List.length_singleton] at this ⊢
          omega
        · intro x hx
          rw [insertMeta_fst]
          rintro (rfl | hx')
          · exact hnd.1 hx
          · exact h.new x (by rw [List.cons_append]; exact .tail _ hx) hx'
        · intro x hx
          obtain ⟨p, hp', rfl⟩ := List.mem_map.1 hx
          obtain ⟨h1, h2⟩ := List.mem_filter.1 hp'
          rw [insertMeta_fst]
          rintro (h3 | h3)
          · simp [h3] at h2
          · exact h.apart _ (List.mem_map.2 ⟨p, h1, rfl⟩) h3
        · exact h.keys.sublist (List.filter_sublist.map _)

theorem addGroups_exactly {k : Nat} {f : GroupFamily} {a b c : Nat} {ts : List TypeId} : ∀ (l : List Nat) (prev : Nat)
    (x y : Building V), Exactly k (f.components.drop prev ++ ts) x → (prev :: l).Pairwise (· < ·) →
    addGroups f a b c prev l x = .ok () y → Exactly k (f.components.drop ((prev :: l).getLast (by simp)) ++ ts) y
  | [], _, x, y, h, _, hr => by cases hr; exact h
  | n :: l, prev, (st, sets), y, h, hp, hr => by
    rw [addGroups] at hr
    generalize hg : (do
      let skipMask ← GroupMask.skipFromTo st.groups.length c
      let includeMask ← QueryMask.include n
      let excludeMask ← QueryMask.exclude prev n
      pure (⟨a, a + prev, a + n, skipMask, includeMask, excludeMask, 0⟩ : Group) : Res Group) = rg at hr
    cases rg with
    | panic => cases hr
    | ub => cases hr
    | ok g =>
      simp only [Outcome.ofRes] at hr
      have hlt : prev < n := (List.pairwise_cons.1 hp).1 n (by simp)
      cases ha : addComponents f b st.groups.length c prev (n - prev)
          (({ st with groups := st.groups ++ [g] }, sets) : Building V) with
      | panic s => rw [ha] at hr; cases hr
      | ub => rw [ha] at hr; cases hr
      | ok u z =>
        rw [ha] at hr
        have h0 : Exactly k (f.components.drop prev ++ ts) (({ st with groups := st.groups ++ [g] }, sets) : Building V) :=
          ⟨h.count, h.new, h.apart, h.keys, h.nodup⟩
        have h1 := addComponents_exactly _ _ _ _ h0 ha
        rw [show prev + (n - prev) = n by omega] at h1
        have := addGroups_exactly l n z y h1 (List.pairwise_cons.1 hp).2 hr
        rwa [List.getLast_cons (by simp)]

theorem addFamilies_exactly {k : Nat} : ∀ (fs : List GroupFamily) (x y : Building V), (∀ f ∈ fs, FamilyOK f) →
    Exactly k (fs.flatMap (·.components)) x → addFamilies fs x = .ok () y → Exactly k [] y
  | [], x, y, _, h, hr => by cases hr; exact h
  | f :: fs, (c, sets), y, hf, h, hr => by
    rw [addFamilies] at hr
    cases ha : addGroups f c.components.length c.groups.length (c.groups.length + f.arities.length) 0 f.arities
        ((c, sets) : Building V) with
    | panic s => rw [ha] at hr; cases hr
    | ub => rw [ha] at hr; cases hr
    | ok u z =>
      rw [ha] at hr
      obtain ⟨f1, f2, f3⟩ := hf f (by simp)
      have h1 := addGroups_exactly _ _ _ _ (ts := fs.flatMap (·.components)) (by simpa using h)
        (List.pairwise_cons.2 ⟨fun n hn => by have := f2 n hn; omega, f1⟩) ha
      have hl : (0 :: f.arities).getLast (by simp) = f.components.length := by
        have h0 : f.arities ≠ [] := by intro h0; rw [h0] at f3; cases f3
        rw [List.getLast?_eq_some_getLast h0] at f3
        rw [List.getLast_cons h0]
        exact Option.some.inj f3
      rw [hl, List.drop_length, List.nil_append] at h1
      exact addFamilies_exactly fs z y (fun f hf' => hf f (.tail _ hf')) h1 hr

theorem addUngrouped_exactly {k : Nat} : ∀ (l : List (TypeId × CompSet V)) (c : ComponentStorage V),
    Exactly k [] (c, l) → k + (addUngrouped l c).metadata.length = (addUngrouped l c).components.length
  | [], c, h => h.count
  | (t, s) :: l, c, h => by
    rw [addUngrouped]
    have hk := h.keys
    rw [List.map_cons, List.nodup_cons] at hk
    have hnew : t ∉ c.metadata.map Prod.fst := h.apart t (by simp)
    refine addUngrouped_exactly l _ ⟨?_, by simp, ?_, hk.2, by simp⟩
    · have := h.count
      simp only [insertMeta_length_new hnew, List.length_append, List.length_singleton] at this ⊢
      omega
    · intro x hx
      rw [insertMeta_fst]
      rintro (rfl | hx')
      · exact hk.1 hx
      · exact h.apart x (.tail _ hx) hx'

theorem takeSets_length : ∀ (md : List (TypeId × ComponentMetadata)) (comps comps' : List (CompSet V))
    (sets : List (TypeId × CompSet V)), takeSets md comps = .ok (sets, comps') → comps'.length = comps.length
  | [], _, _, _, h => by cases h; rfl
  | (t, m) :: md, comps, comps', _, h => by
    obtain ⟨s, _, h⟩ := Res.bind_ok' h
    obtain ⟨⟨sets, c1⟩, h1, h⟩ := Res.bind_ok' h
    cases h
    simpa using takeSets_length md _ _ _ h1

/-- After `set_layout` there are at least as many more sets as there are types; exactly that many if the layout is well
formed. -/
theorem setLayout_count (rank : TypeId → Nat) {c c' : ComponentStorage V} (hk : (c.metadata.map Prod.fst).Nodup)
    (l : GroupLayout) (es : List Entity) (h : c.setLayout rank l es = .ok () c') :
    c.components.length + c'.metadata.length ≤ c'.components.length ∧
    (LayoutOK l → c.components.length + c'.metadata.length = c'.components.length) := by
  unfold setLayout at h
  cases hx : c.extractSparseSets with
  | panic => simp [hx] at h
  | ub => simp [hx] at h
  | ok p =>
    obtain ⟨sets, c1⟩ := p
    obtain ⟨⟨sets', comps⟩, h1, hx'⟩ := Res.bind_ok' hx
    cases hx'
    have hlen := takeSets_length _ _ _ _ h1
    simp only [hx] at h
    have hg := addFamilies_grown (k := c.components.length) l.families ((⟨[], [], comps⟩, sets) : Building V)
      (by simp [Grown, hlen])
    cases hf : addFamilies l.families ((⟨[], [], comps⟩, sets) : Building V) with
    | ub => simp [hf] at h
    | panic b => simp [hf] at h
    | ok u b =>
      obtain ⟨c2, sets2⟩ := b
      rw [hf] at hg
      simp only [hf] at h
      have hu := addUngrouped_grown (sortByRank rank sets2) c2 hg
      have he : LayoutOK l → c.components.length + (addUngrouped (sortByRank rank sets2) c2).metadata.length =
          (addUngrouped (sortByRank rank sets2) c2).components.length := by
        rintro ⟨l1, l2⟩
        have hy := addFamilies_exactly (k := c.components.length) l.families _ _ l1
          ⟨by simp [hlen], by simp, by simp, by rw [takeSets_fst _ _ _ _ h1]; exact hk, l2⟩ hf
        have hperm := (sortByRank_perm rank sets2).map Prod.fst
        exact addUngrouped_exactly _ _ ⟨hy.count, by simp, fun t ht => hy.apart t (hperm.mem_iff.1 ht),
          hperm.nodup_iff.2 hy.keys, by simp⟩
      generalize addUngrouped (sortByRank rank sets2) c2 = c3 at *
      cases hm : GroupMask.fromTo 0 c3.groups.length with
      | panic => simp [hm] at h
      | ub => simp [hm] at h
      | ok mask =>
        simp only [hm] at h
        cases hge : groupEntities mask es (c3.components, c3.groups) with
        | panic => simp [hge] at h
        | ub => simp [hge] at h
        | ok p =>
          obtain ⟨comps', gs'⟩ := p
          have hsh := groupEntities_shape _ _ _ hge
          simp only [hge, Outcome.ok.injEq, true_and] at h
          subst h
          have hl : comps'.length = c3.components.length := hsh.1
          exact ⟨by simpa [hl] using hu, fun h => by simpa [hl] using he h⟩

end ComponentStorage

end Sparsey
