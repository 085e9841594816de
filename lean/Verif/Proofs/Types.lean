import Verif.Spec.Types
import Verif.Proofs.Leftover

/-!
How many sets `set_layout` adds, for any layout.
-/

set_option autoImplicit false
set_option linter.unusedSimpArgs false

namespace Sparsey

open Res

variable {V : Type}

namespace ComponentStorage

theorem addComponents_length {f : GroupFamily} {a b c : Nat} : ∀ (n idx : Nat) (x y : Building V),
    addComponents f a b c idx n x = .ok () y → y.1.components.length = x.1.components.length + n
  | 0, _, x, y, h => by cases h; rfl
  | n + 1, idx, (st, sets), y, h => by
    rw [addComponents] at h
    generalize hp : (do
      let t ← Res.checked f.components[idx]?
      let insertMask ← GroupMask.fromTo a c
      let deleteMask ← GroupMask.fromTo b c
      let storageMask ← StorageMask.single idx
      pure (t, (⟨st.components.length, insertMask, deleteMask,
        some ⟨asU8 a, asU8 st.groups.length, storageMask⟩⟩ : ComponentMetadata)) : Res (TypeId × ComponentMetadata)) = rp at h
    cases rp with
    | panic => cases h
    | ub => cases h
    | ok p =>
      obtain ⟨t, m⟩ := p
      have := addComponents_length n (idx + 1) _ y h
      simp only [List.length_append, List.length_singleton] at this ⊢
      omega

theorem addGroups_length {f : GroupFamily} {a b c : Nat} : ∀ (l : List Nat) (prev : Nat) (x y : Building V),
    (prev :: l).Pairwise (· < ·) → addGroups f a b c prev l x = .ok () y →
    y.1.components.length + prev = x.1.components.length + (prev :: l).getLast (by simp)
  | [], _, x, y, _, h => by cases h; rfl
  | n :: l, prev, (st, sets), y, hp, h => by
    rw [addGroups] at h
    generalize (do
      let skipMask ← GroupMask.skipFromTo st.groups.length c
      let includeMask ← QueryMask.include n
      let excludeMask ← QueryMask.exclude prev n
      pure (⟨a, a + prev, a + n, skipMask, includeMask, excludeMask, 0⟩ : Group) : Res Group) = rg at h
    cases rg with
    | panic => cases h
    | ub => cases h
    | ok g =>
      simp only [Outcome.ofRes] at h
      have hlt : prev < n := (List.pairwise_cons.1 hp).1 n (by simp)
      cases ha : addComponents f b st.groups.length c prev (n - prev)
          (({ st with groups := st.groups ++ [g] }, sets) : Building V) with
      | panic s => rw [ha] at h; cases h
      | ub => rw [ha] at h; cases h
      | ok u z =>
        rw [ha] at h
        have h1 := addComponents_length _ _ _ _ ha
        have h2 := addGroups_length l n z y (List.pairwise_cons.1 hp).2 h
        rw [List.getLast_cons (by simp)]
        dsimp only at h1 ⊢
        omega

theorem addFamilies_length : ∀ (fs : List GroupFamily) (x y : Building V), (∀ f ∈ fs, FamilyOK f) →
    addFamilies fs x = .ok () y → y.1.components.length = x.1.components.length + (fs.flatMap (·.components)).length
  | [], x, y, _, h => by cases h; rfl
  | f :: fs, (c, sets), y, hf, h => by
    rw [addFamilies] at h
    cases ha : addGroups f c.components.length c.groups.length (c.groups.length + f.arities.length) 0 f.arities
        ((c, sets) : Building V) with
    | panic s => rw [ha] at h; cases h
    | ub => rw [ha] at h; cases h
    | ok u z =>
      rw [ha] at h
      obtain ⟨f1, f2, f3⟩ := hf f (by simp)
      have h1 := addGroups_length _ _ _ _
        (List.pairwise_cons.2 ⟨fun n hn => by have := f2 n hn; omega, f1⟩) ha
      have hl : (0 :: f.arities).getLast (by simp) = f.components.length := by
        have h0 : f.arities ≠ [] := by intro h0; rw [h0] at f3; cases f3
        rw [List.getLast?_eq_some_getLast h0] at f3
        rw [List.getLast_cons h0]
        exact Option.some.inj f3
      have h2 := addFamilies_length fs z y (fun f hf' => hf f (.tail _ hf')) h
      rw [hl] at h1
      simp only [List.flatMap_cons, List.length_append]
      dsimp only at h1 ⊢
      omega

theorem addUngrouped_length : ∀ (l : List (TypeId × CompSet V)) (c : ComponentStorage V),
    (addUngrouped l c).components.length = c.components.length + l.length
  | [], _ => rfl
  | (t, s) :: l, c => by
    rw [addUngrouped, addUngrouped_length l]
    simp only [List.length_append, List.length_cons, List.length_nil]
    omega

/-- The number of sets after `set_layout`. -/
theorem setLayout_length (rank : TypeId → Nat) {c c' : ComponentStorage V} (hk : (c.metadata.map Prod.fst).Nodup)
    {l : GroupLayout} (hl : FamsOK l.families) (es : List Entity) (h : c.setLayout rank l es = .ok () c')
    {ts : List TypeId} (ht : ∀ t, t ∈ ts ↔ (c.meta? t).isSome) :
    c'.components.length =
      c.components.length + ((layoutTypes l).length + (ts.dedup.filter (· ∉ layoutTypes l)).length) := by
  unfold setLayout at h
  cases hx : c.extractSparseSets with
  | panic => simp [hx] at h
  | ub => simp [hx] at h
  | ok p =>
    obtain ⟨sets, c1⟩ := p
    obtain ⟨⟨sets', comps⟩, h1, hx'⟩ := Res.bind_ok' hx
    cases hx'
    have hlen := takeSets_length _ _ _ _ h1
    have hfst := takeSets_fst _ _ _ _ h1
    simp only [hx] at h
    cases hf : addFamilies l.families ((⟨[], [], comps⟩, sets) : Building V) with
    | ub => simp [hf] at h
    | panic b => simp [hf] at h
    | ok u b =>
      obtain ⟨c2, sets2⟩ := b
      simp only [hf] at h
      have hpl := addFamilies_placed _ _ _ hl hf
      have h2 := addFamilies_length _ _ _ (fun f hf => (hl f hf).1) hf
      have h3 := addUngrouped_length (sortByRank rank sets2) c2
      have h4 : (sortByRank rank sets2).length = (ts.dedup.filter (· ∉ layoutTypes l)).length := by
        rw [(sortByRank_perm rank sets2).length_eq, ← List.length_map (as := sets2) Prod.fst]
        refine List.Perm.length_eq ((List.perm_ext_iff_of_nodup (hpl.keys ?_) (ts.nodup_dedup.filter _)).2 fun t => ?_)
        · rw [show sets.map (·.1) = sets.map Prod.fst from rfl, hfst]; exact hk
        · rw [show sets2.map Prod.fst = sets2.map (·.1) from rfl, hpl.gone, List.mem_filter, List.mem_dedup, ht,
            show sets.map (·.1) = sets.map Prod.fst from rfl, hfst, meta?, lookup_isSome, decide_eq_true_eq]
          rfl
      generalize addUngrouped (sortByRank rank sets2) c2 = c3 at *
      cases hm : GroupMask.fromTo 0 c3.groups.length with
      | panic => simp [hm] at h
      | ub => simp [hm] at h
      | ok mask =>
        simp only [hm] at h
        cases hge : groupEntities mask es (c3.components, c3.groups) with
        | panic => simp [hge] at h
        | ub => simp [hge] at h
        | ok p =>
          obtain ⟨comps', gs'⟩ := p
          have hsh := groupEntities_shape _ _ _ hge
          simp only [hge, Outcome.ok.injEq, true_and] at h
          subst h
          have hl' : comps'.length = c3.components.length := hsh.1
          have h5 : (l.families.flatMap (·.components)).length = (layoutTypes l).length := rfl
          dsimp only at h2 ⊢
          omega

end ComponentStorage

end Sparsey
