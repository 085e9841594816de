import Verif.Proofs.SetLayout
import Verif.Proofs.Layout

/-!
Setting a layout succeeds only for layouts one below the documented maxima (src/component/component_storage.rs:37-112
with the assertions of src/component/group_mask.rs:13-29 and src/component/storage_mask.rs:12-37).
-/

set_option autoImplicit false
set_option linter.unusedSimpArgs false

namespace Sparsey
variable {V : Type}

theorem Outcome.ofRes_eq_ok {σ α β : Type} {s s' : σ} {r : Res α} {f : α → Outcome σ β} {b : β}
    (h : Outcome.ofRes s r f = .ok b s') : ∃ a, r = .ok a ∧ f a = .ok b s' := by
  cases r with
  | ok a => exact ⟨a, rfl, h⟩
  | panic => cases h
  | ub => cases h

theorem Outcome.bind_eq_ok {σ α β : Type} {s' : σ} {o : Outcome σ α} {f : α → σ → Outcome σ β} {b : β}
    (h : o.bind f = .ok b s') : ∃ a s, o = .ok a s ∧ f a s = .ok b s' := by
  cases o with
  | ok a s => exact ⟨a, s, rfl, h⟩
  | panic s => cases h
  | ub => cases h

theorem Res.assert_ok {b : Bool} {u : Unit} (h : Res.assert b = .ok u) : b = true := by
  cases b with
  | true => rfl
  | false => cases h

theorem addComponents_groups {f : GroupFamily} {gs ngs ge : Nat} : ∀ (n idx : Nat)
    (b b' : ComponentStorage.Building V), ComponentStorage.addComponents f gs ngs ge idx n b = .ok () b' →
    b'.1.groups = b.1.groups
  | 0, idx, b, b', h => by
    cases h
    rfl
  | n + 1, idx, (c, sets), b', h => by
    rw [ComponentStorage.addComponents] at h
    obtain ⟨⟨t, m⟩, _, h⟩ := Outcome.ofRes_eq_ok h
    simp only at h
    have := addComponents_groups n (idx + 1) _ b' h
    exact this

theorem QueryMask.include_lt {a : Nat} {m : QueryMask} (h : QueryMask.include a = .ok m) : a < 16 := by
  unfold QueryMask.include StorageMask.fromTo at h
  rw [Res.bind_eq_ok] at h
  obtain ⟨m1, h, _⟩ := h
  rw [Res.bind_eq_ok] at h
  obtain ⟨_, _, h⟩ := h
  rw [Res.bind_eq_ok] at h
  obtain ⟨_, h1, _⟩ := h
  have := Res.assert_ok h1
  exact of_decide_eq_true this

theorem GroupMask.skipFromTo_lt {a b : Nat} {m : GroupMask} (h : GroupMask.skipFromTo a b = .ok m) : b < 64 := by
  unfold GroupMask.skipFromTo at h
  rw [Res.bind_eq_ok] at h
  obtain ⟨_, _, h⟩ := h
  rw [Res.bind_eq_ok] at h
  obtain ⟨_, h1, _⟩ := h
  have := Res.assert_ok h1
  exact of_decide_eq_true this

theorem addGroups_limits {f : GroupFamily} {ss gs ge : Nat} : ∀ (rest : List Nat) (prev : Nat)
    (b b' : ComponentStorage.Building V), ComponentStorage.addGroups f ss gs ge prev rest b = .ok () b' →
    (∀ a ∈ rest, a < 16) ∧ (rest ≠ [] → ge < 64) ∧ b'.1.groups.length = b.1.groups.length + rest.length
  | [], prev, b, b', h => by
    cases h
    simp
  | a :: rest, prev, (c, sets), b', h => by
    rw [ComponentStorage.addGroups] at h
    obtain ⟨g, hr, h⟩ := Outcome.ofRes_eq_ok h
    obtain ⟨_, b1, h1, h2⟩ := Outcome.bind_eq_ok h
    rw [Res.bind_eq_ok] at hr
    obtain ⟨m1, hm1, hr⟩ := hr
    rw [Res.bind_eq_ok] at hr
    obtain ⟨m2, hm2, _⟩ := hr
    have e1 := GroupMask.skipFromTo_lt hm1
    have e2 := QueryMask.include_lt hm2
    have e3 := addComponents_groups _ _ _ _ h1
    obtain ⟨i1, i2, i3⟩ := addGroups_limits rest a b1 b' h2
    refine ⟨?_, fun _ => e1, ?_⟩
    · intro x hx
      rcases List.mem_cons.1 hx with rfl | hx
      · exact e2
      · exact i1 x hx
    · rw [i3, e3]
      simp
      omega

theorem addFamilies_limits : ∀ (fs : List GroupFamily) (b b' : ComponentStorage.Building V),
    (∀ f ∈ fs, FamilyOK f) → ComponentStorage.addFamilies fs b = .ok () b' → b.1.groups.length < 64 →
    (∀ f ∈ fs, f.components.length < 16) ∧ b'.1.groups.length < 64 ∧
      b'.1.groups.length = b.1.groups.length + (fs.flatMap famGroups).length
  | [], b, b', _, h, hb => by
    cases h
    simpa using hb
  | f :: fs, (c, sets), b', hf, h, hb => by
    rw [ComponentStorage.addFamilies] at h
    obtain ⟨_, b1, h1, h2⟩ := Outcome.bind_eq_ok h
    obtain ⟨i1, i2, i3⟩ := addGroups_limits _ _ _ _ h1
    have hF := hf f (.head _)
    have hne : f.arities ≠ [] := by
      have := hF.pos
      intro h0
      rw [h0] at this
      simp at this
    have hge := i2 hne
    simp only at i3 hge
    obtain ⟨j1, j2, j3⟩ := addFamilies_limits fs b1 b' (fun f h => hf f (.tail _ h)) h2 (by omega)
    refine ⟨?_, j2, ?_⟩
    · intro k hk
      rcases List.mem_cons.1 hk with rfl | hk
      · exact i1 _ (List.mem_of_getLast? hF.2.2)
      · exact j1 k hk
    · rw [j3, i3, List.flatMap_cons, List.length_append]
      simp [famGroups]
      omega

/-- `set_layout` does not succeed with a layout at the maxima. -/
theorem setLayout_limits {c c' : ComponentStorage V} {rank : TypeId → Nat} {l : GroupLayout} {es : List Entity}
    (hl : LayoutOK l) (h : c.setLayout rank l es = .ok () c') : LayoutFits l := by
  unfold ComponentStorage.setLayout at h
  cases hts : c.extractSparseSets with
  | panic => rw [hts] at h; cases h
  | ub => rw [hts] at h; cases h
  | ok r =>
    obtain ⟨sets, c0⟩ := r
    have hg0 : c0.groups = [] := by
      unfold ComponentStorage.extractSparseSets at hts
      rw [Res.bind_eq_ok] at hts
      obtain ⟨p, _, hts⟩ := hts
      cases hts
      rfl
    rw [hts] at h
    simp only at h
    cases hb : ComponentStorage.addFamilies l.families (c0, sets) with
    | panic b => rw [hb] at h; cases h
    | ub => rw [hb] at h; cases h
    | ok u b =>
      obtain ⟨i1, i2, i3⟩ := addFamilies_limits _ _ _ hl.1 hb (by simp [hg0])
      refine ⟨fun f hf => ?_, ?_⟩
      · have := i1 f hf
        omega
      · show (l.families.flatMap famGroups).length ≤ 63
        simp only [hg0, List.length_nil, Nat.zero_add] at i3
        omega

end Sparsey
