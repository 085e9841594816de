import Verif.Model.SwapsOf
import Verif.Proofs.Lone
import Verif.Proofs.Swaps

/-!
One component type: as long as the exchanges in its own set are between entities of the same version, grouping does not
change what its set contains, whatever happens in the other sets.
-/

set_option autoImplicit false
set_option linter.unusedSimpArgs false

namespace Sparsey
variable {V : Type}

/-! ### Even exchanges keep the contents of a set -/

/-- If the first set is in order so is the second, with the same components. -/
def KeepsVals (s s' : CompSet V) : Prop := s.WF → s'.WF ∧ ∀ x, s'.val x = s.val x

theorem KeepsVals.refl (s : CompSet V) : KeepsVals s s := fun h => ⟨h, fun _ => rfl⟩

theorem KeepsVals.trans {a b c : CompSet V} (h : KeepsVals a b) (h' : KeepsVals b c) : KeepsVals a c := fun ha =>
  ⟨(h' (h ha).1).1, fun x => ((h' (h ha).1).2 x).trans ((h ha).2 x)⟩

/-- The same for the sets at position `k`. -/
def SameAt (k : Nat) (s s' : Sets V) : Prop := ∀ x, s.1[k]? = some x → ∃ x', s'.1[k]? = some x' ∧ KeepsVals x x'

theorem SameAt.refl (k : Nat) (s : Sets V) : SameAt k s s := fun x h => ⟨x, h, KeepsVals.refl x⟩

theorem SameAt.trans {k : Nat} {a b c : Sets V} (h : SameAt k a b) (h' : SameAt k b c) : SameAt k a c := fun x hx => by
  obtain ⟨y, h1, h2⟩ := h x hx
  obtain ⟨z, h3, h4⟩ := h' y h1
  exact ⟨z, h3, h2.trans h4⟩

theorem swapTo_same {s s' : CompSet V} {q x : Nat} (hr : swapTo s q x = .ok s') (he : EvenPairs (swapToPairs s q x)) :
    KeepsVals s s' := by
  intro hw
  obtain ⟨d, hd, hr⟩ := Res.bind_ok' hr
  by_cases hq : d = q
  · rw [if_neg (by simp [hq])] at hr
    cases hr
    exact ⟨hw, fun _ => rfl⟩
  · rw [if_pos hq] at hr
    unfold swapToPairs at he
    rw [hd] at he
    simp only [hq, if_false] at he
    cases ha : s.entities[d]? with
    | none => simp [CompSet.swap, ha, Res.unchecked] at hr
    | some a =>
      cases hb : s.entities[q]? with
      | none => simp [CompSet.swap, ha, hb, Res.unchecked] at hr
      | some b =>
        rw [ha, hb] at he
        obtain ⟨s2, h1, h2, _, h4⟩ := hw.swap ha hb hq (he (a, b) (.head _))
        rw [h1] at hr
        cases hr
        exact ⟨h2, h4⟩

theorem swapAllTo_at {q x : Nat} : ∀ {l l' : List (CompSet V)}, swapAllTo q x l = .ok l' → ∀ (k : Nat) (s : CompSet V),
    l[k]? = some s → ∃ s', l'[k]? = some s' ∧ swapTo s q x = .ok s'
  | [], _, _, k, s, hs => by simp at hs
  | a :: l, _, h, k, s, hs => by
    obtain ⟨a', h1, h⟩ := Res.bind_ok' h
    obtain ⟨l1, h2, h⟩ := Res.bind_ok' h
    cases h
    cases k with
    | zero =>
      simp only [List.getElem?_cons_zero, Option.some.injEq] at hs
      subst hs
      exact ⟨a', rfl, h1⟩
    | succ k => exact swapAllTo_at h2 k s (by simpa using hs)

theorem swapRange_same {l l' : List (CompSet V)} {a b q x k : Nat} (hr : swapRange l a b q x = .ok l')
    (he : EvenPairs (swapRangePairsAt k l a b q x)) : ∀ s, l[k]? = some s → ∃ s', l'[k]? = some s' ∧ KeepsVals s s' := by
  intro s hs
  obtain ⟨seg, h1, hr⟩ := Res.bind_ok' hr
  obtain ⟨seg', h2, hr⟩ := Res.bind_ok' hr
  cases hr
  unfold compRange at h1
  split at h1
  · rename_i hab
    cases h1
    have hl := swapAllTo_length _ _ h2
    rw [List.length_take, List.length_drop] at hl
    by_cases hk : a ≤ k ∧ k < b
    · unfold swapRangePairsAt at he
      rw [if_pos hk, hs] at he
      obtain ⟨s', h3, h4⟩ := swapAllTo_at h2 (k - a) s (by
        rw [List.getElem?_take, if_pos (by omega), List.getElem?_drop]
        rw [show a + (k - a) = k by omega]
        exact hs)
      refine ⟨s', ?_, swapTo_same h4 he⟩
      rw [List.append_assoc, List.getElem?_append_right (by simp; omega), List.length_take,
        List.getElem?_append_left (by omega)]
      rw [show k - min a l.length = k - a by omega]
      exact h3
    · refine ⟨s, ?_, KeepsVals.refl s⟩
      rw [← hs]
      by_cases hka : k < a
      · rw [List.append_assoc, List.getElem?_append_left (by simp; omega), List.getElem?_take, if_pos hka]
      · rw [List.getElem?_append_right (by simp; omega), List.getElem?_drop]
        congr 1
        simp
        omega
  · cases h1

theorem EvenPairs.app {a b : List (Entity × Entity)} (h : EvenPairs (a ++ b)) : EvenPairs a ∧ EvenPairs b :=
  ⟨fun p hp => h p (List.mem_append_left _ hp), fun p hp => h p (List.mem_append_right _ hp)⟩

theorem groupLoop_same {e : Entity} {k : Nat} : ∀ (fuel : Nat) (m : BitVec 64) (s s' : Sets V),
    groupLoop e fuel m s = .ok s' → EvenPairs (groupLoopPairsAt k e fuel m s) → SameAt k s s' := by
  intro fuel
  induction fuel with
  | zero =>
    intro m s s' h _
    rw [groupLoop] at h
    split at h
    · cases h; exact SameAt.refl k _
    · cases h
  | succ fuel ih =>
    intro m s s' h he
    obtain ⟨comps, gs⟩ := s
    rw [groupLoop] at h
    rw [groupLoopPairsAt] at he
    cases hb : bitNext m with
    | none => rw [hb] at h; cases h; exact SameAt.refl k _
    | some p =>
      obtain ⟨i, m'⟩ := p
      rw [hb] at h he
      simp only at h he
      obtain ⟨g, hg, h⟩ := Res.bind_ok' h
      have hg := Res.unchecked_ok hg
      obtain ⟨seg, hseg, h⟩ := Res.bind_ok' h
      obtain ⟨st, hst, h⟩ := Res.bind_ok' h
      rw [hg] at he
      simp only [hseg, hst] at he
      cases st with
      | incomplete => exact ih _ _ _ h he
      | grouped => exact ih _ _ _ h he
      | ungrouped =>
        obtain ⟨⟨comps', g'⟩, hc, h⟩ := Res.bind_ok' h
        simp only [hc] at he
        obtain ⟨he1, he2⟩ := he.app
        obtain ⟨cs, hc1, hc2⟩ := Res.bind_ok' hc
        cases hc2
        exact SameAt.trans (fun x hx => swapRange_same hc1 he1 x hx) (ih _ _ _ h he2)

theorem ungroupStep_same {e : Entity} {i k : Nat} {s s' : Sets V} (h : ungroupStep e i s = .ok s')
    (he : EvenPairs (ungroupStepPairsAt k e i s)) : SameAt k s s' := by
  obtain ⟨comps, gs⟩ := s
  obtain ⟨g, hg, h⟩ := Res.bind_ok' h
  have hg := Res.unchecked_ok hg
  obtain ⟨seg, hseg, h⟩ := Res.bind_ok' h
  obtain ⟨st, hst, h⟩ := Res.bind_ok' h
  rw [ungroupStepPairsAt, hg] at he
  simp only [hseg, hst] at he
  cases st with
  | incomplete => cases h; exact SameAt.refl k _
  | ungrouped => cases h; exact SameAt.refl k _
  | grouped =>
    obtain ⟨⟨comps', g'⟩, hc, h⟩ := Res.bind_ok' h
    cases h
    unfold ungroupComponents at hc
    split at hc
    · cases hc
    · obtain ⟨cs, hc1, hc2⟩ := Res.bind_ok' hc
      cases hc2
      exact fun x hx => swapRange_same hc1 he x hx

theorem ungroupLoop_same {e : Entity} {k : Nat} : ∀ (fuel : Nat) (m : BitVec 64) (s s' : Sets V),
    ungroupLoop e fuel m s = .ok s' → EvenPairs (ungroupLoopPairsAt k e fuel m s) → SameAt k s s' := by
  intro fuel
  induction fuel with
  | zero =>
    intro m s s' h _
    rw [ungroupLoop] at h
    split at h
    · cases h; exact SameAt.refl k _
    · cases h
  | succ fuel ih =>
    intro m s s' h he
    rw [ungroupLoop] at h
    rw [ungroupLoopPairsAt] at he
    cases hb : bitNextBack m with
    | none => rw [hb] at h; cases h; exact SameAt.refl k _
    | some p =>
      obtain ⟨i, m'⟩ := p
      rw [hb] at h he
      simp only at h he
      obtain ⟨s1, h1, h⟩ := Res.bind_ok' h
      simp only [h1] at he
      obtain ⟨he1, he2⟩ := he.app
      exact (ungroupStep_same h1 he1).trans (ih _ _ _ h he2)

theorem ungroupAllLoop_same {e : Entity} {k : Nat} : ∀ (n : Nat) (s s' : Sets V), ungroupAllLoop e n s = .ok s' →
    EvenPairs (ungroupAllLoopPairsAt k e n s) → SameAt k s s'
  | 0, s, _, h, _ => by cases h; exact SameAt.refl k _
  | n + 1, s, s', h, he => by
    obtain ⟨s1, h1, h⟩ := Res.bind_ok' h
    rw [ungroupAllLoopPairsAt] at he
    simp only [h1] at he
    obtain ⟨he1, he2⟩ := he.app
    exact (ungroupStep_same h1 he1).trans (ungroupAllLoop_same n _ _ h he2)

theorem groupEntities_same {m : GroupMask} {k : Nat} : ∀ (es : List Entity) (s s' : Sets V),
    ComponentStorage.groupEntities m es s = .ok s' → EvenPairs (ComponentStorage.groupEntitiesPairsAt k m es s) →
    SameAt k s s'
  | [], s, _, h, _ => by cases h; exact SameAt.refl k _
  | e :: es, s, s', h, he => by
    obtain ⟨s1, h1, h⟩ := Res.bind_ok' h
    rw [ComponentStorage.groupEntitiesPairsAt] at he
    simp only [h1] at he
    obtain ⟨he1, he2⟩ := he.app
    exact (groupLoop_same _ _ _ _ h1 he1).trans (groupEntities_same es _ _ h he2)

/-! ### Which exchanges there are at one position -/

/-- Both entities of every pair are in the set at position `k`. -/
def PairsAt (k : Nat) (comps : List (CompSet V)) (ps : List (Entity × Entity)) : Prop :=
  ∀ pr ∈ ps, pr.1 ∈ lists comps k ∧ pr.2 ∈ lists comps k

theorem PairsAt.nil (k : Nat) (comps : List (CompSet V)) : PairsAt k comps [] := by
  intro pr hpr; simp at hpr

theorem PairsAt.append {k : Nat} {comps : List (CompSet V)} {a b : List (Entity × Entity)} (ha : PairsAt k comps a)
    (hb : PairsAt k comps b) : PairsAt k comps (a ++ b) := by
  intro pr hpr
  rcases List.mem_append.1 hpr with h | h
  · exact ha pr h
  · exact hb pr h

theorem PairsAt.of {k : Nat} {comps comps' : List (CompSet V)} {ps : List (Entity × Entity)} (h : PairsAt k comps' ps)
    (hm : ∀ s, ∀ e ∈ lists comps' s, e ∈ lists comps s) : PairsAt k comps ps := fun pr hpr =>
  ⟨hm k _ (h pr hpr).1, hm k _ (h pr hpr).2⟩

theorem swapRangePairsAt_in {k : Nat} {comps : List (CompSet V)} {a b q x : Nat} :
    PairsAt k comps (swapRangePairsAt k comps a b q x) := by
  unfold swapRangePairsAt
  split
  · cases hs : comps[k]? with
    | none => exact .nil _ _
    | some s =>
      intro pr hpr
      rw [lists_some hs]
      exact swapToPairs_in pr hpr
  · exact .nil _ _

theorem swapRangePairsAt_apart {k : Nat} {comps : List (CompSet V)} {a b q x : Nat} (h : b ≤ k) :
    swapRangePairsAt k comps a b q x = [] := by
  unfold swapRangePairsAt
  rw [if_neg (by omega)]

theorem groupLoopPairsAt_in {e : Entity} {k : Nat} : ∀ (fuel : Nat) (m : BitVec 64) (comps : List (CompSet V))
    (gs : List Group), PairsAt k comps (groupLoopPairsAt k e fuel m (comps, gs)) ∧
      (Apart gs k → groupLoopPairsAt k e fuel m (comps, gs) = []) := by
  intro fuel
  induction fuel with
  | zero =>
    intro m comps gs
    unfold groupLoopPairsAt
    split
    · exact ⟨.nil _ _, fun _ => rfl⟩
    · exact ⟨.nil _ _, fun _ => rfl⟩
  | succ fuel ih =>
    intro m comps gs
    unfold groupLoopPairsAt
    cases hb : bitNext m with
    | none => exact ⟨.nil _ _, fun _ => rfl⟩
    | some r =>
      obtain ⟨j, m'⟩ := r
      simp only
      cases hg : gs[j]? with
      | none => exact ⟨.nil _ _, fun _ => rfl⟩
      | some g =>
        simp only
        cases hc : compRange comps g.newStorageStart g.storageEnd with
        | panic => exact ⟨.nil _ _, fun _ => rfl⟩
        | ub => exact ⟨.nil _ _, fun _ => rfl⟩
        | ok seg =>
          simp only
          cases hst : getGroupStatus seg g.len e with
          | panic => exact ⟨.nil _ _, fun _ => rfl⟩
          | ub => exact ⟨.nil _ _, fun _ => rfl⟩
          | ok st =>
            cases st with
            | incomplete => exact ih _ comps gs
            | grouped => exact ih _ comps gs
            | ungrouped =>
              simp only
              cases hgc : groupComponents comps g e with
              | panic =>
                exact ⟨swapRangePairsAt_in.append (.nil _ _), fun ha => by
                  rw [swapRangePairsAt_apart (ha g (List.mem_of_getElem? hg))]; rfl⟩
              | ub =>
                exact ⟨swapRangePairsAt_in.append (.nil _ _), fun ha => by
                  rw [swapRangePairsAt_apart (ha g (List.mem_of_getElem? hg))]; rfl⟩
              | ok r =>
                obtain ⟨comps1, g1⟩ := r
                simp only
                unfold groupComponents at hgc
                obtain ⟨comps2, h1, h2⟩ := Res.bind_ok' hgc
                cases h2
                obtain ⟨i1, i2⟩ := ih m' comps1 (gs.set j { g with len := g.len + 1 })
                refine ⟨swapRangePairsAt_in.append (i1.of (swapRange_sub h1)), fun ha => ?_⟩
                rw [swapRangePairsAt_apart (ha g (List.mem_of_getElem? hg)), List.nil_append]
                exact i2 (Apart.of_stat ha (SameStat.set hg _))

theorem ungroupStepPairsAt_in {e : Entity} {j k : Nat} (comps : List (CompSet V)) (gs : List Group) :
    PairsAt k comps (ungroupStepPairsAt k e j (comps, gs)) ∧ (Apart gs k → ungroupStepPairsAt k e j (comps, gs) = []) := by
  unfold ungroupStepPairsAt
  simp only
  cases hg : gs[j]? with
  | none => exact ⟨.nil _ _, fun _ => rfl⟩
  | some g =>
    simp only
    cases hc : compRange comps g.newStorageStart g.storageEnd with
    | panic => exact ⟨.nil _ _, fun _ => rfl⟩
    | ub => exact ⟨.nil _ _, fun _ => rfl⟩
    | ok seg =>
      simp only
      split
      · exact ⟨swapRangePairsAt_in, fun ha => swapRangePairsAt_apart (ha g (List.mem_of_getElem? hg))⟩
      · exact ⟨.nil _ _, fun _ => rfl⟩

theorem ungroupLoopPairsAt_in {e : Entity} {k : Nat} : ∀ (fuel : Nat) (m : BitVec 64) (s : Sets V),
    PairsAt k s.1 (ungroupLoopPairsAt k e fuel m s) ∧ (Apart s.2 k → ungroupLoopPairsAt k e fuel m s = []) := by
  intro fuel
  induction fuel with
  | zero =>
    intro m s
    unfold ungroupLoopPairsAt
    split
    · exact ⟨.nil _ _, fun _ => rfl⟩
    · exact ⟨.nil _ _, fun _ => rfl⟩
  | succ fuel ih =>
    intro m s
    unfold ungroupLoopPairsAt
    cases hb : bitNextBack m with
    | none => exact ⟨.nil _ _, fun _ => rfl⟩
    | some r =>
      obtain ⟨j, m'⟩ := r
      simp only
      obtain ⟨i1, i2⟩ := ungroupStepPairsAt_in (e := e) (j := j) (k := k) s.1 s.2
      cases h : ungroupStep e j s with
      | ok s' =>
        obtain ⟨j1, j2⟩ := ih m' s'
        exact ⟨i1.append (j1.of (ungroupStep_sub h).2), fun ha => by
          rw [i2 ha]; exact j2 ((ungroupStep_frame h) k ha).2⟩
      | panic => exact ⟨i1.append (.nil _ _), fun ha => by rw [i2 ha]; rfl⟩
      | ub => exact ⟨i1.append (.nil _ _), fun ha => by rw [i2 ha]; rfl⟩

theorem ungroupAllLoopPairsAt_in {e : Entity} {k : Nat} : ∀ (n : Nat) (s : Sets V),
    PairsAt k s.1 (ungroupAllLoopPairsAt k e n s) ∧ (Apart s.2 k → ungroupAllLoopPairsAt k e n s = [])
  | 0, _ => ⟨.nil _ _, fun _ => rfl⟩
  | n + 1, s => by
    unfold ungroupAllLoopPairsAt
    obtain ⟨i1, i2⟩ := ungroupStepPairsAt_in (e := e) (j := n) (k := k) s.1 s.2
    cases h : ungroupStep e n s with
    | ok s' =>
      obtain ⟨j1, j2⟩ := ungroupAllLoopPairsAt_in n s'
      exact ⟨i1.append (j1.of (ungroupStep_sub h).2), fun ha => by
        rw [i2 ha]; exact j2 ((ungroupStep_frame h) k ha).2⟩
    | panic => exact ⟨i1.append (.nil _ _), fun ha => by rw [i2 ha]; rfl⟩
    | ub => exact ⟨i1.append (.nil _ _), fun ha => by rw [i2 ha]; rfl⟩

theorem groupEntitiesPairsAt_in {m : GroupMask} {k : Nat} : ∀ (es : List Entity) (s : Sets V),
    PairsAt k s.1 (ComponentStorage.groupEntitiesPairsAt k m es s) ∧
      (Apart s.2 k → ComponentStorage.groupEntitiesPairsAt k m es s = [])
  | [], _ => ⟨.nil _ _, fun _ => rfl⟩
  | e :: es, s => by
    unfold ComponentStorage.groupEntitiesPairsAt
    obtain ⟨i1, i2⟩ := groupLoopPairsAt_in (e := e) (k := k) 64 m s.1 s.2
    cases h : group s m e with
    | ok s' =>
      obtain ⟨j1, j2⟩ := groupEntitiesPairsAt_in (m := m) (k := k) es s'
      exact ⟨i1.append (j1.of (groupLoop_sub _ _ _ _ h).2), fun ha => by
        rw [i2 ha]; exact j2 ((groupLoop_frame _ _ _ _ h) k ha).2⟩
    | panic => exact ⟨i1.append (.nil _ _), fun ha => by rw [i2 ha]; rfl⟩
    | ub => exact ⟨i1.append (.nil _ _), fun ha => by rw [i2 ha]; rfl⟩

/-! ### The set of one type -/

theorem KeepsVals.holds {A : Entity → Prop} {s s' : CompSet V} {f : Entity → Option V} (h : KeepsVals s s')
    (hs : s.WF ∧ (∀ x ∈ s.entities, A x) ∧ ∀ x, s.val x = f x) :
    s'.WF ∧ (∀ x ∈ s'.entities, A x) ∧ ∀ x, s'.val x = f x := by
  obtain ⟨h1, h2⟩ := h hs.1
  refine ⟨h1, fun x hx => hs.2.1 x ?_, fun x => (h2 x).trans (hs.2.2 x)⟩
  rw [hs.1.mem_iff, ← h2]
  exact (h1.mem_iff x).1 hx

/-- Grouping with even exchanges keeps what is known of the set of a type. -/
theorem HoldsOf.same {A : Entity → Prop} {c : ComponentStorage V} {t : TypeId} {f : Entity → Option V}
    (h : HoldsOf A c t f) {comps : List (CompSet V)} {gs : List Group}
    (hl : comps.length = c.components.length)
    (hs : ∀ m, c.meta? t = some m → SameAt m.storageIndex (c.components, c.groups) (comps, gs)) :
    HoldsOf A { c with components := comps, groups := gs } t f := by
  intro x hx
  unfold ComponentStorage.setOf at hx
  cases hm : c.meta? t with
  | none => simp only [ComponentStorage.meta?] at hm hx; rw [hm] at hx; cases hx
  | some m =>
    have hx' : comps[m.storageIndex]? = some x := by
      simp only [ComponentStorage.meta?] at hm hx
      rw [hm] at hx
      exact hx
    have hlt : m.storageIndex < c.components.length := by
      rw [← hl]
      exact (List.getElem?_eq_some_iff.1 hx').1
    obtain ⟨x', h1, h2⟩ := hs m hm _ (List.getElem?_eq_getElem hlt)
    simp only at h1
    rw [hx'] at h1
    cases h1
    exact h2.holds (h _ (by rw [setOf_meta hm]; exact List.getElem?_eq_getElem hlt))

theorem ComponentStorage.atType_meta {c : ComponentStorage V} {t : TypeId} {m : ComponentMetadata} (hm : c.meta? t = some m)
    (f : Nat → List (Entity × Entity)) : c.atType t f = f m.storageIndex := by
  unfold ComponentStorage.atType
  rw [hm]

theorem withMask_one {A : Entity → Prop} {c c' : ComponentStorage V} {m : GroupMask} {f : Sets V → Res (Sets V)}
    {t : TypeId} {F : Entity → Option V} (h : HoldsOf A c t F)
    (hf : ∀ k s', m ≠ 0#64 → (∃ md, c.meta? t = some md ∧ md.storageIndex = k) → f (c.components, c.groups) = .ok s' →
      s'.1.length = c.components.length ∧ SameAt k (c.components, c.groups) s')
    (hr : c.withMask m f = .ok c') : HoldsOf A c' t F := by
  unfold ComponentStorage.withMask at hr
  split at hr
  · cases hr; exact h
  · rename_i hz
    obtain ⟨⟨comps, gs⟩, h1, hr⟩ := Res.bind_ok' hr
    cases hr
    cases hm : c.meta? t with
    | none =>
      intro x hx
      unfold ComponentStorage.setOf at hx
      simp only [ComponentStorage.meta?] at hm hx
      rw [hm] at hx
      cases hx
    | some md =>
      refine h.same (hf md.storageIndex _ hz ⟨md, hm, rfl⟩ h1).1 (fun m' hm' => ?_)
      exact (hf _ _ hz ⟨m', hm', rfl⟩ h1).2

theorem insert_one {A : Entity → Prop} (hA : IdxUniq A) {e : Entity} (he : A e) (hu : e.index < u32Size) {t : TypeId}
    {c : ComponentStorage V} {F : Content V} (hc : Static c) (h : HoldsOf A c t (F t))
    (vs : List (TypeId × V)) (hev : EvenPairs (c.insertPairsOf t e vs)) : (c.insert e vs).Leaves (fun c' =>
      HoldsOf A c' t (F.setAll e (vs.takeWhile fun p => (c.meta? p.1).isSome) t)) := by
  unfold ComponentStorage.insertPairsOf at hev
  unfold ComponentStorage.insert
  have h1 := insertEach_holds hA he hu vs 0#64 c F hc h
  cases hi : ComponentStorage.insertEach e vs 0#64 c with
  | ub => trivial
  | panic c1 => rw [hi] at h1; exact h1
  | ok m c1 =>
    rw [hi] at h1 hev
    simp only [Outcome.bind_ok] at hev ⊢
    refine Outcome.Leaves.ofRes h1 fun c' hc' => withMask_one h1 (fun k s' hz hk hg => ?_) hc'
    obtain ⟨md, hk, rfl⟩ := hk
    rw [if_neg hz, ComponentStorage.atType_meta hk] at hev
    exact ⟨(groupLoop_shape _ _ _ _ hg).1, groupLoop_same _ _ _ _ hg hev⟩

theorem remove_one {A : Entity → Prop} {e : Entity} {t : TypeId} {ts : List TypeId} {c c' : ComponentStorage V}
    {F : Content V} {vs : List (Option V)} (hc : Static c) (hev : EvenPairs (c.removePairsOf t e ts))
    (h : HoldsOf A c t (F t)) (hr : c.remove e ts = .ok (vs, c')) :
    HoldsOf A c' t (F.eraseAll e ts t) ∧ vs.length = ts.length ∧
      ∀ i : Nat, ts[i]? = some t → vs[i]? = (F.removed e ts)[i]? := by
  obtain ⟨⟨idxs, mask⟩, h1, hr⟩ := Res.bind_ok' hr
  obtain ⟨c1, h2, hr⟩ := Res.bind_ok' hr
  unfold ComponentStorage.removePairsOf at hev
  rw [h1] at hev
  simp only at hev
  obtain ⟨rfl, hk⟩ := lookupAll_idxs ts h1
  have hsh := ComponentStorage.withMask_shape (fun s s' => ungroupLoop_shape _ _ s s') h2
  have h3 := withMask_one h (fun k s' hz hk hg => by
    obtain ⟨md, hk, rfl⟩ := hk
    rw [if_neg hz, ComponentStorage.atType_meta hk] at hev
    exact ⟨(ungroupLoop_shape _ _ _ _ hg).1, ungroupLoop_same _ _ _ _ hg hev⟩) h2
  rw [← ComponentStorage.idxOf_same hsh.md] at hr
  exact removeEach_holds ts c1 c' F vs (hc.of_shape hsh) h3 (fun t ht => by rw [hsh.meta?]; exact hk t ht) hr

theorem delete_one {A : Entity → Prop} {e : Entity} {t : TypeId} {ts : List TypeId} {c c' : ComponentStorage V}
    {F : Content V} (hc : Static c) (hev : EvenPairs (c.removePairsOf t e ts)) (h : HoldsOf A c t (F t))
    (hr : c.delete e ts = .ok c') : HoldsOf A c' t (F.eraseAll e ts t) := by
  obtain ⟨⟨idxs, mask⟩, h1, hr⟩ := Res.bind_ok' hr
  obtain ⟨c1, h2, hr⟩ := Res.bind_ok' hr
  unfold ComponentStorage.removePairsOf at hev
  rw [h1] at hev
  simp only at hev
  obtain ⟨rfl, hk⟩ := lookupAll_idxs ts h1
  have hsh := ComponentStorage.withMask_shape (fun s s' => ungroupLoop_shape _ _ s s') h2
  have h3 := withMask_one h (fun k s' hz hk hg => by
    obtain ⟨md, hk, rfl⟩ := hk
    rw [if_neg hz, ComponentStorage.atType_meta hk] at hev
    exact ⟨(ungroupLoop_shape _ _ _ _ hg).1, ungroupLoop_same _ _ _ _ hg hev⟩) h2
  rw [← ComponentStorage.idxOf_same hsh.md] at hr
  exact deleteEach_holds ts c1 c' F (hc.of_shape hsh) h3 (fun t ht => by rw [hsh.meta?]; exact hk t ht) hr

theorem strip_one {A : Entity → Prop} {e : Entity} {t : TypeId} {c c' : ComponentStorage V}
    {F : Content V} (hev : EvenPairs (c.atType t fun k => ungroupAllLoopPairsAt k e c.groups.length (c.components, c.groups)))
    (h : HoldsOf A c t (F t)) (hr : c.strip e = .ok c') : HoldsOf (fun x => A x ∧ x ≠ e) c' t (F.strip e t) := by
  obtain ⟨⟨comps, gs⟩, h1, hr⟩ := Res.bind_ok' hr
  obtain ⟨comps', h2, hr⟩ := Res.bind_ok' hr
  cases hr
  have h0 : HoldsOf A { c with components := comps, groups := gs } t (F t) :=
    h.same (ungroupAllLoop_shape _ _ _ h1).1 (fun m hm => by
      rw [ComponentStorage.atType_meta hm] at hev
      exact ungroupAllLoop_same _ _ _ h1 hev)
  intro s' hs'
  unfold ComponentStorage.setOf at hs'
  cases hm : c.meta? t with
  | none => simp only [ComponentStorage.meta?] at hm hs'; rw [hm] at hs'; cases hs'
  | some m =>
    simp only [ComponentStorage.meta?] at hm hs'
    rw [hm] at hs'
    obtain ⟨s, h3, h4⟩ := deleteAll_at h2 m.storageIndex s' hs'
    obtain ⟨i1, i2, i3⟩ := h0 s (by simp only [ComponentStorage.setOf, ComponentStorage.meta?, hm]; exact h3)
    obtain ⟨s2, _, j2, j3, j4, j5, j6⟩ := i1.removeAny e
    rw [j2] at h4
    cases h4
    refine ⟨j3, fun x hx => ⟨i2 x (j4 x hx), fun hxe => j5 (hxe ▸ hx)⟩, fun x => ?_⟩
    rw [j6, i3]
    rfl

theorem register_one {c : ComponentStorage V} (hc : Static c) (t' t : TypeId) :
    (c.register t').1 = !(c.meta? t').isSome ∧
    (∀ x, ((c.register t').2.meta? x).isSome ↔ x = t' ∨ (c.meta? x).isSome) ∧
    (c.meta? t = none → ∀ s, (c.register t').2.setOf t = some s → s = CompSet.new) ∧
    ((c.meta? t).isSome → (c.register t').2.setOf t = c.setOf t) := by
  unfold ComponentStorage.register
  cases hm : c.meta? t' with
  | some m =>
    refine ⟨rfl, fun x => ⟨.inr, fun h => ?_⟩, fun h s hs => ?_, fun _ => rfl⟩
    · rcases h with rfl | h
      · simp [hm]
      · exact h
    · unfold ComponentStorage.setOf at hs
      rw [h] at hs
      cases hs
  | none =>
    refine ⟨rfl, fun x => ?_, fun h s hs => ?_, fun h => ?_⟩
    · simp only [ComponentStorage.meta?, insertMeta_lookup]
      split
      · simp [*]
      · simp [*]
    · unfold ComponentStorage.setOf at hs
      simp only [ComponentStorage.meta?, insertMeta_lookup] at hs h
      split at hs
      · simpa using hs.symm
      · rw [h] at hs; cases hs
    · obtain ⟨m, hm'⟩ := Option.isSome_iff_exists.1 h
      have hlt := hc.idx _ _ hm'
      have hne : t ≠ t' := by rintro rfl; rw [hm] at hm'; cases hm'
      unfold ComponentStorage.setOf
      simp only [ComponentStorage.meta?, insertMeta_lookup, if_neg hne] at hm' ⊢
      rw [hm']
      simp [List.getElem?_append_left hlt]

open ComponentStorage in
/-- `set_layout` moves the set of a type that occurs at most once in the layout, and groups afterwards. -/
theorem setLayout_moved {rank : TypeId → Nat} {c c' : ComponentStorage V} {l : GroupLayout} {es : List Entity}
    (hc : Static c) (hk : (c.metadata.map Prod.fst).Nodup) (hl : FamsOK l.families)
    (h : c.setLayout rank l es = .ok () c') :
    ∃ (c3 : ComponentStorage V) (mask : GroupMask) (comps : List (CompSet V)) (gs : List Group),
      c' = { c3 with components := comps, groups := gs } ∧
      groupEntities mask es (c3.components, c3.groups) = .ok (comps, gs) ∧
      (∀ t, c.setLayoutPairsOf rank t l es = c3.atType t fun k => groupEntitiesPairsAt k mask es (c3.components, c3.groups)) ∧
      (∀ x, (c3.meta? x).isSome ↔ x ∈ layoutTypes l ∨ (c.meta? x).isSome) ∧
      (∀ t, (layoutTypes l).count t ≤ 1 →
        c3.setOf t = if t ∈ layoutTypes l then some ((c.setOf t).getD CompSet.new) else c.setOf t) ∧
      ∀ t, 2 ≤ (layoutTypes l).count t → c3.setOf t = some CompSet.new := by
  obtain ⟨sets, comps0, h1, h2, _, h4, _, h6⟩ := takeSets_ok c.metadata c.components hk
    (fun t m hm => hc.idx t m ((lookup_some hk t m).2 hm))
    (fun t t' m m' hm hm' => hc.inj t t' m m' ((lookup_some hk t m).2 hm) ((lookup_some hk t' m').2 hm'))
  have hex : c.extractSparseSets = .ok (sets, ⟨[], [], comps0⟩) := by simp [extractSparseSets, h1]
  have hpairs : ∀ t, c.setLayoutPairsOf rank t l es = c.setLayoutPairsOf rank t l es := fun _ => rfl
  conv at hpairs => enter [t]; rhs; unfold setLayoutPairsOf; rw [hex]
  unfold setLayout at h
  rw [hex] at h
  simp only at h hpairs
  cases hf : addFamilies l.families ((⟨[], [], comps0⟩, sets) : Building V) with
  | ub => rw [hf] at h; cases h
  | panic b => rw [hf] at h; cases h
  | ok u b =>
    obtain ⟨c2, sets2⟩ := b
    rw [hf] at h hpairs
    simp only at h hpairs
    have hpl := addFamilies_placed _ _ _ hl hf
    have hkeys : (sets2.map (·.1)).Nodup := hpl.keys (by rw [show sets.map (·.1) = sets.map Prod.fst from rfl, h4]; exact hk)
    have hperm := sortByRank_perm rank sets2
    have hkeys' : ((sortByRank rank sets2).map (·.1)).Nodup := ((hperm.map _).nodup_iff).2 hkeys
    obtain ⟨u1, u2, u3⟩ := addUngrouped_lone (sortByRank rank sets2) c2 hkeys'
    generalize hc3 : addUngrouped (sortByRank rank sets2) c2 = c3 at *
    have hmem : ∀ x, x ∈ (sortByRank rank sets2).map (·.1) ↔ (c.meta? x).isSome ∧ x ∉ layoutTypes l := by
      intro x
      rw [(hperm.map _).mem_iff, hpl.gone]
      have : x ∈ sets.map (·.1) ↔ (c.meta? x).isSome := by
        rw [show sets.map (·.1) = sets.map Prod.fst from rfl, h4, ← lookup_isSome]
        rfl
      rw [this]
      rfl
    have hreg : ∀ x, (c3.meta? x).isSome ↔ x ∈ layoutTypes l ∨ (c.meta? x).isSome := by
      intro x
      by_cases hx : x ∈ (sortByRank rank sets2).map (·.1)
      · obtain ⟨s, hs⟩ := Option.isSome_iff_exists.1 ((lookup_isSome _ x).2 hx)
        obtain ⟨m, i1, _⟩ := u3 x s hs
        simp only [i1, Option.isSome_some, true_iff]
        exact .inr ((hmem x).1 hx).1
      · rw [u2 x hx, hpl.reg]
        have := (hmem x).not.1 hx
        simp only [meta?, List.lookup_nil, Option.isSome_none, Bool.false_eq_true, false_or] at this ⊢
        show x ∈ layoutTypes l ↔ _
        tauto
    have hset : ∀ t, (layoutTypes l).count t ≤ 1 →
        c3.setOf t = if t ∈ layoutTypes l then some ((c.setOf t).getD CompSet.new) else c.setOf t := by
      intro t hct
      by_cases ht : t ∈ layoutTypes l
      · rw [if_pos ht]
        obtain ⟨m, i1, i2⟩ := hpl.once t (Nat.le_antisymm hct (List.count_pos_iff.2 ht))
        have i3 : c3.meta? t = some m := by
          rw [u2 t (fun hx => ((hmem t).1 hx).2 ht), i1]
        rw [setOf_meta i3, u1 _ (List.getElem?_eq_some_iff.1 i2).1, i2]
        simp only [h6]
        rfl
      · rw [if_neg ht]
        have hlk : (sortByRank rank sets2).lookup t = c.setOf t := by
          rw [lookup_perm hperm hkeys, hpl.sets t ht, h6]
          rfl
        by_cases hm : (c.meta? t).isSome
        · obtain ⟨s, hs⟩ := Option.isSome_iff_exists.1 ((lookup_isSome _ t).2 ((hmem t).2 ⟨hm, ht⟩))
          obtain ⟨m, i1, i2, i3⟩ := u3 t s hs
          rw [setOf_meta i1, i3, ← hlk, hs]
        · have hn : c3.meta? t = none := by
            have := (hreg t).not.2 (by tauto)
            simpa using this
          have hn' : c.meta? t = none := by simpa using hm
          simp [ComponentStorage.setOf, hn, hn']
    have hset2 : ∀ t, 2 ≤ (layoutTypes l).count t → c3.setOf t = some CompSet.new := by
      intro t hct
      have ht : t ∈ layoutTypes l := List.count_pos_iff.1 (by omega)
      obtain ⟨m, i1, i2⟩ := hpl.twice t hct
      have i3 : c3.meta? t = some m := by
        rw [u2 t (fun hx => ((hmem t).1 hx).2 ht), i1]
      rw [setOf_meta i3, u1 _ (List.getElem?_eq_some_iff.1 i2).1, i2]
    cases hm : GroupMask.fromTo 0 c3.groups.length with
    | panic => rw [hm] at h; cases h
    | ub => rw [hm] at h; cases h
    | ok mask =>
      rw [hm] at h hpairs
      simp only at h hpairs
      cases hg : groupEntities mask es (c3.components, c3.groups) with
      | panic => rw [hg] at h; cases h
      | ub => rw [hg] at h; cases h
      | ok p =>
        obtain ⟨comps', gs'⟩ := p
        rw [hg] at h
        simp only [Outcome.ok.injEq, true_and] at h
        exact ⟨c3, mask, comps', gs', h.symm, hg, hpairs, hreg, hset, hset2⟩

/-- What is known of the set of a type that occurs at most once in the layout, before entities are grouped. -/
theorem HoldsOf.moved {A : Entity → Prop} {c c3 : ComponentStorage V} {l : GroupLayout} (hc : Static c) {t : TypeId}
    {f : Entity → Option V} (hh : HoldsOf A c t f) (hn : c.meta? t = none → ∀ e, f e = none)
    (hset : c3.setOf t = if t ∈ layoutTypes l then some ((c.setOf t).getD CompSet.new) else c.setOf t) :
    HoldsOf A c3 t f := by
  intro s hs
  rw [hset] at hs
  split at hs
  · cases hm : c.setOf t with
    | some s0 =>
      rw [hm] at hs
      cases hs
      exact hh s0 hm
    | none =>
      rw [hm] at hs
      cases hs
      refine ⟨CompSet.wf_new, by simp [CompSet.new], fun y => ?_⟩
      refine (CompSet.val_new y).trans (hn ?_ y).symm
      cases hmt : c.meta? t with
      | none => rfl
      | some m =>
        rw [setOf_meta hmt] at hm
        have := hc.idx _ _ hmt
        rw [List.getElem?_eq_getElem this] at hm
        cases hm
  · exact hh s hs

/-- `set_layout` with even exchanges in the set of the type keeps its components. -/
theorem setLayout_one {A : Entity → Prop} {rank : TypeId → Nat} {c c' : ComponentStorage V} {l : GroupLayout}
    {es : List Entity} (hc : Static c) (hk : (c.metadata.map Prod.fst).Nodup) (hl : FamsOK l.families) {t : TypeId}
    {f : Entity → Option V} (ht : (layoutTypes l).count t ≤ 1) (hev : EvenPairs (c.setLayoutPairsOf rank t l es))
    (hh : HoldsOf A c t f) (hn : c.meta? t = none → ∀ e, f e = none) (h : c.setLayout rank l es = .ok () c') :
    HoldsOf A c' t f := by
  obtain ⟨c3, mask, comps, gs, rfl, hg, hp, hreg, hset, _⟩ := setLayout_moved hc hk hl h
  have h3 : HoldsOf A c3 t f := hh.moved hc hn (hset t ht)
  rw [hp] at hev
  exact h3.same (ComponentStorage.groupEntities_shape _ _ _ hg).1 (fun m hm => by
    rw [ComponentStorage.atType_meta hm] at hev
    exact groupEntities_same _ _ _ hg hev)

end Sparsey
