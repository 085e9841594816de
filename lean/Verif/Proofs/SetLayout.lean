import Verif.Spec.Layout
import Verif.Proofs.StoreOps

/-!
`set_layout` keeps the contents and establishes the invariant.
-/

set_option autoImplicit false
set_option linter.unusedSimpArgs false

namespace Sparsey
variable {V : Type}

/-! ### Arities -/

theorem FamilyOK.step {f : GroupFamily} (h : FamilyOK f) {i p a : Nat} (hp : (0 :: f.arities)[i]? = some p)
    (ha : f.arities[i]? = some a) : p < a := by
  cases i with
  | zero =>
    simp at hp
    have := h.2.1 a (List.mem_of_getElem? ha)
    omega
  | succ i =>
    simp at hp
    have h1 := h.1
    rw [List.pairwise_iff_getElem] at h1
    obtain ⟨hi, rfl⟩ := List.getElem?_eq_some_iff.1 hp
    obtain ⟨hi', rfl⟩ := List.getElem?_eq_some_iff.1 ha
    exact h1 i (i + 1) hi hi' (by omega)

theorem FamilyOK.le_last {f : GroupFamily} (h : FamilyOK f) {i a : Nat} (ha : f.arities[i]? = some a) :
    a ≤ f.components.length := by
  have h1 := h.1
  rw [List.pairwise_iff_getElem] at h1
  obtain ⟨hi, rfl⟩ := List.getElem?_eq_some_iff.1 ha
  have h2 := h.2.2
  rw [List.getLast?_eq_getElem?, List.getElem?_eq_some_iff] at h2
  obtain ⟨hl, h2⟩ := h2
  rw [← h2]
  rcases Nat.lt_or_ge i (f.arities.length - 1) with h3 | h3
  · exact Nat.le_of_lt (h1 i _ hi hl h3)
  · have : i = f.arities.length - 1 := by omega
    subst this
    exact Nat.le_refl _

theorem FamilyOK.mono {f : GroupFamily} (h : FamilyOK f) {i j a b : Nat} (hij : i < j) (ha : f.arities[i]? = some a)
    (hb : f.arities[j]? = some b) : a < b := by
  have h1 := h.1
  rw [List.pairwise_iff_getElem] at h1
  obtain ⟨hi, rfl⟩ := List.getElem?_eq_some_iff.1 ha
  obtain ⟨hj, rfl⟩ := List.getElem?_eq_some_iff.1 hb
  exact h1 i j hi hj hij

theorem FamilyOK.le_prev {f : GroupFamily} (h : FamilyOK f) {i j a p : Nat} (hij : i < j) (ha : f.arities[i]? = some a)
    (hp : (0 :: f.arities)[j]? = some p) : a ≤ p := by
  cases j with
  | zero => omega
  | succ j =>
    simp at hp
    rcases Nat.lt_or_ge i j with h1 | h1
    · exact Nat.le_of_lt (h.mono h1 ha hp)
    · have : i = j := by omega
      subst this
      rw [ha] at hp
      cases hp
      exact Nat.le_refl _

theorem FamilyOK.pos {f : GroupFamily} (h : FamilyOK f) : 0 < f.arities.length := by
  have h2 := h.2.2
  cases hf : f.arities with
  | nil => rw [hf] at h2; simp at h2
  | cons a l => simp

theorem FamilyOK.len {f : GroupFamily} (h : FamilyOK f) : f.arities[f.arities.length - 1]? = some f.components.length := by
  rw [← List.getLast?_eq_getElem?]
  exact h.2.2

/-! ### Adding one family -/

/-- Bits of the masks of the new groups. -/
def GroupNew (g : Group) (G n r i p a : Nat) : Prop :=
  g.storageStart = n ∧ g.newStorageStart = n + p ∧ g.storageEnd = n + a ∧
  (∀ k < 64, g.skipMask.getLsbD k = !decide (G + i ≤ k ∧ k < G + r)) ∧
  g.includeMask.excludeMask = 0#16 ∧
  (∀ b < 16, g.includeMask.includeMask.getLsbD b = decide (b < a)) ∧
  (∀ b < 16, g.excludeMask.includeMask.getLsbD b = decide (b < p)) ∧
  (∀ b < 16, g.excludeMask.excludeMask.getLsbD b = decide (p ≤ b ∧ b < a)) ∧
  g.len = 0

/-- Metadata of the new components. -/
def MetaNew (m : ComponentMetadata) (G n r i b : Nat) : Prop :=
  m.storageIndex = n + b ∧
  (∀ k < 64, m.insertMask.getLsbD k = decide (G ≤ k ∧ k < G + r)) ∧
  (∀ k < 64, m.deleteMask.getLsbD k = decide (G + i ≤ k ∧ k < G + r)) ∧
  ∃ gi, m.groupInfo = some gi ∧ gi.groupStart = G ∧ gi.groupEnd = G + i + 1 ∧
    ∀ k < 16, gi.storageMask.getLsbD k = decide (k = b)

/-- State of the loops over one family: the groups of `done` and the first `cur` components are added. -/
structure FamPart (c0 : ComponentStorage V) (sets0 : List (TypeId × CompSet V)) (f : GroupFamily) (r : Nat)
    (done : List Nat) (cur : Nat) (c : ComponentStorage V) (sets : List (TypeId × CompSet V)) : Prop where
  glen : c.groups.length = c0.groups.length + done.length
  gold : ∀ i < c0.groups.length, c.groups[i]? = c0.groups[i]?
  gnew : ∀ i p a, (0 :: done)[i]? = some p → done[i]? = some a →
    ∃ g, c.groups[c0.groups.length + i]? = some g ∧ GroupNew g c0.groups.length c0.components.length r i p a
  comps : c.components = c0.components ++
    (f.components.take cur).map (fun t => (sets0.lookup t).getD CompSet.new)
  mold : ∀ t, t ∉ f.components.take cur → c.metadata.lookup t = c0.metadata.lookup t
  mnew : ∀ b t, b < cur → f.components[b]? = some t → ∃ m i p a, c.metadata.lookup t = some m ∧
    (0 :: done)[i]? = some p ∧ done[i]? = some a ∧ p ≤ b ∧ b < a ∧
    MetaNew m c0.groups.length c0.components.length r i b
  mkeys : (c.metadata.map Prod.fst).Nodup
  left : sets = sets0.filter (fun p => !(f.components.take cur).contains p.1)

theorem FamPart.init {c0 : ComponentStorage V} {sets0 : List (TypeId × CompSet V)} {f : GroupFamily} {r : Nat}
    (hk : (c0.metadata.map Prod.fst).Nodup) : FamPart c0 sets0 f r [] 0 c0 sets0 where
  glen := by simp
  gold _ _ := rfl
  gnew i p a _ ha := by simp at ha
  comps := by simp
  mold _ _ := rfl
  mnew b t hb := by omega
  mkeys := hk
  left := by simp

theorem lookup_filter {β : Type} (l : List (TypeId × β)) (q : TypeId → Bool) (t : TypeId) (h : q t = true) :
    (l.filter (fun p => q p.1)).lookup t = l.lookup t := by
  induction l with
  | nil => rfl
  | cons p l ih =>
    obtain ⟨a, b⟩ := p
    by_cases ht : t = a
    · subst ht
      simp [List.filter_cons, h, List.lookup_cons]
    · have : (t == a) = false := by simpa using ht
      cases hq : q a <;> simp [List.filter_cons, hq, List.lookup_cons, this, ih]

/-- One iteration of the loop over the components of a group. -/
theorem addComponents_ok {c0 : ComponentStorage V} {sets0 : List (TypeId × CompSet V)} {f : GroupFamily} {r : Nat}
    (hnd : f.components.Nodup) (hcount : c0.groups.length + r < 64) (hlen : f.components.length ≤ 15) {done : List Nat}
    {i p a : Nat} (hi : i + 1 = done.length) (hir : i < r) (hp : (0 :: done)[i]? = some p) (ha : done[i]? = some a)
    (hal : a ≤ f.components.length) :
    ∀ (n cur : Nat) (c : ComponentStorage V) (sets : List (TypeId × CompSet V)), cur + n = a → p ≤ cur →
    FamPart c0 sets0 f r done cur c sets →
    ∃ c' sets', ComponentStorage.addComponents f c0.groups.length (c0.groups.length + i) (c0.groups.length + r) cur n
      (c, sets) = .ok () (c', sets') ∧ FamPart c0 sets0 f r done a c' sets' := by
  intro n
  induction n with
  | zero =>
    intro cur c sets hn hpc h
    have : cur = a := by omega
    subst this
    exact ⟨c, sets, rfl, h⟩
  | succ n ih =>
    intro cur c sets hn hpc h
    have hcl : cur < f.components.length := by omega
    have ht := List.getElem?_eq_getElem hcl
    obtain ⟨im, h1, h1'⟩ := GroupMask.fromTo_ok (a := c0.groups.length) (b := c0.groups.length + r) hcount (by omega)
    obtain ⟨dm, h2, h2'⟩ := GroupMask.fromTo_ok (a := c0.groups.length + i) (b := c0.groups.length + r) hcount (by omega)
    obtain ⟨sm, h3, h3'⟩ := StorageMask.single_ok (a := cur) (by omega)
    have htake : f.components.take (cur + 1) = f.components.take cur ++ [f.components[cur]] := by
      rw [List.take_add_one, ht]; rfl
    have hnotin : f.components[cur] ∉ f.components.take cur := by
      intro hc
      rw [List.mem_take_iff_getElem] at hc
      obtain ⟨j, hj, hj'⟩ := hc
      have := (List.Nodup.getElem_inj_iff hnd).1 hj'
      omega
    have hlook : sets.lookup f.components[cur] = sets0.lookup f.components[cur] := by
      rw [h.left, lookup_filter sets0 (fun t => !(f.components.take cur).contains t)]
      simpa using hnotin
    have hclen : c.components.length = c0.components.length + cur := by
      rw [h.comps]
      simp
      omega
    have h8 : asU8 c0.groups.length = c0.groups.length := by unfold asU8; omega
    have h9 : asU8 c.groups.length = c0.groups.length + i + 1 := by
      unfold asU8
      rw [h.glen, ← hi]
      omega
    unfold ComponentStorage.addComponents
    simp only [ht, h1, h2, h3, Res.checked_some, Res.bind_ok, Res.pure_eq, Outcome.ofRes_ok,
      ComponentStorage.removeSet]
    apply ih (cur + 1) _ _ (by omega) (by omega)
    refine ⟨h.glen, h.gold, h.gnew, ?_, ?_, ?_, insertMeta_keys h.mkeys _ _, ?_⟩
    · simp only [htake, List.map_append, List.map_cons, List.map_nil, h.comps, hlook, List.append_assoc]
    · intro t htn
      simp only [htake, List.mem_append, List.mem_singleton, not_or] at htn
      simp only [insertMeta_lookup]
      rw [if_neg htn.2]
      exact h.mold t htn.1
    · intro b t hb hbt
      simp only [insertMeta_lookup]
      by_cases hbc : b = cur
      · subst hbc
        rw [ht] at hbt
        simp only [Option.some.injEq] at hbt
        rw [if_pos hbt.symm]
        refine ⟨_, i, p, a, rfl, hp, ha, hpc, by omega, hclen, h1', h2', _, rfl, h8, h9, h3'⟩
      · have hne : t ≠ f.components[cur] := by
          rintro rfl
          obtain ⟨hb', hbt⟩ := List.getElem?_eq_some_iff.1 hbt
          have := (List.Nodup.getElem_inj_iff hnd).1 hbt
          omega
        rw [if_neg hne]
        exact h.mnew b t (by omega) hbt
    · rw [h.left, List.filter_filter]
      apply List.filter_congr
      intro q _
      rw [htake]
      rw [Bool.eq_iff_iff]
      simp only [Bool.and_eq_true, bne_iff_ne, ne_eq, Bool.not_eq_true', List.contains_eq_mem, decide_eq_false_iff_not,
        List.mem_append, List.mem_singleton, not_or]
      tauto

/-- The loop over the groups of a family. -/
theorem addGroups_ok {c0 : ComponentStorage V} {sets0 : List (TypeId × CompSet V)} {f : GroupFamily}
    (hf : FamilyOK f) (hnd : f.components.Nodup) (hcount : c0.groups.length + f.arities.length < 64)
    (hlen : f.components.length ≤ 15) :
    ∀ (rest done : List Nat) (prev : Nat) (c : ComponentStorage V) (sets : List (TypeId × CompSet V)),
    done ++ rest = f.arities → (0 :: done)[done.length]? = some prev →
    FamPart c0 sets0 f f.arities.length done prev c sets →
    ∃ c' sets', ComponentStorage.addGroups f c0.components.length c0.groups.length
      (c0.groups.length + f.arities.length) prev rest (c, sets) = .ok () (c', sets') ∧
      FamPart c0 sets0 f f.arities.length f.arities f.components.length c' sets' := by
  intro rest
  induction rest with
  | nil =>
    intro done prev c sets hd hprev h
    rw [List.append_nil] at hd
    subst hd
    refine ⟨c, sets, rfl, ?_⟩
    have h1 := hf.len
    have h2 := hf.pos
    have h3 : (0 :: f.arities)[f.arities.length]? = f.arities[f.arities.length - 1]? := by
      obtain ⟨k, hk⟩ : ∃ k, f.arities.length = k + 1 := ⟨f.arities.length - 1, by omega⟩
      rw [hk]
      simp
    rw [h3, h1] at hprev
    cases hprev
    exact h
  | cons a rest ih =>
    intro done prev c sets hd hprev h
    have ha : f.arities[done.length]? = some a := by rw [← hd]; simp
    have hp : (0 :: f.arities)[done.length]? = some prev := by
      rw [← hd, ← List.cons_append, List.getElem?_append_left (by simp)]
      exact hprev
    have hpa := hf.step hp ha
    have hal := hf.le_last ha
    have hdl : done.length < f.arities.length := (List.getElem?_eq_some_iff.1 ha).1
    obtain ⟨sm, h1, h1'⟩ := GroupMask.skipFromTo_ok (a := c0.groups.length + done.length)
      (b := c0.groups.length + f.arities.length) hcount (by omega)
    obtain ⟨im, h2, h2'⟩ := StorageMask.fromTo_ok (a := 0) (b := a) (by omega) (by omega)
    obtain ⟨e1, h3, h3'⟩ := StorageMask.fromTo_ok (a := 0) (b := prev) (by omega) (by omega)
    obtain ⟨e2, h4, h4'⟩ := StorageMask.fromTo_ok (a := prev) (b := a) (by omega) (by omega)
    unfold ComponentStorage.addGroups
    simp only [h.glen, h1, QueryMask.include, QueryMask.exclude, h2, h3, h4, Res.bind_ok, Res.pure_eq,
      Outcome.ofRes_ok]
    have hpart : FamPart c0 sets0 f f.arities.length (done ++ [a]) prev
        { c with groups := c.groups ++ [⟨c0.components.length, c0.components.length + prev, c0.components.length + a, sm,
          ⟨im, 0#16⟩, ⟨e1, e2⟩, 0⟩] } sets := by
      refine ⟨?_, ?_, ?_, h.comps, h.mold, ?_, h.mkeys, h.left⟩
      · simp [h.glen]; omega
      · intro i hi
        rw [← h.gold i hi]
        exact List.getElem?_append_left (by rw [h.glen]; omega)
      · intro i p' a' hp' ha'
        by_cases hi : i < done.length
        · rw [← List.cons_append, List.getElem?_append_left (by simp; omega)] at hp'
          rw [List.getElem?_append_left hi] at ha'
          obtain ⟨g, hg1, hg2⟩ := h.gnew i p' a' hp' ha'
          exact ⟨g, by
            show (c.groups ++ [_])[c0.groups.length + i]? = some g
            rw [List.getElem?_append_left (by rw [h.glen]; omega)]; exact hg1, hg2⟩
        · have hi' : i = done.length := by
            have := (List.getElem?_eq_some_iff.1 ha').1
            simp at this
            omega
          subst hi'
          rw [← List.cons_append, List.getElem?_append_left (by simp), hprev] at hp'
          cases hp'
          simp at ha'
          subst ha'
          refine ⟨⟨c0.components.length, c0.components.length + prev, c0.components.length + a, sm,
            ⟨im, 0#16⟩, ⟨e1, e2⟩, 0⟩, ?_, rfl, rfl, rfl, h1', rfl, ?_, ?_, ?_, rfl⟩
          · show (c.groups ++ [_])[c0.groups.length + done.length]? = _
            rw [← h.glen]
            simp
          · intro b hb; simp [h2' b hb]
          · intro b hb; simp [h3' b hb]
          · intro b hb; simp [h4' b hb]
      · intro b t hb hbt
        obtain ⟨m, i, p', a', q1, q2, q3, q4⟩ := h.mnew b t hb hbt
        have hi : i < done.length := (List.getElem?_eq_some_iff.1 q3).1
        refine ⟨m, i, p', a', q1, ?_, ?_, q4⟩
        · rw [← List.cons_append, List.getElem?_append_left (by simp; omega)]; exact q2
        · rw [List.getElem?_append_left hi]; exact q3
    obtain ⟨c1, sets1, h5, h6⟩ := addComponents_ok hnd hcount hlen (done := done ++ [a]) (i := done.length) (p := prev)
      (a := a) (by simp) hdl (by rw [← List.cons_append, List.getElem?_append_left (by simp)]; exact hprev)
      (by simp) hal (a - prev) prev _ sets (by omega) (Nat.le_refl _) hpart
    rw [h5]
    simp only [Outcome.bind_ok]
    exact ih (done ++ [a]) a c1 sets1 (by rw [← hd]; simp) (by simp) h6

/-- Bits of the skip masks above the existing groups are set. -/
def SkipHi (gs : List Group) : Prop :=
  ∀ (j : Nat) (g : Group), gs[j]? = some g → ∀ k, gs.length ≤ k → k < 64 → g.skipMask.getLsbD k = true

/-- The groups after adding a family. -/
theorem FamPart.cases_group {c0 c : ComponentStorage V} {sets0 sets : List (TypeId × CompSet V)} {f : GroupFamily}
    (h : FamPart c0 sets0 f f.arities.length f.arities f.components.length c sets) {j : Nat} {g : Group}
    (hg : c.groups[j]? = some g) :
    (j < c0.groups.length ∧ c0.groups[j]? = some g) ∨
    ∃ i p a, j = c0.groups.length + i ∧ i < f.arities.length ∧ (0 :: f.arities)[i]? = some p ∧ f.arities[i]? = some a ∧
      GroupNew g c0.groups.length c0.components.length f.arities.length i p a := by
  by_cases hj : j < c0.groups.length
  · left
    rw [h.gold j hj] at hg
    exact ⟨hj, hg⟩
  · right
    have hjl := (List.getElem?_eq_some_iff.1 hg).1
    rw [h.glen] at hjl
    have hi : j - c0.groups.length < f.arities.length := by omega
    have hi' : j - c0.groups.length < (0 :: f.arities).length := by simp; omega
    obtain ⟨g', h1, h2⟩ := h.gnew (j - c0.groups.length) _ _ (List.getElem?_eq_getElem hi') (List.getElem?_eq_getElem hi)
    have hjj : c0.groups.length + (j - c0.groups.length) = j := by omega
    rw [hjj, hg] at h1
    cases h1
    exact ⟨j - c0.groups.length, _, _, by omega, hi, List.getElem?_eq_getElem hi', List.getElem?_eq_getElem hi, h2⟩

/-- The metadata after adding a family. -/
theorem FamPart.cases_meta {c0 c : ComponentStorage V} {sets0 sets : List (TypeId × CompSet V)} {f : GroupFamily}
    (h : FamPart c0 sets0 f f.arities.length f.arities f.components.length c sets) {t : TypeId} {m : ComponentMetadata}
    (hm : c.metadata.lookup t = some m) :
    (t ∉ f.components ∧ c0.metadata.lookup t = some m) ∨
    ∃ b i p a, f.components[b]? = some t ∧ (0 :: f.arities)[i]? = some p ∧ f.arities[i]? = some a ∧ p ≤ b ∧ b < a ∧
      MetaNew m c0.groups.length c0.components.length f.arities.length i b := by
  by_cases ht : t ∈ f.components
  · right
    obtain ⟨b, hb⟩ := List.mem_iff_getElem?.1 ht
    obtain ⟨m', i, p, a, h1, h2⟩ := h.mnew b t (List.getElem?_eq_some_iff.1 hb).1 hb
    rw [hm] at h1
    cases h1
    exact ⟨b, i, p, a, hb, h2⟩
  · left
    rw [h.mold t (by rw [List.take_length]; exact ht)] at hm
    exact ⟨ht, hm⟩

section
variable {A : Entity → Prop}

theorem FamPart.gstat {c0 c : ComponentStorage V} {sets0 sets : List (TypeId × CompSet V)} {f : GroupFamily}
    (h : FamPart c0 sets0 f f.arities.length f.arities f.components.length c sets) (hf : FamilyOK f)
    (hcount : c0.groups.length + f.arities.length < 64)
    (hlen : f.components.length ≤ 15) (h0 : GStat c0.groups c0.components.length) (hhi : SkipHi c0.groups) :
    GStat c.groups c.components.length ∧ SkipHi c.groups := by
  have hcl : c.components.length = c0.components.length + f.components.length := by
    rw [h.comps]; simp
  refine ⟨⟨?_, ?_, ?_, ?_, ?_, ?_, ?_, ?_, ?_⟩, ?_⟩
  · rw [h.glen]; exact hcount
  · intro j g hg
    rw [hcl]
    rcases h.cases_group hg with ⟨_, hg'⟩ | ⟨i, p, a, rfl, hi, hp, ha, hn⟩
    · have := h0.bounds j g hg'
      omega
    · have := hf.step hp ha
      have := hf.le_last ha
      rw [hn.1, hn.2.1, hn.2.2.1]
      omega
  · intro i j gi gj hij hgi hgj hne
    rcases h.cases_group hgi with ⟨hi, hgi'⟩ | ⟨i', p, a, rfl, hi, hp, ha, hn⟩
    · rcases h.cases_group hgj with ⟨hj, hgj'⟩ | ⟨j', p', a', rfl, hj, hp', ha', hn'⟩
      · exact h0.sep i j gi gj hij hgi' hgj' hne
      · have := h0.bounds i gi hgi'
        rw [hn'.1]
        omega
    · rcases h.cases_group hgj with ⟨hj, hgj'⟩ | ⟨j', p', a', rfl, hj, hp', ha', hn'⟩
      · omega
      · rw [hn.1, hn'.1] at hne
        exact absurd rfl hne
  · intro i j gi gj hij hgi hgj he
    rcases h.cases_group hgi with ⟨hi, hgi'⟩ | ⟨i', p, a, rfl, hi, hp, ha, hn⟩
    · rcases h.cases_group hgj with ⟨hj, hgj'⟩ | ⟨j', p', a', rfl, hj, hp', ha', hn'⟩
      · exact h0.nest i j gi gj hij hgi' hgj' he
      · have := h0.bounds i gi hgi'
        rw [hn'.1] at he
        omega
    · rcases h.cases_group hgj with ⟨hj, hgj'⟩ | ⟨j', p', a', rfl, hj, hp', ha', hn'⟩
      · omega
      · rw [hn.2.2.1, hn'.2.1]
        have := hf.le_prev (show i' < j' by omega) ha hp'
        omega
  · intro j gj hgj
    rcases h.cases_group hgj with ⟨hj, hgj'⟩ | ⟨j', p', a', rfl, hj, hp', ha', hn'⟩
    · rcases h0.chain j gj hgj' with h1 | ⟨i, gi, h1, h2, h3⟩
      · exact .inl h1
      · exact .inr ⟨i, gi, h1, by rw [h.gold i (by omega)]; exact h2, h3⟩
    · cases j' with
      | zero =>
        left
        simp at hp'
        rw [hn'.1, hn'.2.1]
        omega
      | succ j' =>
        right
        simp at hp'
        have hj'' : j' < (0 :: f.arities).length := by simp; omega
        obtain ⟨g, h1, h2⟩ := h.gnew j' _ p' (List.getElem?_eq_getElem hj'') hp'
        exact ⟨c0.groups.length + j', g, by omega, h1, by rw [h2.1, hn'.1], by rw [h2.2.2.1, hn'.2.1]⟩
  · intro j k gj gk hgj hgk
    have hkl := (List.getElem?_eq_some_iff.1 hgk).1
    rw [h.glen] at hkl
    rcases h.cases_group hgj with ⟨hj, hgj'⟩ | ⟨j', p, a, rfl, hj, hp, ha, hn⟩
    · rcases h.cases_group hgk with ⟨hk, hgk'⟩ | ⟨k', p', a', rfl, hk, hp', ha', hn'⟩
      · exact h0.skip j k gj gk hgj' hgk'
      · rw [hhi j gj hgj' _ (by omega) (by omega), hn'.1]
        have := h0.bounds j gj hgj'
        constructor
        · intro hc; cases hc
        · rintro ⟨_, h2⟩; omega
    · rw [hn.2.2.2.1 k (by omega), hn.1]
      simp only [Bool.not_eq_eq_eq_not, Bool.not_false, decide_eq_true_eq]
      rcases h.cases_group hgk with ⟨hk, hgk'⟩ | ⟨k', p', a', rfl, hk, hp', ha', hn'⟩
      · omega
      · rw [hn'.1]
        omega
  · intro j g hg
    rcases h.cases_group hg with ⟨_, hg'⟩ | ⟨i, p, a, rfl, hi, hp, ha, hn⟩
    · exact h0.arity j g hg'
    · have := hf.le_last ha
      rw [hn.1, hn.2.2.1]
      omega
  · intro j g hg
    rcases h.cases_group hg with ⟨_, hg'⟩ | ⟨i, p, a, rfl, hi, hp, ha, hn⟩
    · exact h0.inc j g hg'
    · refine ⟨hn.2.2.2.2.1, fun b hb => ?_⟩
      rw [hn.2.2.2.2.2.1 b hb, hn.1, hn.2.2.1]
      congr 1
      simp
  · intro j g hg
    rcases h.cases_group hg with ⟨_, hg'⟩ | ⟨i, p, a, rfl, hi, hp, ha, hn⟩
    · exact h0.exc j g hg'
    · refine ⟨fun b hb => ?_, fun b hb => ?_⟩
      · rw [hn.2.2.2.2.2.2.1 b hb, hn.1, hn.2.1]
        congr 1
        simp
      · rw [hn.2.2.2.2.2.2.2.1 b hb, hn.1, hn.2.1, hn.2.2.1]
        congr 1
        simp
  · intro j g hg k hk hk'
    rw [h.glen] at hk
    rcases h.cases_group hg with ⟨_, hg'⟩ | ⟨i, p, a, rfl, hi, hp, ha, hn⟩
    · exact hhi j g hg' k (by omega) hk'
    · rw [hn.2.2.2.1 k hk']
      simp
      omega

theorem FamPart.meta {c0 c : ComponentStorage V} {sets0 sets : List (TypeId × CompSet V)} {f : GroupFamily}
    (h : FamPart c0 sets0 f f.arities.length f.arities f.components.length c sets) (hf : FamilyOK f)
    (hcount : c0.groups.length + f.arities.length < 64)
    (hlen : f.components.length ≤ 15) (h0 : GStat c0.groups c0.components.length)
    (hm0 : MetaOK c0.groups c0.metadata c0.components.length) (hfresh : ∀ t ∈ f.components, c0.meta? t = none) :
    MetaOK c.groups c.metadata c.components.length := by
  have hcl : c.components.length = c0.components.length + f.components.length := by
    rw [h.comps]; simp
  have hlt : ∀ b t, f.components[b]? = some t → b < f.components.length := fun b t hb =>
    (List.getElem?_eq_some_iff.1 hb).1
  have hkeep : ∀ t m, c0.metadata.lookup t = some m → c.metadata.lookup t = some m := by
    intro t m hm
    rw [h.mold t, hm]
    rw [List.take_length]
    intro ht
    have := hfresh t ht
    unfold ComponentStorage.meta? at this
    rw [hm] at this
    cases this
  have hold : ∀ (k : Nat) (g : Group), c0.groups[k]? = some g → c.groups[k]? = some g := by
    intro k g hg
    rw [h.gold k (List.getElem?_eq_some_iff.1 hg).1]
    exact hg
  refine ⟨h.mkeys, ?_, ?_, ?_, ?_, ?_, ?_, ?_⟩
  · intro t m hm
    rw [hcl]
    rcases h.cases_meta hm with ⟨_, hm'⟩ | ⟨b, i, p, a, hb, _, _, _, _, hn⟩
    · have := hm0.idx t m hm'
      omega
    · have := hlt b t hb
      rw [hn.1]
      omega
  · intro t t' m m' hm hm' hi
    rcases h.cases_meta hm with ⟨_, hm1⟩ | ⟨b, i, p, a, hb, _, _, _, _, hn⟩ <;>
      rcases h.cases_meta hm' with ⟨_, hm2⟩ | ⟨b', i', p', a', hb', _, _, _, _, hn'⟩
    · exact hm0.inj t t' m m' hm1 hm2 hi
    · have := hm0.idx t m hm1
      rw [hn'.1] at hi
      omega
    · have := hm0.idx t' m' hm2
      rw [hn.1] at hi
      omega
    · rw [hn.1, hn'.1] at hi
      have : b = b' := by omega
      subst this
      rw [hb] at hb'
      cases hb'
      rfl
  · intro j g i hg hi
    rcases h.cases_group hg with ⟨_, hg'⟩ | ⟨i', p, a, rfl, hi', hp, ha, hn⟩
    · obtain ⟨t, m, h1, h2⟩ := hm0.cover j g i hg' hi
      exact ⟨t, m, hkeep t m h1, h2⟩
    · unfold InRange at hi
      rw [hn.1, hn.2.2.1] at hi
      have := hf.le_last ha
      have hb : i - c0.components.length < f.components.length := by omega
      obtain ⟨m, _, _, _, h1, _, _, _, _, h2⟩ := h.mnew _ _ hb (List.getElem?_eq_getElem hb)
      exact ⟨_, m, h1, by rw [h2.1]; omega⟩
  · intro t m k hm
    rcases h.cases_meta hm with ⟨ht, hm1⟩ | ⟨b, i, p, a, hb, hp, ha, hpb, hba, hn⟩
    · rw [hm0.del t m k hm1]
      have := hm0.idx t m hm1
      constructor
      · rintro ⟨g, h1, h2⟩; exact ⟨g, hold k g h1, h2⟩
      · rintro ⟨g, h1, h2⟩
        rcases h.cases_group h1 with ⟨_, hg'⟩ | ⟨i', p, a, rfl, hi', hp, ha, hn⟩
        · exact ⟨g, hg', h2⟩
        · unfold InRange at h2
          rw [hn.1] at h2
          omega
    · constructor
      · intro hk
        have hk64 : k < 64 := by
          by_contra hc
          rw [BitVec.getLsbD_of_ge _ _ (by omega)] at hk
          cases hk
        rw [hn.2.2.1 k hk64] at hk
        simp only [decide_eq_true_eq] at hk
        have hk' : k - c0.groups.length < f.arities.length := by omega
        have hk'' : k - c0.groups.length < (0 :: f.arities).length := by simp; omega
        obtain ⟨g, h1, h2⟩ := h.gnew _ _ _ (List.getElem?_eq_getElem hk'') (List.getElem?_eq_getElem hk')
        have hkk : c0.groups.length + (k - c0.groups.length) = k := by omega
        rw [hkk] at h1
        refine ⟨g, h1, ?_⟩
        unfold InRange
        rw [h2.1, h2.2.2.1, hn.1]
        rcases Nat.lt_or_ge i (k - c0.groups.length) with h3 | h3
        · have := hf.mono h3 ha (List.getElem?_eq_getElem hk')
          omega
        · have h4 : i = k - c0.groups.length := by omega
          have h5 := ha
          rw [h4, List.getElem?_eq_getElem hk'] at h5
          cases h5
          omega
      · rintro ⟨g, h1, h2⟩
        unfold InRange at h2
        rw [hn.1] at h2
        rcases h.cases_group h1 with ⟨_, hg'⟩ | ⟨i', p', a', rfl, hi', hp', ha', hn'⟩
        · have := h0.bounds k g hg'
          omega
        · rw [hn.2.2.1 _ (by omega)]
          rw [hn'.1, hn'.2.2.1] at h2
          simp only [decide_eq_true_eq]
          have : i ≤ i' := by
            by_contra hc
            have := hf.le_prev (show i' < i by omega) ha' hp
            omega
          omega
  · intro t m k hm
    rcases h.cases_meta hm with ⟨ht, hm1⟩ | ⟨b, i, p, a, hb, hp, ha, hpb, hba, hn⟩
    · rw [hm0.ins t m k hm1]
      have hidx := hm0.idx t m hm1
      constructor
      · rintro ⟨g, k', g', h1, h2, h3, h4⟩
        exact ⟨g, k', g', hold k g h1, hold k' g' h2, h3, h4⟩
      · rintro ⟨g, k', g', h1, h2, h3, h4⟩
        rcases h.cases_group h2 with ⟨_, hg2⟩ | ⟨i', p', a', rfl, hi', hp', ha', hn'⟩
        · rcases h.cases_group h1 with ⟨_, hg1⟩ | ⟨i', p', a', rfl, hi', hp', ha', hn'⟩
          · exact ⟨g, k', g', hg1, hg2, h3, h4⟩
          · have := h0.bounds k' g' hg2
            rw [hn'.1] at h3
            omega
        · unfold InRange at h4
          rw [hn'.1] at h4
          omega
    · have hi : i < f.arities.length := (List.getElem?_eq_some_iff.1 ha).1
      constructor
      · intro hk
        have hk64 : k < 64 := by
          by_contra hc
          rw [BitVec.getLsbD_of_ge _ _ (by omega)] at hk
          cases hk
        rw [hn.2.1 k hk64] at hk
        simp only [decide_eq_true_eq] at hk
        have hk' : k - c0.groups.length < f.arities.length := by omega
        have hk'' : k - c0.groups.length < (0 :: f.arities).length := by simp; omega
        obtain ⟨g, h1, h2⟩ := h.gnew _ _ _ (List.getElem?_eq_getElem hk'') (List.getElem?_eq_getElem hk')
        have hkk : c0.groups.length + (k - c0.groups.length) = k := by omega
        rw [hkk] at h1
        obtain ⟨g', h3, h4⟩ := h.gnew i p a hp ha
        refine ⟨g, _, g', h1, h3, by rw [h4.1, h2.1], ?_⟩
        unfold InRange
        rw [h4.1, h4.2.2.1, hn.1]
        omega
      · rintro ⟨g, k', g', h1, h2, h3, h4⟩
        unfold InRange at h4
        rw [hn.1] at h4
        rcases h.cases_group h2 with ⟨_, hg2⟩ | ⟨i', p', a', rfl, hi', hp', ha', hn'⟩
        · have := h0.bounds k' g' hg2
          omega
        · rcases h.cases_group h1 with ⟨_, hg1⟩ | ⟨j', p', a', rfl, hj', hp', ha', hn1⟩
          · have := h0.bounds k g hg1
            rw [hn'.1] at h3
            omega
          · rw [hn.2.1 _ (by omega)]
            simp only [decide_eq_true_eq]
            omega
  · intro t m hm hi j g hg hr
    rcases h.cases_meta hm with ⟨ht, hm1⟩ | ⟨b, i, p, a, hb, hp, ha, hpb, hba, hn⟩
    · rcases h.cases_group hg with ⟨_, hg'⟩ | ⟨i', p', a', rfl, hi', hp', ha', hn'⟩
      · exact hm0.infoNone t m hm1 hi j g hg' hr
      · have := hm0.idx t m hm1
        unfold InRange at hr
        rw [hn'.1] at hr
        omega
    · obtain ⟨gi, h1, _⟩ := hn.2.2.2
      rw [hi] at h1
      cases h1
  · intro t m gi hm hgi
    rcases h.cases_meta hm with ⟨ht, hm1⟩ | ⟨b, i, p, a, hb, hp, ha, hpb, hba, hn⟩
    · obtain ⟨j, g, g0, h1, h2, h3, h4, h5, h6, h7⟩ := hm0.infoSome t m gi hm1 hgi
      exact ⟨j, g, g0, hold j g h1, h2, h3, h4, h5, hold _ g0 h6, h7⟩
    · obtain ⟨gi', h1, h2, h3, h4⟩ := hn.2.2.2
      rw [hgi] at h1
      cases h1
      obtain ⟨g, h5, h6⟩ := h.gnew i p a hp ha
      have hpos := hf.pos
      obtain ⟨g0, h7, h8⟩ := h.gnew 0 0 _ rfl (List.getElem?_eq_getElem hpos)
      have := hlt b t hb
      have hbb : m.storageIndex - g.storageStart = b := by
        rw [hn.1, h6.1]; omega
      refine ⟨c0.groups.length + i, g, g0, h5, ?_, ?_, h3, by omega, by rw [h2]; exact h7, ?_, ?_, ?_, ?_⟩
      · rw [h6.2.1, hn.1]; omega
      · rw [h6.2.2.1, hn.1]; omega
      · rw [h8.1, h6.1]
      · rw [h8.1, h8.2.1]; omega
      · rw [hbb]; omega
      · rw [hbb]; exact h4

/-- State of `set_layout` between families, without the contents of the sets. -/
structure BuildS (gl : List (List TypeId)) (placed : List TypeId)
    (R : TypeId → Prop) (c : ComponentStorage V) (sets : List (TypeId × CompSet V)) : Prop where
  stat : StoreStat c
  zero : ∀ (j : Nat) (g : Group), c.groups[j]? = some g → g.len = 0
  hi : SkipHi c.groups
  groups : GroupsAre c gl
  reg : ∀ t, (c.meta? t).isSome ↔ t ∈ placed
  keys : (sets.map Prod.fst).Nodup
  fresh : ∀ t s, (t, s) ∈ sets → t ∉ placed
  left : ∀ t, t ∈ placed ∨ t ∈ sets.map Prod.fst ↔ t ∈ placed ∨ R t

/-- State of `set_layout` between families. -/
structure Build (A : Entity → Prop) (f : Content V) (gl : List (List TypeId)) (placed : List TypeId)
    (R : TypeId → Prop) (c : ComponentStorage V) (sets : List (TypeId × CompSet V)) : Prop
    extends BuildS gl placed R c sets where
  ok : SetsOK A c.components
  wf : ∀ t s, (t, s) ∈ sets → s.WF ∧ (∀ x ∈ s.entities, A x)
  value : ∀ t x, f t x = if t ∈ placed then c.value t x else (sets.lookup t).bind (·.val x)

theorem Build.store {f : Content V} {gl : List (List TypeId)} {placed : List TypeId} {R : TypeId → Prop}
    {c : ComponentStorage V} {sets : List (TypeId × CompSet V)} (h : Build A f gl placed R c sets) : StoreOK A c := by
  refine ⟨h.stat.gstat, h.stat.mds, h.ok, ⟨?_, ?_⟩⟩
  · intro j g hg p hp
    rw [h.zero j g hg] at hp
    omega
  · intro i j gi gj _ _ hj _
    rw [h.zero j gj hj]
    exact Nat.zero_le _

theorem addFamily_stat {gl : List (List TypeId)} {placed : List TypeId} {R : TypeId → Prop}
    {c : ComponentStorage V} {sets : List (TypeId × CompSet V)} (h : BuildS gl placed R c sets) {f : GroupFamily}
    (hf : FamilyOK f) (hnd : f.components.Nodup) (hcount : gl.length + f.arities.length < 64)
    (hlen : f.components.length ≤ 15) (hdis : ∀ t ∈ f.components, t ∉ placed) :
    ∃ c' sets', ComponentStorage.addGroups f c.components.length c.groups.length
      (c.groups.length + f.arities.length) 0 f.arities (c, sets) = .ok () (c', sets') ∧
      FamPart c sets f f.arities.length f.arities f.components.length c' sets' ∧
      BuildS (gl ++ f.arities.map fun a => f.components.take a) (placed ++ f.components) R c' sets' := by
  rw [h.groups.1] at hcount
  obtain ⟨c', sets', h1, h2⟩ := addGroups_ok (c0 := c) (sets0 := sets) hf hnd hcount hlen f.arities [] 0 c sets rfl rfl
    (.init h.stat.mds.keys)
  refine ⟨c', sets', h1, h2, ?_⟩
  have hfresh : ∀ t ∈ f.components, c.meta? t = none := by
    intro t ht
    have := hdis t ht
    rw [← h.reg] at this
    simpa using this
  obtain ⟨h3, h4⟩ := h2.gstat hf hcount hlen h.stat.gstat h.hi
  have h5 := h2.meta hf hcount hlen h.stat.gstat h.stat.mds hfresh
  have hleft : sets' = sets.filter (fun p => !f.components.contains p.1) := by
    rw [h2.left, List.take_length]
  have hzero : ∀ (j : Nat) (g : Group), c'.groups[j]? = some g → g.len = 0 := by
    intro j g hg
    rcases h2.cases_group hg with ⟨_, hg'⟩ | ⟨i, p, a, rfl, hi, hp, ha, hn⟩
    · exact h.zero j g hg'
    · exact hn.2.2.2.2.2.2.2.2
  refine ⟨⟨h3, h5⟩, hzero, h4, ⟨?_, ?_⟩, ?_, ?_, ?_, ?_⟩
  · rw [h2.glen, List.length_append, h.groups.1, List.length_map]
  · intro k g' ts hg hts t
    rcases h2.cases_group hg with ⟨hk, hg'⟩ | ⟨i, p, a, rfl, hi, hp, ha, hn⟩
    · rw [List.getElem?_append_left (by rw [h.groups.1]; exact hk)] at hts
      rw [h.groups.2 k g' ts hg' hts t]
      constructor
      · rintro ⟨m, h6, h7⟩
        refine ⟨m, ?_, h7⟩
        unfold ComponentStorage.meta?
        rw [h2.mold]
        · exact h6
        · rw [List.take_length]
          intro ht
          rw [hfresh t ht] at h6
          cases h6
      · rintro ⟨m, h6, h7⟩
        rcases h2.cases_meta h6 with ⟨_, hm'⟩ | ⟨b, i, p, a, hb, _, _, _, _, hn⟩
        · exact ⟨m, hm', h7⟩
        · have := h.stat.gstat.bounds k g' hg'
          unfold InRange at h7
          rw [hn.1] at h7
          omega
    · rw [List.getElem?_append_right (by rw [h.groups.1]; omega)] at hts
      have hidx : c.groups.length + i - gl.length = i := by rw [h.groups.1]; omega
      rw [hidx, List.getElem?_map, ha] at hts
      simp at hts
      subst hts
      constructor
      · intro ht
        rw [List.mem_take_iff_getElem] at ht
        obtain ⟨b, hb, rfl⟩ := ht
        have hb' : b < f.components.length := by omega
        obtain ⟨m, _, _, _, h6, _, _, _, _, h7⟩ := h2.mnew b _ hb' (List.getElem?_eq_getElem hb')
        refine ⟨m, h6, ?_⟩
        unfold InRange
        rw [hn.1, hn.2.2.1, h7.1]
        omega
      · rintro ⟨m, h6, h7⟩
        unfold InRange at h7
        rw [hn.1, hn.2.2.1] at h7
        rcases h2.cases_meta h6 with ⟨_, hm'⟩ | ⟨b, i, p, a, hb, _, _, _, _, hn'⟩
        · have := h.stat.mds.idx t m hm'
          omega
        · rw [hn'.1] at h7
          obtain ⟨hbl, rfl⟩ := List.getElem?_eq_some_iff.1 hb
          exact List.mem_take_iff_getElem.2 ⟨b, by omega, rfl⟩
  · intro t
    rw [List.mem_append, ← h.reg]
    constructor
    · intro hm
      obtain ⟨m, hm⟩ := Option.isSome_iff_exists.1 hm
      rcases h2.cases_meta hm with ⟨_, hm'⟩ | ⟨b, i, p, a, hb, _, _, _, _, hn'⟩
      · left
        unfold ComponentStorage.meta?
        rw [hm']
        rfl
      · exact .inr (List.mem_of_getElem? hb)
    · intro ht
      by_cases htf : t ∈ f.components
      · obtain ⟨b, hb⟩ := List.mem_iff_getElem?.1 htf
        obtain ⟨m, _, _, _, h6, _⟩ := h2.mnew b t (List.getElem?_eq_some_iff.1 hb).1 hb
        unfold ComponentStorage.meta?
        rw [h6]
        rfl
      · rcases ht with ht | ht
        · unfold ComponentStorage.meta?
          rw [h2.mold]
          · exact ht
          · rw [List.take_length]; exact htf
        · exact absurd ht htf
  · rw [hleft]
    exact List.Nodup.sublist (List.filter_sublist.map _) h.keys
  · intro t s hs
    rw [hleft, List.mem_filter] at hs
    rw [List.mem_append, not_or]
    refine ⟨h.fresh t s hs.1, ?_⟩
    simpa using hs.2
  · intro t
    have := h.left t
    rw [hleft]
    simp only [List.mem_map, List.mem_filter, List.mem_append] at this ⊢
    constructor
    · rintro ((h6 | h6) | ⟨⟨t', s⟩, ⟨h6, _⟩, rfl⟩)
      · exact .inl (.inl h6)
      · exact .inl (.inr h6)
      · rcases this.1 (.inr ⟨_, h6, rfl⟩) with h7 | h7
        · exact .inl (.inl h7)
        · exact .inr h7
    · intro h6
      by_cases htf : t ∈ f.components
      · exact .inl (.inr htf)
      · have h7 : t ∈ placed ∨ R t := by tauto
        rcases this.2 h7 with h8 | ⟨⟨t', s⟩, h8, rfl⟩
        · exact .inl (.inl h8)
        · exact .inr ⟨(t', s), ⟨h8, by simpa using htf⟩, rfl⟩

theorem addFamily_ok {g : Content V} {gl : List (List TypeId)} {placed : List TypeId} {R : TypeId → Prop}
    {c : ComponentStorage V} {sets : List (TypeId × CompSet V)} (h : Build A g gl placed R c sets) {f : GroupFamily}
    (hf : FamilyOK f) (hnd : f.components.Nodup) (hcount : gl.length + f.arities.length < 64)
    (hlen : f.components.length ≤ 15) (hdis : ∀ t ∈ f.components, t ∉ placed) :
    ∃ c' sets', ComponentStorage.addGroups f c.components.length c.groups.length
      (c.groups.length + f.arities.length) 0 f.arities (c, sets) = .ok () (c', sets') ∧
      Build A g (gl ++ f.arities.map fun a => f.components.take a) (placed ++ f.components) R c' sets' := by
  obtain ⟨c', sets', h1, h2, h3⟩ := addFamily_stat h.toBuildS hf hnd hcount hlen hdis
  have hcomps : c'.components = c.components ++
      f.components.map (fun t => (sets.lookup t).getD CompSet.new) := by
    rw [h2.comps, List.take_length]
  have hleft : sets' = sets.filter (fun p => !f.components.contains p.1) := by
    rw [h2.left, List.take_length]
  have hsetw : ∀ t, ((sets.lookup t).getD CompSet.new).WF ∧ ∀ x ∈ ((sets.lookup t).getD CompSet.new).entities, A x := by
    intro t
    cases hl : sets.lookup t with
    | none =>
      simp only [Option.getD_none]
      exact ⟨CompSet.wf_new, by simp [CompSet.new]⟩
    | some s =>
      have := h.wf t s ((lookup_some h.keys t s).1 hl)
      exact this
  refine ⟨c', sets', h1, h3, ⟨?_, ?_⟩, ?_, ?_⟩
  · intro s hs
    rw [hcomps, List.mem_append, List.mem_map] at hs
    rcases hs with hs | ⟨t, _, rfl⟩
    · exact h.ok.wf s hs
    · exact (hsetw t).1
  · intro s hs x hx
    rw [hcomps, List.mem_append, List.mem_map] at hs
    rcases hs with hs | ⟨t, _, rfl⟩
    · exact h.ok.sub s hs x hx
    · exact (hsetw t).2 x hx
  · intro t s hs
    rw [hleft, List.mem_filter] at hs
    exact h.wf t s hs.1
  · intro t x
    rw [h.value t x]
    simp only [List.mem_append]
    by_cases htf : t ∈ f.components
    · have htp := hdis t htf
      rw [if_neg htp, if_pos (.inr htf)]
      obtain ⟨b, hb⟩ := List.mem_iff_getElem?.1 htf
      obtain ⟨m, _, _, _, h6, _, _, _, _, h7⟩ := h2.mnew b t (List.getElem?_eq_some_iff.1 hb).1 hb
      have hget : c'.components[m.storageIndex]? = some ((sets.lookup t).getD CompSet.new) := by
        rw [hcomps, h7.1, List.getElem?_append_right (by omega)]
        simp [hb]
      rw [ComponentStorage.value_eq (c := c') h6 hget]
      cases sets.lookup t with
      | none => simp [CompSet.val_new]
      | some s => simp
    · by_cases htp : t ∈ placed
      · rw [if_pos htp, if_pos (.inl htp)]
        unfold ComponentStorage.value ComponentStorage.meta?
        rw [h2.mold t (by rw [List.take_length]; exact htf)]
        cases hm : c.metadata.lookup t with
        | none => rfl
        | some m =>
          simp only
          rw [hcomps, List.getElem?_append_left (h.store.mds.idx t m hm)]
      · rw [if_neg htp, if_neg (by tauto), hleft, lookup_filter sets (fun t => !f.components.contains t)]
        simpa using htf

theorem addFamilies_stat {R : TypeId → Prop} :
    ∀ (fs : List GroupFamily) (gl : List (List TypeId)) (placed : List TypeId) (c : ComponentStorage V)
    (sets : List (TypeId × CompSet V)), BuildS gl placed R c sets → (∀ f ∈ fs, FamilyOK f) →
    (placed ++ fs.flatMap (·.components)).Nodup → (∀ f ∈ fs, f.components.length ≤ 15) →
    (gl ++ fs.flatMap fun f => f.arities.map fun a => f.components.take a).length < 64 →
    ∃ c' sets', ComponentStorage.addFamilies fs (c, sets) = .ok () (c', sets') ∧
      BuildS (gl ++ fs.flatMap fun f => f.arities.map fun a => f.components.take a)
        (placed ++ fs.flatMap (·.components)) R c' sets' := by
  intro fs
  induction fs with
  | nil =>
    intro gl placed c sets h _ _ _ _
    exact ⟨c, sets, rfl, by simpa using h⟩
  | cons f fs ih =>
    intro gl placed c sets h hf hnd hlen hcount
    simp only [List.flatMap_cons, ← List.append_assoc] at hnd hcount ⊢
    have h1 := List.nodup_append.1 hnd
    have h2 := List.nodup_append.1 h1.1
    have hc1 : gl.length + f.arities.length < 64 := by
      simp only [List.length_append, List.length_map] at hcount
      omega
    obtain ⟨c1, sets1, h3, _, h4⟩ := addFamily_stat h (hf f (by simp)) h2.2.1 hc1 (hlen f (by simp))
      (fun t ht hp => h2.2.2 t hp t ht rfl)
    obtain ⟨c2, sets2, h5, h6⟩ := ih _ _ c1 sets1 h4 (fun f' hf' => hf f' (by simp [hf'])) hnd
      (fun f' hf' => hlen f' (by simp [hf'])) hcount
    refine ⟨c2, sets2, ?_, h6⟩
    unfold ComponentStorage.addFamilies
    rw [h3]
    exact h5

theorem addFamilies_ok {g : Content V} {R : TypeId → Prop} :
    ∀ (fs : List GroupFamily) (gl : List (List TypeId)) (placed : List TypeId) (c : ComponentStorage V)
    (sets : List (TypeId × CompSet V)), Build A g gl placed R c sets → (∀ f ∈ fs, FamilyOK f) →
    (placed ++ fs.flatMap (·.components)).Nodup → (∀ f ∈ fs, f.components.length ≤ 15) →
    (gl ++ fs.flatMap fun f => f.arities.map fun a => f.components.take a).length < 64 →
    ∃ c' sets', ComponentStorage.addFamilies fs (c, sets) = .ok () (c', sets') ∧
      Build A g (gl ++ fs.flatMap fun f => f.arities.map fun a => f.components.take a)
        (placed ++ fs.flatMap (·.components)) R c' sets' := by
  intro fs
  induction fs with
  | nil =>
    intro gl placed c sets h _ _ _ _
    exact ⟨c, sets, rfl, by simpa using h⟩
  | cons f fs ih =>
    intro gl placed c sets h hf hnd hlen hcount
    simp only [List.flatMap_cons, ← List.append_assoc] at hnd hcount ⊢
    have h1 := List.nodup_append.1 hnd
    have h2 := List.nodup_append.1 h1.1
    have hc1 : gl.length + f.arities.length < 64 := by
      simp only [List.length_append, List.length_map] at hcount
      omega
    obtain ⟨c1, sets1, h3, h4⟩ := addFamily_ok h (hf f (by simp)) h2.2.1 hc1 (hlen f (by simp))
      (fun t ht hp => h2.2.2 t hp t ht rfl)
    obtain ⟨c2, sets2, h5, h6⟩ := ih _ _ c1 sets1 h4 (fun f' hf' => hf f' (by simp [hf'])) hnd
      (fun f' hf' => hlen f' (by simp [hf'])) hcount
    refine ⟨c2, sets2, ?_, h6⟩
    unfold ComponentStorage.addFamilies
    rw [h3]
    exact h5

/-! ### The types outside the layout -/

theorem insertByRank_mem (rank : TypeId → Nat) (p q : TypeId × CompSet V) (l : List (TypeId × CompSet V)) :
    q ∈ ComponentStorage.insertByRank rank p l ↔ q = p ∨ q ∈ l := by
  induction l with
  | nil => simp [ComponentStorage.insertByRank]
  | cons r l ih =>
    unfold ComponentStorage.insertByRank
    split
    · simp
    · simp only [List.mem_cons, ih]
      tauto

theorem insertByRank_perm (rank : TypeId → Nat) (p : TypeId × CompSet V) (l : List (TypeId × CompSet V)) :
    (ComponentStorage.insertByRank rank p l).Perm (p :: l) := by
  induction l with
  | nil => exact .refl _
  | cons r l ih =>
    unfold ComponentStorage.insertByRank
    split
    · exact .refl _
    · exact (ih.cons r).trans (.swap _ _ _)

theorem sortByRank_perm (rank : TypeId → Nat) (l : List (TypeId × CompSet V)) :
    (ComponentStorage.sortByRank rank l).Perm l := by
  induction l with
  | nil => exact .refl _
  | cons r l ih => exact (insertByRank_perm rank r _).trans (ih.cons r)

theorem lookup_perm {β : Type} {l l' : List (TypeId × β)} (h : l'.Perm l) (hn : (l.map Prod.fst).Nodup) (t : TypeId) :
    l'.lookup t = l.lookup t := by
  have hn' : (l'.map Prod.fst).Nodup := (h.map Prod.fst).nodup_iff.2 hn
  cases hl : l.lookup t with
  | none =>
    rw [lookup_none] at hl ⊢
    rw [(h.map Prod.fst).mem_iff]
    exact hl
  | some b =>
    rw [lookup_some hn] at hl
    rw [lookup_some hn', h.mem_iff]
    exact hl

theorem addUngrouped_stat :
    ∀ (sets : List (TypeId × CompSet V)) (c : ComponentStorage V), StoreStat c → (sets.map Prod.fst).Nodup →
    (∀ t s, (t, s) ∈ sets → c.meta? t = none) →
    ∀ gl, GroupsAre c gl →
    StoreStat (ComponentStorage.addUngrouped sets c) ∧
      (ComponentStorage.addUngrouped sets c).groups = c.groups ∧
      GroupsAre (ComponentStorage.addUngrouped sets c) gl ∧
      (∀ t, ((ComponentStorage.addUngrouped sets c).meta? t).isSome ↔ (c.meta? t).isSome ∨ t ∈ sets.map Prod.fst) := by
  intro sets
  induction sets with
  | nil =>
    intro c h _ _ gl hgl
    exact ⟨h, rfl, hgl, by simp [ComponentStorage.addUngrouped]⟩
  | cons p sets ih =>
    intro c h hk hs gl hgl
    obtain ⟨t, s⟩ := p
    simp only [List.map_cons, List.nodup_cons] at hk
    have hm := hs t s (by simp)
    obtain ⟨h1, h5, h6⟩ := addSet_stat h hm s
    obtain ⟨i1, i2, i3, i4⟩ := ih (c.addSet t s) h1 hk.2 (by
      intro t' s' hts
      have a3 := hs t' s' (by simp [hts])
      have hne : t' ≠ t := by
        rintro rfl
        exact hk.1 (List.mem_map.2 ⟨_, hts, rfl⟩)
      cases hc : (c.addSet t s).meta? t' with
      | none => rfl
      | some m =>
        have := (h5 t').1 (by rw [hc]; rfl)
        rcases this with h7 | h7
        · exact absurd h7 hne
        · rw [a3] at h7; cases h7) gl ⟨hgl.1, fun k g' ts hkg hts t' => by
          rw [hgl.2 k g' ts hkg hts t']
          exact (h6 t' k g' hkg).symm⟩
    refine ⟨i1, i2, i3, fun t' => ?_⟩
    refine (i4 t').trans ?_
    rw [h5]
    simp only [List.map_cons, List.mem_cons]
    tauto

theorem addUngrouped_ok :
    ∀ (sets : List (TypeId × CompSet V)) (c : ComponentStorage V), StoreOK A c → (sets.map Prod.fst).Nodup →
    (∀ t s, (t, s) ∈ sets → s.WF ∧ (∀ x ∈ s.entities, A x) ∧ c.meta? t = none) →
    ∀ gl, GroupsAre c gl →
    StoreOK A (ComponentStorage.addUngrouped sets c) ∧
      (ComponentStorage.addUngrouped sets c).groups = c.groups ∧
      GroupsAre (ComponentStorage.addUngrouped sets c) gl ∧
      (∀ t, ((ComponentStorage.addUngrouped sets c).meta? t).isSome ↔ (c.meta? t).isSome ∨ t ∈ sets.map Prod.fst) ∧
      (∀ t x, (ComponentStorage.addUngrouped sets c).value t x =
        if (c.meta? t).isSome then c.value t x else (sets.lookup t).bind (·.val x)) := by
  intro sets
  induction sets with
  | nil =>
    intro c h _ _ gl hgl
    refine ⟨h, rfl, hgl, by simp [ComponentStorage.addUngrouped], fun t x => ?_⟩
    simp only [ComponentStorage.addUngrouped]
    split
    · rfl
    · rename_i hc
      rw [c.value_none (by simpa using hc)]
      rfl
  | cons p sets ih =>
    intro c h hk hs gl hgl
    obtain ⟨t, s⟩ := p
    simp only [List.map_cons, List.nodup_cons] at hk
    obtain ⟨hw, hsub, hm⟩ := hs t s (by simp)
    obtain ⟨h1, h2, h3, h4, h5, h6, _⟩ := addSet_ok h hm hw hsub
    obtain ⟨i1, i2, i3, i4, i5⟩ := ih (c.addSet t s) h1 hk.2 (by
      intro t' s' hts
      obtain ⟨a1, a2, a3⟩ := hs t' s' (by simp [hts])
      refine ⟨a1, a2, ?_⟩
      have hne : t' ≠ t := by
        rintro rfl
        exact hk.1 (List.mem_map.2 ⟨_, hts, rfl⟩)
      cases hc : (c.addSet t s).meta? t' with
      | none => rfl
      | some m =>
        have := (h5 t').1 (by rw [hc]; rfl)
        rcases this with h7 | h7
        · exact absurd h7 hne
        · rw [a3] at h7; cases h7) gl ⟨hgl.1, fun k g' ts hkg hts t' => by
          rw [hgl.2 k g' ts hkg hts t']
          exact (h6 t' k g' hkg).symm⟩
    refine ⟨i1, i2.trans h2, i3, fun t' => ?_, fun t' x => ?_⟩
    · refine (i4 t').trans ?_
      rw [h5]
      simp only [List.map_cons, List.mem_cons]
      tauto
    · refine (i5 t' x).trans ?_
      rw [h4]
      by_cases ht : t' = t
      · subst ht
        rw [if_pos ((h5 t').2 (.inl rfl)), if_pos rfl, if_neg (by rw [hm]; simp)]
        simp [List.lookup_cons]
      · have hb : (t' == t) = false := by simpa using ht
        have hiff : ((c.addSet t s).meta? t').isSome = (c.meta? t').isSome := by
          rw [Bool.eq_iff_iff, h5]
          simp [ht]
        simp only [hiff, if_neg ht, List.lookup_cons, hb]

/-! ### Taking the sets out -/

theorem takeSets_ok : ∀ (md : List (TypeId × ComponentMetadata)) (comps : List (CompSet V)),
    (md.map Prod.fst).Nodup → (∀ t m, (t, m) ∈ md → m.storageIndex < comps.length) →
    (∀ t t' m m', (t, m) ∈ md → (t', m') ∈ md → m.storageIndex = m'.storageIndex → t = t') →
    ∃ sets comps', ComponentStorage.takeSets md comps = .ok (sets, comps') ∧ comps'.length = comps.length ∧
      (∀ s ∈ comps', s ∈ comps ∨ s = CompSet.new) ∧ sets.map Prod.fst = md.map Prod.fst ∧
      (∀ t s, (t, s) ∈ sets → s ∈ comps) ∧
      ∀ t, sets.lookup t = (md.lookup t).bind fun m => comps[m.storageIndex]? := by
  intro md
  induction md with
  | nil => intro comps _ _ _; exact ⟨[], comps, rfl, rfl, fun s hs => .inl hs, rfl, by simp, by simp⟩
  | cons p md ih =>
    intro comps hk hi hj
    obtain ⟨t, m⟩ := p
    simp only [List.map_cons, List.nodup_cons] at hk
    have hlt := hi t m (by simp)
    obtain ⟨sets, comps', h1, h2, h3, h4, h5, h6⟩ := ih (comps.set m.storageIndex CompSet.new) hk.2
      (fun t' m' hm' => by rw [List.length_set]; exact hi t' m' (by simp [hm']))
      (fun t1 t2 m1 m2 hm1 hm2 => hj t1 t2 m1 m2 (by simp [hm1]) (by simp [hm2]))
    have hsub : ∀ t' m', md.lookup t' = some m' →
        (comps.set m.storageIndex CompSet.new)[m'.storageIndex]? = comps[m'.storageIndex]? := by
      intro t' m' hm'
      rw [lookup_some hk.2] at hm'
      rw [Rep.set_index_get _ _ _ _ hlt, if_neg]
      intro hc
      have : t' = t := hj t' t m' m (by simp [hm']) (by simp) hc
      subst this
      exact hk.1 (List.mem_map.2 ⟨_, hm', rfl⟩)
    have hlook : ∀ t', sets.lookup t' = (md.lookup t').bind fun m' => comps[m'.storageIndex]? := by
      intro t'
      rw [h6]
      cases hm' : md.lookup t' with
      | none => rfl
      | some m' => exact hsub t' m' hm'
    refine ⟨(t, comps[m.storageIndex]) :: sets, comps', ?_, by rw [h2, List.length_set], ?_, by simp [h4], ?_, ?_⟩
    · unfold ComponentStorage.takeSets
      simp [List.getElem?_eq_getElem hlt, h1]
    · intro s hs
      rcases h3 s hs with h7 | h7
      · rcases List.mem_or_eq_of_mem_set h7 with h8 | h8
        · exact .inl h8
        · exact .inr h8
      · exact .inr h7
    · intro t' s hs
      rcases List.mem_cons.1 hs with h7 | h7
      · cases h7
        exact List.getElem_mem hlt
      · have hk' : (sets.map Prod.fst).Nodup := by rw [h4]; exact hk.2
        have h8 := hlook t'
        rw [(lookup_some hk' t' s).2 h7] at h8
        cases hm' : md.lookup t' with
        | none => rw [hm'] at h8; cases h8
        | some m' =>
          rw [hm'] at h8
          exact List.mem_of_getElem? h8.symm
    · intro t'
      by_cases ht : t' = t
      · subst ht
        simp [List.lookup_cons, List.getElem?_eq_getElem hlt]
      · have hb : (t' == t) = false := by simpa using ht
        simp only [List.lookup_cons, hb]
        exact hlook t'

theorem buildS_init {c : ComponentStorage V} (hk : (c.metadata.map Prod.fst).Nodup) {comps : List (CompSet V)}
    {sets : List (TypeId × CompSet V)} (h4 : sets.map Prod.fst = c.metadata.map Prod.fst) :
    BuildS [] [] (fun t => (c.meta? t).isSome) (⟨[], [], comps⟩ : ComponentStorage V) sets := by
  refine ⟨⟨⟨by simp, by simp, by simp, by simp, by simp, by simp, by simp, by simp, by simp⟩,
    ⟨by simp, by simp, by simp, by simp, by simp, by simp, by simp, by simp⟩⟩,
    by simp, by intro j g hg; simp at hg, ⟨rfl, by simp⟩, by simp [ComponentStorage.meta?], by rw [h4]; exact hk,
    by simp, ?_⟩
  intro t
  rw [h4, ← lookup_isSome]
  rfl

/-- `set_layout` up to the grouping of the entities, without the contents of the sets. -/
theorem setLayout_stat {c : ComponentStorage V} (hk : (c.metadata.map Prod.fst).Nodup)
    (hidx : ∀ t m, c.meta? t = some m → m.storageIndex < c.components.length)
    (hinj : ∀ t t' m m', c.meta? t = some m → c.meta? t' = some m' → m.storageIndex = m'.storageIndex → t = t')
    {l : GroupLayout} (hl : LayoutOK l) (hfit : LayoutFits l) (rank : TypeId → Nat) :
    ∃ (c1 : ComponentStorage V) (mask : GroupMask), StoreStat c1 ∧ GroupsAre c1 (layoutGroups l) ∧
      (∀ k, mask.getLsbD k = true ↔ k < c1.groups.length) ∧
      (∀ (j : Nat) (g : Group), c1.groups[j]? = some g → g.len = 0) ∧
      (∀ t, (c1.meta? t).isSome ↔ (c.meta? t).isSome ∨ t ∈ layoutTypes l) ∧
      ∀ es, c.setLayout rank l es = match ComponentStorage.groupEntities mask es (c1.components, c1.groups) with
        | .ok (comps', gs') => .ok () { c1 with components := comps', groups := gs' }
        | .panic => .panic c1
        | .ub => .ub := by
  obtain ⟨sets, comps0, h1, h2, h3, h4, h5, h6⟩ := takeSets_ok c.metadata c.components hk
    (fun t m hm => hidx t m ((lookup_some hk t m).2 hm))
    (fun t t' m m' hm hm' => hinj t t' m m' ((lookup_some hk t m).2 hm)
      ((lookup_some hk t' m').2 hm'))
  obtain ⟨c1, sets1, i1, i2⟩ := addFamilies_stat l.families [] [] _ sets (buildS_init hk (comps := comps0) h4) hl.1
    (by rw [List.nil_append]; exact hl.2) hfit.1 (by
    have := hfit.2
    unfold layoutGroups at this
    rw [List.nil_append]
    omega)
  rw [List.nil_append, List.nil_append] at i2
  have hperm := sortByRank_perm rank sets1
  have hnone : ∀ t s, (t, s) ∈ sets1 → c1.meta? t = none := by
    intro t s hs
    have := i2.fresh t s hs
    rw [← i2.reg] at this
    simpa using this
  obtain ⟨j1, j2, j3, j4⟩ := addUngrouped_stat (ComponentStorage.sortByRank rank sets1) c1 i2.stat
    ((hperm.map Prod.fst).nodup_iff.2 i2.keys) (fun t s hs => hnone t s (hperm.mem_iff.1 hs)) _ i2.groups
  obtain ⟨mask, k1, k2⟩ := GroupMask.fromTo_ok (a := 0)
    (b := (ComponentStorage.addUngrouped (ComponentStorage.sortByRank rank sets1) c1).groups.length) j1.gstat.count
    (by omega)
  have hcnt := j1.gstat.count
  have hbit : ∀ k, mask.getLsbD k = true ↔
      k < (ComponentStorage.addUngrouped (ComponentStorage.sortByRank rank sets1) c1).groups.length := by
    intro k
    by_cases hk : k < 64
    · rw [k2 k hk]; simp
    · rw [BitVec.getLsbD_of_ge _ _ (by omega)]
      constructor
      · intro hc; cases hc
      · intro hc; omega
  refine ⟨_, mask, j1, j3, hbit, fun j g hg => i2.zero j g (by rw [← j2]; exact hg), ?_, ?_⟩
  · intro t
    rw [j4, i2.reg, (hperm.map Prod.fst).mem_iff, i2.left]
    unfold layoutTypes
    tauto
  · intro es
    unfold ComponentStorage.setLayout ComponentStorage.extractSparseSets
    simp only [h1, Res.bind_ok, Res.pure_eq, i1, k1]
    rfl

/-- `set_layout` up to the grouping of the entities. -/
theorem setLayout_build {c : ComponentStorage V} (h : StoreOK A c) {l : GroupLayout} (hl : LayoutOK l)
    (hfit : LayoutFits l) (rank : TypeId → Nat) :
    ∃ (c1 : ComponentStorage V) (mask : GroupMask), StoreOK A c1 ∧ c1.value = c.value ∧ GroupsAre c1 (layoutGroups l) ∧
      (∀ k, mask.getLsbD k = true ↔ k < c1.groups.length) ∧
      (∀ t, (c1.meta? t).isSome ↔ (c.meta? t).isSome ∨ t ∈ layoutTypes l) ∧
      (∀ es comps' gs', ComponentStorage.groupEntities mask es (c1.components, c1.groups) = .ok (comps', gs') →
        c.setLayout rank l es = .ok () { c1 with components := comps', groups := gs' }) ∧
      (∀ es, c.setLayoutPairs rank l es =
        ComponentStorage.groupEntitiesPairs mask es (c1.components, c1.groups)) := by
  obtain ⟨sets, comps0, h1, h2, h3, h4, h5, h6⟩ := takeSets_ok c.metadata c.components h.mds.keys
    (fun t m hm => h.mds.idx t m ((lookup_some h.mds.keys t m).2 hm))
    (fun t t' m m' hm hm' => h.mds.inj t t' m m' ((lookup_some h.mds.keys t m).2 hm)
      ((lookup_some h.mds.keys t' m').2 hm'))
  have hb0 : Build A c.value [] [] (fun t => (c.meta? t).isSome) (⟨[], [], comps0⟩ : ComponentStorage V) sets := by
    refine ⟨buildS_init h.mds.keys h4, ⟨?_, ?_⟩, ?_, ?_⟩
    · intro s hs
      rcases h3 s hs with h7 | rfl
      · exact h.sets.wf s h7
      · exact CompSet.wf_new
    · intro s hs x hx
      rcases h3 s hs with h7 | rfl
      · exact h.sets.sub s h7 x hx
      · simp [CompSet.new] at hx
    · intro t s hs
      exact ⟨h.sets.wf s (h5 t s hs), h.sets.sub s (h5 t s hs)⟩
    · intro t x
      simp only [List.not_mem_nil, if_false, h6]
      unfold ComponentStorage.value ComponentStorage.meta?
      cases c.metadata.lookup t with
      | none => rfl
      | some m =>
        simp only [Option.bind_some]
        cases c.components[m.storageIndex]? <;> rfl
  obtain ⟨c1, sets1, i1, i2⟩ := addFamilies_ok l.families [] [] _ sets hb0 hl.1 (by rw [List.nil_append]; exact hl.2) hfit.1 (by
    have := hfit.2
    unfold layoutGroups at this
    rw [List.nil_append]
    omega)
  rw [List.nil_append, List.nil_append] at i2
  have hperm := sortByRank_perm rank sets1
  have hnone : ∀ t s, (t, s) ∈ sets1 → c1.meta? t = none := by
    intro t s hs
    have := i2.fresh t s hs
    rw [← i2.reg] at this
    simpa using this
  obtain ⟨j1, j2, j3, j4, j5⟩ := addUngrouped_ok (ComponentStorage.sortByRank rank sets1) c1 i2.store
    ((hperm.map Prod.fst).nodup_iff.2 i2.keys) (fun t s hs => by
      have hs' := hperm.mem_iff.1 hs
      have := i2.wf t s hs'
      exact ⟨this.1, this.2, hnone t s hs'⟩) _ i2.groups
  have hval : (ComponentStorage.addUngrouped (ComponentStorage.sortByRank rank sets1) c1).value = c.value := by
    funext t x
    rw [j5, i2.value t x, lookup_perm hperm i2.keys]
    by_cases ht : t ∈ l.families.flatMap (·.components)
    · rw [if_pos ht, if_pos ((i2.reg t).2 ht)]
    · rw [if_neg ht, if_neg (fun hc => ht ((i2.reg t).1 hc))]
  obtain ⟨mask, k1, k2⟩ := GroupMask.fromTo_ok (a := 0)
    (b := (ComponentStorage.addUngrouped (ComponentStorage.sortByRank rank sets1) c1).groups.length) j1.gstat.count
    (by omega)
  have hcnt := j1.gstat.count
  have hbit : ∀ k, mask.getLsbD k = true ↔
      k < (ComponentStorage.addUngrouped (ComponentStorage.sortByRank rank sets1) c1).groups.length := by
    intro k
    by_cases hk : k < 64
    · rw [k2 k hk]; simp
    · rw [BitVec.getLsbD_of_ge _ _ (by omega)]
      constructor
      · intro hc; cases hc
      · intro hc; omega
  refine ⟨_, mask, j1, hval, j3, hbit, ?_, ?_, ?_⟩
  · intro t
    rw [j4, i2.reg, (hperm.map Prod.fst).mem_iff, i2.left]
    unfold layoutTypes
    tauto
  · intro es comps' gs' m1
    unfold ComponentStorage.setLayout ComponentStorage.extractSparseSets
    simp only [h1, Res.bind_ok, Res.pure_eq, i1, k1, m1]
  · intro es
    unfold ComponentStorage.setLayoutPairs ComponentStorage.extractSparseSets
    simp only [h1, Res.bind_ok, Res.pure_eq, i1, k1]

/-- `set_layout`. -/
theorem setLayout_ok (hA : IdxUniq A) {c : ComponentStorage V} (h : StoreOK A c) {l : GroupLayout} (hl : LayoutOK l)
    (hfit : LayoutFits l) {es : List Entity} (hes : ∀ x, A x → x ∈ es) (rank : TypeId → Nat)
    (hv : EvenPairs (c.setLayoutPairs rank l es)) :
    ∃ c', c.setLayout rank l es = .ok () c' ∧ StoreOK A c' ∧ AllGrouped c' ∧ c'.value = c.value ∧
      GroupsAre c' (layoutGroups l) ∧
      (∀ t, (c'.meta? t).isSome ↔ (c.meta? t).isSome ∨ t ∈ layoutTypes l) := by
  obtain ⟨c1, mask, j1, hval, j3, hbit, j4, j5, j6⟩ := setLayout_build h hl hfit rank
  rw [j6] at hv
  obtain ⟨comps', gs', m1, m2, m3, _⟩ := groupEntities_store hA (mask := mask) es c1 j1 hv
    ⟨fun j hj => (hbit j).1 hj, fun j p gj gp _ _ hgp _ => (hbit p).2 (List.getElem?_eq_some_iff.1 hgp).1⟩
    (P := fun _ _ => True) (fun k g x _ _ => .inr trivial)
  obtain ⟨m4, m5⟩ := m2.store j1
  refine ⟨_, j5 es comps' gs' m1, m4, ?_, by rw [m5, hval], GroupsAre.of_same j3 rfl m2.stat, j4⟩
  intro k g x hg hc
  rcases m3 k g x hg hc with h7 | ⟨_, h7⟩
  · exact .inl h7
  · exfalso
    apply h7
    have hb := m4.gstat.bounds k g hg
    have hx := hc g.storageStart (Nat.le_refl _) (by omega)
    refine ⟨hes x (m4.sets.lists_sub hx), ?_⟩
    rw [hbit, ← m2.stat.length]
    exact (List.getElem?_eq_some_iff.1 hg).1

end
end Sparsey
