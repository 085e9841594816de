import Verif.Proofs.Lone

/-!
Two storages that agree on the sets of some positions, the second one holding nothing elsewhere. Grouping keeps them in
agreement, even if the group masks differ for groups outside of the positions.
-/

set_option autoImplicit false
set_option linter.unusedSimpArgs false

namespace Sparsey
variable {V : Type}

/-- No group lies partly in `B` and partly outside. -/
def Whole (B : Nat → Prop) (gs : List Group) : Prop :=
  ∀ (j : Nat) (g : Group), gs[j]? = some g → ∀ i i', InRange g i → InRange g i' → B i → B i'

/-- `s'` has the sets of `s` at the positions in `B` and empty sets elsewhere. -/
structure AgreeSets (B : Nat → Prop) (s s' : Sets V) : Prop where
  gst : GStat s.2 s.1.length
  whole : Whole B s.2
  len : s'.1.length = s.1.length
  same : ∀ i, B i → s'.1[i]? = s.1[i]?
  fresh : ∀ i x, ¬ B i → s'.1[i]? = some x → x = CompSet.new
  stat : SameStat s.2 s'.2
  grp : ∀ (j : Nat) (g : Group), s.2[j]? = some g → B g.storageStart → s'.2[j]? = some g

/-- The masks agree on the groups in `B`; no mask has a bit behind the last group. -/
structure AgreeMask (B : Nat → Prop) (gs : List Group) (m m' : BitVec 64) : Prop where
  left : ∀ j, m.getLsbD j = true → j < gs.length
  right : ∀ j, m'.getLsbD j = true → j < gs.length
  same : ∀ (j : Nat) (g : Group), gs[j]? = some g → B g.storageStart → m'.getLsbD j = m.getLsbD j

/-- One iteration of `groupLoop`: the part of the mask to keep and the sets. -/
def groupOnce (e : Entity) (j : Nat) (s : Sets V) : Res (BitVec 64 × Sets V) := do
  let g ← Res.unchecked (s.2[j]?)
  let seg ← compRange s.1 g.newStorageStart g.storageEnd
  match ← getGroupStatus seg g.len e with
  | .incomplete => pure (g.skipMask, s)
  | .ungrouped =>
    let r ← groupComponents s.1 g e
    pure (BitVec.allOnes 64, (r.1, s.2.set j r.2))
  | .grouped => pure (BitVec.allOnes 64, s)

theorem groupLoop_once (e : Entity) (fuel : Nat) (m : BitVec 64) (s : Sets V) :
    groupLoop e (fuel + 1) m s =
      match bitNext m with
      | none => .ok s
      | some (j, m1) => groupOnce e j s >>= fun p => groupLoop e fuel (m1 &&& p.1) p.2 := by
  obtain ⟨comps, gs⟩ := s
  rw [groupLoop]
  cases bitNext m with
  | none => rfl
  | some r =>
    obtain ⟨j, m1⟩ := r
    simp only [groupOnce]
    cases gs[j]? with
    | none => rfl
    | some g =>
      simp only [Res.unchecked_some, Res.bind_ok]
      cases compRange comps g.newStorageStart g.storageEnd with
      | ub => rfl
      | panic => rfl
      | ok seg =>
        simp only [Res.bind_ok]
        cases getGroupStatus seg g.len e with
        | ub => rfl
        | panic => rfl
        | ok st =>
          cases st with
          | incomplete => rfl
          | grouped =>
            simp only [Res.bind_ok, Res.pure_eq]
            rw [BitVec.and_allOnes]
          | ungrouped =>
            simp only [Res.bind_ok, Res.pure_eq]
            cases groupComponents comps g e with
            | ub => rfl
            | panic => rfl
            | ok p =>
              simp only [Res.bind_ok]
              rw [BitVec.and_allOnes]

theorem swapRange_get {l l' : List (CompSet V)} {a b q x : Nat} (hr : swapRange l a b q x = .ok l') (i : Nat)
    (hi : i < a ∨ b ≤ i) : l'[i]? = l[i]? := by
  rcases hi with hi | hi
  · obtain ⟨seg, h1, hr⟩ := Res.bind_ok' hr
    obtain ⟨seg', h2, hr⟩ := Res.bind_ok' hr
    cases hr
    unfold compRange at h1
    split at h1
    · rename_i hab
      rw [List.append_assoc, List.getElem?_append_left (by simp; omega), List.getElem?_take_of_lt hi]
    · cases h1
  · exact swapRange_frame hr hi

theorem seg_eq {l l' : List (CompSet V)} {a b : Nat} (h : ∀ i, a ≤ i → i < b → l'[i]? = l[i]?) :
    (l'.drop a).take (b - a) = (l.drop a).take (b - a) := by
  apply List.ext_getElem?
  intro k
  by_cases hk : k < b - a
  · rw [List.getElem?_take_of_lt hk, List.getElem?_take_of_lt hk, List.getElem?_drop, List.getElem?_drop]
    exact h _ (by omega) (by omega)
  · rw [List.getElem?_eq_none (by simp; omega), List.getElem?_eq_none (by simp; omega)]

theorem swapRange_agree {l l' r : List (CompSet V)} {a b q x : Nat} (hlen : l'.length = l.length)
    (h : ∀ i, a ≤ i → i < b → l'[i]? = l[i]?) (hr : swapRange l a b q x = .ok r) :
    ∃ r', swapRange l' a b q x = .ok r' ∧ ∀ i, a ≤ i → i < b → r'[i]? = r[i]? := by
  obtain ⟨seg, h1, hr⟩ := Res.bind_ok' hr
  obtain ⟨seg', h2, hr⟩ := Res.bind_ok' hr
  cases hr
  unfold compRange at h1
  split at h1
  · rename_i hab
    cases h1
    have hs := seg_eq h
    refine ⟨l'.take a ++ seg' ++ l'.drop b, ?_, ?_⟩
    · unfold swapRange compRange
      rw [if_pos (by rw [hlen]; exact hab)]
      simp only [Res.bind_ok, hs, h2, Res.pure_eq]
    · intro i hi1 hi2
      have hl := swapAllTo_length _ _ h2
      rw [List.length_take, List.length_drop] at hl
      have e1 : (l'.take a).length = a := by simp; omega
      have e2 : (l.take a).length = a := by simp; omega
      rw [List.append_assoc, List.append_assoc, List.getElem?_append_right (l₁ := l'.take a) (by omega),
        List.getElem?_append_right (l₁ := l.take a) (by omega)]
      rw [e1, e2, List.getElem?_append_left (by omega), List.getElem?_append_left (by omega)]
  · cases h1

namespace AgreeSets
variable {B : Nat → Prop} {s s' : Sets V}

theorem inB (h : AgreeSets B s s') {j : Nat} {g : Group} (hg : s.2[j]? = some g) (hb : B g.storageStart) (i : Nat)
    (hi : InRange g i) : B i := by
  have := h.gst.bounds j g hg
  exact h.whole j g hg g.storageStart i ⟨Nat.le_refl _, by omega⟩ hi hb

theorem notInB (h : AgreeSets B s s') {j : Nat} {g : Group} (hg : s.2[j]? = some g) (hb : ¬ B g.storageStart) (i : Nat)
    (hi : InRange g i) : ¬ B i := by
  have := h.gst.bounds j g hg
  exact fun hc => hb (h.whole j g hg i g.storageStart hi ⟨Nat.le_refl _, by omega⟩ hc)

/-- Both sides swap the same sets in the range of the group `j`. -/
theorem swapBoth (h : AgreeSets B s s') {j : Nat} {g : Group} (hg : s.2[j]? = some g) (hb : B g.storageStart)
    {q x n : Nat} {l : List (CompSet V)} (hr : swapRange s.1 g.storageStart g.storageEnd q x = .ok l) :
    ∃ l', swapRange s'.1 g.storageStart g.storageEnd q x = .ok l' ∧
      AgreeSets B (l, s.2.set j { g with len := n }) (l', s'.2.set j { g with len := n }) := by
  obtain ⟨l', h1, h2⟩ := swapRange_agree h.len (fun i hi1 hi2 => h.same i (h.inB hg hb i ⟨hi1, hi2⟩)) hr
  have hg' := h.grp j g hg hb
  have hl := swapRange_length hr
  have hst : SameStat s.2 (s.2.set j { g with len := n }) := SameStat.set hg n
  refine ⟨l', h1, ?_⟩
  refine ⟨?_, ?_, ?_, ?_, ?_, ?_, ?_⟩
  · simp only
    rw [hl]
    exact h.gst.of_same hst
  · intro k gk hk i i' hi hi' hbi
    obtain ⟨g', h3, h4⟩ := hst.get hk
    exact h.whole k g' h3 i i' ((InRange.stat h4 i).1 hi) ((InRange.stat h4 i').1 hi') hbi
  · simp only
    rw [swapRange_length h1, hl, h.len]
  · intro i hi
    by_cases hr1 : g.storageStart ≤ i ∧ i < g.storageEnd
    · exact h2 i hr1.1 hr1.2
    · simp only
      rw [swapRange_get h1 i (by omega), swapRange_get hr i (by omega), h.same i hi]
  · intro i y hi hy
    have hr1 : ¬ (g.storageStart ≤ i ∧ i < g.storageEnd) := fun hc => hi (h.inB hg hb i hc)
    simp only at hy
    rw [swapRange_get h1 i (by omega)] at hy
    exact h.fresh i y hi hy
  · exact (hst.symm.trans h.stat).trans (SameStat.set hg' n)
  · intro k gk hk hbk
    simp only at hk ⊢
    rw [List.getElem?_set] at hk ⊢
    rw [h.stat.length]
    split
    · rename_i hjk
      rw [if_pos hjk] at hk
      exact hk
    · rename_i hjk
      rw [if_neg hjk] at hk
      exact h.grp k gk hk hbk

/-- Only the left side swaps, outside of `B`. -/
theorem swapLeft (h : AgreeSets B s s') {j : Nat} {g : Group} (hg : s.2[j]? = some g) (hb : ¬ B g.storageStart)
    {q x n : Nat} {l : List (CompSet V)} (hr : swapRange s.1 g.storageStart g.storageEnd q x = .ok l) :
    AgreeSets B (l, s.2.set j { g with len := n }) s' := by
  have hl := swapRange_length hr
  have hst : SameStat s.2 (s.2.set j { g with len := n }) := SameStat.set hg n
  refine ⟨?_, ?_, ?_, ?_, h.fresh, ?_, ?_⟩
  · simp only
    rw [hl]
    exact h.gst.of_same hst
  · intro k gk hk i i' hi hi' hbi
    obtain ⟨g', h3, h4⟩ := hst.get hk
    exact h.whole k g' h3 i i' ((InRange.stat h4 i).1 hi) ((InRange.stat h4 i').1 hi') hbi
  · simp only
    rw [hl, h.len]
  · intro i hi
    have hr1 : ¬ (g.storageStart ≤ i ∧ i < g.storageEnd) := fun hc => h.notInB hg hb i hc hi
    simp only
    rw [swapRange_get hr i (by omega), h.same i hi]
  · exact hst.symm.trans h.stat
  · intro k gk hk hbk
    simp only at hk
    rw [List.getElem?_set] at hk
    split at hk
    · split at hk
      · cases hk
        exact absurd hbk hb
      · cases hk
    · exact h.grp k gk hk hbk

theorem seg (h : AgreeSets B s s') {j : Nat} {g : Group} (hg : s.2[j]? = some g) (hb : B g.storageStart) :
    compRange s'.1 g.newStorageStart g.storageEnd = compRange s.1 g.newStorageStart g.storageEnd := by
  have := h.gst.bounds j g hg
  unfold compRange
  rw [h.len, seg_eq fun i h1 h2 => h.same i (h.inB hg hb i ⟨by omega, h2⟩)]

/-- A group outside of `B` is empty on the right side. -/
theorem incomplete (h : AgreeSets B s s') {j : Nat} {g : Group} (hg : s.2[j]? = some g) (hb : ¬ B g.storageStart)
    (n : Nat) (e : Entity) : ∃ seg, compRange s'.1 g.newStorageStart g.storageEnd = .ok seg ∧
      getGroupStatus seg n e = .ok .incomplete := by
  have hbd := h.gst.bounds j g hg
  refine ⟨_, compRange_ok (Nat.le_of_lt hbd.2.1) (by rw [h.len]; exact hbd.2.2), ?_⟩
  have hlt : g.newStorageStart < s'.1.length := by rw [h.len]; omega
  obtain ⟨k, hk⟩ : ∃ k, g.storageEnd - g.newStorageStart = k + 1 := ⟨g.storageEnd - g.newStorageStart - 1, by omega⟩
  rw [List.drop_eq_getElem_cons hlt, hk, List.take_succ_cons]
  have := h.fresh g.newStorageStart _ (h.notInB hg hb _ ⟨by omega, by omega⟩) (List.getElem?_eq_getElem hlt)
  rw [this]
  simp [getGroupStatus, CompSet.new, SparseVec.new, SparseVec.get]

theorem right_group (h : AgreeSets B s s') {j : Nat} {g : Group} (hg : s.2[j]? = some g) :
    ∃ g', s'.2[j]? = some g' ∧ g'.stat = g.stat := by
  obtain ⟨g', h1, h2⟩ := h.stat.symm.get hg
  exact ⟨g', h1, h2.symm⟩

/-! ### One iteration -/

theorem onceBoth (h : AgreeSets B s s') {j : Nat} {g : Group} (hg : s.2[j]? = some g) (hb : B g.storageStart)
    {e : Entity} {k : BitVec 64} {r : Sets V} (hr : groupOnce e j s = .ok (k, r)) :
    ∃ r', groupOnce e j s' = .ok (k, r') ∧ AgreeSets B r r' := by
  have hg' := h.grp j g hg hb
  unfold groupOnce at hr ⊢
  rw [hg, Res.unchecked_some, Res.bind_ok] at hr
  rw [hg', Res.unchecked_some, Res.bind_ok, h.seg hg hb]
  obtain ⟨seg, h1, hr⟩ := Res.bind_ok' hr
  obtain ⟨st, h2, hr⟩ := Res.bind_ok' hr
  rw [h1, Res.bind_ok, h2, Res.bind_ok]
  cases st with
  | incomplete => cases hr; exact ⟨_, rfl, h⟩
  | grouped => cases hr; exact ⟨_, rfl, h⟩
  | ungrouped =>
    obtain ⟨p, h3, hr⟩ := Res.bind_ok' hr
    cases hr
    obtain ⟨l, h4, h3⟩ := Res.bind_ok' h3
    cases h3
    obtain ⟨l', h5, h6⟩ := h.swapBoth (n := g.len + 1) hg hb h4
    refine ⟨(l', s'.2.set j { g with len := g.len + 1 }), ?_, h6⟩
    unfold groupComponents
    simp only [h5, Res.bind_ok, Res.pure_eq]

/-- Groups in `B` are not skipped because of a group outside. -/
def Spares (B : Nat → Prop) (gs : List Group) (k : BitVec 64) : Prop :=
  ∀ (i : Nat) (g : Group), gs[i]? = some g → B g.storageStart → i < 64 → k.getLsbD i = true

theorem spares_skip (h : AgreeSets B s s') {j : Nat} {g : Group} (hg : s.2[j]? = some g) (hb : ¬ B g.storageStart) :
    Spares B s.2 g.skipMask := by
  intro i gi hgi hbi _
  by_contra hc
  have := (h.gst.skip j i g gi hg hgi).1 (by simpa using hc)
  rw [this.2] at hbi
  exact hb hbi

theorem spares_all : Spares B s.2 (BitVec.allOnes 64) := by
  intro i gi _ _ hi
  rw [BitVec.getLsbD_allOnes]
  simpa using hi

theorem onceLeft (h : AgreeSets B s s') {j : Nat} {g : Group} (hg : s.2[j]? = some g) (hb : ¬ B g.storageStart)
    {e : Entity} {k : BitVec 64} {r : Sets V} (hr : groupOnce e j s = .ok (k, r)) :
    AgreeSets B r s' ∧ Spares B s.2 k := by
  unfold groupOnce at hr
  rw [hg, Res.unchecked_some, Res.bind_ok] at hr
  obtain ⟨seg, h1, hr⟩ := Res.bind_ok' hr
  obtain ⟨st, h2, hr⟩ := Res.bind_ok' hr
  cases st with
  | incomplete => cases hr; exact ⟨h, h.spares_skip hg hb⟩
  | grouped => cases hr; exact ⟨h, spares_all⟩
  | ungrouped =>
    obtain ⟨p, h3, hr⟩ := Res.bind_ok' hr
    cases hr
    obtain ⟨l, h4, h3⟩ := Res.bind_ok' h3
    cases h3
    exact ⟨h.swapLeft hg hb h4, spares_all⟩

theorem onceRight (h : AgreeSets B s s') {j : Nat} {g : Group} (hg : s.2[j]? = some g) (hb : ¬ B g.storageStart)
    (e : Entity) : ∃ k, groupOnce e j s' = .ok (k, s') ∧ Spares B s.2 k := by
  obtain ⟨g', hg', hst⟩ := h.right_group hg
  obtain ⟨seg, h1, h2⟩ := h.incomplete hg hb g'.len e
  refine ⟨g'.skipMask, ?_, ?_⟩
  · unfold groupOnce
    rw [hg', Res.unchecked_some, Res.bind_ok, Group.stat_newStart hst, Group.stat_end hst, h1, Res.bind_ok, h2]
    rfl
  · have : g'.skipMask = g.skipMask := Group.stat_skip hst
    rw [this]
    exact h.spares_skip hg hb

end AgreeSets

theorem AgreeMask.of_same {B : Nat → Prop} {gs gs' : List Group} {m m' : BitVec 64} (h : AgreeMask B gs m m')
    (hs : SameStat gs gs') : AgreeMask B gs' m m' where
  left j hj := by rw [hs.length]; exact h.left j hj
  right j hj := by rw [hs.length]; exact h.right j hj
  same j g hg hb := by
    obtain ⟨g', h1, h2⟩ := hs.get hg
    exact h.same j g' h1 (by rw [← Group.stat_start h2]; exact hb)

theorem groupOnce_shape {e : Entity} {j : Nat} {s : Sets V} {p : BitVec 64 × Sets V} (h : groupOnce e j s = .ok p) :
    SameStat s.2 p.2.2 := by
  unfold groupOnce at h
  obtain ⟨g, h1, h⟩ := Res.bind_ok' h
  obtain ⟨seg, _, h⟩ := Res.bind_ok' h
  obtain ⟨st, _, h⟩ := Res.bind_ok' h
  cases st with
  | incomplete => cases h; rfl
  | grouped => cases h; rfl
  | ungrouped =>
    obtain ⟨q, h3, h⟩ := Res.bind_ok' h
    cases h
    obtain ⟨_, n, h5⟩ := groupComponents_shape h3
    simp only [h5]
    exact SameStat.set (Res.unchecked_ok h1) n

theorem AgreeSets.groupLoop {B : Nat → Prop} {e : Entity} : ∀ (N fuel fuel' : Nat) (m m' : BitVec 64) (s s' r : Sets V),
    fuel + fuel' ≤ N → AgreeSets B s s' → AgreeMask B s.2 m m' → maskCard m' ≤ fuel' →
    Sparsey.groupLoop e fuel m s = .ok r → ∃ r', Sparsey.groupLoop e fuel' m' s' = .ok r' ∧ AgreeSets B r r' := by
  intro N
  induction N with
  | zero =>
    intro fuel fuel' m m' s s' r hN h hm hc hr
    have h0 : fuel = 0 := by omega
    have h1 : fuel' = 0 := by omega
    subst h0 h1
    have h2 := maskCard_zero hc
    subst h2
    rw [Sparsey.groupLoop] at hr
    split at hr
    · cases hr
      refine ⟨s', ?_, h⟩
      rw [Sparsey.groupLoop, bitNext_none.2 rfl]
    · cases hr
  | succ N ih =>
    intro fuel fuel' m m' s s' r hN h hm hc hr
    -- one iteration on the right
    have right : ∀ (j' : Nat) (m1' : BitVec 64) (g' : Group), bitNext m' = some (j', m1') → s.2[j']? = some g' →
        ¬ B g'.storageStart → ∃ r', Sparsey.groupLoop e fuel' m' s' = .ok r' ∧ AgreeSets B r r' := by
      intro j' m1' g' hb' hg' hB
      obtain ⟨hj64, hjm, hlow, hclr⟩ := bitNext_some hb'
      have hcard := maskCard_clear hj64 hjm hclr
      obtain ⟨f', rfl⟩ : ∃ f', fuel' = f' + 1 := ⟨fuel' - 1, by omega⟩
      obtain ⟨k, h1, h2⟩ := h.onceRight hg' hB e
      obtain ⟨r', h3, h4⟩ := ih fuel f' m (m1' &&& k) s s' r (by omega) h
        ⟨hm.left, fun i hi => by
          rw [BitVec.getLsbD_and, Bool.and_eq_true, hclr, Bool.and_eq_true] at hi
          exact hm.right i hi.1.1, fun i gi hgi hbi => by
          rw [BitVec.getLsbD_and, hclr, ← hm.same i gi hgi hbi]
          have hne : i ≠ j' := by
            rintro rfl
            rw [hg'] at hgi
            cases hgi
            exact hB hbi
          have hi64 : i < 64 := by
            have := (List.getElem?_eq_some_iff.1 hgi).1
            have := h.gst.count
            omega
          rw [h2 i gi hgi hbi hi64]
          simp [hne]⟩
        (Nat.le_trans (maskCard_and_le _ _) (by omega)) hr
      refine ⟨r', ?_, h4⟩
      rw [groupLoop_once, hb']
      simp only [h1, Res.bind_ok, h3]
    cases hb : bitNext m with
    | none =>
      have hm0 := bitNext_none.1 hb
      subst hm0
      have hrs : r = s := by
        rw [Sparsey.groupLoop, hb] at hr
        cases hr
        rfl
      cases hb' : bitNext m' with
      | none =>
        refine ⟨s', ?_, by rw [hrs]; exact h⟩
        rw [Sparsey.groupLoop, hb']
      | some q =>
        obtain ⟨j', m1'⟩ := q
        obtain ⟨hj64, hjm, hlow, hclr⟩ := bitNext_some hb'
        have hjl := hm.right j' hjm
        refine right j' m1' _ hb' (List.getElem?_eq_getElem hjl) fun hB => ?_
        have := hm.same j' _ (List.getElem?_eq_getElem hjl) hB
        rw [hjm] at this
        simp at this
    | some q =>
      obtain ⟨j, m1⟩ := q
      obtain ⟨hj64, hjm, hlow, hclr⟩ := bitNext_some hb
      have hjl := hm.left j hjm
      have hg := List.getElem?_eq_getElem hjl
      generalize hgd : s.2[j] = g at hg
      have hpos : fuel ≠ 0 := by
        rintro rfl
        rw [Sparsey.groupLoop, hb] at hr
        cases hr
      obtain ⟨f, rfl⟩ : ∃ f, fuel = f + 1 := ⟨fuel - 1, by omega⟩
      have hr0 := hr
      rw [groupLoop_once, hb] at hr0
      obtain ⟨⟨k, r1⟩, h1, hr1⟩ := Res.bind_ok' hr0
      simp only at hr1
      have hsh := groupOnce_shape h1
      simp only at hsh
      by_cases hB : B g.storageStart
      · cases hb' : bitNext m' with
        | none =>
          have := bitNext_none.1 hb'
          subst this
          have := hm.same j g hg hB
          rw [hjm] at this
          simp at this
        | some q' =>
          obtain ⟨j', m1'⟩ := q'
          obtain ⟨hj64', hjm', hlow', hclr'⟩ := bitNext_some hb'
          have hjl' := hm.right j' hjm'
          by_cases hB' : B (s.2[j']).storageStart
          · have hjj : j' = j := by
              have e1 := hm.same j' _ (List.getElem?_eq_getElem hjl') hB'
              rw [hjm'] at e1
              have e2 := hm.same j g hg hB
              rw [hjm] at e2
              have n1 : ¬ j' < j := fun hlt => by rw [hlow j' hlt] at e1; cases e1
              have n2 : ¬ j < j' := fun hlt => by rw [hlow' j hlt] at e2; cases e2
              omega
            subst hjj
            have hcard := maskCard_clear hj64' hjm' hclr'
            obtain ⟨f', rfl⟩ : ∃ f', fuel' = f' + 1 := ⟨fuel' - 1, by omega⟩
            obtain ⟨r1', h2, h3⟩ := h.onceBoth hg hB h1
            obtain ⟨r', h4, h5⟩ := ih f f' (m1 &&& k) (m1' &&& k) r1 r1' r (by omega) h3
              (AgreeMask.of_same ⟨fun i hi => by
                rw [BitVec.getLsbD_and, Bool.and_eq_true, hclr, Bool.and_eq_true] at hi
                exact hm.left i hi.1.1, fun i hi => by
                rw [BitVec.getLsbD_and, Bool.and_eq_true, hclr', Bool.and_eq_true] at hi
                exact hm.right i hi.1.1, fun i gi hgi hbi => by
                rw [BitVec.getLsbD_and, BitVec.getLsbD_and, hclr, hclr', hm.same i gi hgi hbi]⟩ hsh)
              (Nat.le_trans (maskCard_and_le _ _) (by omega)) hr1
            refine ⟨r', ?_, h5⟩
            rw [groupLoop_once, hb']
            simp only [h2, Res.bind_ok, h4]
          · exact right j' m1' _ hb' (List.getElem?_eq_getElem hjl') hB'
      · obtain ⟨h2, h3⟩ := h.onceLeft hg hB h1
        refine ih f fuel' (m1 &&& k) m' r1 s' r (by omega) h2
          (AgreeMask.of_same ⟨fun i hi => by
            rw [BitVec.getLsbD_and, Bool.and_eq_true, hclr, Bool.and_eq_true] at hi
            exact hm.left i hi.1.1, hm.right, fun i gi hgi hbi => by
            rw [BitVec.getLsbD_and, hclr, hm.same i gi hgi hbi]
            have hne : i ≠ j := by
              rintro rfl
              rw [hg] at hgi
              cases hgi
              exact hB hbi
            have hi64 : i < 64 := by
              have := (List.getElem?_eq_some_iff.1 hgi).1
              have := h.gst.count
              omega
            rw [h3 i gi hgi hbi hi64]
            simp [hne]⟩ hsh) hc hr1

theorem AgreeSets.group {B : Nat → Prop} {e : Entity} {m m' : BitVec 64} {s s' r : Sets V} (h : AgreeSets B s s')
    (hm : AgreeMask B s.2 m m') (hr : Sparsey.group s m e = .ok r) :
    ∃ r', Sparsey.group s' m' e = .ok r' ∧ AgreeSets B r r' :=
  AgreeSets.groupLoop _ 64 64 m m' s s' r (Nat.le_refl _) h hm (maskCard_le m') hr

theorem AgreeSets.groupEntities {B : Nat → Prop} {m m' : BitVec 64} : ∀ (es : List Entity) {s s' r : Sets V},
    AgreeSets B s s' → AgreeMask B s.2 m m' → ComponentStorage.groupEntities m es s = .ok r →
    ∃ r', ComponentStorage.groupEntities m' es s' = .ok r' ∧ AgreeSets B r r'
  | [], s, s', r, h, _, hr => by cases hr; exact ⟨s', rfl, h⟩
  | e :: es, s, s', r, h, hm, hr => by
    obtain ⟨s1, h1, hr⟩ := Res.bind_ok' hr
    obtain ⟨s1', h2, h3⟩ := h.group hm h1
    obtain ⟨r', h4, h5⟩ := AgreeSets.groupEntities es h3 (hm.of_same (groupLoop_shape _ _ _ _ h1).2) hr
    refine ⟨r', ?_, h5⟩
    rw [ComponentStorage.groupEntities, h2, Res.bind_ok, h4]

/-! ### Taking entities out of groups -/

namespace AgreeSets
variable {B : Nat → Prop} {s s' : Sets V}

theorem stepBoth (h : AgreeSets B s s') {j : Nat} {g : Group} (hg : s.2[j]? = some g) (hb : B g.storageStart)
    {e : Entity} {r : Sets V} (hr : ungroupStep e j s = .ok r) :
    ∃ r', ungroupStep e j s' = .ok r' ∧ AgreeSets B r r' := by
  have hg' := h.grp j g hg hb
  have hsg := h.seg hg hb
  obtain ⟨l, gs⟩ := s
  obtain ⟨l', gs'⟩ := s'
  simp only at hg hg' hsg
  unfold ungroupStep at hr ⊢
  simp only [hg, hg', Res.unchecked_some, Res.bind_ok, hsg] at hr ⊢
  obtain ⟨seg, h1, hr⟩ := Res.bind_ok' hr
  obtain ⟨st, h2, hr⟩ := Res.bind_ok' hr
  rw [h1, Res.bind_ok, h2, Res.bind_ok]
  cases st with
  | incomplete => cases hr; exact ⟨_, rfl, h⟩
  | ungrouped => cases hr; exact ⟨_, rfl, h⟩
  | grouped =>
    obtain ⟨p, h3, hr⟩ := Res.bind_ok' hr
    cases hr
    unfold ungroupComponents at h3 ⊢
    split at h3
    · cases h3
    · rename_i hz
      obtain ⟨l2, h4, h3⟩ := Res.bind_ok' h3
      cases h3
      obtain ⟨l2', h5, h6⟩ := h.swapBoth (n := g.len - 1) hg hb h4
      refine ⟨_, ?_, h6⟩
      simp only [if_neg hz]
      simp only at h5
      rw [h5]
      rfl

theorem stepLeft (h : AgreeSets B s s') {j : Nat} {g : Group} (hg : s.2[j]? = some g) (hb : ¬ B g.storageStart)
    {e : Entity} {r : Sets V} (hr : ungroupStep e j s = .ok r) : AgreeSets B r s' := by
  obtain ⟨l, gs⟩ := s
  simp only at hg
  unfold ungroupStep at hr
  simp only [hg, Res.unchecked_some, Res.bind_ok] at hr
  obtain ⟨seg, h1, hr⟩ := Res.bind_ok' hr
  obtain ⟨st, h2, hr⟩ := Res.bind_ok' hr
  cases st with
  | incomplete => cases hr; exact h
  | ungrouped => cases hr; exact h
  | grouped =>
    obtain ⟨p, h3, hr⟩ := Res.bind_ok' hr
    cases hr
    unfold ungroupComponents at h3
    split at h3
    · cases h3
    · obtain ⟨l2, h4, h3⟩ := Res.bind_ok' h3
      cases h3
      exact h.swapLeft (n := g.len - 1) hg hb h4

theorem stepRight (h : AgreeSets B s s') {j : Nat} {g : Group} (hg : s.2[j]? = some g) (hb : ¬ B g.storageStart)
    (e : Entity) : ungroupStep e j s' = .ok s' := by
  obtain ⟨g', hg', hst⟩ := h.right_group hg
  obtain ⟨seg, h1, h2⟩ := h.incomplete hg hb g'.len e
  obtain ⟨l', gs'⟩ := s'
  simp only at hg' h1
  unfold ungroupStep
  simp only [hg', Res.unchecked_some, Res.bind_ok]
  rw [Group.stat_newStart hst, Group.stat_end hst, h1, Res.bind_ok, h2]
  rfl

theorem ungroupLoop {e : Entity} : ∀ (N fuel fuel' : Nat) (m m' : BitVec 64) (s s' r : Sets V),
    fuel + fuel' ≤ N → AgreeSets B s s' → AgreeMask B s.2 m m' → maskCard m' ≤ fuel' →
    Sparsey.ungroupLoop e fuel m s = .ok r → ∃ r', Sparsey.ungroupLoop e fuel' m' s' = .ok r' ∧ AgreeSets B r r' := by
  intro N
  induction N with
  | zero =>
    intro fuel fuel' m m' s s' r hN h hm hc hr
    have h0 : fuel = 0 := by omega
    have h1 : fuel' = 0 := by omega
    subst h0 h1
    have h2 := maskCard_zero hc
    subst h2
    rw [Sparsey.ungroupLoop] at hr
    split at hr
    · cases hr
      refine ⟨s', ?_, h⟩
      rw [Sparsey.ungroupLoop, bitNextBack_none.2 rfl]
    · cases hr
  | succ N ih =>
    intro fuel fuel' m m' s s' r hN h hm hc hr
    have right : ∀ (j' : Nat) (m1' : BitVec 64) (g' : Group), bitNextBack m' = some (j', m1') → s.2[j']? = some g' →
        ¬ B g'.storageStart → ∃ r', Sparsey.ungroupLoop e fuel' m' s' = .ok r' ∧ AgreeSets B r r' := by
      intro j' m1' g' hb' hg' hB
      obtain ⟨hj64, hjm, hlow, hclr⟩ := bitNextBack_some hb'
      have hcard := maskCard_clear hj64 hjm hclr
      obtain ⟨f', rfl⟩ : ∃ f', fuel' = f' + 1 := ⟨fuel' - 1, by omega⟩
      obtain ⟨r', h3, h4⟩ := ih fuel f' m m1' s s' r (by omega) h
        ⟨hm.left, fun i hi => by
          rw [hclr, Bool.and_eq_true] at hi
          exact hm.right i hi.1, fun i gi hgi hbi => by
          rw [hclr, ← hm.same i gi hgi hbi]
          have hne : i ≠ j' := by
            rintro rfl
            rw [hg'] at hgi
            cases hgi
            exact hB hbi
          simp [hne]⟩ (by omega) hr
      refine ⟨r', ?_, h4⟩
      rw [Sparsey.ungroupLoop, hb']
      simp only [h.stepRight hg' hB e, Res.bind_ok, h3]
    cases hb : bitNextBack m with
    | none =>
      have hm0 := bitNextBack_none.1 hb
      subst hm0
      have hrs : r = s := by
        rw [Sparsey.ungroupLoop, hb] at hr
        cases hr
        rfl
      cases hb' : bitNextBack m' with
      | none =>
        refine ⟨s', ?_, by rw [hrs]; exact h⟩
        rw [Sparsey.ungroupLoop, hb']
      | some q =>
        obtain ⟨j', m1'⟩ := q
        obtain ⟨hj64, hjm, hlow, hclr⟩ := bitNextBack_some hb'
        have hjl := hm.right j' hjm
        refine right j' m1' _ hb' (List.getElem?_eq_getElem hjl) fun hB => ?_
        have := hm.same j' _ (List.getElem?_eq_getElem hjl) hB
        rw [hjm] at this
        simp at this
    | some q =>
      obtain ⟨j, m1⟩ := q
      obtain ⟨hj64, hjm, hlow, hclr⟩ := bitNextBack_some hb
      have hjl := hm.left j hjm
      have hg := List.getElem?_eq_getElem hjl
      generalize hgd : s.2[j] = g at hg
      have hpos : fuel ≠ 0 := by
        rintro rfl
        rw [Sparsey.ungroupLoop, hb] at hr
        cases hr
      obtain ⟨f, rfl⟩ : ∃ f, fuel = f + 1 := ⟨fuel - 1, by omega⟩
      have hr0 := hr
      rw [Sparsey.ungroupLoop, hb] at hr0
      obtain ⟨r1, h1, hr1⟩ := Res.bind_ok' hr0
      have hsh := (ungroupStep_shape h1).2
      by_cases hB : B g.storageStart
      · cases hb' : bitNextBack m' with
        | none =>
          have := bitNextBack_none.1 hb'
          subst this
          have := hm.same j g hg hB
          rw [hjm] at this
          simp at this
        | some q' =>
          obtain ⟨j', m1'⟩ := q'
          obtain ⟨hj64', hjm', hlow', hclr'⟩ := bitNextBack_some hb'
          have hjl' := hm.right j' hjm'
          by_cases hB' : B (s.2[j']).storageStart
          · have hjj : j' = j := by
              have e1 := hm.same j' _ (List.getElem?_eq_getElem hjl') hB'
              rw [hjm'] at e1
              have e2 := hm.same j g hg hB
              rw [hjm] at e2
              have n1 : ¬ j < j' := fun hlt => by rw [hlow j' hlt] at e1; cases e1
              have n2 : ¬ j' < j := fun hlt => by rw [hlow' j hlt] at e2; cases e2
              omega
            subst hjj
            have hcard := maskCard_clear hj64' hjm' hclr'
            obtain ⟨f', rfl⟩ : ∃ f', fuel' = f' + 1 := ⟨fuel' - 1, by omega⟩
            obtain ⟨r1', h2, h3⟩ := h.stepBoth hg hB h1
            obtain ⟨r', h4, h5⟩ := ih f f' m1 m1' r1 r1' r (by omega) h3
              (AgreeMask.of_same ⟨fun i hi => by
                rw [hclr, Bool.and_eq_true] at hi
                exact hm.left i hi.1, fun i hi => by
                rw [hclr', Bool.and_eq_true] at hi
                exact hm.right i hi.1, fun i gi hgi hbi => by
                rw [hclr, hclr', hm.same i gi hgi hbi]⟩ hsh)
              (by omega) hr1
            refine ⟨r', ?_, h5⟩
            rw [Sparsey.ungroupLoop, hb']
            simp only [h2, Res.bind_ok, h4]
          · exact right j' m1' _ hb' (List.getElem?_eq_getElem hjl') hB'
      · have h2 := h.stepLeft hg hB h1
        refine ih f fuel' m1 m' r1 s' r (by omega) h2
          (AgreeMask.of_same ⟨fun i hi => by
            rw [hclr, Bool.and_eq_true] at hi
            exact hm.left i hi.1, hm.right, fun i gi hgi hbi => by
            rw [hclr, hm.same i gi hgi hbi]
            have hne : i ≠ j := by
              rintro rfl
              rw [hg] at hgi
              cases hgi
              exact hB hbi
            simp [hne]⟩ hsh) hc hr1

theorem ungroup {e : Entity} {m m' : BitVec 64} {r : Sets V} (h : AgreeSets B s s')
    (hm : AgreeMask B s.2 m m') (hr : Sparsey.ungroup s m e = .ok r) :
    ∃ r', Sparsey.ungroup s' m' e = .ok r' ∧ AgreeSets B r r' :=
  AgreeSets.ungroupLoop _ 64 64 m m' s s' r (Nat.le_refl _) h hm (maskCard_le m') hr

theorem ungroupAllLoop {e : Entity} : ∀ (n : Nat) {s s' r : Sets V}, n ≤ s.2.length → AgreeSets B s s' →
    Sparsey.ungroupAllLoop e n s = .ok r → ∃ r', Sparsey.ungroupAllLoop e n s' = .ok r' ∧ AgreeSets B r r'
  | 0, s, s', r, _, h, hr => by cases hr; exact ⟨s', rfl, h⟩
  | n + 1, s, s', r, hn, h, hr => by
    obtain ⟨s1, h1, hr⟩ := Res.bind_ok' hr
    have hg := List.getElem?_eq_getElem (show n < s.2.length by omega)
    have hlen := (ungroupStep_shape h1).2.length
    rw [Sparsey.ungroupAllLoop]
    by_cases hB : B (s.2[n]).storageStart
    · obtain ⟨s1', h2, h3⟩ := h.stepBoth hg hB h1
      rw [h2, Res.bind_ok]
      exact ungroupAllLoop n (by omega) h3 hr
    · rw [h.stepRight hg hB e, Res.bind_ok]
      exact ungroupAllLoop n (by omega) (h.stepLeft hg hB h1) hr

theorem ungroupAll {e : Entity} {r : Sets V} (h : AgreeSets B s s') (hr : Sparsey.ungroupAll s e = .ok r) :
    ∃ r', Sparsey.ungroupAll s' e = .ok r' ∧ AgreeSets B r r' := by
  unfold Sparsey.ungroupAll at hr ⊢
  rw [h.stat.length]
  exact ungroupAllLoop _ (Nat.le_refl _) h hr

end AgreeSets
end Sparsey
