import Verif.Proofs.EraseReach
import Verif.Properties.Indexes

/-!
Two storages that agree on the types in `K`; nothing is said about the other types of either. Calls that name only types in
`K` go the same way on both.
-/

set_option autoImplicit false
set_option linter.unusedSimpArgs false

namespace Sparsey
variable {V : Type}

/-- The sets at the positions in `B` are the same. -/
structure HalfSets (B : Nat → Prop) (s s' : Sets V) : Prop where
  gst : GStat s.2 s.1.length
  whole : Whole B s.2
  len : s'.1.length = s.1.length
  same : ∀ i, B i → s'.1[i]? = s.1[i]?
  stat : SameStat s.2 s'.2
  grp : ∀ (j : Nat) (g : Group), s.2[j]? = some g → B g.storageStart → s'.2[j]? = some g

theorem AgreeSets.half {B : Nat → Prop} {s s' : Sets V} (h : AgreeSets B s s') : HalfSets B s s' :=
  ⟨h.gst, h.whole, h.len, h.same, h.stat, h.grp⟩

/-- All bits are those of groups in `B`. -/
def InMask (B : Nat → Prop) (gs : List Group) (m : BitVec 64) : Prop :=
  ∀ j, m.getLsbD j = true → ∃ g, gs[j]? = some g ∧ B g.storageStart

theorem InMask.of_same {B : Nat → Prop} {gs gs' : List Group} {m : BitVec 64} (h : InMask B gs m) (hs : SameStat gs gs') :
    InMask B gs' m := by
  intro j hj
  obtain ⟨g, h1, h2⟩ := h j hj
  obtain ⟨g', h3, h4⟩ := hs.symm.get h1
  exact ⟨g', h3, by rw [← Group.stat_start h4]; exact h2⟩

theorem InMask.or {B : Nat → Prop} {gs : List Group} {m m' : BitVec 64} (h : InMask B gs m) (h' : InMask B gs m') :
    InMask B gs (m ||| m') := by
  intro j hj
  rw [BitVec.getLsbD_or, Bool.or_eq_true] at hj
  rcases hj with hj | hj
  · exact h j hj
  · exact h' j hj

theorem InMask.zero {B : Nat → Prop} {gs : List Group} : InMask B gs 0#64 := by
  intro j hj
  simp at hj

namespace HalfSets
variable {B : Nat → Prop} {s s' : Sets V}

theorem symm (h : HalfSets B s s') : HalfSets B s' s where
  gst := by rw [h.len]; exact h.gst.of_same h.stat
  whole := by
    intro k gk hk i i' hi hi' hbi
    obtain ⟨g', h3, h4⟩ := h.stat.get hk
    exact h.whole k g' h3 i i' ((InRange.stat h4 i).1 hi) ((InRange.stat h4 i').1 hi') hbi
  len := h.len.symm
  same i hi := (h.same i hi).symm
  stat := h.stat.symm
  grp j g hg hb := by
    obtain ⟨g', h3, h4⟩ := h.stat.get hg
    have := h.grp j g' h3 (by rw [← Group.stat_start h4]; exact hb)
    rw [hg] at this
    cases this
    exact h3

theorem inB (h : HalfSets B s s') {j : Nat} {g : Group} (hg : s.2[j]? = some g) (hb : B g.storageStart) (i : Nat)
    (hi : InRange g i) : B i := by
  have := h.gst.bounds j g hg
  exact h.whole j g hg g.storageStart i ⟨Nat.le_refl _, by omega⟩ hi hb

theorem swapBoth (h : HalfSets B s s') {j : Nat} {g : Group} (hg : s.2[j]? = some g) (hb : B g.storageStart)
    {q x n : Nat} {l : List (CompSet V)} (hr : swapRange s.1 g.storageStart g.storageEnd q x = .ok l) :
    ∃ l', swapRange s'.1 g.storageStart g.storageEnd q x = .ok l' ∧
      HalfSets B (l, s.2.set j { g with len := n }) (l', s'.2.set j { g with len := n }) := by
  obtain ⟨l', h1, h2⟩ := swapRange_agree h.len (fun i hi1 hi2 => h.same i (h.inB hg hb i ⟨hi1, hi2⟩)) hr
  have hg' := h.grp j g hg hb
  have hl := swapRange_length hr
  have hst : SameStat s.2 (s.2.set j { g with len := n }) := SameStat.set hg n
  refine ⟨l', h1, ?_⟩
  refine ⟨?_, ?_, ?_, ?_, ?_, ?_⟩
  · simp only
    rw [hl]
    exact h.gst.of_same hst
  · intro k gk hk i i' hi hi' hbi
    obtain ⟨g', h3, h4⟩ := hst.get hk
    exact h.whole k g' h3 i i' ((InRange.stat h4 i).1 hi) ((InRange.stat h4 i').1 hi') hbi
  · simp only
    rw [swapRange_length h1, hl, h.len]
  · intro i hi
    by_cases hr1 : g.storageStart ≤ i ∧ i < g.storageEnd
    · exact h2 i hr1.1 hr1.2
    · simp only
      rw [swapRange_get h1 i (by omega), swapRange_get hr i (by omega), h.same i hi]
  · exact (hst.symm.trans h.stat).trans (SameStat.set hg' n)
  · intro k gk hk hbk
    simp only at hk ⊢
    rw [List.getElem?_set] at hk ⊢
    rw [h.stat.length]
    split
    · rename_i hjk
      rw [if_pos hjk] at hk
      exact hk
    · rename_i hjk
      rw [if_neg hjk] at hk
      exact h.grp k gk hk hbk

theorem seg (h : HalfSets B s s') {j : Nat} {g : Group} (hg : s.2[j]? = some g) (hb : B g.storageStart) :
    compRange s'.1 g.newStorageStart g.storageEnd = compRange s.1 g.newStorageStart g.storageEnd := by
  have := h.gst.bounds j g hg
  unfold compRange
  rw [h.len, seg_eq fun i h1 h2 => h.same i (h.inB hg hb i ⟨by omega, h2⟩)]

theorem once (h : HalfSets B s s') {j : Nat} {g : Group} (hg : s.2[j]? = some g) (hb : B g.storageStart)
    {e : Entity} {k : BitVec 64} {r : Sets V} (hr : groupOnce e j s = .ok (k, r)) :
    ∃ r', groupOnce e j s' = .ok (k, r') ∧ HalfSets B r r' := by
  have hg' := h.grp j g hg hb
  unfold groupOnce at hr ⊢
  rw [hg, Res.unchecked_some, Res.bind_ok] at hr
  rw [hg', Res.unchecked_some, Res.bind_ok, h.seg hg hb]
  obtain ⟨seg, h1, hr⟩ := Res.bind_ok' hr
  obtain ⟨st, h2, hr⟩ := Res.bind_ok' hr
  rw [h1, Res.bind_ok, h2, Res.bind_ok]
  cases st with
  | incomplete => cases hr; exact ⟨_, rfl, h⟩
  | grouped => cases hr; exact ⟨_, rfl, h⟩
  | ungrouped =>
    obtain ⟨p, h3, hr⟩ := Res.bind_ok' hr
    cases hr
    obtain ⟨l, h4, h3⟩ := Res.bind_ok' h3
    cases h3
    obtain ⟨l', h5, h6⟩ := h.swapBoth (n := g.len + 1) hg hb h4
    refine ⟨(l', s'.2.set j { g with len := g.len + 1 }), ?_, h6⟩
    unfold groupComponents
    simp only [h5, Res.bind_ok, Res.pure_eq]

theorem groupLoop {e : Entity} : ∀ (fuel : Nat) {m : BitVec 64} {s s' r : Sets V}, HalfSets B s s' → InMask B s.2 m →
    Sparsey.groupLoop e fuel m s = .ok r → ∃ r', Sparsey.groupLoop e fuel m s' = .ok r' ∧ HalfSets B r r' := by
  intro fuel
  induction fuel with
  | zero =>
    intro m s s' r h _ hr
    rw [Sparsey.groupLoop] at hr ⊢
    cases hb : bitNext m with
    | none => rw [hb] at hr; cases hr; exact ⟨s', rfl, h⟩
    | some q => rw [hb] at hr; cases hr
  | succ fuel ih =>
    intro m s s' r h hm hr
    rw [groupLoop_once] at hr ⊢
    cases hb : bitNext m with
    | none => rw [hb] at hr; cases hr; exact ⟨s', rfl, h⟩
    | some q =>
      obtain ⟨j, m1⟩ := q
      obtain ⟨hj64, hjm, hlow, hclr⟩ := bitNext_some hb
      rw [hb] at hr
      obtain ⟨⟨k, r1⟩, h1, hr⟩ := Res.bind_ok' hr
      obtain ⟨g, hg, hB⟩ := hm j hjm
      obtain ⟨r1', h2, h3⟩ := h.once hg hB h1
      have hsh := groupOnce_shape h1
      simp only at hsh hr
      simp only [h2, Res.bind_ok]
      refine ih h3 (InMask.of_same (fun i hi => ?_) hsh) hr
      rw [BitVec.getLsbD_and, Bool.and_eq_true, hclr, Bool.and_eq_true] at hi
      exact hm i hi.1.1

theorem group {e : Entity} {m : BitVec 64} {r : Sets V} (h : HalfSets B s s') (hm : InMask B s.2 m)
    (hr : Sparsey.group s m e = .ok r) : ∃ r', Sparsey.group s' m e = .ok r' ∧ HalfSets B r r' :=
  groupLoop 64 h hm hr

theorem groupEntities {m : BitVec 64} : ∀ (es : List Entity) {s s' r : Sets V},
    HalfSets B s s' → InMask B s.2 m → ComponentStorage.groupEntities m es s = .ok r →
    ∃ r', ComponentStorage.groupEntities m es s' = .ok r' ∧ HalfSets B r r'
  | [], s, s', r, h, _, hr => by cases hr; exact ⟨s', rfl, h⟩
  | e :: es, s, s', r, h, hm, hr => by
    obtain ⟨s1, h1, hr⟩ := Res.bind_ok' hr
    obtain ⟨s1', h2, h3⟩ := h.group hm h1
    obtain ⟨r', h4, h5⟩ := groupEntities es h3 (hm.of_same (groupLoop_shape _ _ _ _ h1).2) hr
    refine ⟨r', ?_, h5⟩
    rw [ComponentStorage.groupEntities, h2, Res.bind_ok, h4]

theorem ungroupOnce (h : HalfSets B s s') {j : Nat} {g : Group} (hg : s.2[j]? = some g) (hb : B g.storageStart)
    {e : Entity} {r : Sets V} (hr : ungroupStep e j s = .ok r) :
    ∃ r', ungroupStep e j s' = .ok r' ∧ HalfSets B r r' := by
  have hg' := h.grp j g hg hb
  have hsg := h.seg hg hb
  obtain ⟨l, gs⟩ := s
  obtain ⟨l', gs'⟩ := s'
  simp only at hg hg' hsg
  unfold ungroupStep at hr ⊢
  simp only [hg, hg', Res.unchecked_some, Res.bind_ok, hsg] at hr ⊢
  obtain ⟨seg, h1, hr⟩ := Res.bind_ok' hr
  obtain ⟨st, h2, hr⟩ := Res.bind_ok' hr
  rw [h1, Res.bind_ok, h2, Res.bind_ok]
  cases st with
  | incomplete => cases hr; exact ⟨_, rfl, h⟩
  | ungrouped => cases hr; exact ⟨_, rfl, h⟩
  | grouped =>
    obtain ⟨p, h3, hr⟩ := Res.bind_ok' hr
    cases hr
    unfold ungroupComponents at h3 ⊢
    split at h3
    · cases h3
    · rename_i hz
      obtain ⟨l2, h4, h3⟩ := Res.bind_ok' h3
      cases h3
      obtain ⟨l2', h5, h6⟩ := h.swapBoth (n := g.len - 1) hg hb h4
      refine ⟨_, ?_, h6⟩
      simp only [if_neg hz]
      simp only at h5
      rw [h5]
      rfl

theorem ungroupLoop {e : Entity} : ∀ (fuel : Nat) {m : BitVec 64} {s s' r : Sets V}, HalfSets B s s' → InMask B s.2 m →
    Sparsey.ungroupLoop e fuel m s = .ok r → ∃ r', Sparsey.ungroupLoop e fuel m s' = .ok r' ∧ HalfSets B r r' := by
  intro fuel
  induction fuel with
  | zero =>
    intro m s s' r h _ hr
    rw [Sparsey.ungroupLoop] at hr ⊢
    cases hb : bitNextBack m with
    | none => rw [hb] at hr; cases hr; exact ⟨s', rfl, h⟩
    | some q => rw [hb] at hr; cases hr
  | succ fuel ih =>
    intro m s s' r h hm hr
    rw [Sparsey.ungroupLoop] at hr ⊢
    cases hb : bitNextBack m with
    | none => rw [hb] at hr; cases hr; exact ⟨s', rfl, h⟩
    | some q =>
      obtain ⟨j, m1⟩ := q
      obtain ⟨hj64, hjm, hlow, hclr⟩ := bitNextBack_some hb
      rw [hb] at hr
      obtain ⟨r1, h1, hr⟩ := Res.bind_ok' hr
      obtain ⟨g, hg, hB⟩ := hm j hjm
      obtain ⟨r1', h2, h3⟩ := h.ungroupOnce hg hB h1
      simp only [h2, Res.bind_ok]
      refine ih h3 (InMask.of_same (fun i hi => ?_) (ungroupStep_shape h1).2) hr
      rw [hclr, Bool.and_eq_true] at hi
      exact hm i hi.1

theorem ungroup {e : Entity} {m : BitVec 64} {r : Sets V} (h : HalfSets B s s') (hm : InMask B s.2 m)
    (hr : Sparsey.ungroup s m e = .ok r) : ∃ r', Sparsey.ungroup s' m e = .ok r' ∧ HalfSets B r r' :=
  ungroupLoop 64 h hm hr

end HalfSets

/-- Metadata is the same; the sets of types in `K` and the lengths of their groups are. -/
structure HalfOn (K : TypeId → Prop) (B : Nat → Prop) (c c' : ComponentStorage V) : Prop where
  md : c'.metadata = c.metadata
  mds : MetaOK c.groups c.metadata c.components.length
  pos : ∀ t m, c.meta? t = some m → (B m.storageIndex ↔ K t)
  sets : HalfSets B (c.components, c.groups) (c'.components, c'.groups)

theorem AgreeOn.half {K : TypeId → Prop} {B : Nat → Prop} {c c' : ComponentStorage V} (h : AgreeOn K B c c') :
    HalfOn K B c c' :=
  ⟨h.md, h.mds, h.pos, h.sets.half⟩

namespace HalfOn
variable {K : TypeId → Prop} {B : Nat → Prop} {c c' : ComponentStorage V}

theorem meta? (h : HalfOn K B c c') (t : TypeId) : c'.meta? t = c.meta? t := by
  unfold ComponentStorage.meta?
  rw [h.md]

theorem symm (h : HalfOn K B c c') : HalfOn K B c' c where
  md := h.md.symm
  mds := by
    have := h.sets.len
    simp only at this
    rw [h.md, this]
    exact h.mds.of_same h.sets.stat
  pos t m hm := h.pos t m (by rw [← h.meta?]; exact hm)
  sets := h.sets.symm

theorem set (h : HalfOn K B c c') {i : Nat} (s : CompSet V) :
    HalfOn K B { c with components := c.components.set i s } { c' with components := c'.components.set i s } where
  md := h.md
  mds := by simpa using h.mds
  pos := h.pos
  sets := by
    have hs := h.sets
    refine ⟨by simpa using hs.gst, hs.whole, by simpa using hs.len, fun k hk => ?_, hs.stat, hs.grp⟩
    have hl := hs.len
    simp only at hl
    simp only [List.getElem?_set, hl]
    split
    · rfl
    · exact hs.same k hk

theorem bounds (h : HalfOn K B c c') : ComponentStorage.SetsBounds (c.components, c.groups) := by
  intro g hg
  obtain ⟨j, hj⟩ := List.getElem?_of_mem hg
  have := h.sets.gst.bounds j g hj
  simp only at this ⊢
  omega

theorem insertMask (h : HalfOn K B c c') {t : TypeId} {m : ComponentMetadata} (hm : c.meta? t = some m) (hk : K t) :
    InMask B c.groups m.insertMask := by
  intro j hj
  obtain ⟨g, k', g', h1, h2, h3, h4⟩ := (h.mds.ins t m j hm).1 hj
  refine ⟨g, h1, ?_⟩
  have hb := h.sets.gst.bounds k' g' h2
  rw [← h3]
  exact h.sets.whole k' g' h2 _ _ h4 ⟨Nat.le_refl _, by omega⟩ ((h.pos t m hm).2 hk)

theorem deleteMask (h : HalfOn K B c c') {t : TypeId} {m : ComponentMetadata} (hm : c.meta? t = some m) (hk : K t) :
    InMask B c.groups m.deleteMask := by
  intro j hj
  obtain ⟨g, h1, h4⟩ := (h.mds.del t m j hm).1 hj
  refine ⟨g, h1, ?_⟩
  have hb := h.sets.gst.bounds j g h1
  exact h.sets.whole j g h1 _ _ h4 ⟨Nat.le_refl _, by omega⟩ ((h.pos t m hm).2 hk)

theorem withMask (h : HalfOn K B c c') {m : GroupMask} {f : Sets V → Res (Sets V)}
    (hnp : ∀ s, ComponentStorage.SetsBounds s → f s ≠ .panic) (hsh : ∀ s r, f s = .ok r → SetsShape s r)
    (hf : ∀ r, f (c.components, c.groups) = .ok r → ∃ r', f (c'.components, c'.groups) = .ok r' ∧ HalfSets B r r') :
    (c.withMask m f).Sim (c'.withMask m f) fun d d' => HalfOn K B d d' ∧ SameStat c.groups d.groups := by
  unfold ComponentStorage.withMask
  split
  · exact ⟨c', rfl, h, rfl⟩
  · cases hr : f (c.components, c.groups) with
    | ub => trivial
    | panic => exact absurd hr (hnp _ h.bounds)
    | ok r =>
      obtain ⟨r', h1, h2⟩ := hf r hr
      rw [h1]
      have hs := hsh _ _ hr
      refine ⟨_, rfl, ⟨h.md, ?_, h.pos, h2⟩, hs.2⟩
      have := hs.1
      simp only at this ⊢
      rw [this]
      exact h.mds.of_same hs.2

theorem group (h : HalfOn K B c c') {m : GroupMask} (hm : InMask B c.groups m) (e : Entity) :
    (c.withMask m (Sparsey.group · m e)).Sim (c'.withMask m (Sparsey.group · m e))
      fun d d' => HalfOn K B d d' ∧ SameStat c.groups d.groups :=
  h.withMask (fun _ hs => ComponentStorage.groupLoop_np _ _ _ hs) (fun _ _ hr => groupLoop_shape _ _ _ _ hr)
    (fun _ hr => h.sets.group hm hr)

theorem groupEntities (h : HalfOn K B c c') {m : GroupMask} (hm : InMask B c.groups m) (es : List Entity) :
    (c.withMask m (ComponentStorage.groupEntities m es)).Sim (c'.withMask m (ComponentStorage.groupEntities m es))
      fun d d' => HalfOn K B d d' ∧ SameStat c.groups d.groups :=
  h.withMask (fun _ hs => ComponentStorage.groupEntities_np _ _ hs) (fun _ _ hr => ComponentStorage.groupEntities_shape _ _ _ hr)
    (fun _ hr => h.sets.groupEntities es hm hr)

theorem ungroup (h : HalfOn K B c c') {m : GroupMask} (hm : InMask B c.groups m) (e : Entity) :
    (c.withMask m (Sparsey.ungroup · m e)).Sim (c'.withMask m (Sparsey.ungroup · m e))
      fun d d' => HalfOn K B d d' ∧ SameStat c.groups d.groups :=
  h.withMask (fun _ hs => ComponentStorage.ungroupLoop_np _ _ _ hs) (fun _ _ hr => ungroupLoop_shape _ _ _ _ hr)
    (fun _ hr => h.sets.ungroup hm hr)

/-- Every type is in `K` or unregistered. -/
def Within (K : TypeId → Prop) (c : ComponentStorage V) (ts : List TypeId) : Prop :=
  ∀ t ∈ ts, K t ∨ c.meta? t = none

theorem insertEach {e : Entity} : ∀ (vs : List (TypeId × V)) {m : GroupMask} {c c' : ComponentStorage V},
    HalfOn K B c c' → Within K c (vs.map (·.1)) → InMask B c.groups m →
    (ComponentStorage.insertEach e vs m c).Sim (ComponentStorage.insertEach e vs m c') (HalfOn K B)
      (fun k k' d d' => k' = k ∧ HalfOn K B d d' ∧ InMask B d.groups k)
  | [], m, c, c', h, _, hm => ⟨m, c', rfl, rfl, h, hm⟩
  | (t, v) :: vs, m, c, c', h, hk, hm => by
    rw [ComponentStorage.insertEach, ComponentStorage.insertEach, h.meta?]
    cases ht : c.meta? t with
    | none => exact ⟨c', rfl, h⟩
    | some md =>
      simp only
      have hKt : K t := (hk t (by simp)).resolve_right (by simp [ht])
      have hse := h.sets.same _ ((h.pos t md ht).2 hKt)
      simp only at hse
      rw [hse]
      refine Outcome.Sim.ofRes (Res.Sim.refl _ (R := Eq) fun _ _ => rfl) h ?_
      rintro s _ rfl
      refine Outcome.Sim.ofRes (Res.Sim.refl _ (R := Eq) fun _ _ => rfl) h ?_
      rintro ⟨o, s1⟩ _ rfl
      exact insertEach vs (h.set s1) (fun x hx => hk x (by simp at hx ⊢; exact .inr hx))
        (hm.or (h.insertMask ht hKt))

theorem insert (h : HalfOn K B c c') (e : Entity) (vs : List (TypeId × V)) (hk : Within K c (vs.map (·.1))) :
    (c.insert e vs).Sim (c'.insert e vs) (HalfOn K B) (fun _ _ => HalfOn K B) := by
  unfold ComponentStorage.insert
  refine Outcome.Sim.bind (insertEach vs h hk .zero) ?_
  rintro k _ d d' ⟨rfl, h1, h2⟩
  refine Outcome.Sim.ofRes (h1.group h2 e) h1 ?_
  intro a a' ha
  exact ⟨_, _, rfl, ha.1⟩

theorem lookupAll (h : HalfOn K B c c') {f : ComponentMetadata → GroupMask}
    (hf : ∀ t m, c.meta? t = some m → K t → InMask B c.groups (f m)) : ∀ (ts : List TypeId), Within K c ts →
    (c.lookupAll f ts).Sim (c'.lookupAll f ts) fun p p' => p' = p ∧ (∀ i ∈ p.1, B i) ∧ InMask B c.groups p.2
  | [], _ => ⟨([], 0#64), rfl, rfl, by simp, .zero⟩
  | t :: ts, hk => by
    rw [ComponentStorage.lookupAll, ComponentStorage.lookupAll, h.meta?]
    cases ht : c.meta? t with
    | none => rfl
    | some md =>
      simp only
      have hKt : K t := (hk t (by simp)).resolve_right (by simp [ht])
      have hb := (h.pos t md ht).2 hKt
      have hse := h.sets.same _ hb
      simp only at hse
      rw [hse]
      refine Res.Sim.bind (lookupAll h hf ts fun x hx => hk x (.tail _ hx)) ?_
      rintro ⟨i, m⟩ _ ⟨rfl, h1, h2⟩
      refine Res.Sim.bind (Res.Sim.refl _ (R := Eq) fun _ _ => rfl) ?_
      rintro s _ rfl
      refine ⟨_, rfl, rfl, ?_, (hf t md ht hKt).or h2⟩
      intro x hx
      rcases List.mem_cons.1 hx with rfl | hx
      · exact hb
      · exact h1 x hx

theorem removeEach {e : Entity} : ∀ (is : List Nat) {c c' : ComponentStorage V}, HalfOn K B c c' → (∀ i ∈ is, B i) →
    (ComponentStorage.removeEach e is c).Sim (ComponentStorage.removeEach e is c') fun p p' =>
      p'.1 = p.1 ∧ HalfOn K B p.2 p'.2
  | [], c, c', h, _ => ⟨([], c'), rfl, rfl, h⟩
  | i :: is, c, c', h, hi => by
    have hse := h.sets.same i (hi i (.head _))
    simp only at hse
    rw [ComponentStorage.removeEach, ComponentStorage.removeEach, hse]
    refine Res.Sim.bind (Res.Sim.refl _ (R := Eq) fun _ _ => rfl) ?_
    rintro s _ rfl
    refine Res.Sim.bind (Res.Sim.refl _ (R := Eq) fun _ _ => rfl) ?_
    rintro ⟨o, s1⟩ _ rfl
    refine Res.Sim.bind (removeEach is (h.set s1) fun x hx => hi x (.tail _ hx)) ?_
    rintro ⟨vs, d⟩ ⟨vs', d'⟩ ⟨h1, h2⟩
    simp only at h1
    subst h1
    exact ⟨_, rfl, rfl, h2⟩

theorem deleteEach {e : Entity} : ∀ (is : List Nat) {c c' : ComponentStorage V}, HalfOn K B c c' → (∀ i ∈ is, B i) →
    (ComponentStorage.deleteEach e is c).Sim (ComponentStorage.deleteEach e is c') (HalfOn K B)
  | [], c, c', h, _ => ⟨c', rfl, h⟩
  | i :: is, c, c', h, hi => by
    have hse := h.sets.same i (hi i (.head _))
    simp only at hse
    rw [ComponentStorage.deleteEach, ComponentStorage.deleteEach, hse]
    refine Res.Sim.bind (Res.Sim.refl _ (R := Eq) fun _ _ => rfl) ?_
    rintro s _ rfl
    refine Res.Sim.bind (Res.Sim.refl _ (R := Eq) fun _ _ => rfl) ?_
    rintro s1 _ rfl
    exact deleteEach is (h.set s1) fun x hx => hi x (.tail _ hx)

theorem insertAt {e : Entity} : ∀ (l : List (Nat × V)) {c c' : ComponentStorage V}, HalfOn K B c c' → (∀ p ∈ l, B p.1) →
    (ComponentStorage.insertAt e l c).Sim (ComponentStorage.insertAt e l c') (HalfOn K B)
  | [], c, c', h, _ => ⟨c', rfl, h⟩
  | (i, v) :: l, c, c', h, hi => by
    have hse := h.sets.same i (hi (i, v) (.head _))
    simp only at hse
    rw [ComponentStorage.insertAt, ComponentStorage.insertAt, hse]
    refine Res.Sim.bind (Res.Sim.refl _ (R := Eq) fun _ _ => rfl) ?_
    rintro s _ rfl
    refine Res.Sim.bind (Res.Sim.refl _ (R := Eq) fun _ _ => rfl) ?_
    rintro ⟨o, s1⟩ _ rfl
    exact insertAt l (h.set s1) fun x hx => hi x (.tail _ hx)

theorem remove (h : HalfOn K B c c') (e : Entity) (ts : List TypeId) (hk : Within K c ts) :
    (c.remove e ts).Sim (c'.remove e ts) fun p p' => p'.1 = p.1 ∧ HalfOn K B p.2 p'.2 := by
  unfold ComponentStorage.remove
  refine Res.Sim.bind (h.lookupAll (fun _ _ hm hK => h.deleteMask hm hK) ts hk) ?_
  rintro ⟨i, m⟩ _ ⟨rfl, h1, h2⟩
  refine Res.Sim.bind (h.ungroup h2 e) ?_
  intro d d' hd
  exact removeEach i hd.1 h1

theorem delete (h : HalfOn K B c c') (e : Entity) (ts : List TypeId) (hk : Within K c ts) :
    (c.delete e ts).Sim (c'.delete e ts) (HalfOn K B) := by
  unfold ComponentStorage.delete
  refine Res.Sim.bind (h.lookupAll (fun _ _ hm hK => h.deleteMask hm hK) ts hk) ?_
  rintro ⟨i, m⟩ _ ⟨rfl, h1, h2⟩
  refine Res.Sim.bind (h.ungroup h2 e) ?_
  intro d d' hd
  exact deleteEach i hd.1 h1

end HalfOn

/-- The same entities, and storages that agree on the types in `K`. -/
structure HalfWorld (K : List TypeId) (B : Nat → Prop) (w w' : World V) : Prop where
  ents : w'.entities = w.entities
  comps : HalfOn (· ∈ K) B w.components w'.components

namespace HalfWorld
variable {K : List TypeId} {B : Nat → Prop} {w w' : World V}

theorem symm (h : HalfWorld K B w w') : HalfWorld K B w' w := ⟨h.ents.symm, h.comps.symm⟩

theorem insertSet (h : HalfWorld K B w w') (e : Entity) (vs : List (TypeId × V))
    (hk : HalfOn.Within (· ∈ K) w.components (vs.map (·.1))) :
    (w.insertSet e vs).Sim (w'.insertSet e vs) (HalfWorld K B) (fun _ _ => HalfWorld K B) := by
  have hi := h.comps.insert e vs hk
  unfold World.insertSet
  cases hc : w.components.insert e vs with
  | ub => trivial
  | panic c =>
    rw [hc] at hi
    obtain ⟨c', h1, h2⟩ := hi
    rw [h1]
    exact ⟨_, rfl, h.ents, h2⟩
  | ok a c =>
    rw [hc] at hi
    obtain ⟨a', c', h1, h2⟩ := hi
    rw [h1]
    exact ⟨_, _, rfl, h.ents, h2⟩

theorem create (h : HalfWorld K B w w') (vs : List (TypeId × V))
    (hk : HalfOn.Within (· ∈ K) w.components (vs.map (·.1))) :
    (w.create vs).Sim (w'.create vs) (HalfWorld K B) (fun e e' w w' => e' = e ∧ HalfWorld K B w w') := by
  unfold World.create
  rw [h.ents]
  refine Outcome.Sim.ofRes (Res.Sim.refl _ (R := Eq) fun _ _ => rfl) h ?_
  rintro ⟨e, es⟩ _ rfl
  have h1 : HalfWorld K B { w with entities := es } { w' with entities := es } := ⟨rfl, h.comps⟩
  refine Outcome.Sim.bind (h1.insertSet e vs hk) ?_
  intro _ _ w1 w1' h2
  exact ⟨_, _, rfl, rfl, h2⟩

theorem insert (h : HalfWorld K B w w') (e : Entity) (vs : List (TypeId × V))
    (hk : HalfOn.Within (· ∈ K) w.components (vs.map (·.1))) :
    (w.insert e vs).Sim (w'.insert e vs) (HalfWorld K B) (fun b b' w w' => b' = b ∧ HalfWorld K B w w') := by
  unfold World.insert
  rw [h.ents]
  split
  · exact ⟨_, _, rfl, rfl, h⟩
  · refine Outcome.Sim.bind (h.insertSet e vs hk) ?_
    intro _ _ w1 w1' h2
    exact ⟨_, _, rfl, rfl, h2⟩

theorem extendEach {is : List Nat} (hi : ∀ i ∈ is, B i) : ∀ (items : List (List V)) {w w' : World V}, HalfWorld K B w w' →
    (World.extendEach is items w).Sim (World.extendEach is items w') (HalfWorld K B)
      (fun _ _ d d' => HalfWorld K B d d' ∧ SameStat w.components.groups d.components.groups)
  | [], w, w', h => ⟨_, _, rfl, h, rfl⟩
  | vs :: items, w, w', h => by
    rw [World.extendEach, World.extendEach, h.ents]
    refine Outcome.Sim.ofRes (Res.Sim.refl _ (R := Eq) fun _ _ => rfl) h ?_
    rintro ⟨e, es⟩ _ rfl
    have hI := HalfOn.insertAt (e := e) (is.zip vs) h.comps (fun p hp => hi p.1 (List.of_mem_zip hp).1)
    simp only
    cases hc : w.components.insertAt e (is.zip vs) with
    | ub => trivial
    | panic => exact (ComponentStorage.insertAt_ne_panic _ _ hc).elim
    | ok c =>
      rw [hc] at hI
      obtain ⟨c', h1, h2⟩ := hI
      rw [h1]
      simp only [Outcome.ofRes_ok]
      have hst := (ComponentStorage.insertAt_shape _ _ _ hc).stat
      have ih := extendEach hi items (w := { entities := es, components := c }) (w' := { entities := es, components := c' })
        ⟨rfl, h2⟩
      cases hx : World.extendEach is items { entities := es, components := c } with
      | ub => trivial
      | panic d =>
        rw [hx] at ih
        exact ih
      | ok u d =>
        rw [hx] at ih
        obtain ⟨u', d', i1, i2, i3⟩ := ih
        exact ⟨u', d', i1, i2, hst.trans i3⟩

theorem extend (h : HalfWorld K B w w') (ts : List TypeId) (it : Items V) (hk : HalfOn.Within (· ∈ K) w.components ts) :
    (w.extend ts it).Sim (w'.extend ts it) (HalfWorld K B) (fun l l' w w' => l' = l ∧ HalfWorld K B w w') := by
  unfold World.extend
  refine Outcome.Sim.ofRes (h.comps.lookupAll (fun _ _ hm hK => h.comps.insertMask hm hK) ts hk) h ?_
  rintro ⟨i, m⟩ _ ⟨rfl, h1, h2⟩
  simp only
  rw [h.ents]
  refine Outcome.Sim.bind (extendEach h1 it.items h) ?_
  rintro u u' d d' ⟨h3, h4⟩
  split
  · exact ⟨_, rfl, h3⟩
  · rw [h3.ents]
    split
    · trivial
    · refine Outcome.Sim.ofRes (h3.comps.groupEntities (h2.of_same h4) _) h3 ?_
      intro c c' hc
      exact ⟨_, _, rfl, rfl, rfl, hc.1⟩

end HalfWorld

theorem AgreeWorld.half {K : List TypeId} {B : Nat → Prop} {w w' : World V} (h : AgreeWorld K B w w') :
    HalfWorld K B w w' :=
  ⟨h.ents, h.comps.half⟩

/-! ### A step -/

theorem MapWorld.kept_within {α : Type} (s : MapWorld V) {K : List TypeId} : ∀ {vs : List (TypeId × α)},
    (∀ t ∈ vs.map (·.1), t ∈ K) → s.kept K vs = vs := by
  intro vs h
  unfold MapWorld.kept
  rw [List.filter_eq_self]
  intro p hp
  exact (s.keeps_iff p.1).2 (.inl (h _ (List.mem_map_of_mem hp)))

theorem MapWorld.filter_within (s : MapWorld V) {K : List TypeId} {ts : List TypeId} (h : ∀ t ∈ ts, t ∈ K) :
    ts.filter (s.keeps K) = ts := by
  rw [List.filter_eq_self]
  exact fun t ht => (s.keeps_iff t).2 (.inl (h t ht))

theorem MapWorld.eraseOp_within (s : MapWorld V) {K : List TypeId} {op : Op V} (h : op.Within K) :
    s.eraseOp K op = some op := by
  cases op with
  | create vs => simp only [MapWorld.eraseOp, s.kept_within h]
  | insert e vs => simp only [MapWorld.eraseOp, s.kept_within h]
  | remove e ts => simp only [MapWorld.eraseOp, s.filter_within h]
  | delete e ts => simp only [MapWorld.eraseOp, s.filter_within h]
  | extend ts it =>
    simp only [MapWorld.eraseOp, s.filter_within h.1, Option.some.injEq, Op.extend.injEq, true_and]
    obtain ⟨items, p⟩ := it
    simp only [Items.mk.injEq, and_true]
    conv_rhs => rw [← List.map_id items]
    apply List.map_congr_left
    intro vs hvs
    rw [s.kept_within]
    · rw [List.map_snd_zip (by rw [h.2 vs hvs])]
      rfl
    · intro t ht
      obtain ⟨q, hq, rfl⟩ := List.mem_map.1 ht
      exact h.1 _ (List.of_mem_zip hq).1
  | write t e v => simp only [MapWorld.eraseOp, if_pos ((s.keeps_iff t).2 (.inl h))]
  | writeAt t pos v => simp only [MapWorld.eraseOp, if_pos ((s.keeps_iff t).2 (.inl h))]
  | register t => rfl
  | setLayout rank gs => rfl
  | destroy e => rfl
  | createAtomic => rfl
  | maintain => rfl
  | clear => rfl
  | reset => rfl

/-- A call about types in `K` that is possible in one world is possible in the other one, with the same answer. -/
theorem HalfWorld.step_back {K : List TypeId} {B : Nat → Prop} {h : History V} {w w' w2 : World V}
    (hw : HalfWorld K B w w') (hr : Reach World.empty h w') {op : Op V} (ho : op.Within K) {r : Ret V}
    (hs : step w op = some (r, w2)) : ∃ x, step w' op = some x := by
  obtain ⟨s1, s2, s3, s4, s5, s6, s7, _⟩ := C31_safe hr
  cases op with
  | register t => exact s1 t
  | setLayout rank gs => exact ho.elim
  | create vs =>
    have hp : w'.entities.createUpTo 1 = w.entities.createUpTo 1 := by rw [hw.ents]
    obtain ⟨w2', h1, _⟩ := retOutcome_sim (hw.create vs fun t ht => .inl (ho t ht)) hs
    exact ⟨_, by rw [← hp] at h1; exact h1⟩
  | extend ts it =>
    have hx := hw.comps.lookupAll (fun _ _ hm hK => hw.comps.insertMask hm hK) ts (fun t ht => .inl (ho.1 t ht))
    have hy := hw.symm.comps.lookupAll (fun _ _ hm hK => hw.symm.comps.insertMask hm hK) ts (fun t ht => .inl (ho.1 t ht))
    have hp : extendMade w' ts it = extendMade w ts it := by
      unfold extendMade
      rw [hw.ents]
      cases hc : w.components.lookupAll (·.insertMask) ts with
      | ok p =>
        rw [hc] at hx
        obtain ⟨p', h1, _⟩ := hx
        rw [h1]
      | panic =>
        rw [hc] at hx
        simp only [Res.Sim] at hx
        rw [hx]
      | ub =>
        cases hc' : w'.components.lookupAll (·.insertMask) ts with
        | ok p =>
          rw [hc'] at hy
          obtain ⟨p', h1, _⟩ := hy
          rw [hc] at h1
          cases h1
        | panic => rfl
        | ub => rfl
    obtain ⟨w2', h1, _⟩ := retOutcome_sim (hw.extend ts it fun t ht => .inl (ho.1 t ht)) hs
    exact ⟨_, by rw [← hp] at h1; exact h1⟩
  | insert e vs =>
    obtain ⟨w2', h1, _⟩ := retOutcome_sim (hw.insert e vs fun t ht => .inl (ho t ht)) hs
    exact ⟨_, h1⟩
  | remove e ts =>
    have hd := hw.comps.remove e ts fun t ht => .inl (ho t ht)
    have : (w.remove e ts).Sim (w'.remove e ts) fun a a' => a'.1 = a.1 ∧ HalfWorld K B a.2 a'.2 := by
      unfold World.remove
      refine Res.Sim.bind hd ?_
      rintro ⟨vs, c⟩ ⟨vs', c'⟩ ⟨h1, h2⟩
      exact ⟨_, rfl, h1, hw.ents, h2⟩
    cases hq : w.remove e ts with
    | ub => simp only [Sparsey.step, hq] at hs; cases hs
    | panic =>
      rw [hq] at this
      simp only [Res.Sim] at this
      exact ⟨_, by simp only [Sparsey.step, this]; rfl⟩
    | ok a =>
      rw [hq] at this
      obtain ⟨a', h1, _⟩ := this
      exact ⟨_, by simp only [Sparsey.step, h1]; rfl⟩
  | delete e ts =>
    have hd := hw.comps.delete e ts fun t ht => .inl (ho t ht)
    have : (w.delete e ts).Sim (w'.delete e ts) fun a a' => HalfWorld K B a a' := by
      unfold World.delete
      refine Res.Sim.bind hd ?_
      rintro c c' h1
      exact ⟨_, rfl, hw.ents, h1⟩
    cases hq : w.delete e ts with
    | ub => simp only [Sparsey.step, hq] at hs; cases hs
    | panic =>
      rw [hq] at this
      simp only [Res.Sim] at this
      exact ⟨_, by simp only [Sparsey.step, this]; rfl⟩
    | ok a =>
      rw [hq] at this
      obtain ⟨a', h1, _⟩ := this
      exact ⟨_, by simp only [Sparsey.step, h1]; rfl⟩
  | destroy e => exact ho.elim
  | createAtomic => exact s2
  | maintain => exact s3
  | clear => exact s4
  | reset => exact s5
  | write t e v => exact s6 t e v
  | writeAt t pos v => exact s7 t pos v

theorem LaysFor.within {K : List TypeId} {ops : List (Op V)} (h : LaysFor K ops) {op : Op V} (ho : op.Within K) :
    LaysFor K (ops ++ [op]) := by
  intro gs hgs
  rw [List.filterMap_append, List.mem_append] at hgs
  rcases hgs with hgs | hgs
  · exact h gs hgs
  · cases op <;> first | exact ho.elim | simp [Op.layout] at hgs

theorem AgreeWorld.ret_within {K : List TypeId} {B : Nat → Prop} {w w' w2 : World V} {s : MapWorld V} (ha : AgreeWorld K B w w')
    (hk : SameReg w s) {op : Op V} (ho : op.Within K) {r : Ret V} (hs : step w op = some (r, w2)) : s.eraseRet K op r = r := by
  cases op with
  | remove e ts =>
    have hd := ha.comps.remove (hk.keepFor K) e ts
    simp only [step, World.remove] at hs
    cases hq : w.components.remove e ts with
    | ub => rw [hq] at hs; cases hs
    | panic => rw [hq] at hs; cases hs; rfl
    | ok p =>
      obtain ⟨vs, c⟩ := p
      rw [hq] at hs hd
      obtain ⟨_, _, _, h1, _⟩ := hd
      cases hs
      simp only at h1
      simp only [MapWorld.eraseRet]
      rw [s.kept_within, List.map_snd_zip (by omega)]
      intro t ht
      obtain ⟨q, hq, rfl⟩ := List.mem_map.1 ht
      exact ho _ (List.of_mem_zip hq).1
  | _ => rfl

/-- A call about types in `K` that does not run into undefined behaviour without the other types does not do so with them
either; the answer is the same. -/
theorem AgreeWorld.step_back {K : List TypeId} {B : Nat → Prop} {h : History V} {w w' w2' : World V}
    (ha : AgreeWorld K B w w') (hr : Reach World.empty h w) (hl : LaysFor K (calls h)) {op : Op V} (ho : op.Within K)
    {r : Ret V} (hs : step w' op = some (r, w2')) :
    ∃ w2 B2, step w op = some (r, w2) ∧ AgreeWorld K B2 w2 w2' := by
  obtain ⟨⟨r2, w2⟩, h1⟩ := ha.half.symm.step_back hr ho hs
  have hl2 := hl.within ho
  have hreg : SameReg w (mapOf (calls h)) := reach_sameReg hr (reach_laid hr hl)
  have hst := step_agree ha hreg h1 (step_lays (reach_bounds hr) h1 hl2)
    (reach_lay (hr.snoc h1) (by rw [calls_snoc]; exact hl2.settled)) (by rw [calls_snoc]; exact hl2.splits)
  unfold StepSim at hst
  rw [(mapOf (calls h)).eraseOp_within ho] at hst
  obtain ⟨B2, w3, h3, h4⟩ := hst
  rw [hs, ha.ret_within hreg ho h1] at h3
  cases h3
  exact ⟨w2, B2, h1, h4⟩

theorem AgreeWorld.run_back {K : List TypeId} : ∀ (ops : List (Op V)) {B : Nat → Prop} {h : History V} {w w' w2' : World V}
    {rs : List (Ret V)}, AgreeWorld K B w w' → Reach World.empty h w → LaysFor K (calls h) → (∀ op ∈ ops, op.Within K) →
    run w' ops = some (rs, w2') → ∃ w2 B2, run w ops = some (rs, w2) ∧ AgreeWorld K B2 w2 w2'
  | [], B, h, w, w', w2', rs, ha, _, _, _, hr => by
    cases hr
    exact ⟨w, B, rfl, ha⟩
  | op :: ops, B, h, w, w', w2', rs, ha, hw, hl, ho, hr => by
    rw [run] at hr
    cases hs : step w' op with
    | none => rw [hs] at hr; cases hr
    | some x =>
      obtain ⟨r, w1'⟩ := x
      rw [hs] at hr
      simp only at hr
      cases ht : run w1' ops with
      | none => rw [ht] at hr; cases hr
      | some y =>
        obtain ⟨rs1, w3⟩ := y
        rw [ht] at hr
        cases hr
        obtain ⟨w1, B1, h1, h2⟩ := ha.step_back hw hl (ho op (.head _)) hs
        obtain ⟨w2, B2, h3, h4⟩ := run_back ops h2 (hw.snoc h1) (by rw [calls_snoc]; exact hl.within (ho op (.head _)))
          (fun o h => ho o (.tail _ h)) ht
        refine ⟨w2, B2, ?_, h4⟩
        rw [run, h1]
        simp only [h3]

theorem AgreeWorld.run_fwd {K : List TypeId} : ∀ (ops : List (Op V)) {B : Nat → Prop} {h : History V} {w w' w2 : World V}
    {rs : List (Ret V)}, AgreeWorld K B w w' → Reach World.empty h w → LaysFor K (calls h) → (∀ op ∈ ops, op.Within K) →
    run w ops = some (rs, w2) → ∃ w2' B2, run w' ops = some (rs, w2') ∧ AgreeWorld K B2 w2 w2'
  | [], B, h, w, w', w2, rs, ha, _, _, _, hr => by
    cases hr
    exact ⟨w', B, rfl, ha⟩
  | op :: ops, B, h, w, w', w2, rs, ha, hw, hl, ho, hr => by
    rw [run] at hr
    cases hs : step w op with
    | none => rw [hs] at hr; cases hr
    | some x =>
      obtain ⟨r, w1⟩ := x
      rw [hs] at hr
      simp only at hr
      cases ht : run w1 ops with
      | none => rw [ht] at hr; cases hr
      | some y =>
        obtain ⟨rs1, w3⟩ := y
        rw [ht] at hr
        cases hr
        have hl2 := hl.within (ho op (.head _))
        have hreg : SameReg w (mapOf (calls h)) := reach_sameReg hw (reach_laid hw hl)
        have hst := step_agree ha hreg hs (step_lays (reach_bounds hw) hs hl2)
          (reach_lay (hw.snoc hs) (by rw [calls_snoc]; exact hl2.settled)) (by rw [calls_snoc]; exact hl2.splits)
        unfold StepSim at hst
        rw [(mapOf (calls h)).eraseOp_within (ho op (.head _))] at hst
        obtain ⟨B1, w1', h1, h2⟩ := hst
        rw [ha.ret_within hreg (ho op (.head _)) hs] at h1
        obtain ⟨w2', B2, h3, h4⟩ := run_fwd ops h2 (hw.snoc hs) (by rw [calls_snoc]; exact hl2)
          (fun o h => ho o (.tail _ h)) ht
        refine ⟨w2', B2, ?_, h4⟩
        rw [run, h1]
        simp only [h3]

theorem run_append_of : ∀ (a b : List (Op V)) {w w1 w2 : World V} {rs rs2 : List (Ret V)}, run w a = some (rs, w1) →
    run w (a ++ b) = some (rs2, w2) → ∃ rs1, run w1 b = some (rs1, w2) ∧ rs2 = rs ++ rs1
  | [], b, w, w1, w2, rs, rs2, h, h2 => by
    cases h
    exact ⟨rs2, h2, rfl⟩
  | o :: a, b, w, w1, w2, rs, rs2, h, h2 => by
    rw [List.cons_append] at h2
    rw [run] at h h2
    cases hs : step w o with
    | none => rw [hs] at h; cases h
    | some x =>
      obtain ⟨r, w'⟩ := x
      rw [hs] at h h2
      simp only at h h2
      cases h3 : run w' a with
      | none => rw [h3] at h; cases h
      | some q =>
        obtain ⟨rs', w''⟩ := q
        rw [h3] at h
        cases h
        cases h4 : run w' (a ++ b) with
        | none => rw [h4] at h2; cases h2
        | some q2 =>
          obtain ⟨rs4, w4⟩ := q2
          rw [h4] at h2
          cases h2
          obtain ⟨rs1, h5, h6⟩ := run_append_of a b h3 h4
          exact ⟨rs1, h5, by rw [h6]; rfl⟩

theorem MapWorld.answers_count : ∀ (ops : List (Op V)) (s : MapWorld V), (s.answers ops).length = ops.length
  | [], _ => rfl
  | op :: ops, s => by rw [MapWorld.answers, List.length_cons, answers_count ops, List.length_cons]

theorem MapWorld.answers_within {K : List TypeId} : ∀ (ops : List (Op V)) (s : MapWorld V), (∀ op ∈ ops, op.Within K) →
    (s.onTypes K).answers ops = s.answers ops
  | [], _, _ => rfl
  | op :: ops, s, ho => by
    have hs := s.eraseSim K op
    unfold MapWorld.EraseSim at hs
    rw [s.eraseOp_within (ho op (.head _))] at hs
    rw [MapWorld.answers, MapWorld.answers, hs.2, answers_within ops _ fun o h => ho o (.tail _ h), hs.1]
    congr 1
    have hop := ho op (.head _)
    cases op with
    | remove e ts =>
      simp only [MapWorld.answer]
      split
      · simp only [MapWorld.eraseRet]
        rw [s.kept_within, List.map_snd_zip (by rw [Table.removed_length])]
        intro t ht
        obtain ⟨q, hq, rfl⟩ := List.mem_map.1 ht
        exact hop _ (List.of_mem_zip hq).1
      · rfl
    | _ => rfl

end Sparsey
