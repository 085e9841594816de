import Verif.Proofs.World
import Verif.Proofs.Panics
import Verif.Proofs.Safe
import Verif.Proofs.LayoutLimits

/-!
Component types outside of all groups: grouping leaves their sets alone.
-/

set_option autoImplicit false
set_option linter.unusedSimpArgs false

namespace Sparsey
variable {V : Type}

/-! ### Grouping does not touch sets behind all groups -/

/-- All groups end in front of position `i`. -/
def Apart (gs : List Group) (i : Nat) : Prop := ∀ g ∈ gs, g.storageEnd ≤ i

theorem Apart.of_stat {gs gs' : List Group} {i : Nat} (h : Apart gs i) (hs : SameStat gs gs') : Apart gs' i := by
  intro g hg
  have h1 : g.stat ∈ gs'.map Group.stat := List.mem_map.2 ⟨g, hg, rfl⟩
  rw [hs] at h1
  obtain ⟨g', h2, h3⟩ := List.mem_map.1 h1
  have := h g' h2
  have h4 : g'.stat.storageEnd = g.stat.storageEnd := by rw [h3]
  simp only [Group.stat] at h4
  omega

/-- The set at position `i` is not touched if all groups end in front of it. -/
def Frame (s s' : Sets V) : Prop := ∀ i, Apart s.2 i → s'.1[i]? = s.1[i]? ∧ Apart s'.2 i

theorem Frame.refl (s : Sets V) : Frame s s := fun _ h => ⟨rfl, h⟩

theorem Frame.trans {a b c : Sets V} (h : Frame a b) (h' : Frame b c) : Frame a c := fun i hi =>
  ⟨(h' i (h i hi).2).1.trans (h i hi).1, (h' i (h i hi).2).2⟩

theorem swapRange_frame {l l' : List (CompSet V)} {a b q x : Nat} (hr : swapRange l a b q x = .ok l') {i : Nat}
    (hi : b ≤ i) : l'[i]? = l[i]? := by
  obtain ⟨seg, h1, hr⟩ := Res.bind_ok' hr
  obtain ⟨seg', h2, hr⟩ := Res.bind_ok' hr
  cases hr
  unfold compRange at h1
  split at h1
  · rename_i hab
    cases h1
    have hl := swapAllTo_length _ _ h2
    rw [List.length_take, List.length_drop] at hl
    rw [List.getElem?_append_right (by simp; omega), List.getElem?_drop]
    congr 1
    simp
    omega
  · cases h1

theorem groupLoop_frame {e : Entity} : ∀ (fuel : Nat) (m : BitVec 64) (s s' : Sets V), groupLoop e fuel m s = .ok s' →
    Frame s s' := by
  intro fuel
  induction fuel with
  | zero =>
    intro m s s' h
    rw [groupLoop] at h
    split at h
    · cases h; exact Frame.refl _
    · cases h
  | succ fuel ih =>
    intro m s s' h
    obtain ⟨comps, gs⟩ := s
    rw [groupLoop] at h
    split at h
    · cases h; exact Frame.refl _
    · simp only at h
      rename_i i m' _
      obtain ⟨g, hg, h⟩ := Res.bind_ok' h
      obtain ⟨seg, _, h⟩ := Res.bind_ok' h
      obtain ⟨st, _, h⟩ := Res.bind_ok' h
      cases st with
      | incomplete => exact ih _ _ _ h
      | grouped => exact ih _ _ _ h
      | ungrouped =>
        obtain ⟨⟨comps', g'⟩, hc, h⟩ := Res.bind_ok' h
        have hm : g ∈ gs := List.mem_of_getElem? (Res.unchecked_ok hg)
        obtain ⟨cs, hc1, hc2⟩ := Res.bind_ok' hc
        cases hc2
        refine Frame.trans (fun k hk => ⟨swapRange_frame hc1 (hk g hm), ?_⟩) (ih _ _ _ h)
        exact Apart.of_stat (gs := gs) hk (SameStat.set (Res.unchecked_ok hg) _)

theorem ungroupStep_frame {e : Entity} {i : Nat} {s s' : Sets V} (h : ungroupStep e i s = .ok s') : Frame s s' := by
  obtain ⟨comps, gs⟩ := s
  obtain ⟨g, hg, h⟩ := Res.bind_ok' h
  obtain ⟨seg, _, h⟩ := Res.bind_ok' h
  obtain ⟨st, _, h⟩ := Res.bind_ok' h
  cases st with
  | incomplete => cases h; exact Frame.refl _
  | ungrouped => cases h; exact Frame.refl _
  | grouped =>
    obtain ⟨⟨comps', g'⟩, hc, h⟩ := Res.bind_ok' h
    have hm : g ∈ gs := List.mem_of_getElem? (Res.unchecked_ok hg)
    cases h
    obtain ⟨_, n, rfl⟩ := ungroupComponents_shape hc
    unfold ungroupComponents at hc
    split at hc
    · cases hc
    · obtain ⟨cs, hc1, hc2⟩ := Res.bind_ok' hc
      cases hc2
      exact fun k hk => ⟨swapRange_frame hc1 (hk g hm),
        Apart.of_stat (gs := gs) hk (SameStat.set (Res.unchecked_ok hg) _)⟩

theorem ungroupLoop_frame {e : Entity} : ∀ (fuel : Nat) (m : BitVec 64) (s s' : Sets V),
    ungroupLoop e fuel m s = .ok s' → Frame s s' := by
  intro fuel
  induction fuel with
  | zero =>
    intro m s s' h
    rw [ungroupLoop] at h
    split at h
    · cases h; exact Frame.refl _
    · cases h
  | succ fuel ih =>
    intro m s s' h
    rw [ungroupLoop] at h
    split at h
    · cases h; exact Frame.refl _
    · simp only at h
      obtain ⟨s1, h1, h⟩ := Res.bind_ok' h
      exact (ungroupStep_frame h1).trans (ih _ _ _ h)

theorem ungroupAllLoop_frame {e : Entity} : ∀ (n : Nat) (s s' : Sets V), ungroupAllLoop e n s = .ok s' → Frame s s'
  | 0, s, _, h => by cases h; exact Frame.refl _
  | n + 1, s, s', h => by
    obtain ⟨s1, h1, h⟩ := Res.bind_ok' h
    exact (ungroupStep_frame h1).trans (ungroupAllLoop_frame n _ _ h)

theorem groupEntities_frame {m : GroupMask} : ∀ (es : List Entity) (s s' : Sets V),
    ComponentStorage.groupEntities m es s = .ok s' → Frame s s'
  | [], s, _, h => by cases h; exact Frame.refl _
  | e :: es, s, s', h => by
    obtain ⟨s1, h1, h⟩ := Res.bind_ok' h
    exact (groupLoop_frame _ _ _ _ h1).trans (groupEntities_frame es _ _ h)

/-! ### The set of one type -/

/-- The set of a registered type. -/
def ComponentStorage.setOf (c : ComponentStorage V) (t : TypeId) : Option (CompSet V) :=
  (c.meta? t).bind fun m => c.components[m.storageIndex]?

/-- All groups end in front of the set of type `t`. -/
def ApartType (c : ComponentStorage V) (t : TypeId) : Prop :=
  ∀ m, c.meta? t = some m → Apart c.groups m.storageIndex

theorem ApartType.of_shape {c c' : ComponentStorage V} {t : TypeId} (h : ApartType c t) (hs : Shape c c') :
    ApartType c' t := fun m hm => Apart.of_stat (h m (by rw [← hs.meta?]; exact hm)) hs.stat

theorem setOf_set {c : ComponentStorage V} (hc : Static c) {t t' : TypeId} {m : ComponentMetadata}
    (hm : c.meta? t' = some m) (s : CompSet V) :
    ComponentStorage.setOf { c with components := c.components.set m.storageIndex s } t =
      if t = t' then some s else c.setOf t := by
  unfold ComponentStorage.setOf
  split
  · rename_i h
    subst h
    have h1 := hc.idx _ _ hm
    simp only [ComponentStorage.meta?] at hm ⊢
    rw [hm]
    simp [h1]
  · rename_i h
    cases hm' : c.meta? t with
    | none => simp only [ComponentStorage.meta?] at hm' ⊢; rw [hm']; rfl
    | some m' =>
      have h1 : m.storageIndex ≠ m'.storageIndex := fun hi => h (hc.inj _ _ _ _ hm' hm hi.symm)
      simp only [ComponentStorage.meta?] at hm' ⊢
      rw [hm']
      simp [List.getElem?_set_ne h1]

theorem setOf_meta {c : ComponentStorage V} {t : TypeId} {m : ComponentMetadata} (hm : c.meta? t = some m) :
    c.setOf t = c.components[m.storageIndex]? := by
  unfold ComponentStorage.setOf
  rw [hm]
  rfl

/-! ### Contents of one type -/

/-- The set of type `t`, if there is one, is in order, holds entities of `A` only, with the values `f`. -/
def HoldsOf (A : Entity → Prop) (c : ComponentStorage V) (t : TypeId) (f : Entity → Option V) : Prop :=
  ∀ s, c.setOf t = some s → s.WF ∧ (∀ x ∈ s.entities, A x) ∧ ∀ x, s.val x = f x

theorem HoldsOf.of_setOf {A : Entity → Prop} {c c' : ComponentStorage V} {t : TypeId} {f : Entity → Option V}
    (h : HoldsOf A c t f) (hs : c'.setOf t = c.setOf t) : HoldsOf A c' t f := fun s h' => h s (by rw [← hs]; exact h')

theorem HoldsOf.mono {A B : Entity → Prop} {c : ComponentStorage V} {t : TypeId} {f : Entity → Option V}
    (h : HoldsOf A c t f) (hab : ∀ x, A x → B x) : HoldsOf B c t f := fun s hs =>
  ⟨(h s hs).1, fun x hx => hab x ((h s hs).2.1 x hx), (h s hs).2.2⟩

/-- One component is stored. -/
theorem HoldsOf.insertOne {A : Entity → Prop} (hA : IdxUniq A) {e : Entity} (he : A e) (hu : e.index < u32Size)
    {c : ComponentStorage V} (hc : Static c) {t t' : TypeId} {F : Content V} (h : HoldsOf A c t (F t))
    {m : ComponentMetadata} (hm : c.meta? t' = some m) {s s' : CompSet V} {o : Option V} {v : V}
    (h1 : c.components[m.storageIndex]? = some s) (h2 : s.insert e v = .ok (o, s')) :
    HoldsOf A { c with components := c.components.set m.storageIndex s' } t (F.set t' e v t) := by
  intro x hx
  rw [setOf_set hc hm] at hx
  split at hx
  · rename_i ht
    subst ht
    cases hx
    obtain ⟨i1, i2, i3⟩ := h s (by rw [setOf_meta hm]; exact h1)
    obtain ⟨s2, j1, j2, j3, j4⟩ := i1.insert v (fun y hy hi => hA y e (i2 y hy) he hi) hu
    rw [j1] at h2
    cases h2
    refine ⟨j2, fun y hy => ?_, fun y => ?_⟩
    · rw [j3] at hy
      split at hy
      · exact i2 y hy
      · rcases List.mem_append.1 hy with hy | hy
        · exact i2 y hy
        · rw [List.mem_singleton.1 hy]; exact he
    · rw [j4, i3]
      simp [Content.set]
  · rename_i ht
    obtain ⟨i1, i2, i3⟩ := h x hx
    refine ⟨i1, i2, fun y => ?_⟩
    rw [i3]
    simp [Content.set, ht]

/-- Removal from a set in order. -/
theorem CompSet.WF.removeAny {s : CompSet V} (h : s.WF) (e : Entity) : ∃ s', s.remove e = .ok (s.val e, s') ∧
    s.delete e = .ok s' ∧ s'.WF ∧ (∀ x ∈ s'.entities, x ∈ s.entities) ∧ (e ∉ s'.entities) ∧
    ∀ x, s'.val x = if x = e then none else s.val x := by
  have key : ∀ s' : CompSet V, s'.WF → (∀ x, s'.val x = if x = e then none else s.val x) →
      (∀ x ∈ s'.entities, x ∈ s.entities) ∧ e ∉ s'.entities := by
    intro s' h' hv
    constructor
    · intro x hx
      rw [h'.mem_iff, hv] at hx
      rw [h.mem_iff]
      split at hx
      · cases hx
      · exact hx
    · rw [h'.mem_iff, hv]
      simp
  by_cases he : e ∈ s.entities
  · obtain ⟨d, hd⟩ := List.mem_iff_getElem?.1 he
    obtain ⟨s', h1, h2, h3, _, h5⟩ := h.remove_present hd
    exact ⟨s', h1, h2, h3, (key s' h3 h5).1, (key s' h3 h5).2, h5⟩
  · obtain ⟨h1, h2⟩ := h.remove_absent he
    have hn := (h.val_eq_none e).2 he
    have hv : ∀ x, s.val x = if x = e then none else s.val x := by
      intro x
      split
      · rename_i hx; rw [hx]; exact hn
      · rfl
    exact ⟨s, by rw [hn]; exact h1, h2, h, (key s h hv).1, (key s h hv).2, hv⟩

theorem HoldsOf.removeOne {A : Entity → Prop} {e : Entity} {c : ComponentStorage V} (hc : Static c) {t t' : TypeId}
    {F : Content V} (h : HoldsOf A c t (F t)) {m : ComponentMetadata} (hm : c.meta? t' = some m) {s s' : CompSet V}
    (h1 : c.components[m.storageIndex]? = some s) (h2 : (∃ o, s.remove e = .ok (o, s')) ∨ s.delete e = .ok s') :
    HoldsOf A { c with components := c.components.set m.storageIndex s' } t (F.erase t' e t) := by
  intro x hx
  rw [setOf_set hc hm] at hx
  split at hx
  · rename_i ht
    subst ht
    cases hx
    obtain ⟨i1, i2, i3⟩ := h s (by rw [setOf_meta hm]; exact h1)
    obtain ⟨s2, j1, j2, j3, j4, _, j5⟩ := i1.removeAny e
    have : s2 = s' := by
      rcases h2 with ⟨o, h2⟩ | h2
      · rw [j1] at h2; cases h2; rfl
      · rw [j2] at h2; cases h2; rfl
    subst this
    refine ⟨j3, fun y hy => i2 y (j4 y hy), fun y => ?_⟩
    rw [j5, i3]
    simp [Content.erase]
  · rename_i ht
    obtain ⟨i1, i2, i3⟩ := h x hx
    refine ⟨i1, i2, fun y => ?_⟩
    rw [i3]
    simp [Content.erase, ht]

theorem insertEach_holds {A : Entity → Prop} (hA : IdxUniq A) {e : Entity} (he : A e) (hu : e.index < u32Size)
    {t : TypeId} : ∀ (vs : List (TypeId × V)) (m : GroupMask) (c : ComponentStorage V) (F : Content V), Static c →
    HoldsOf A c t (F t) → (ComponentStorage.insertEach e vs m c).Leaves (fun c' =>
      HoldsOf A c' t (F.setAll e (vs.takeWhile fun p => (c.meta? p.1).isSome) t))
  | [], _, c, F, _, h => h
  | (t', v) :: vs, m, c, F, hc, h => by
    rw [ComponentStorage.insertEach]
    cases hm : c.meta? t' with
    | none =>
      rw [List.takeWhile_cons, if_neg (by simp [hm])]
      exact h
    | some md =>
      simp only [List.takeWhile_cons, hm, Option.isSome_some, if_true]
      cases hs : c.components[md.storageIndex]? with
      | none => trivial
      | some s =>
        simp only [Res.unchecked_some, Outcome.ofRes_ok]
        cases hi : s.insert e v with
        | ub => trivial
        | panic =>
          have hlt := hc.idx _ _ hm
          exact absurd hi (CompSet.insert_ne_panic s e v)
        | ok p =>
          obtain ⟨o, s'⟩ := p
          simp only [Outcome.ofRes_ok]
          have h1 := h.insertOne hA he hu hc hm hs hi
          exact insertEach_holds hA he hu vs _ _ (F.set t' e v) (hc.of_shape (Shape.set ..)) h1

theorem lookupAll_idxs {c : ComponentStorage V} {f : ComponentMetadata → GroupMask} : ∀ (ts : List TypeId) {idxs : List Nat}
    {mask : GroupMask}, c.lookupAll f ts = .ok (idxs, mask) → idxs = ts.map c.idxOf ∧ ∀ t ∈ ts, (c.meta? t).isSome
  | [], _, _, h => by cases h; exact ⟨rfl, by simp⟩
  | t :: ts, _, _, h => by
    rw [ComponentStorage.lookupAll] at h
    cases hm : c.meta? t with
    | none => rw [hm] at h; cases h
    | some m =>
      rw [hm] at h
      obtain ⟨⟨idxs, mask⟩, h1, h⟩ := Res.bind_ok' h
      obtain ⟨_, _, h⟩ := Res.bind_ok' h
      cases h
      obtain ⟨h2, h3⟩ := lookupAll_idxs ts h1
      exact ⟨by rw [List.map_cons, c.idxOf_eq hm, h2], by simp [hm]; exact h3⟩

theorem insertAt_holds {A : Entity → Prop} (hA : IdxUniq A) {e : Entity} (he : A e) (hu : e.index < u32Size)
    {t : TypeId} : ∀ (ts : List TypeId) (vs : List V) (c c' : ComponentStorage V) (F : Content V), Static c →
    HoldsOf A c t (F t) → (∀ t' ∈ ts, (c.meta? t').isSome) →
    ComponentStorage.insertAt e ((ts.map c.idxOf).zip vs) c = .ok c' →
      HoldsOf A c' t (F.setAll e (ts.zip vs) t) ∧ Shape c c'
  | [], _, c, c', F, _, h, _, hr => by cases hr; exact ⟨h, Shape.refl _⟩
  | t' :: ts, [], c, c', F, _, h, _, hr => by cases hr; exact ⟨h, Shape.refl _⟩
  | t' :: ts, v :: vs, c, c', F, hc, h, hk, hr => by
    obtain ⟨m, hm⟩ := Option.isSome_iff_exists.1 (hk t' (.head _))
    simp only [List.map_cons, List.zip_cons_cons, c.idxOf_eq hm] at hr
    obtain ⟨s, h1, hr⟩ := Res.bind_ok' hr
    obtain ⟨⟨o, s'⟩, h2, hr⟩ := Res.bind_ok' hr
    have h3 := h.insertOne hA he hu hc hm (Res.unchecked_ok h1) h2
    have hsh : Shape c { c with components := c.components.set m.storageIndex s' } := Shape.set ..
    obtain ⟨h4, h5⟩ := insertAt_holds hA he hu ts vs { c with components := c.components.set m.storageIndex s' } c'
      (F.set t' e v) (hc.of_shape hsh) h3 (fun x hx => hk x (.tail _ hx))
      (by rw [ComponentStorage.idxOf_same (c := c)
            (c' := { c with components := c.components.set m.storageIndex s' }) rfl]; exact hr)
    exact ⟨h4, hsh.trans h5⟩

theorem removeEach_holds {A : Entity → Prop} {e : Entity} {t : TypeId} : ∀ (ts : List TypeId) (c c' : ComponentStorage V)
    (F : Content V) (vs : List (Option V)), Static c → HoldsOf A c t (F t) → (∀ t' ∈ ts, (c.meta? t').isSome) →
    ComponentStorage.removeEach e (ts.map c.idxOf) c = .ok (vs, c') →
      HoldsOf A c' t (F.eraseAll e ts t) ∧ vs.length = ts.length ∧
      ∀ i : Nat, ts[i]? = some t → vs[i]? = (F.removed e ts)[i]?
  | [], c, c', F, _, _, h, _, hr => by cases hr; exact ⟨h, rfl, by simp⟩
  | t' :: ts, c, c', F, _, hc, h, hk, hr => by
    obtain ⟨m, hm⟩ := Option.isSome_iff_exists.1 (hk t' (.head _))
    simp only [List.map_cons, c.idxOf_eq hm] at hr
    obtain ⟨s, h1, hr⟩ := Res.bind_ok' hr
    obtain ⟨⟨o, s'⟩, h2, hr⟩ := Res.bind_ok' hr
    obtain ⟨⟨vs, c1⟩, h3, hr⟩ := Res.bind_ok' hr
    cases hr
    have h1 := Res.unchecked_ok h1
    have h4 := h.removeOne hc hm h1 (.inl ⟨o, h2⟩)
    have hsh : Shape c { c with components := c.components.set m.storageIndex s' } := Shape.set ..
    obtain ⟨h5, h6, h7⟩ := removeEach_holds ts { c with components := c.components.set m.storageIndex s' } c'
      (F.erase t' e) vs (hc.of_shape hsh) h4 (fun x hx => hk x (.tail _ hx))
      (by rw [ComponentStorage.idxOf_same (c := c)
            (c' := { c with components := c.components.set m.storageIndex s' }) rfl]; exact h3)
    refine ⟨h5, by simp [h6], fun i hi => ?_⟩
    cases i with
    | zero =>
      simp only [List.getElem?_cons_zero, Option.some.injEq] at hi
      subst hi
      obtain ⟨i1, _, i3⟩ := h s (by rw [setOf_meta hm]; exact h1)
      obtain ⟨s2, j1, _⟩ := i1.removeAny e
      rw [j1] at h2
      cases h2
      simp [Content.removed, i3]
    | succ i =>
      simp only [List.getElem?_cons_succ] at hi
      simp only [Content.removed, List.getElem?_cons_succ]
      exact h7 i hi

theorem deleteEach_holds {A : Entity → Prop} {e : Entity} {t : TypeId} : ∀ (ts : List TypeId) (c c' : ComponentStorage V)
    (F : Content V), Static c → HoldsOf A c t (F t) → (∀ t' ∈ ts, (c.meta? t').isSome) →
    ComponentStorage.deleteEach e (ts.map c.idxOf) c = .ok c' → HoldsOf A c' t (F.eraseAll e ts t)
  | [], c, c', F, _, h, _, hr => by cases hr; exact h
  | t' :: ts, c, c', F, hc, h, hk, hr => by
    obtain ⟨m, hm⟩ := Option.isSome_iff_exists.1 (hk t' (.head _))
    simp only [List.map_cons, c.idxOf_eq hm] at hr
    obtain ⟨s, h1, hr⟩ := Res.bind_ok' hr
    obtain ⟨s', h2, hr⟩ := Res.bind_ok' hr
    have h4 := h.removeOne hc hm (Res.unchecked_ok h1) (.inr h2)
    have hsh : Shape c { c with components := c.components.set m.storageIndex s' } := Shape.set ..
    exact deleteEach_holds ts { c with components := c.components.set m.storageIndex s' } c'
      (F.erase t' e) (hc.of_shape hsh) h4 (fun x hx => hk x (.tail _ hx))
      (by rw [ComponentStorage.idxOf_same (c := c)
            (c' := { c with components := c.components.set m.storageIndex s' }) rfl]; exact hr)

theorem deleteAll_at {e : Entity} : ∀ {l l' : List (CompSet V)}, ComponentStorage.deleteAll e l = .ok l' →
    ∀ (i : Nat) (s' : CompSet V), l'[i]? = some s' → ∃ s, l[i]? = some s ∧ s.delete e = .ok s'
  | [], _, h => by cases h; simp
  | s :: ss, _, h => by
    obtain ⟨s', h1, h⟩ := Res.bind_ok' h
    obtain ⟨ss', h2, h⟩ := Res.bind_ok' h
    cases h
    intro i x hx
    cases i with
    | zero => simp only [List.getElem?_cons_zero, Option.some.injEq] at hx; subst hx; exact ⟨s, rfl, h1⟩
    | succ i => exact deleteAll_at h2 i x (by simpa using hx)

theorem clear_holds (c : ComponentStorage V) (t : TypeId) : HoldsOf (fun _ => False) c.clear t (fun _ => none) := by
  intro s hs
  unfold ComponentStorage.setOf at hs
  cases hm : c.clear.meta? t with
  | none => rw [hm] at hs; cases hs
  | some m =>
    rw [hm] at hs
    simp only [ComponentStorage.clear, Option.bind_some, List.getElem?_map, Option.map_eq_some_iff] at hs
    obtain ⟨s0, _, rfl⟩ := hs
    exact ⟨CompSet.wf_clear s0, by simp [CompSet.clear], fun x => CompSet.val_clear s0 x⟩

theorem setMut_holds {A : Entity → Prop} {e : Entity} {v : V} {c : ComponentStorage V} (hc : Static c) {t t' : TypeId}
    {F : Content V} (h : HoldsOf A c t (F t)) {m : ComponentMetadata} (hm : c.meta? t' = some m) {s s' : CompSet V}
    {b : Bool} (h1 : c.components[m.storageIndex]? = some s) (h2 : s.setMut e v = .ok (b, s')) :
    (t' = t → b = (F t e).isSome ∧ HoldsOf A { c with components := c.components.set m.storageIndex s' } t
      (fun x => if x = e ∧ (F t e).isSome then some v else F t x)) ∧
    (t' ≠ t → HoldsOf A { c with components := c.components.set m.storageIndex s' } t (F t)) := by
  refine ⟨?_, fun ht => ?_⟩
  · rintro rfl
    obtain ⟨i1, i2, i3⟩ := h s (by rw [setOf_meta hm]; exact h1)
    obtain ⟨s2, j1, j2, j3, j4⟩ := i1.setMut e v
    rw [j1] at h2
    cases h2
    have he : e ∈ s.entities ↔ (F t' e).isSome := by rw [i1.mem_iff, i3]
    refine ⟨by rw [Bool.eq_iff_iff, decide_eq_true_iff]; exact he, fun x hx => ?_⟩
    rw [setOf_set hc hm, if_pos rfl] at hx
    cases hx
    refine ⟨j2, fun y hy => i2 y (by rw [← j3]; exact hy), fun y => ?_⟩
    rw [j4, i3]
    simp only [he]
  · refine h.of_setOf ?_
    rw [setOf_set hc hm, if_neg (fun hx => ht hx.symm)]

/-! ### register and set_layout -/

theorem register_lone {c : ComponentStorage V} (hc : Static c) (hb : BoundsOK c) (t' t : TypeId) (ha : ApartType c t) :
    (c.register t').1 = !(c.meta? t').isSome ∧
    (∀ x, ((c.register t').2.meta? x).isSome ↔ x = t' ∨ (c.meta? x).isSome) ∧
    ApartType (c.register t').2 t ∧
    (c.meta? t = none → ∀ s, (c.register t').2.setOf t = some s → s = CompSet.new) ∧
    ((c.meta? t).isSome → (c.register t').2.setOf t = c.setOf t) := by
  unfold ComponentStorage.register
  cases hm : c.meta? t' with
  | some m =>
    refine ⟨rfl, fun x => ⟨.inr, fun h => ?_⟩, ha, fun h s hs => ?_, fun _ => rfl⟩
    · rcases h with rfl | h
      · simp [hm]
      · exact h
    · unfold ComponentStorage.setOf at hs
      rw [h] at hs
      cases hs
  | none =>
    refine ⟨rfl, fun x => ?_, fun m hm' => ?_, fun h s hs => ?_, fun h => ?_⟩
    · simp only [ComponentStorage.meta?, insertMeta_lookup]
      split
      · simp [*]
      · simp [*]
    · simp only [ComponentStorage.meta?, insertMeta_lookup] at hm'
      split at hm'
      · cases hm'
        exact fun g hg => (hb.groups g hg).2.2
      · exact ha m hm'
    · unfold ComponentStorage.setOf at hs
      simp only [ComponentStorage.meta?, insertMeta_lookup] at hs h
      split at hs
      · simpa using hs.symm
      · rw [h] at hs; cases hs
    · obtain ⟨m, hm'⟩ := Option.isSome_iff_exists.1 h
      have hlt := hc.idx _ _ hm'
      have hne : t ≠ t' := by rintro rfl; rw [hm] at hm'; cases hm'
      unfold ComponentStorage.setOf
      simp only [ComponentStorage.meta?, insertMeta_lookup, if_neg hne] at hm' ⊢
      rw [hm']
      simp [List.getElem?_append_left hlt]

namespace ComponentStorage

/-- The types `L` were placed. -/
structure Placed (L : List TypeId) (x y : Building V) : Prop where
  reg : ∀ t, (y.1.meta? t).isSome ↔ (x.1.meta? t).isSome ∨ t ∈ L
  sets : ∀ t, t ∉ L → y.2.lookup t = x.2.lookup t
  gone : ∀ t, t ∈ y.2.map (·.1) ↔ t ∈ x.2.map (·.1) ∧ t ∉ L
  keys : (x.2.map (·.1)).Nodup → (y.2.map (·.1)).Nodup
  more : ∃ l, y.1.components = x.1.components ++ l ∧ l.length = L.length
  other : ∀ t, t ∉ L → y.1.meta? t = x.1.meta? t
  once : ∀ t, L.count t = 1 → ∃ m, y.1.meta? t = some m ∧
    y.1.components[m.storageIndex]? = some ((x.2.lookup t).getD CompSet.new)
  twice : ∀ t, 2 ≤ L.count t → ∃ m, y.1.meta? t = some m ∧ y.1.components[m.storageIndex]? = some CompSet.new

theorem Placed.refl (x : Building V) : Placed [] x x :=
  ⟨by simp, fun _ _ => rfl, by simp, id, ⟨[], by simp, rfl⟩, fun _ _ => rfl, by simp, by simp⟩

theorem Placed.trans {L L' : List TypeId} {x y z : Building V} (h : Placed L x y) (h' : Placed L' y z) :
    Placed (L ++ L') x z where
  reg t := by rw [h'.reg, h.reg, List.mem_append, or_assoc]
  sets t ht := by
    rw [List.mem_append, not_or] at ht
    rw [h'.sets t ht.2, h.sets t ht.1]
  gone t := by rw [h'.gone, h.gone, List.mem_append, not_or, and_assoc]
  keys hk := h'.keys (h.keys hk)
  more := by
    obtain ⟨l, hl, hn⟩ := h.more
    obtain ⟨l', hl', hn'⟩ := h'.more
    exact ⟨l ++ l', by rw [hl', hl, List.append_assoc], by rw [List.length_append, List.length_append, hn, hn']⟩
  other t ht := by
    rw [List.mem_append, not_or] at ht
    rw [h'.other t ht.2, h.other t ht.1]
  once t ht := by
    rw [List.count_append] at ht
    by_cases hm : t ∈ L
    · have h1 := List.count_pos_iff.2 hm
      have h2 : t ∉ L' := fun hc => by have := List.count_pos_iff.2 hc; omega
      obtain ⟨m, i1, i2⟩ := h.once t (by omega)
      refine ⟨m, by rw [h'.other t h2, i1], ?_⟩
      obtain ⟨l, hl, _⟩ := h'.more
      rw [hl, List.getElem?_append_left (List.getElem?_eq_some_iff.1 i2).1, i2]
    · have h1 := List.count_eq_zero.2 hm
      obtain ⟨m, i1, i2⟩ := h'.once t (by omega)
      exact ⟨m, i1, by rw [i2, h.sets t hm]⟩
  twice t ht := by
    rw [List.count_append] at ht
    by_cases h2 : 2 ≤ L'.count t
    · exact h'.twice t h2
    · by_cases h1 : L'.count t = 1
      · obtain ⟨m, i1, i2⟩ := h'.once t h1
        have hm : t ∈ L := List.count_pos_iff.1 (by omega)
        have hn : y.2.lookup t = none := by
          cases hl : y.2.lookup t with
          | none => rfl
          | some s => exact absurd hm ((h.gone t).1 ((lookup_isSome _ t).1 (by rw [hl]; rfl))).2
        exact ⟨m, i1, by rw [i2, hn]; rfl⟩
      · have h0 : t ∉ L' := fun hc => by have := List.count_pos_iff.2 hc; omega
        obtain ⟨m, i1, i2⟩ := h.twice t (by omega)
        refine ⟨m, by rw [h'.other t h0, i1], ?_⟩
        obtain ⟨l, hl, _⟩ := h'.more
        rw [hl, List.getElem?_append_left (List.getElem?_eq_some_iff.1 i2).1, i2]

theorem Placed.one (c : ComponentStorage V) (sets : List (TypeId × CompSet V)) (t : TypeId) (m : ComponentMetadata)
    (hm : m.storageIndex = c.components.length) : Placed [t] (c, sets)
      ({ c with metadata := insertMeta c.metadata t m, components := c.components ++ [(sets.lookup t).getD CompSet.new] },
      sets.filter (fun p => p.1 != t)) where
  reg t' := by
    simp only [meta?, insertMeta_lookup, List.mem_singleton]
    split <;> simp [*]
  sets t' ht := lookup_filter_ne _ _ _ (by simpa using ht)
  gone t' := by
    simp only [List.mem_map, List.mem_filter, List.mem_singleton]
    constructor
    · rintro ⟨p, ⟨h1, h2⟩, rfl⟩
      exact ⟨⟨p, h1, rfl⟩, by simpa using h2⟩
    · rintro ⟨⟨p, h1, rfl⟩, h2⟩
      exact ⟨p, ⟨h1, by simpa using h2⟩, rfl⟩
  keys hk := hk.sublist (List.Sublist.map _ List.filter_sublist)
  more := ⟨_, rfl, rfl⟩
  other t' ht := by
    simp only [meta?, insertMeta_lookup]
    rw [if_neg (by simpa using ht)]
  once t' ht := by
    have : t' = t := by
      by_contra hc
      simp [List.count_cons, Ne.symm hc] at ht
    subst this
    refine ⟨m, by simp [meta?, insertMeta_lookup], ?_⟩
    rw [hm]
    simp
  twice t' ht := by
    have := List.count_le_length (l := [t]) (a := t')
    simp only [List.length_singleton] at this
    omega

theorem addComponents_placed {f : GroupFamily} {a b c : Nat} : ∀ (n idx : Nat) (x y : Building V),
    addComponents f a b c idx n x = .ok () y → Placed ((f.components.drop idx).take n) x y
  | 0, _, x, y, h => by cases h; simpa using Placed.refl x
  | n + 1, idx, (st, sets), y, h => by
    rw [addComponents] at h
    obtain ⟨⟨t, m⟩, hp, h⟩ := Outcome.ofRes_eq_ok h
    obtain ⟨t', ht, hp⟩ := Res.bind_ok' hp
    obtain ⟨im, _, hp⟩ := Res.bind_ok' hp
    obtain ⟨dm, _, hp⟩ := Res.bind_ok' hp
    obtain ⟨sm, _, hp⟩ := Res.bind_ok' hp
    cases hp
    have hi : f.components[idx]? = some t := by
      cases hx : f.components[idx]? with
      | none => rw [hx] at ht; cases ht
      | some z => rw [hx] at ht; cases ht; rfl
    have hd : f.components.drop idx = t :: f.components.drop (idx + 1) := by
      obtain ⟨h1, h2⟩ := List.getElem?_eq_some_iff.1 hi
      rw [← h2]
      exact List.drop_eq_getElem_cons h1
    rw [hd, List.take_succ_cons]
    exact (Placed.one st sets t _ rfl).trans (addComponents_placed n (idx + 1) _ _ h)

theorem addGroups_placed {f : GroupFamily} {a b c : Nat} : ∀ (l : List Nat) (prev : Nat) (x y : Building V),
    (prev :: l).Pairwise (· < ·) → addGroups f a b c prev l x = .ok () y →
    Placed ((f.components.drop prev).take ((l.getLast?.getD prev) - prev)) x y
  | [], prev, x, y, _, h => by cases h; simpa using Placed.refl x
  | n :: l, prev, (st, sets), y, hp, h => by
    rw [addGroups] at h
    obtain ⟨g, _, h⟩ := Outcome.ofRes_eq_ok h
    obtain ⟨_, z, h1, h⟩ := Outcome.bind_eq_ok h
    have h2 := addComponents_placed _ _ _ _ h1
    have h3 := addGroups_placed l n z y (List.pairwise_cons.1 hp).2 h
    have hpn : prev < n := (List.pairwise_cons.1 hp).1 n (.head _)
    have hlast : ∃ q, (n :: l).getLast?.getD prev = n + q ∧ l.getLast?.getD n = n + q := by
      cases l with
      | nil => exact ⟨0, by simp, by simp⟩
      | cons k l =>
        have hm : (k :: l).getLast (by simp) ∈ k :: l := List.getLast_mem _
        have := (List.pairwise_cons.1 (List.pairwise_cons.1 hp).2).1 _ hm
        refine ⟨(k :: l).getLast (by simp) - n, ?_, ?_⟩
        · rw [List.getLast?_cons_cons, List.getLast?_eq_getLast_of_ne_nil (by simp)]
          simp only [Option.getD_some]
          omega
        · rw [List.getLast?_eq_getLast_of_ne_nil (by simp)]
          simp only [Option.getD_some]
          omega
    obtain ⟨q, e1, e2⟩ := hlast
    rw [e2] at h3
    rw [e1]
    have h4 : Placed ((f.components.drop prev).take (n - prev)) (st, sets) z :=
      ⟨h2.reg, h2.sets, h2.gone, h2.keys, h2.more, h2.other, h2.once, h2.twice⟩
    have h5 := h4.trans h3
    have e3 : n + q - prev = (n - prev) + q := by omega
    have e4 : n + q - n = q := by omega
    rw [e3, List.take_add, List.drop_drop]
    rw [e4] at h5
    rw [show prev + (n - prev) = n by omega]
    exact h5

theorem addFamilies_placed : ∀ (fs : List GroupFamily) (x y : Building V), FamsOK fs → addFamilies fs x = .ok () y →
    Placed (fs.flatMap (·.components)) x y
  | [], x, y, _, h => by cases h; exact Placed.refl x
  | f :: fs, (c, sets), y, hf, h => by
    rw [addFamilies] at h
    obtain ⟨_, z, h1, h⟩ := Outcome.bind_eq_ok h
    obtain ⟨hF, _⟩ := hf f (.head _)
    have h2 := addGroups_placed _ _ _ _ (List.pairwise_cons.2 ⟨fun a ha => by have := hF.2.1 a ha; omega, hF.1⟩) h1
    rw [hF.2.2] at h2
    simp only [Option.getD_some, Nat.sub_zero, List.drop_zero, List.take_length] at h2
    exact h2.trans (addFamilies_placed fs z y (fun f h => hf f (.tail _ h)) h)

theorem addUngrouped_lone : ∀ (l : List (TypeId × CompSet V)) (c : ComponentStorage V), (l.map (·.1)).Nodup →
    (∀ i < c.components.length, (addUngrouped l c).components[i]? = c.components[i]?) ∧
    (∀ t, t ∉ l.map (·.1) → (addUngrouped l c).meta? t = c.meta? t) ∧
    (∀ t s, l.lookup t = some s → ∃ m, (addUngrouped l c).meta? t = some m ∧
      c.components.length ≤ m.storageIndex ∧ (addUngrouped l c).components[m.storageIndex]? = some s)
  | [], c, _ => ⟨fun _ _ => rfl, fun _ _ => rfl, by simp⟩
  | (t, s) :: l, c, hn => by
    rw [addUngrouped]
    simp only [List.map_cons, List.nodup_cons] at hn
    obtain ⟨h1, h2, h3⟩ := addUngrouped_lone l
      { c with metadata := insertMeta c.metadata t ⟨c.components.length, 0#64, 0#64, none⟩,
               components := c.components ++ [s] } hn.2
    refine ⟨fun i hi => ?_, fun t' ht => ?_, fun t' s' hl => ?_⟩
    · rw [h1 i (by simp; omega)]
      exact List.getElem?_append_left hi
    · simp only [List.map_cons, List.mem_cons, not_or] at ht
      rw [h2 t' ht.2]
      simp [meta?, insertMeta_lookup, ht.1]
    · by_cases ht : t' = t
      · subst ht
        simp only [List.lookup_cons, beq_self_eq_true, Option.some.injEq] at hl
        subst hl
        refine ⟨⟨c.components.length, 0#64, 0#64, none⟩, ?_, Nat.le_refl _, ?_⟩
        · rw [h2 t' hn.1]
          simp [meta?, insertMeta_lookup]
        · rw [h1 _ (by simp)]
          simp
      · have hb : (t' == t) = false := by simpa using ht
        rw [List.lookup_cons, hb] at hl
        obtain ⟨m, i1, i2, i3⟩ := h3 t' s' hl
        exact ⟨m, i1, by simp at i2; omega, i3⟩

end ComponentStorage

open ComponentStorage in
/-- `set_layout` moves the set of a type outside of all groups to the end. -/
theorem setLayout_lone {rank : TypeId → Nat} {c c' : ComponentStorage V} {l : GroupLayout} {es : List Entity}
    (hc : Static c) (hb : BoundsOK c) (hk : (c.metadata.map Prod.fst).Nodup) (hl : FamsOK l.families) {t : TypeId}
    (ht : t ∉ layoutTypes l) (h : c.setLayout rank l es = .ok () c') :
    (∀ x, (c'.meta? x).isSome ↔ x ∈ layoutTypes l ∨ (c.meta? x).isSome) ∧ c'.setOf t = c.setOf t ∧ ApartType c' t := by
  obtain ⟨sets, comps0, h1, h2, _, h4, _, h6⟩ := takeSets_ok c.metadata c.components hk
    (fun t m hm => hc.idx t m ((lookup_some hk t m).2 hm))
    (fun t t' m m' hm hm' => hc.inj t t' m m' ((lookup_some hk t m).2 hm) ((lookup_some hk t' m').2 hm'))
  have hex : c.extractSparseSets = .ok (sets, ⟨[], [], comps0⟩) := by simp [extractSparseSets, h1]
  have hbo := (addFamilies_bounds l.families ((⟨[], [], comps0⟩, sets) : Building V) hl ⟨by simp, by simp⟩ (by simp))
  unfold setLayout at h
  rw [hex] at h
  simp only at h
  cases hf : addFamilies l.families ((⟨[], [], comps0⟩, sets) : Building V) with
  | ub => rw [hf] at h; cases h
  | panic b => rw [hf] at h; cases h
  | ok u b =>
    obtain ⟨c2, sets2⟩ := b
    rw [hf] at h
    simp only at h
    have hpl := addFamilies_placed _ _ _ hl hf
    have hb2 : BoundsOK c2 := by
      by_cases hfit : (∀ f ∈ l.families, f.components.length < 16) ∧
          (⟨[], [], comps0⟩ : ComponentStorage V).groups.length + (l.families.flatMap famGroups).length < 64
      · obtain ⟨y, k1, k2, _⟩ := hbo.1 hfit
        rw [hf] at k1
        cases k1
        exact k2
      · obtain ⟨y, k1, _⟩ := hbo.2 hfit
        rw [hf] at k1
        cases k1
    have hkeys : (sets2.map (·.1)).Nodup := hpl.keys (by rw [show sets.map (·.1) = sets.map Prod.fst from rfl, h4]; exact hk)
    have hperm := sortByRank_perm rank sets2
    have hkeys' : ((sortByRank rank sets2).map (·.1)).Nodup := ((hperm.map _).nodup_iff).2 hkeys
    obtain ⟨u1, u2, u3⟩ := addUngrouped_lone (sortByRank rank sets2) c2 hkeys'
    have u4 := (addUngrouped_bounds (sortByRank rank sets2) c2 hb2).2
    generalize hc3 : addUngrouped (sortByRank rank sets2) c2 = c3 at *
    have hmem : ∀ x, x ∈ (sortByRank rank sets2).map (·.1) ↔ (c.meta? x).isSome ∧ x ∉ layoutTypes l := by
      intro x
      rw [(hperm.map _).mem_iff, hpl.gone]
      have : x ∈ sets.map (·.1) ↔ (c.meta? x).isSome := by
        rw [show sets.map (·.1) = sets.map Prod.fst from rfl, h4, ← lookup_isSome]
        rfl
      rw [this]
      rfl
    have hreg : ∀ x, (c3.meta? x).isSome ↔ x ∈ layoutTypes l ∨ (c.meta? x).isSome := by
      intro x
      by_cases hx : x ∈ (sortByRank rank sets2).map (·.1)
      · obtain ⟨s, hs⟩ := Option.isSome_iff_exists.1 ((lookup_isSome _ x).2 hx)
        obtain ⟨m, i1, _⟩ := u3 x s hs
        simp only [i1, Option.isSome_some, true_iff]
        exact .inr ((hmem x).1 hx).1
      · rw [u2 x hx, hpl.reg]
        have := (hmem x).not.1 hx
        simp only [meta?, List.lookup_nil, Option.isSome_none, Bool.false_eq_true, false_or] at this ⊢
        show x ∈ layoutTypes l ↔ _
        tauto
    have hlk : (sortByRank rank sets2).lookup t = c.setOf t := by
      rw [lookup_perm hperm hkeys, hpl.sets t ht, h6]
      rfl
    have hset : c3.setOf t = c.setOf t ∧ ApartType c3 t := by
      by_cases hm : (c.meta? t).isSome
      · obtain ⟨s, hs⟩ := Option.isSome_iff_exists.1 ((lookup_isSome _ t).2 ((hmem t).2 ⟨hm, ht⟩))
        obtain ⟨m, i1, i2, i3⟩ := u3 t s hs
        refine ⟨by rw [setOf_meta i1, i3, ← hlk, hs], fun m' hm' g hg => ?_⟩
        rw [i1] at hm'
        cases hm'
        rw [u4] at hg
        have := (hb2.groups g hg).2.2
        omega
      · have hn : c3.meta? t = none := by
          have := (hreg t).not.2 (by tauto)
          simpa using this
        have hn' : c.meta? t = none := by simpa using hm
        exact ⟨by simp [ComponentStorage.setOf, hn, hn'], fun m hm' => by rw [hn] at hm'; cases hm'⟩
    cases hm : GroupMask.fromTo 0 c3.groups.length with
    | panic => rw [hm] at h; cases h
    | ub => rw [hm] at h; cases h
    | ok mask =>
      rw [hm] at h
      simp only at h
      cases hg : groupEntities mask es (c3.components, c3.groups) with
      | panic => rw [hg] at h; cases h
      | ub => rw [hg] at h; cases h
      | ok p =>
        obtain ⟨comps', gs'⟩ := p
        rw [hg] at h
        simp only [Outcome.ok.injEq, true_and] at h
        subst h
        have hsh : Shape c3 { c3 with components := comps', groups := gs' } :=
          ⟨rfl, (groupEntities_shape _ _ _ hg).1, (groupEntities_shape _ _ _ hg).2⟩
        refine ⟨fun x => by rw [hsh.meta?]; exact hreg x, ?_, hset.2.of_shape hsh⟩
        rw [← hset.1]
        unfold ComponentStorage.setOf
        cases hm3 : c3.meta? t with
        | none => simp only [meta?] at hm3 ⊢; rw [hm3]; rfl
        | some md =>
          have := (groupEntities_frame _ _ _ hg _ (hset.2 md hm3)).1
          simp only [meta?] at hm3 ⊢
          rw [hm3]
          exact this

end Sparsey
