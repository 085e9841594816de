import Verif.Proofs.Store

/-!
The calls on a component storage, in terms of its contents.
-/

set_option autoImplicit false
set_option linter.unusedSimpArgs false

namespace Sparsey
variable {V : Type}

/-- A type of the storage that belongs to a group. -/
def ComponentStorage.GroupedType (c : ComponentStorage V) (t : TypeId) : Prop :=
  ∃ m, c.meta? t = some m ∧ ∃ (k : Nat) (g : Group), c.groups[k]? = some g ∧ InRange g m.storageIndex

/-- Entities with a common grouped component type have the same version. -/
def ContentVers (f : Content V) (grouped : TypeId → Prop) : Prop :=
  ∀ t, grouped t → ∀ x y, (f t x).isSome → (f t y).isSome → x.version = y.version

theorem ContentVers.versOK {A : Entity → Prop} {c : ComponentStorage V} (h : StoreOK A c)
    (hv : ContentVers c.value c.GroupedType) : VersOK (lists c.components) c.groups := by
  intro j g hg s h1 h2 x hx y hy
  obtain ⟨t, m, hm, rfl⟩ := h.mds.cover j g s hg ⟨h1, h2⟩
  exact hv t ⟨m, hm, j, g, hg, h1, h2⟩ x y ((h.mem_lists_iff hm x).1 hx) ((h.mem_lists_iff hm y).1 hy)

theorem GroupedType.of_same {c c' : ComponentStorage V} (hm : c'.metadata = c.metadata)
    (hs : SameStat c.groups c'.groups) (t : TypeId) : c'.GroupedType t ↔ c.GroupedType t := by
  unfold ComponentStorage.GroupedType ComponentStorage.meta?
  rw [hm]
  constructor
  · rintro ⟨m, h1, k, g, h2⟩
    obtain ⟨g', h3⟩ := (hs.exists_range k _).1 ⟨g, h2⟩
    exact ⟨m, h1, k, g', h3⟩
  · rintro ⟨m, h1, k, g, h2⟩
    obtain ⟨g', h3⟩ := (hs.exists_range k _).2 ⟨g, h2⟩
    exact ⟨m, h1, k, g', h3⟩

/-! ### insert -/

section
variable {A : Entity → Prop}

/-- The loop of `insert` on registered types. -/
theorem insertEach_ok (hA : IdxUniq A) {e : Entity} (he : A e) (hu : e.index < u32Size) :
    ∀ (vs : List (TypeId × V)) (mask : BitVec 64) (c : ComponentStorage V), StoreOK A c → FamClosed c.groups mask →
    (∀ p ∈ vs, (c.meta? p.1).isSome) →
    ∃ mask' c', ComponentStorage.insertEach e vs mask c = .ok mask' c' ∧ StoreOK A c' ∧
      c'.value = c.value.setAll e vs ∧ c'.groups = c.groups ∧ c'.metadata = c.metadata ∧ FamClosed c.groups mask' ∧
      (∀ P : Entity → Nat → Prop, GroupedExcept c (fun x k => P x k ∨ (x = e ∧ mask.getLsbD k = true)) →
        GroupedExcept c' (fun x k => P x k ∨ (x = e ∧ mask'.getLsbD k = true))) ∧
      (∀ x k, c'.Shown x k ↔ c.Shown x k) ∧
      (∀ k, mask'.getLsbD k = true ↔ mask.getLsbD k = true ∨
        ∃ p ∈ vs, ∃ m, c.meta? p.1 = some m ∧ m.insertMask.getLsbD k = true) := by
  intro vs
  induction vs with
  | nil =>
    intro mask c h hm _
    exact ⟨mask, c, rfl, h, rfl, rfl, rfl, hm, fun P hP => hP, fun _ _ => Iff.rfl, by simp⟩
  | cons p vs ih =>
    intro mask c h hfm hr
    obtain ⟨t, v⟩ := p
    obtain ⟨m, hm⟩ := Option.isSome_iff_exists.1 (hr (t, v) (by simp))
    obtain ⟨s, s', h1, h2, h3, h4, h5, h6⟩ := h.insertOne hA he hu hm v
    obtain ⟨mask', c', i1, i2, i3, i4, i5, i6, i7, i8, i9⟩ := ih (mask ||| m.insertMask) _ h3
      (hfm.or (h.mds.insertClosed hm)) (fun p hp => hr p (by simp [hp]))
    refine ⟨mask', c', ?_, i2, ?_, i4, i5, i6, ?_, fun x k => (i8 x k).trans (ComponentStorage.shown_same
      (c := c) (c' := { c with components := c.components.set m.storageIndex s' }) rfl h6 x k), ?_⟩
    rotate_left 3
    · intro k
      rw [i9 k, BitVec.getLsbD_or, Bool.or_eq_true, or_assoc]
      refine or_congr_right ?_
      constructor
      · rintro (h7 | ⟨p, h7, h8⟩)
        · exact ⟨(t, v), by simp, m, hm, h7⟩
        · exact ⟨p, List.mem_cons_of_mem _ h7, h8⟩
      · rintro ⟨p, h7, m', h8, h9⟩
        rcases List.mem_cons.1 h7 with rfl | h7
        · rw [hm] at h8
          cases h8
          exact .inl h9
        · exact .inr ⟨p, h7, m', h8, h9⟩
    · unfold ComponentStorage.insertEach
      simp only [hm, h1, h2, Res.unchecked_some, Outcome.ofRes_ok]
      exact i1
    · rw [i3, h4]
      rfl
    · intro P hP
      refine i7 P ((h5 _ hP).mono ?_)
      intro x k hx
      rw [BitVec.getLsbD_or, Bool.or_eq_true]
      tauto

/-- The loop of `insert` up to an unregistered type. -/
theorem insertEach_panic (hA : IdxUniq A) {e : Entity} (he : A e) (hu : e.index < u32Size) {t : TypeId} {v : V}
    {post : List (TypeId × V)} :
    ∀ (vs : List (TypeId × V)) (mask : BitVec 64) (c : ComponentStorage V), StoreOK A c →
    (∀ p ∈ vs, (c.meta? p.1).isSome) → c.meta? t = none →
    ∃ c', ComponentStorage.insertEach e (vs ++ (t, v) :: post) mask c = .panic c' ∧ StoreOK A c' ∧
      c'.value = c.value.setAll e vs ∧ c'.groups = c.groups ∧ c'.metadata = c.metadata ∧
      (∀ P : Entity → Nat → Prop, GroupedExcept c P → GroupedExcept c' (fun x k => P x k ∨ x = e)) ∧
      (∀ (k : Nat) (g : Group), c.groups[k]? = some g → ∀ x,
        InPrefix (lists c'.components) g x ↔ InPrefix (lists c.components) g x) := by
  intro vs
  induction vs with
  | nil =>
    intro mask c h _ hn
    refine ⟨c, ?_, h, rfl, rfl, rfl, fun P hP => hP.mono (fun _ _ => .inl), fun _ _ _ _ => Iff.rfl⟩
    simp [ComponentStorage.insertEach, hn]
  | cons p vs ih =>
    intro mask c h hr hn
    obtain ⟨t', v'⟩ := p
    obtain ⟨m, hm⟩ := Option.isSome_iff_exists.1 (hr (t', v') (by simp))
    obtain ⟨s, s', h1, h2, h3, h4, h5, h6⟩ := h.insertOne hA he hu hm v'
    obtain ⟨c', i1, i2, i3, i4, i5, i7, i8⟩ := ih (mask ||| m.insertMask) _ h3
      (fun p hp => hr p (by simp [hp])) hn
    refine ⟨c', ?_, i2, ?_, i4, i5, ?_, ?_⟩
    · rw [List.cons_append]
      unfold ComponentStorage.insertEach
      simp only [hm, h1, h2, Res.unchecked_some, Outcome.ofRes_ok]
      exact i1
    · rw [i3, h4]
      rfl
    · intro P hP
      refine (i7 _ (h5 P hP)).mono ?_
      rintro x k ((h | ⟨h, _⟩) | h)
      · exact .inl h
      · exact .inr h
      · exact .inr h
    · intro k g hg x
      rw [i8 k g hg x]
      exact h6 k g hg x

/-- If nothing more than `e` can be ungrouped and `e` completes no further group, nothing more is ungrouped. -/
theorem GroupedExcept.of_more {c c' : ComponentStorage V} (h : StoreOK A c) (h' : StoreOK A c') {e : Entity}
    (hgr : c'.groups = c.groups) (hm : c'.metadata = c.metadata) {P : Entity → Nat → Prop} (hg : GroupedExcept c P)
    (hx : GroupedExcept c' (fun x k => P x k ∨ x = e))
    (hp : ∀ (k : Nat) (g : Group), c.groups[k]? = some g → ∀ x,
      InPrefix (lists c'.components) g x ↔ InPrefix (lists c.components) g x)
    (hq : ∀ (k : Nat) (g : Group), c.groups[k]? = some g →
      (∀ t m, c.meta? t = some m → InRange g m.storageIndex → (c'.value t e).isSome) →
      P e k ∨ ∀ t m, c.meta? t = some m → InRange g m.storageIndex → (c.value t e).isSome) : GroupedExcept c' P := by
  intro k g x hk hc
  rcases hx k g x hk hc with h1 | h1 | rfl
  · exact .inl h1
  · exact .inr h1
  · have hk0 : c.groups[k]? = some g := by rw [← hgr]; exact hk
    have hmeta : ∀ t, c'.meta? t = c.meta? t := fun t => by
      unfold ComponentStorage.meta?; rw [hm]
    have h2 := (h'.complete_iff hk x).1 hc
    simp only [hmeta] at h2
    rcases hq k g hk0 h2 with h3 | h3
    · exact .inr h3
    rcases hg k g x hk0 ((h.complete_iff hk0 x).2 h3) with h4 | h4
    · exact .inl ((hp k g hk0 x).2 h4)
    · exact .inr h4

/-- `insert` of registered types. -/
theorem insert_ok (hA : IdxUniq A) {c : ComponentStorage V} (h : StoreOK A c) {P : Entity → Nat → Prop}
    (hg : GroupedExcept c P) {e : Entity}
    (he : A e) (hu : e.index < u32Size) {vs : List (TypeId × V)} (hr : ∀ p ∈ vs, (c.meta? p.1).isSome)
    (hv : EvenPairs (c.insertPairs e vs)) :
    ∃ c', c.insert e vs = .ok () c' ∧ StoreOK A c' ∧ c'.value = c.value.setAll e vs ∧
      SameStat c.groups c'.groups ∧ c'.metadata = c.metadata ∧ GroupedExcept c' P ∧
      ∀ x k, c'.Shown x k ↔ c.Shown x k ∨ (x = e ∧ (∃ p ∈ vs, ∃ m, c.meta? p.1 = some m ∧
        m.insertMask.getLsbD k = true) ∧ c'.Full x k) := by
  obtain ⟨mask, c1, h1, h2, h3, h4, h5, h6, h7, hsh, hmk⟩ := insertEach_ok hA he hu vs 0#64 c h (.zero _) hr
  have h8 := h7 P (hg.mono (fun _ _ => .inl))
  unfold ComponentStorage.insertPairs at hv
  simp only [h1] at hv
  unfold ComponentStorage.insert
  rw [h1]
  simp only [Outcome.bind_ok, ComponentStorage.withMask]
  by_cases hm0 : mask = 0#64
  · subst hm0
    rw [if_pos rfl]
    refine ⟨c1, rfl, h2, h3, by rw [h4]; exact .refl _, h5, h8.mono (by simp), fun x k => ?_⟩
    have := hmk k
    simp only [BitVec.getLsbD_zero, Bool.false_eq_true, false_or, false_iff] at this
    rw [hsh]
    simp [this]
  · rw [if_neg hm0] at hv
    obtain ⟨comps', gs', h9, h10, h11, hsh'⟩ := group_store hA h2 (mask := mask) (by rw [h4]; exact h6) (e := e) hv h8
    rw [if_neg hm0, h9]
    obtain ⟨h12, h13⟩ := h10.store h2
    refine ⟨{ c1 with components := comps', groups := gs' }, rfl, h12, by rw [h13, h3], ?_, h5, h11.mono ?_, ?_⟩
    rotate_left 2
    · intro x k
      have := hmk k
      simp only [BitVec.getLsbD_zero, Bool.false_eq_true, false_or] at this
      rw [hsh', hsh, this, h10.full h2]
    · have := h10.stat
      rw [h4] at this
      exact this
    · rintro x k ⟨h14 | h14, h15⟩
      · exact h14
      · exact (h15 h14).elim

/-- `insert` with an unregistered type. -/
theorem insert_panic (hA : IdxUniq A) {c : ComponentStorage V} (h : StoreOK A c) {P : Entity → Nat → Prop}
    (hg : GroupedExcept c P) {e : Entity}
    (he : A e) (hu : e.index < u32Size) {vs post : List (TypeId × V)} {t : TypeId} {v : V}
    (hr : ∀ p ∈ vs, (c.meta? p.1).isSome) (hn : c.meta? t = none)
    (hq : ∀ (k : Nat) (g : Group), c.groups[k]? = some g →
      (∀ t m, c.meta? t = some m → InRange g m.storageIndex → ((c.value.setAll e vs) t e).isSome) →
      P e k ∨ ∀ t m, c.meta? t = some m → InRange g m.storageIndex → (c.value t e).isSome) :
    ∃ c', c.insert e (vs ++ (t, v) :: post) = .panic c' ∧ StoreOK A c' ∧ c'.value = c.value.setAll e vs ∧
      c'.groups = c.groups ∧ c'.metadata = c.metadata ∧ GroupedExcept c' P ∧ ∀ x k, c'.Shown x k ↔ c.Shown x k := by
  obtain ⟨c1, h1, h2, h3, h4, h5, h7, h8⟩ := insertEach_panic hA he hu vs 0#64 c h hr hn (v := v) (post := post)
  refine ⟨c1, ?_, h2, h3, h4, h5, .of_more h h2 h4 h5 hg (h7 _ hg) h8 (by rw [h3]; exact hq),
    ComponentStorage.shown_same h4 h8⟩
  unfold ComponentStorage.insert
  rw [h1]
  rfl

/-! ### remove and delete -/

/-- Taking an entity out of the groups of some types. -/
theorem ungroup_store (hA : IdxUniq A) {c : ComponentStorage V} (h : StoreOK A c) {P : Entity → Nat → Prop}
    (hg : GroupedExcept c P)
    {mask : BitVec 64} (hm : UpClosed c.groups mask) (e : Entity)
    (hv : mask ≠ 0#64 → EvenPairs (ungroupPairs (c.components, c.groups) mask e)) :
    ∃ c', c.withMask mask (ungroup · mask e) = .ok c' ∧ StoreOK A c' ∧ c'.value = c.value ∧
      SameStat c.groups c'.groups ∧ c'.metadata = c.metadata ∧
      GroupedExcept c' (fun x k => P x k ∨ x = e ∧ mask.getLsbD k = true) ∧
      (∀ (k : Nat) (g : Group), mask.getLsbD k = true → c'.groups[k]? = some g →
        ¬ InPrefix (lists c'.components) g e) ∧
      ∀ x k, c'.Shown x k ↔ c.Shown x k ∧ ¬ (x = e ∧ mask.getLsbD k = true) := by
  unfold ComponentStorage.withMask
  by_cases hm0 : mask = 0#64
  · subst hm0
    rw [if_pos rfl]
    exact ⟨c, rfl, h, rfl, .refl _, rfl, hg.mono (fun _ _ => .inl), by simp, by simp⟩
  · simp only [if_neg hm0]
    obtain ⟨comps', gs', h1, h2, h3, h4⟩ := ungroup_ok hA (e := e) (m := mask) h.sets h.gstat h.packed (hv hm0) hm.1
      (fun j p gj gp hj hjp hgj hgp hf => .inl (hm.2 j p gj gp hj hjp hgj hgp hf))
    obtain ⟨h5, h6⟩ := h2.store h
    rw [h1]
    refine ⟨{ c with components := comps', groups := gs' }, rfl, h5, h6, h2.stat, rfl, ?_, h4, ?_⟩
    rotate_left
    · intro x k
      constructor
      · rintro ⟨g, h7, h8⟩
        obtain ⟨g0, h9, h10⟩ := h2.stat.get h7
        by_cases hx : x = e ∧ mask.getLsbD k = true
        · obtain ⟨rfl, hx⟩ := hx
          exact absurd h8 (h4 k g hx h7)
        · refine ⟨⟨g0, h9, (h3 k g0 g h9 h7 x ?_).1 h8⟩, hx⟩
          by_cases hxe : x = e
          · left
            simpa [hxe] using hx
          · exact .inr hxe
      · rintro ⟨⟨g0, h7, h8⟩, hx⟩
        have hk : k < gs'.length := by
          rw [h2.stat.length]
          exact (List.getElem?_eq_some_iff.1 h7).1
        refine ⟨_, List.getElem?_eq_getElem hk, (h3 k g0 _ h7 (List.getElem?_eq_getElem hk) x ?_).2 h8⟩
        by_cases hxe : x = e
        · left
          simpa [hxe] using hx
        · exact .inr hxe
    intro k g x hg' hc
    obtain ⟨g0, hg0, hs⟩ := h2.stat.get hg'
    by_cases hx : x = e ∧ mask.getLsbD k = true
    · exact .inr (.inr hx)
    · rcases hg k g0 x hg0 ((h2.vals.complete h.sets h2.ok hs x).1 hc) with h7 | h7
      · left
        refine (h3 k g0 g hg0 hg' x ?_).2 h7
        by_cases hxe : x = e
        · left
          simpa [hxe] using hx
        · exact .inr hxe
      · exact .inr (.inl h7)

/-- The loop of `remove` and `delete`. -/
theorem removeEach_ok {e : Entity} : ∀ (ts : List TypeId) (c : ComponentStorage V), StoreOK A c →
    (∀ t ∈ ts, (c.meta? t).isSome) →
    (∀ t ∈ ts, ∀ (k : Nat) (g : Group), c.groups[k]? = some g → InRange g (c.idxOf t) →
      ¬ InPrefix (lists c.components) g e) →
    ∃ c', ComponentStorage.removeEach e (ts.map c.idxOf) c = .ok (c.value.removed e ts, c') ∧
      ComponentStorage.deleteEach e (ts.map c.idxOf) c = .ok c' ∧
      StoreOK A c' ∧ c'.value = c.value.eraseAll e ts ∧ c'.groups = c.groups ∧ c'.metadata = c.metadata ∧
      (∀ (k : Nat) (g : Group), c.groups[k]? = some g → ∀ x,
        InPrefix (lists c'.components) g x ↔ InPrefix (lists c.components) g x) := by
  intro ts
  induction ts with
  | nil => intro c h _ _; exact ⟨c, rfl, rfl, h, rfl, rfl, rfl, fun _ _ _ _ => Iff.rfl⟩
  | cons t ts ih =>
    intro c h hr hn
    obtain ⟨m, hm⟩ := Option.isSome_iff_exists.1 (hr t (by simp))
    have hidx := c.idxOf_eq hm
    obtain ⟨s, s', h1, h2, h2', h3, h4, h5⟩ := h.removeOne hm (e := e) (by
      intro k g hg hr
      exact hn t (by simp) k g hg (by rw [hidx]; exact hr))
    obtain ⟨c', i1, i1', i2, i3, i4, i5, i6⟩ := ih { c with components := c.components.set m.storageIndex s' } h3
      (fun t' ht' => hr t' (by simp [ht'])) (by
        intro t' ht' k g hg hr hp
        exact hn t' (by simp [ht']) k g hg hr ((h5 k g hg e).1 hp))
    have hmap : ts.map ({ c with components := c.components.set m.storageIndex s' } : ComponentStorage V).idxOf =
        ts.map c.idxOf := rfl
    rw [hmap] at i1 i1'
    refine ⟨c', ?_, ?_, i2, ?_, i4, i5, ?_⟩
    · rw [List.map_cons, hidx]
      unfold ComponentStorage.removeEach
      simp only [h1, h2, i1, Res.unchecked_some, Res.bind_ok, Res.pure_eq, h4]
      rfl
    · rw [List.map_cons, hidx]
      unfold ComponentStorage.deleteEach
      simp only [h1, h2', i1', Res.unchecked_some, Res.bind_ok]
    · rw [i3, h4]
      rfl
    · intro k g hg x
      rw [i6 k g hg x]
      exact h5 k g hg x

/-- `remove` and `delete` of registered types. -/
theorem remove_ok (hA : IdxUniq A) {c : ComponentStorage V} (h : StoreOK A c) {P : Entity → Nat → Prop}
    (hg : GroupedExcept c P)
    {e : Entity} {ts : List TypeId} (hv : EvenPairs (c.removePairs e ts))
    (hr : ∀ t ∈ ts, (c.meta? t).isSome) :
    ∃ c', c.remove e ts = .ok (c.value.removed e ts, c') ∧ c.delete e ts = .ok c' ∧ StoreOK A c' ∧
      c'.value = c.value.eraseAll e ts ∧ SameStat c.groups c'.groups ∧ c'.metadata = c.metadata ∧
      GroupedExcept c' P ∧
      ∀ x k, c'.Shown x k ↔ c.Shown x k ∧ ¬ (x = e ∧ ∃ t ∈ ts, ∃ m, c.meta? t = some m ∧
        m.deleteMask.getLsbD k = true) := by
  obtain ⟨mask, h1, h2⟩ := lookupAll_ok h (·.deleteMask) ts hr
  obtain ⟨c1, h3, h4, h5, h6, h7, h8, h9, hsh⟩ := ungroup_store hA h hg (.ofTypes h h2) e (fun hm0 => by
    unfold ComponentStorage.removePairs at hv
    simp only [h1, if_neg hm0] at hv
    exact hv)
  have hmeta : ∀ t, c1.meta? t = c.meta? t := fun t => by
    unfold ComponentStorage.meta?; rw [h7]
  have hidx : ∀ t, c1.idxOf t = c.idxOf t := fun t => by
    unfold ComponentStorage.idxOf; rw [hmeta]
  have hmask : ∀ t ∈ ts, ∀ (k : Nat) (g : Group), c1.groups[k]? = some g → InRange g (c1.idxOf t) →
      mask.getLsbD k = true := by
    intro t ht k g hk hrg
    obtain ⟨m, hm⟩ := Option.isSome_iff_exists.1 (hr t ht)
    obtain ⟨g0, h10, h11⟩ := h6.get hk
    refine (h2 k).2 ⟨t, ht, m, hm, (h.mds.del t m k hm).2 ⟨g0, h10, ?_⟩⟩
    rw [hidx, c.idxOf_eq hm] at hrg
    exact (InRange.stat h11 _).1 hrg
  obtain ⟨c2, i1, i1', i2, i3, i4, i5, i6⟩ := removeEach_ok (e := e) ts c1 h4
    (fun t ht => by rw [hmeta]; exact hr t ht)
    (fun t ht k g hk hrg => h9 k g (hmask t ht k g hk hrg) hk)
  have hmap : ts.map c1.idxOf = ts.map c.idxOf := by
    apply List.map_congr_left
    intro t _
    exact hidx t
  rw [hmap] at i1 i1'
  refine ⟨c2, ?_, ?_, i2, by rw [i3, h5], by rw [i4]; exact h6, by rw [i5, h7], ?_, fun x k => ?_⟩
  rotate_left 3
  · rw [ComponentStorage.shown_same i4 i6, hsh, h2]
  · unfold ComponentStorage.remove
    rw [h1]
    simp only [Res.bind_ok, h3, i1, h5]
  · unfold ComponentStorage.delete
    rw [h1]
    simp only [Res.bind_ok, h3, i1']
  · intro k g x hk hc
    rw [i4] at hk
    rw [i6 k g hk]
    have hsub : Complete (lists c1.components) g x := by
      intro i h11 h12
      obtain ⟨t, m, hm, rfl⟩ := h4.mds.cover k g i hk ⟨h11, h12⟩
      rw [h4.mem_lists_iff hm]
      have h13 := hc m.storageIndex h11 h12
      rw [i2.mem_lists_iff (t := t) (m := m) (by unfold ComponentStorage.meta?; rw [i5]; exact hm), i3,
        Content.eraseAll_eq] at h13
      simp only at h13
      split at h13
      · cases h13
      · exact h13
    rcases h8 k g x hk hsub with h13 | h13 | ⟨rfl, h13⟩
    · exact .inl h13
    · exact .inr h13
    · exfalso
      obtain ⟨t, ht, m, hm, h14⟩ := (h2 k).1 h13
      have hm1 : c1.meta? t = some m := by rw [hmeta]; exact hm
      obtain ⟨g0, h15, h16⟩ := (h4.mds.del t m k hm1).1 h14
      rw [hk] at h15
      cases h15
      have h17 := hc m.storageIndex h16.1 h16.2
      rw [i2.mem_lists_iff (t := t) (m := m) (by unfold ComponentStorage.meta?; rw [i5]; exact hm1), i3,
        Content.eraseAll_eq] at h17
      simp [ht] at h17

theorem remove_panic {c : ComponentStorage V} {e : Entity} {ts : List TypeId}
    (hn : ∃ t ∈ ts, c.meta? t = none) : c.remove e ts = .panic ∧ c.delete e ts = .panic := by
  unfold ComponentStorage.remove ComponentStorage.delete
  rw [lookupAll_panic _ ts hn]
  exact ⟨rfl, rfl⟩

/-! ### strip and clear -/

theorem deleteAll_ok {e : Entity} : ∀ (comps : List (CompSet V)), (∀ s ∈ comps, s.WF) →
    ∃ comps', ComponentStorage.deleteAll e comps = .ok comps' ∧ comps'.length = comps.length ∧
      ∀ (i : Nat) (s s' : CompSet V), comps[i]? = some s → comps'[i]? = some s' → s'.WF ∧
        (∀ x, s'.val x = if x = e then none else s.val x) ∧
        (∀ n : Nat, (∀ d : Nat, s.entities[d]? = some e → n ≤ d) → n ≤ s.entities.length → ∀ p < n,
          s'.entities[p]? = s.entities[p]?) := by
  intro comps
  induction comps with
  | nil => intro _; exact ⟨[], rfl, rfl, by simp⟩
  | cons s comps ih =>
    intro hw
    obtain ⟨comps', h1, h2, h3⟩ := ih (fun s hs => hw s (by simp [hs]))
    have hws := hw s (by simp)
    have : ∃ s', s.delete e = .ok s' ∧ s'.WF ∧
        (∀ x, s'.val x = if x = e then none else s.val x) ∧
        (∀ n : Nat, (∀ d : Nat, s.entities[d]? = some e → n ≤ d) → n ≤ s.entities.length → ∀ p < n,
          s'.entities[p]? = s.entities[p]?) := by
      by_cases he : e ∈ s.entities
      · obtain ⟨d, hd⟩ := List.mem_iff_getElem?.1 he
        obtain ⟨s', _, h6, h7, h8, h9⟩ := hws.remove_present hd
        refine ⟨s', h6, h7, h9, fun n hn hl p hp => ?_⟩
        have h10 := hn d hd
        have hdl := (List.getElem?_eq_some_iff.1 hd).1
        rw [h8, if_pos (by omega), if_neg (by omega)]
      · refine ⟨s, (hws.remove_absent he).2, hws, fun x => ?_, fun _ _ _ _ _ => rfl⟩
        split
        · rename_i hx; rw [hx, (hws.val_eq_none e).2 he]
        · rfl
    obtain ⟨s', h4, h5⟩ := this
    refine ⟨s' :: comps', ?_, by simp [h2], ?_⟩
    · unfold ComponentStorage.deleteAll
      simp [h4, h1]
    · intro i a a' ha ha'
      cases i with
      | zero =>
        simp at ha ha'
        subst ha ha'
        exact h5
      | succ i =>
        simp at ha ha'
        exact h3 i a a' ha ha'

/-- `strip`. -/
theorem strip_ok (hA : IdxUniq A) {c : ComponentStorage V} (h : StoreOK A c) {P : Entity → Nat → Prop}
    (hg : GroupedExcept c P)
    (e : Entity) (hv : EvenPairs (ungroupAllPairs (c.components, c.groups) e)) :
    ∃ c', c.strip e = .ok c' ∧ StoreOK (fun x => A x ∧ x ≠ e) c' ∧ c'.value = c.value.strip e ∧
      SameStat c.groups c'.groups ∧ c'.metadata = c.metadata ∧ GroupedExcept c' P ∧
      ∀ x k, c'.Shown x k ↔ c.Shown x k ∧ x ≠ e := by
  obtain ⟨comps1, gs1, h1, h2, h3, h4⟩ := ungroupAll_ok hA (e := e) h.sets h.gstat h.packed hv
  obtain ⟨h5, h6⟩ := h2.store h
  obtain ⟨comps2, h7, h8, h9⟩ := deleteAll_ok (e := e) comps1 h2.ok.wf
  have hget : ∀ (i : Nat) (s : CompSet V), comps2[i]? = some s → ∃ s0, comps1[i]? = some s0 ∧
      s.WF ∧ (∀ x, s.val x = if x = e then none else s0.val x) ∧
        (∀ n : Nat, (∀ d : Nat, s0.entities[d]? = some e → n ≤ d) → n ≤ s0.entities.length → ∀ p < n,
          s.entities[p]? = s0.entities[p]?) := by
    intro i s hs
    have hi : i < comps1.length := by
      rw [← h8]; exact (List.getElem?_eq_some_iff.1 hs).1
    exact ⟨_, List.getElem?_eq_getElem hi, h9 i _ s (List.getElem?_eq_getElem hi) hs⟩
  have hmem : ∀ i x, x ∈ lists comps2 i ↔ x ≠ e ∧ x ∈ lists comps1 i := by
    intro i x
    by_cases hi : i < comps2.length
    · obtain ⟨s0, h10, h11, h12, _⟩ := hget i _ (List.getElem?_eq_getElem hi)
      rw [lists_some (List.getElem?_eq_getElem hi), lists_some h10, h11.mem_iff, h12,
        (h2.ok.wf s0 (List.mem_of_getElem? h10)).mem_iff]
      by_cases hx : x = e <;> simp [hx]
    · have hi' : ¬ i < comps1.length := by rw [← h8]; exact hi
      rw [lists_none (comps := comps2) (by simpa using hi), lists_none (comps := comps1) (by simpa using hi')]
      simp
  have hpos : ∀ (k : Nat) (g : Group), gs1[k]? = some g → ∀ i, InRange g i → ∀ p < g.len,
      (lists comps2 i)[p]? = (lists comps1 i)[p]? := by
    intro k g hk i hi p hp
    have hb := h5.gstat.bounds k g hk
    have hil : i < comps2.length := by
      rw [h8]
      exact lt_of_lt_of_le hi.2 hb.2.2
    obtain ⟨s0, h10, h11, h12, h13⟩ := hget i _ (List.getElem?_eq_getElem hil)
    rw [lists_some (List.getElem?_eq_getElem hil), lists_some h10]
    refine h13 g.len ?_ (h5.len_le h10 hk hi) p hp
    intro d hd
    exact pos_ge_len h5.sets h5.gstat h5.packed hk (h4 k g hk) hi.1 hi.2 (by
      show (lists comps1 i)[d]? = some e
      rw [lists_some h10]; exact hd)
  have hpre : ∀ (k : Nat) (g : Group), gs1[k]? = some g → ∀ x,
      InPrefix (lists comps2) g x ↔ InPrefix (lists comps1) g x := by
    intro k g hk x
    have hb := h5.gstat.bounds k g hk
    unfold InPrefix
    constructor
    · rintro ⟨p, hp, hx⟩
      exact ⟨p, hp, by rw [← hpos k g hk _ ⟨Nat.le_refl _, by omega⟩ p hp]; exact hx⟩
    · rintro ⟨p, hp, hx⟩
      exact ⟨p, hp, by rw [hpos k g hk _ ⟨Nat.le_refl _, by omega⟩ p hp]; exact hx⟩
  refine ⟨{ c with groups := gs1, components := comps2 }, ?_, ⟨?_, ?_, ⟨?_, ?_⟩, ⟨?_, h5.packed.nested⟩⟩, ?_, h2.stat,
    rfl, ?_, ?_⟩
  · unfold ComponentStorage.strip
    rw [h1]
    simp only [Res.bind_ok, h7, Res.pure_eq]
  · show GStat gs1 comps2.length
    rw [h8]; exact h5.gstat
  · show MetaOK gs1 c.metadata comps2.length
    rw [h8]; exact h5.mds
  · intro s hs
    obtain ⟨i, hi⟩ := List.mem_iff_getElem?.1 hs
    obtain ⟨_, _, h10, _⟩ := hget i s hi
    exact h10
  · intro s hs x hx
    obtain ⟨i, hi⟩ := List.mem_iff_getElem?.1 hs
    obtain ⟨s0, h10, h11, _⟩ := hget i s hi
    have := (hmem i x).1 (by rw [lists_some hi]; exact hx)
    rw [lists_some h10] at this
    exact ⟨h2.ok.sub s0 (List.mem_of_getElem? h10) x this.2, this.1⟩
  · intro j g hk p hp
    obtain ⟨x, hx⟩ := h5.packed.aligned j g hk p hp
    refine ⟨x, fun q h10 h11 => ?_⟩
    show (lists comps2 q)[p]? = _
    rw [hpos j g hk q ⟨h10, h11⟩ p hp]
    exact hx q h10 h11
  · rw [← h6]
    funext t x
    cases hm : c.meta? t with
    | none =>
      unfold Content.strip
      rw [ComponentStorage.value_none (c := { c with components := comps2, groups := gs1 }) hm,
        ComponentStorage.value_none (c := { c with components := comps1, groups := gs1 }) hm]
      simp
    | some m =>
      have hi : m.storageIndex < comps2.length := by
        rw [h8, h2.vals.1]; exact h.mds.idx t m hm
      obtain ⟨s0, h10, h11, h12, _⟩ := hget _ _ (List.getElem?_eq_getElem hi)
      unfold Content.strip
      rw [ComponentStorage.value_eq (c := { c with components := comps2, groups := gs1 }) hm
          (List.getElem?_eq_getElem hi),
        ComponentStorage.value_eq (c := { c with components := comps1, groups := gs1 }) hm h10, h12]
  · intro k g x hk hc
    show InPrefix (lists comps2) g x ∨ _
    rw [hpre k g hk]
    obtain ⟨g0, hg0, hs⟩ := h2.stat.get hk
    have hb := h5.gstat.bounds k g hk
    have hx : x ≠ e := ((hmem g.storageStart x).1 (hc g.storageStart (Nat.le_refl _) (by omega))).1
    rw [h3 k g0 g hg0 hk x hx]
    have hcomp : Complete (lists comps1) g x := fun i h10 h11 => ((hmem i x).1 (hc i h10 h11)).2
    rcases hg k g0 x hg0 ((h2.vals.complete h.sets h2.ok hs x).1 hcomp) with h10 | h10
    · exact .inl h10
    · exact .inr h10
  · intro x k
    constructor
    · rintro ⟨g, h10, h11⟩
      have h12 := (hpre k g h10 x).1 h11
      obtain ⟨g0, h13, _⟩ := h2.stat.get h10
      have hx : x ≠ e := by
        rintro rfl
        exact h4 k g h10 h12
      exact ⟨⟨g0, h13, (h3 k g0 g h13 h10 x hx).1 h12⟩, hx⟩
    · rintro ⟨⟨g0, h10, h11⟩, hx⟩
      have hk : k < gs1.length := by
        rw [h2.stat.length]
        exact (List.getElem?_eq_some_iff.1 h10).1
      have hg1 : gs1[k]? = some gs1[k] := List.getElem?_eq_getElem hk
      exact ⟨_, hg1, (hpre k _ hg1 x).2 ((h3 k g0 _ h10 hg1 x hx).2 h11)⟩

/-- `clear`. -/
theorem clear_ok {c : ComponentStorage V} (h : StoreOK A c) :
    StoreOK (fun _ => False) c.clear ∧ c.clear.value = (fun _ _ => none) ∧ SameStat c.groups c.clear.groups ∧
      c.clear.metadata = c.metadata ∧ AllGrouped c.clear := by
  have hst : SameStat c.groups c.clear.groups := by
    unfold SameStat ComponentStorage.clear
    simp [Group.stat, Function.comp_def]
  have hlists : ∀ i, lists c.clear.components i = [] := by
    intro i
    unfold lists ComponentStorage.clear
    simp only [List.getElem?_map]
    cases c.components[i]? <;> rfl
  have hlen : ∀ (k : Nat) (g : Group), c.clear.groups[k]? = some g → g.len = 0 := by
    intro k g hk
    simp only [ComponentStorage.clear, List.getElem?_map, Option.map_eq_some_iff] at hk
    obtain ⟨g', _, rfl⟩ := hk
    rfl
  have hcl : c.clear.components.length = c.components.length := by simp [ComponentStorage.clear]
  have hsets : SetsOK (fun _ => False) c.clear.components := by
    constructor
    · intro s hs
      simp only [ComponentStorage.clear, List.mem_map] at hs
      obtain ⟨s', _, rfl⟩ := hs
      exact CompSet.wf_clear s'
    · intro s hs x hx
      simp only [ComponentStorage.clear, List.mem_map] at hs
      obtain ⟨s', _, rfl⟩ := hs
      simp [CompSet.clear] at hx
  have hst' : GStat c.clear.groups c.clear.components.length := by
    rw [hcl]; exact h.gstat.of_same hst
  refine ⟨⟨hst', ?_, hsets, ⟨?_, ?_⟩⟩, ?_, hst, rfl, ?_⟩
  · rw [hcl]; exact h.mds.of_same hst
  · intro j g hk p hp
    rw [hlen j g hk] at hp
    omega
  · intro i j gi gj hij hi hj hs
    rw [hlen j gj hj]
    exact Nat.zero_le _
  · funext t x
    unfold ComponentStorage.value ComponentStorage.clear ComponentStorage.meta?
    cases c.metadata.lookup t with
    | none => rfl
    | some m =>
      simp only [List.getElem?_map]
      cases c.components[m.storageIndex]? with
      | none => rfl
      | some s => exact CompSet.val_clear s x
  · intro k g x hk hc
    have hb := hst'.bounds k g hk
    have := hc g.storageStart (Nat.le_refl _) (by omega)
    rw [hlists] at this
    cases this

/-! ### register -/

theorem lookup_filter_ne {β : Type} (l : List (TypeId × β)) (t t' : TypeId) (h : t' ≠ t) :
    (l.filter (fun p => p.1 != t)).lookup t' = l.lookup t' := by
  induction l with
  | nil => rfl
  | cons p l ih =>
    obtain ⟨a, b⟩ := p
    by_cases ha : a = t
    · subst ha
      have : (t' == a) = false := by simpa using h
      simp [List.lookup_cons, this, ih]
    · by_cases hb : t' = a
      · subst hb
        simp [List.lookup_cons, ha]
      · have : (t' == a) = false := by simpa using hb
        simp [List.lookup_cons, ha, this, ih]

theorem insertMeta_lookup (md : List (TypeId × ComponentMetadata)) (t t' : TypeId) (m : ComponentMetadata) :
    (ComponentStorage.insertMeta md t m).lookup t' = if t' = t then some m else md.lookup t' := by
  unfold ComponentStorage.insertMeta
  by_cases h : t' = t
  · subst h; simp [List.lookup_cons]
  · have : (t' == t) = false := by simpa using h
    simp [List.lookup_cons, this, h, lookup_filter_ne _ _ _ h]

theorem lists_append {comps : List (CompSet V)} {n : Nat} (hi : n < comps.length) (ss : List (CompSet V)) :
    lists (comps ++ ss) n = lists comps n := by
  unfold lists
  rw [List.getElem?_append_left hi]

theorem lookup_isSome {β : Type} (l : List (TypeId × β)) (t : TypeId) : (l.lookup t).isSome ↔ t ∈ l.map Prod.fst := by
  induction l with
  | nil => simp
  | cons p l ih =>
    obtain ⟨a, b⟩ := p
    by_cases h : t = a
    · subst h; simp [List.lookup_cons]
    · have : (t == a) = false := by simpa using h
      simp only [List.lookup_cons, this, List.map_cons, List.mem_cons, h, false_or]
      exact ih

theorem lookup_none {β : Type} (l : List (TypeId × β)) (t : TypeId) : l.lookup t = none ↔ t ∉ l.map Prod.fst := by
  rw [← lookup_isSome]
  cases l.lookup t <;> simp

theorem lookup_some {β : Type} {l : List (TypeId × β)} (hn : (l.map Prod.fst).Nodup) (t : TypeId) (b : β) :
    l.lookup t = some b ↔ (t, b) ∈ l := by
  induction l with
  | nil => simp
  | cons p l ih =>
    obtain ⟨a, b'⟩ := p
    simp only [List.map_cons, List.nodup_cons] at hn
    by_cases h : t = a
    · subst h
      simp only [List.lookup_cons, beq_self_eq_true, List.mem_cons, Prod.mk.injEq, true_and, Option.some.injEq]
      constructor
      · rintro rfl; exact .inl rfl
      · rintro (rfl | h)
        · rfl
        · exact absurd (List.mem_map.2 ⟨_, h, rfl⟩) hn.1
    · have : (t == a) = false := by simpa using h
      simp only [List.lookup_cons, this, List.mem_cons, Prod.mk.injEq, h, false_and, false_or]
      exact ih hn.2

theorem insertMeta_keys {md : List (TypeId × ComponentMetadata)} (h : (md.map Prod.fst).Nodup) (t : TypeId)
    (m : ComponentMetadata) : ((ComponentStorage.insertMeta md t m).map Prod.fst).Nodup := by
  unfold ComponentStorage.insertMeta
  simp only [List.map_cons, List.nodup_cons, List.mem_map, List.mem_filter, not_exists, not_and]
  refine ⟨?_, ?_⟩
  · rintro ⟨a, b⟩ ⟨_, h1⟩ h2
    simp at h1 h2
    exact h1 h2
  · exact List.Nodup.sublist (List.filter_sublist.map _) h

/-- Adds a set for a type outside the groups. -/
def ComponentStorage.addSet (c : ComponentStorage V) (t : TypeId) (s : CompSet V) : ComponentStorage V :=
  { c with
    metadata := insertMeta c.metadata t ⟨c.components.length, 0#64, 0#64, none⟩
    components := c.components ++ [s] }

/-- Adding a set for an unregistered type, as far as the layout is concerned. -/
theorem addSet_stat {c : ComponentStorage V} (h : StoreStat c) {t : TypeId} (hm : c.meta? t = none) (s : CompSet V) :
    StoreStat (c.addSet t s) ∧
      (∀ t', ((c.addSet t s).meta? t').isSome ↔ t' = t ∨ (c.meta? t').isSome) ∧
      (∀ t' (k : Nat) (g : Group), c.groups[k]? = some g →
        ((∃ m, (c.addSet t s).meta? t' = some m ∧ InRange g m.storageIndex) ↔
          ∃ m, c.meta? t' = some m ∧ InRange g m.storageIndex)) := by
  have hlook : ∀ t', (ComponentStorage.insertMeta c.metadata t ⟨c.components.length, 0#64, 0#64, none⟩).lookup t' =
      if t' = t then some ⟨c.components.length, 0#64, 0#64, none⟩ else c.metadata.lookup t' :=
    fun t' => insertMeta_lookup _ _ _ _
  have hcl : (c.components ++ [s]).length = c.components.length + 1 := by simp
  have hrange : ∀ (k : Nat) (g : Group), c.groups[k]? = some g → ∀ i, InRange g i → i < c.components.length :=
    fun k g hk i hi => lt_of_lt_of_le hi.2 (h.gstat.bounds k g hk).2.2
  have hnot : ∀ (k : Nat) (g : Group), c.groups[k]? = some g → ¬ InRange g c.components.length :=
    fun k g hk hi => absurd (hrange k g hk _ hi) (by omega)
  have hinv : ∀ t' m', (ComponentStorage.insertMeta c.metadata t
      ⟨c.components.length, 0#64, 0#64, none⟩).lookup t' = some m' →
      (t' = t ∧ m' = ⟨c.components.length, 0#64, 0#64, none⟩) ∨ (t' ≠ t ∧ c.metadata.lookup t' = some m') := by
    intro t' m' hm'
    rw [hlook] at hm'
    split at hm'
    · rename_i ht
      simp only [Option.some.injEq] at hm'
      exact .inl ⟨ht, hm'.symm⟩
    · rename_i ht
      exact .inr ⟨ht, hm'⟩
  unfold ComponentStorage.addSet
  refine ⟨⟨?_, ⟨?_, ?_, ?_, ?_, ?_, ?_, ?_, ?_⟩⟩, ?_, ?_⟩
  · show GStat c.groups (c.components ++ [s]).length
    exact h.gstat.mono (by omega)
  · exact insertMeta_keys h.mds.keys _ _
  · intro t' m' hm'
    simp only [hcl]
    rcases hinv t' m' hm' with ⟨rfl, rfl⟩ | ⟨_, h1⟩
    · simp
    · have := h.mds.idx t' m' h1
      omega
  · intro t1 t2 m1 m2 hm1 hm2 hidx
    rcases hinv t1 m1 hm1 with ⟨rfl, rfl⟩ | ⟨_, h1⟩ <;> rcases hinv t2 m2 hm2 with ⟨rfl, rfl⟩ | ⟨_, h2⟩
    · rfl
    · have := h.mds.idx t2 m2 h2
      simp at hidx
      omega
    · have := h.mds.idx t1 m1 h1
      simp at hidx
      omega
    · exact h.mds.inj t1 t2 m1 m2 h1 h2 hidx
  · intro j g i hk hi
    obtain ⟨t', m', h1, h2⟩ := h.mds.cover j g i hk hi
    refine ⟨t', m', ?_, h2⟩
    show (ComponentStorage.insertMeta _ _ _).lookup t' = _
    rw [hlook, if_neg, h1]
    rintro rfl
    unfold ComponentStorage.meta? at hm
    rw [hm] at h1
    cases h1
  · intro t' m' k hm'
    rcases hinv t' m' hm' with ⟨rfl, rfl⟩ | ⟨_, h1⟩
    · simp only [BitVec.getLsbD_zero, Bool.false_eq_true, false_iff, not_exists, not_and]
      exact fun g hk => hnot k g hk
    · exact h.mds.del t' m' k h1
  · intro t' m' k hm'
    rcases hinv t' m' hm' with ⟨rfl, rfl⟩ | ⟨_, h1⟩
    · simp only [BitVec.getLsbD_zero, Bool.false_eq_true, false_iff, not_exists, not_and]
      exact fun _ k' g' _ hk _ => hnot k' g' hk
    · exact h.mds.ins t' m' k h1
  · intro t' m' hm' hi j g hk
    rcases hinv t' m' hm' with ⟨rfl, rfl⟩ | ⟨_, h1⟩
    · exact hnot j g hk
    · exact h.mds.infoNone t' m' h1 hi j g hk
  · intro t' m' i hm' hi
    rcases hinv t' m' hm' with ⟨rfl, rfl⟩ | ⟨_, h1⟩
    · cases hi
    · exact h.mds.infoSome t' m' i h1 hi
  · intro t'
    unfold ComponentStorage.meta?
    simp only [hlook]
    by_cases ht : t' = t
    · simp [ht]
    · simp [ht]
  · intro t' k g hk
    unfold ComponentStorage.meta?
    simp only [hlook]
    constructor
    · rintro ⟨m', h1, h3⟩
      split at h1
      · simp only [Option.some.injEq] at h1
        subst h1
        exact absurd h3 (hnot k g hk)
      · exact ⟨m', h1, h3⟩
    · rintro ⟨m', h1, h3⟩
      refine ⟨m', ?_, h3⟩
      rw [if_neg]
      · exact h1
      · rintro rfl
        unfold ComponentStorage.meta? at hm
        rw [hm] at h1
        cases h1

/-- Adding a set for an unregistered type. -/
theorem addSet_ok {c : ComponentStorage V} (h : StoreOK A c) {t : TypeId} (hm : c.meta? t = none) {s : CompSet V}
    (hw : s.WF) (hsub : ∀ x ∈ s.entities, A x) :
    StoreOK A (c.addSet t s) ∧ (c.addSet t s).groups = c.groups ∧
      (∀ P, GroupedExcept c P → GroupedExcept (c.addSet t s) P) ∧
      (∀ t' x, (c.addSet t s).value t' x = if t' = t then s.val x else c.value t' x) ∧
      (∀ t', ((c.addSet t s).meta? t').isSome ↔ t' = t ∨ (c.meta? t').isSome) ∧
      (∀ t' (k : Nat) (g : Group), c.groups[k]? = some g →
        ((∃ m, (c.addSet t s).meta? t' = some m ∧ InRange g m.storageIndex) ↔
          ∃ m, c.meta? t' = some m ∧ InRange g m.storageIndex)) ∧
      ∀ x k, (c.addSet t s).Shown x k ↔ c.Shown x k := by
  obtain ⟨i1, i2, i3⟩ := addSet_stat h.stat hm s
  have hlook : ∀ t', (ComponentStorage.insertMeta c.metadata t ⟨c.components.length, 0#64, 0#64, none⟩).lookup t' =
      if t' = t then some ⟨c.components.length, 0#64, 0#64, none⟩ else c.metadata.lookup t' :=
    fun t' => insertMeta_lookup _ _ _ _
  have hcl : (c.components ++ [s]).length = c.components.length + 1 := by simp
  have hrange : ∀ (k : Nat) (g : Group), c.groups[k]? = some g → ∀ i, InRange g i → i < c.components.length :=
    fun k g hk i hi => lt_of_lt_of_le hi.2 (h.gstat.bounds k g hk).2.2
  have hnot : ∀ (k : Nat) (g : Group), c.groups[k]? = some g → ¬ InRange g c.components.length :=
    fun k g hk hi => absurd (hrange k g hk _ hi) (by omega)
  have hl : ∀ (k : Nat) (g : Group), c.groups[k]? = some g → ∀ i, InRange g i →
      lists (c.components ++ [s]) i = lists c.components i :=
    fun k g hk i hi => lists_append (hrange k g hk i hi) _
  have hpre : ∀ (k : Nat) (g : Group), c.groups[k]? = some g → ∀ x,
      InPrefix (lists (c.components ++ [s])) g x ↔ InPrefix (lists c.components) g x := by
    intro k g hk x
    have hb := h.gstat.bounds k g hk
    unfold InPrefix
    rw [hl k g hk _ ⟨Nat.le_refl _, by omega⟩]
  unfold ComponentStorage.addSet at i1 i2 i3 ⊢
  refine ⟨⟨i1.gstat, i1.mds, ⟨?_, ?_⟩, ⟨?_, h.packed.nested⟩⟩, rfl, ?_, ?_, i2, i3,
    ComponentStorage.shown_same rfl hpre⟩
  · intro s' hs
    rcases List.mem_append.1 hs with hs | hs
    · exact h.sets.wf s' hs
    · simp at hs; subst hs; exact hw
  · intro s' hs x hx
    rcases List.mem_append.1 hs with hs | hs
    · exact h.sets.sub s' hs x hx
    · simp at hs; subst hs; exact hsub x hx
  · intro j g hk p hp
    obtain ⟨x, hx⟩ := h.packed.aligned j g hk p hp
    refine ⟨x, fun q h1 h2 => ?_⟩
    show (lists (c.components ++ [s]) q)[p]? = _
    rw [hl j g hk q ⟨h1, h2⟩]
    exact hx q h1 h2
  · intro P hg k g x hk hc
    have hc' : Complete (lists c.components) g x := by
      intro i h1 h2
      have := hc i h1 h2
      rwa [show lists (c.components ++ [s]) i = lists c.components i from hl k g hk i ⟨h1, h2⟩] at this
    exact (hg k g x hk hc').imp (hpre k g hk x).2 id
  · intro t' x
    unfold ComponentStorage.value ComponentStorage.meta?
    simp only [hlook]
    by_cases ht : t' = t
    · subst ht
      simp
    · rw [if_neg ht, if_neg ht]
      cases hm' : c.metadata.lookup t' with
      | none => rfl
      | some m' =>
        simp only
        rw [List.getElem?_append_left (h.mds.idx t' m' hm')]

/-- The groups of the storage, as lists of types. -/
def GroupsAre (c : ComponentStorage V) (gl : List (List TypeId)) : Prop :=
  gl.length = c.groups.length ∧ ∀ (k : Nat) (g : Group) (ts : List TypeId), c.groups[k]? = some g →
    gl[k]? = some ts → ∀ t, t ∈ ts ↔ ∃ m, c.meta? t = some m ∧ InRange g m.storageIndex

theorem GroupsAre.of_same {c c' : ComponentStorage V} {gl : List (List TypeId)} (h : GroupsAre c gl)
    (hm : c'.metadata = c.metadata) (hs : SameStat c.groups c'.groups) : GroupsAre c' gl := by
  refine ⟨by rw [h.1, hs.length], ?_⟩
  intro k g ts hg hts t
  obtain ⟨g', h1, h2⟩ := hs.get hg
  rw [h.2 k g' ts h1 hts t]
  unfold ComponentStorage.meta?
  rw [hm]
  simp only [InRange.stat h2]

theorem GroupsAre.grouped {c : ComponentStorage V} {gl : List (List TypeId)} (h : GroupsAre c gl) (t : TypeId) :
    c.GroupedType t ↔ t ∈ gl.flatten := by
  rw [List.mem_flatten]
  constructor
  · rintro ⟨m, hm, k, g, hk, hr⟩
    have hkl : k < gl.length := by
      rw [h.1]; exact (List.getElem?_eq_some_iff.1 hk).1
    exact ⟨_, List.getElem_mem hkl, (h.2 k g _ hk (List.getElem?_eq_getElem hkl) t).2 ⟨m, hm, hr⟩⟩
  · rintro ⟨ts, hts, ht⟩
    obtain ⟨k, hk⟩ := List.mem_iff_getElem?.1 hts
    have hkl : k < c.groups.length := by
      rw [← h.1]; exact (List.getElem?_eq_some_iff.1 hk).1
    obtain ⟨m, h1, h2⟩ := (h.2 k _ ts (List.getElem?_eq_getElem hkl) hk t).1 ht
    exact ⟨m, h1, k, _, List.getElem?_eq_getElem hkl, h2⟩

/-- `register`. -/
theorem register_ok {c : ComponentStorage V} (h : StoreOK A c) {P : Entity → Nat → Prop} (hg : GroupedExcept c P) (t : TypeId)
    {gl : List (List TypeId)} (hgl : GroupsAre c gl) :
    (c.register t).1 = (c.meta? t).isNone ∧ StoreOK A (c.register t).2 ∧ GroupedExcept (c.register t).2 P ∧
      (c.register t).2.value = c.value ∧
      (∀ t', ((c.register t).2.meta? t').isSome ↔ t' = t ∨ (c.meta? t').isSome) ∧
      GroupsAre (c.register t).2 gl ∧ ∀ x k, (c.register t).2.Shown x k ↔ c.Shown x k := by
  unfold ComponentStorage.register
  cases hm : c.meta? t with
  | some m =>
    refine ⟨rfl, h, hg, rfl, fun t' => ?_, hgl, fun _ _ => Iff.rfl⟩
    constructor
    · exact .inr
    · rintro (rfl | h1)
      · simp [hm]
      · exact h1
  | none =>
    obtain ⟨h1, h2, h3, h4, h5, h6, h7⟩ := addSet_ok h hm CompSet.wf_new (by simp [CompSet.new])
    refine ⟨rfl, h1, h3 _ hg, ?_, h5, ⟨hgl.1, ?_⟩, h7⟩
    · funext t' x
      refine (h4 t' x).trans ?_
      split
      · rename_i ht
        subst ht
        rw [c.value_none hm, CompSet.val_new]
      · rfl
    · intro k g ts hk hts t'
      rw [hgl.2 k g ts hk hts t']
      exact (h6 t' k g hk).symm

end
end Sparsey
