import Verif.Spec.Good
import Verif.Spec.Hidden
import Verif.Proofs.SetLayout
import Verif.Proofs.WorldLife

/-!
The world refines the map of `Verif/Spec/Map.lean`.
-/

set_option autoImplicit false
set_option linter.unusedSimpArgs false

namespace Sparsey
variable {V : Type}

/-! ### Tables and contents -/

namespace Table

theorem lookup_filter_key {K β : Type} [BEq K] [LawfulBEq K] (l : List (K × β)) (q : K → Bool) (k : K) :
    (l.filter (fun p => q p.1)).lookup k = if q k then l.lookup k else none := by
  induction l with
  | nil => simp
  | cons p l ih =>
    obtain ⟨a, b⟩ := p
    by_cases hk : k = a
    · subst hk
      cases hq : q k
      · simp [List.filter_cons, hq] at ih ⊢
        exact ih
      · simp [List.filter_cons, hq, List.lookup_cons]
    · have hb : (k == a) = false := by simpa using hk
      cases hq : q a
      · simp [List.filter_cons, hq, List.lookup_cons, hb, ih]
      · simp [List.filter_cons, hq, List.lookup_cons, hb, ih]

theorem get_set (tb : Table V) (t : TypeId) (e : Entity) (v : V) : (tb.set t e v).get = Content.set tb.get t e v := by
  funext t' x
  unfold get set Content.set
  rw [List.lookup_cons]
  by_cases h : t' = t ∧ x = e
  · obtain ⟨rfl, rfl⟩ := h
    simp
  · rw [if_neg h]
    have hb : ((t', x) == (t, e)) = false := by simpa using h
    rw [hb]
    have := lookup_filter_key tb (fun k => decide (k ≠ (t, e))) (t', x)
    simp only at this ⊢
    rw [this, if_pos]
    rw [decide_eq_true_eq]
    exact fun hc => h (by simpa using hc)

theorem get_erase (tb : Table V) (t : TypeId) (e : Entity) : (tb.erase t e).get = Content.erase tb.get t e := by
  funext t' x
  unfold get erase Content.erase
  have := lookup_filter_key tb (fun k => decide (k ≠ (t, e))) (t', x)
  rw [this]
  by_cases h : t' = t ∧ x = e
  · obtain ⟨rfl, rfl⟩ := h
    simp
  · rw [if_neg h, if_pos]
    rw [decide_eq_true_eq]
    exact fun hc => h (by simpa using hc)

theorem get_setAll (e : Entity) : ∀ (vs : List (TypeId × V)) (tb : Table V),
    (tb.setAll e vs).get = Content.setAll tb.get e vs := by
  intro vs
  induction vs with
  | nil => intro tb; rfl
  | cons p vs ih =>
    intro tb
    unfold setAll Content.setAll
    rw [ih, get_set]

theorem get_eraseAll (e : Entity) : ∀ (ts : List TypeId) (tb : Table V),
    (tb.eraseAll e ts).get = Content.eraseAll tb.get e ts := by
  intro ts
  induction ts with
  | nil => intro tb; rfl
  | cons t ts ih =>
    intro tb
    unfold eraseAll Content.eraseAll
    rw [ih, get_erase]

theorem removed_eq (e : Entity) : ∀ (ts : List TypeId) (tb : Table V),
    tb.removed e ts = Content.removed tb.get e ts := by
  intro ts
  induction ts with
  | nil => intro tb; rfl
  | cons t ts ih =>
    intro tb
    unfold removed Content.removed
    rw [ih, get_erase]

theorem get_strip (tb : Table V) (e : Entity) : (tb.strip e).get = Content.strip tb.get e := by
  funext t x
  unfold get strip Content.strip
  have := lookup_filter_key tb (fun k => decide (k.2 ≠ e)) (t, x)
  rw [this]
  by_cases h : x = e <;> simp [h]

theorem get_nil : Table.get ([] : Table V) = fun _ _ => none := rfl

theorem mem_of_get {tb : Table V} {t : TypeId} {e : Entity} (h : (tb.get t e).isSome) : ∃ v, ((t, e), v) ∈ tb := by
  obtain ⟨v, hv⟩ := Option.isSome_iff_exists.1 h
  refine ⟨v, ?_⟩
  unfold get at hv
  rw [List.lookup_eq_some_iff] at hv
  obtain ⟨l1, l2, h1, _⟩ := hv
  rw [h1]
  simp

theorem Uniform.vers {tb : Table V} {gl : List (List TypeId)} (h : tb.Uniform gl) :
    ContentVers tb.get (· ∈ gl.flatten) := by
  intro t ht x y hx hy
  obtain ⟨v, hv⟩ := mem_of_get hx
  obtain ⟨w, hw⟩ := mem_of_get hy
  exact h _ hv _ hw rfl ht

end Table

/-! ### insert into looked-up sets -/

theorem ComponentStorage.idxOf_same {c c' : ComponentStorage V} (h : c'.metadata = c.metadata) : c'.idxOf = c.idxOf := by
  funext t
  unfold ComponentStorage.idxOf ComponentStorage.meta?
  rw [h]

theorem insertAt_ok {A : Entity → Prop} (hA : IdxUniq A) {e : Entity} (he : A e) (hu : e.index < u32Size) :
    ∀ (ts : List TypeId) (vs : List V) (c : ComponentStorage V), StoreOK A c → (∀ t ∈ ts, (c.meta? t).isSome) →
    ∃ c', ComponentStorage.insertAt e ((ts.map c.idxOf).zip vs) c = .ok c' ∧ StoreOK A c' ∧
      c'.value = c.value.setAll e (ts.zip vs) ∧ c'.groups = c.groups ∧ c'.metadata = c.metadata ∧
      (∀ P : Entity → Nat → Prop, GroupedExcept c P → GroupedExcept c'
        (fun x k => P x k ∨ (x = e ∧ ∃ t ∈ ts, ∃ m, c.meta? t = some m ∧ m.insertMask.getLsbD k = true))) ∧
      (∀ (k : Nat) (g : Group), c.groups[k]? = some g → ∀ x,
        InPrefix (lists c'.components) g x ↔ InPrefix (lists c.components) g x) := by
  intro ts
  induction ts with
  | nil =>
    intro vs c h _
    exact ⟨c, rfl, h, rfl, rfl, rfl, fun P hP => hP.mono (fun x k => .inl), fun _ _ _ _ => Iff.rfl⟩
  | cons t ts ih =>
    intro vs c h hr
    cases vs with
    | nil => exact ⟨c, rfl, h, rfl, rfl, rfl, fun P hP => hP.mono (fun x k => .inl), fun _ _ _ _ => Iff.rfl⟩
    | cons v vs =>
      obtain ⟨m, hm⟩ := Option.isSome_iff_exists.1 (hr t (by simp))
      obtain ⟨s, s', h1, h2, h3, h4, h5, h6⟩ := h.insertOne hA he hu hm v
      obtain ⟨c', i1, i2, i3, i4, i5, i6, i7⟩ := ih vs { c with components := c.components.set m.storageIndex s' } h3
        (fun t' ht' => hr t' (by simp [ht']))
      rw [ComponentStorage.idxOf_same (c := c)
        (c' := { c with components := c.components.set m.storageIndex s' }) rfl] at i1
      refine ⟨c', ?_, i2, ?_, i4, i5, ?_, ?_⟩
      · simp only [List.map_cons, List.zip_cons_cons, ComponentStorage.insertAt, c.idxOf_eq hm, h1, h2,
          Res.unchecked_some, Res.bind_ok]
        exact i1
      · rw [i3, h4]
        rfl
      · intro P hP
        refine (i6 _ (h5 P hP)).mono ?_
        rintro x k ((h7 | ⟨rfl, h7⟩) | ⟨rfl, t', h7, m', h8, h9⟩)
        · exact .inl h7
        · exact .inr ⟨rfl, t, by simp, m, hm, h7⟩
        · exact .inr ⟨rfl, t', by simp [h7], m', h8, h9⟩
      · intro k g hg x
        rw [i7 k g hg x]
        exact h6 k g hg x

/-! ### The invariant -/

/-- The world `w` represents the map `s`; entities with all types of a group are grouped, except for the pairs of entity
and group in `P`. -/
structure InvX (w : World V) (s : MapWorld V) (P : Entity → Nat → Prop) : Prop where
  life : LifeInv w.entities s.life
  store : StoreOK (· ∈ s.life.alive) w.components
  grouped : GroupedExcept w.components P
  value : w.components.value = s.table.get
  reg : ∀ t, (w.components.meta? t).isSome ↔ t ∈ s.reg
  groups : GroupsAre w.components s.groups

/-- The world `w` represents the map `s`, and everything is grouped. -/
abbrev Inv (w : World V) (s : MapWorld V) : Prop := InvX w s (fun _ _ => False)

/-- The world `w` represents the map `s`; nothing is said about grouping. -/
abbrev InvL (w : World V) (s : MapWorld V) : Prop := InvX w s (fun _ _ => True)

theorem InvX.mono {w : World V} {s : MapWorld V} {P Q : Entity → Nat → Prop} (h : InvX w s P) (hpq : ∀ x k, P x k → Q x k) :
    InvX w s Q :=
  { h with grouped := h.grouped.mono hpq }

theorem InvX.loose {w : World V} {s : MapWorld V} {P : Entity → Nat → Prop} (h : InvX w s P) : InvL w s :=
  h.mono fun _ _ _ => trivial

theorem LifeInv.idxUniq {s : EntityStorage} {l : Life} (h : LifeInv s l) : IdxUniq (· ∈ l.alive) := by
  intro x y hx hy hi
  have hn := h.nodup
  rw [List.map_append, List.nodup_append] at hn
  exact List.inj_on_of_nodup_map hn.2.1 ((h.alive x).2 hx) ((h.alive y).2 hy) hi

theorem LifeInv.index_lt {s : EntityStorage} {l : Life} (h : LifeInv s l) {x : Entity} (hx : x ∈ l.alive) :
    x.index < u32Size := by
  have h1 := (h.range x (by simp [(h.alive x).2 hx])).1
  have h2 := h.alloc.small
  omega

theorem LifeInv.next_fresh {s : EntityStorage} {l : Life} (h : LifeInv s l) (hx : ¬ l.exhausted) :
    l.nextEntity ∉ l.alive := fun hc =>
  (h.next_new hx).2.1 _ (List.mem_append_right _ ((h.alive _).2 hc)) rfl

theorem Content.setAll_other {e : Entity} {t : TypeId} : ∀ {vs : List (TypeId × V)} {f : Content V},
    (∀ p ∈ vs, p.1 ≠ t) → ∀ x, f.setAll e vs t x = f t x := by
  intro vs
  induction vs with
  | nil => intro f _ x; rfl
  | cons p vs ih =>
    intro f h x
    obtain ⟨t', v⟩ := p
    show (f.set t' e v).setAll e vs t x = _
    rw [ih (fun p hp => h p (by simp [hp]))]
    have : t ≠ t' := fun hc => h (t', v) (by simp) hc.symm
    simp [Content.set, this]

theorem Inv.init : Inv (World.empty : World V) MapWorld.init := by
  refine ⟨LifeInv.init, ⟨?_, ?_, ?_, ?_⟩, ?_, rfl, ?_, ⟨rfl, ?_⟩⟩
  · exact ⟨by simp [World.empty, ComponentStorage.empty], by simp [World.empty, ComponentStorage.empty],
      by simp [World.empty, ComponentStorage.empty], by simp [World.empty, ComponentStorage.empty],
      by simp [World.empty, ComponentStorage.empty], by simp [World.empty, ComponentStorage.empty],
      by simp [World.empty, ComponentStorage.empty], by simp [World.empty, ComponentStorage.empty],
      by simp [World.empty, ComponentStorage.empty]⟩
  · exact ⟨by simp [World.empty, ComponentStorage.empty], by simp [World.empty, ComponentStorage.empty],
      by simp [World.empty, ComponentStorage.empty], by simp [World.empty, ComponentStorage.empty],
      by simp [World.empty, ComponentStorage.empty], by simp [World.empty, ComponentStorage.empty],
      by simp [World.empty, ComponentStorage.empty], by simp [World.empty, ComponentStorage.empty]⟩
  · exact ⟨by simp [World.empty, ComponentStorage.empty], by simp [World.empty, ComponentStorage.empty]⟩
  · exact ⟨by simp [World.empty, ComponentStorage.empty], by simp [World.empty, ComponentStorage.empty]⟩
  · intro k g x hg
    simp [World.empty, ComponentStorage.empty] at hg
  · intro t
    simp [World.empty, ComponentStorage.empty, MapWorld.init, ComponentStorage.meta?]
  · simp [World.empty, ComponentStorage.empty]

namespace InvX

theorem knows_iff {w : World V} {s : MapWorld V} {P : Entity → Nat → Prop} (h : InvX w s P) (ts : List TypeId) :
    s.knows ts ↔ ∀ t ∈ ts, (w.components.meta? t).isSome := by
  unfold MapWorld.knows
  constructor
  · intro hk t ht
    exact (h.reg t).2 (hk t ht)
  · intro hk t ht
    exact (h.reg t).1 (hk t ht)

/-- Replaces the storage, keeping entities. -/
theorem of_store {w : World V} {s s' : MapWorld V} {P : Entity → Nat → Prop} (h : InvX w s P) {c : ComponentStorage V} (hl : s'.life = s.life)
    (hr : s'.reg = s.reg) (hg : s'.groups = s.groups) (hs : StoreOK (· ∈ s.life.alive) c) (ha : GroupedExcept c P)
    (hv : c.value = s'.table.get) (hm : c.metadata = w.components.metadata)
    (hst : SameStat w.components.groups c.groups) :
    InvX { w with components := c } s' P where
  life := by rw [hl]; exact h.life
  store := by rw [hl]; exact hs
  grouped := ha
  value := hv
  reg t := by
    rw [hr, ← h.reg]
    show (c.metadata.lookup t).isSome ↔ _
    rw [hm]
    rfl
  groups := by rw [hg]; exact h.groups.of_same hm hst

end InvX

/-! ### Groups of the map -/

namespace InvX
variable {w : World V} {s : MapWorld V} {P : Entity → Nat → Prop}

theorem types_at (h : InvX w s P) {k : Nat} {g : Group} (hg : w.components.groups[k]? = some g) :
    ∃ ts, s.groups[k]? = some ts ∧ ∀ t, t ∈ ts ↔ ∃ m, w.components.meta? t = some m ∧ InRange g m.storageIndex := by
  have hk : k < s.groups.length := by
    rw [h.groups.1]
    exact (List.getElem?_eq_some_iff.1 hg).1
  exact ⟨_, List.getElem?_eq_getElem hk, h.groups.2 k g _ hg (List.getElem?_eq_getElem hk)⟩

theorem group_at (h : InvX w s P) {k : Nat} {ts : List TypeId} (hts : s.groups[k]? = some ts) :
    ∃ g, w.components.groups[k]? = some g ∧
      ∀ t, t ∈ ts ↔ ∃ m, w.components.meta? t = some m ∧ InRange g m.storageIndex := by
  have hk : k < w.components.groups.length := by
    rw [← h.groups.1]
    exact (List.getElem?_eq_some_iff.1 hts).1
  exact ⟨_, List.getElem?_eq_getElem hk, h.groups.2 k _ ts (List.getElem?_eq_getElem hk) hts⟩

theorem full_iff (h : InvX w s P) (x : Entity) (k : Nat) : w.components.Full x k ↔ s.Full x k := by
  constructor
  · rintro ⟨g, h1, h2⟩
    obtain ⟨ts, h3, h4⟩ := h.types_at h1
    refine ⟨ts, h3, fun t ht => ?_⟩
    obtain ⟨m, h5, h6⟩ := (h4 t).1 ht
    rw [← h.value]
    exact (h.store.complete_iff h1 x).1 h2 t m h5 h6
  · rintro ⟨ts, h1, h2⟩
    obtain ⟨g, h3, h4⟩ := h.group_at h1
    refine ⟨g, h3, (h.store.complete_iff h3 x).2 fun t m h5 h6 => ?_⟩
    rw [h.value]
    exact h2 t ((h4 t).2 ⟨m, h5, h6⟩)

/-- Every group has a type. -/
theorem group_type (h : InvX w s P) {k : Nat} {ts : List TypeId} (hts : s.groups[k]? = some ts) : ∃ t, t ∈ ts := by
  obtain ⟨g, h1, h2⟩ := h.group_at hts
  have hb := h.store.gstat.bounds k g h1
  obtain ⟨t, m, h3, h4⟩ := h.store.mds.cover k g g.storageStart h1 ⟨Nat.le_refl _, by omega⟩
  exact ⟨t, (h2 t).2 ⟨m, h3, by rw [h4]; exact ⟨Nat.le_refl _, by omega⟩⟩⟩

theorem inGroup_iff (h : InvX w s P) (ts : List TypeId) (k : Nat) :
    (∃ t ∈ ts, ∃ m, w.components.meta? t = some m ∧ m.deleteMask.getLsbD k = true) ↔ s.InGroup ts k := by
  constructor
  · rintro ⟨t, ht, m, h1, h2⟩
    obtain ⟨g, h3, h4⟩ := (h.store.mds.del t m k h1).1 h2
    obtain ⟨us, h5, h6⟩ := h.types_at h3
    exact ⟨us, h5, t, ht, (h6 t).2 ⟨m, h1, h4⟩⟩
  · rintro ⟨us, h1, t, ht, h2⟩
    obtain ⟨g, h3, h4⟩ := h.group_at h1
    obtain ⟨m, h5, h6⟩ := (h4 t).1 h2
    exact ⟨t, ht, m, h5, (h.store.mds.del t m k h5).2 ⟨g, h3, h6⟩⟩

theorem inFamily_iff (h : InvX w s P) (ts : List TypeId) (k : Nat) :
    (∃ t ∈ ts, ∃ m, w.components.meta? t = some m ∧ m.insertMask.getLsbD k = true) ↔ s.InFamily ts k := by
  constructor
  · rintro ⟨t, ht, m, h1, h2⟩
    obtain ⟨g, k', g', h3, h4, h5, h6⟩ := (h.store.mds.ins t m k h1).1 h2
    obtain ⟨us, h7, h8⟩ := h.types_at h3
    obtain ⟨us', h9, h10⟩ := h.types_at h4
    have hb := h.store.gstat.bounds k g h3
    have hb' := h.store.gstat.bounds k' g' h4
    obtain ⟨u, m', h11, h12⟩ := h.store.mds.cover k g g.storageStart h3 ⟨Nat.le_refl _, by omega⟩
    refine ⟨us, h7, us', List.mem_of_getElem? h9, ⟨t, ht, (h10 t).2 ⟨m, h1, h6⟩⟩, u, (h10 u).2 ⟨m', h11, ?_⟩,
      (h8 u).2 ⟨m', h11, ?_⟩⟩
    · rw [h12]
      constructor <;> omega
    · rw [h12]
      constructor <;> omega
  · rintro ⟨us, h1, us', h2, ⟨t, ht, h3⟩, u, h4, h5⟩
    obtain ⟨g, h6, h7⟩ := h.group_at h1
    obtain ⟨k', hk'⟩ := List.mem_iff_getElem?.1 h2
    obtain ⟨g', h8, h9⟩ := h.group_at hk'
    obtain ⟨m, h10, h11⟩ := (h9 t).1 h3
    obtain ⟨m1, h12, h13⟩ := (h9 u).1 h4
    obtain ⟨m2, h14, h15⟩ := (h7 u).1 h5
    rw [h12] at h14
    cases h14
    refine ⟨t, ht, m, h10, (h.store.mds.ins t m k h10).2 ⟨g, k', g', h6, h8, ?_, h11⟩⟩
    by_contra hne
    rcases Nat.lt_trichotomy k k' with hlt | rfl | hlt
    · have := h.store.gstat.sep k k' g g' hlt h6 h8 (fun hc => hne hc.symm)
      have := h13.1
      have := h15.2
      omega
    · rw [h6] at h8
      cases h8
      exact hne rfl
    · have := h.store.gstat.sep k' k g' g hlt h8 h6 hne
      have := h13.2
      have := h15.1
      omega

theorem inFamily_of_inGroup (_h : InvX w s P) {ts : List TypeId} {k : Nat} (hg : s.InGroup ts k) : s.InFamily ts k := by
  obtain ⟨us, h1, t, ht, h2⟩ := hg
  exact ⟨us, h1, us, List.mem_of_getElem? h1, ⟨t, ht, h2⟩, t, h2, h2⟩

theorem shown_full (h : InvX w s P) {x : Entity} {k : Nat} (hs : w.components.Shown x k) : s.Full x k :=
  (h.full_iff x k).1 (h.store.full_of_shown hs)

theorem shown_all (h : Inv w s) (x : Entity) (k : Nat) : w.components.Shown x k ↔ s.Full x k := by
  constructor
  · exact h.shown_full
  · intro hf
    obtain ⟨g, h1, h2⟩ := (h.full_iff x k).2 hf
    exact ⟨g, h1, (h.grouped k g x h1 h2).resolve_right id⟩

theorem full_alive (h : InvX w s P) {x : Entity} {k : Nat} (hs : s.Full x k) : x ∈ s.life.alive := by
  obtain ⟨ts, h1, h2⟩ := hs
  obtain ⟨t, ht⟩ := h.group_type h1
  have := h2 t ht
  rw [← h.value] at this
  exact h.store.value_sub this

end InvX

/-- Which entities are in the packed part of which group after a call; `S` are those before. -/
def MapWorld.shownAfter (s : MapWorld V) (op : Op V) (S : Entity → Nat → Prop) (x : Entity) (k : Nat) : Prop :=
  match op with
  | .setLayout r gs => (s.next (.setLayout r gs)).Full x k
  | .clear => (s.next .clear).Full x k
  | .reset => (s.next .reset).Full x k
  | .create vs => S x k ∨ (¬ s.life.exhausted ∧ s.knows (vs.map (·.1)) ∧ x = s.life.nextEntity ∧
      (s.next (.create vs)).Full x k)
  | .insert e vs => S x k ∨ (e ∈ s.life.alive ∧ s.knows (vs.map (·.1)) ∧ x = e ∧ s.InFamily (vs.map (·.1)) k ∧
      (s.next (.insert e vs)).Full x k)
  | .extend ts it => S x k ∨ ((s.knows ts ∧ (s.extendMakes ts it).length = it.items.length ∧ it.thenPanics = false) ∧
      x ∈ s.extendMakes ts it ∧ (s.next (.extend ts it)).Full x k)
  | .destroy e => S x k ∧ x ≠ e
  | .remove e ts => S x k ∧ ¬ (s.knows ts ∧ x = e ∧ s.InGroup ts k)
  | .delete e ts => S x k ∧ ¬ (s.knows ts ∧ x = e ∧ s.InGroup ts k)
  | _ => S x k

/-! ### The calls -/

theorem known_split {s : MapWorld V} {vs : List (TypeId × V)} (hk : ¬ s.knows (vs.map (·.1))) :
    ∃ t v post, vs = s.known vs ++ (t, v) :: post ∧ t ∉ s.reg := by
  induction vs with
  | nil => exact absurd (by intro t ht; simp at ht) hk
  | cons p vs ih =>
    obtain ⟨t, v⟩ := p
    by_cases ht : t ∈ s.reg
    · have hk' : ¬ s.knows (vs.map (·.1)) := by
        intro hc
        apply hk
        intro t' ht'
        simp only [List.map_cons, List.mem_cons] at ht'
        rcases ht' with rfl | ht'
        · exact ht
        · exact hc t' ht'
      obtain ⟨t', v', post, h1, h2⟩ := ih hk'
      refine ⟨t', v', post, ?_, h2⟩
      unfold MapWorld.known at h1 ⊢
      rw [List.takeWhile_cons, if_pos (by simpa using ht), List.cons_append, ← h1]
    · refine ⟨t, v, vs, ?_, ht⟩
      unfold MapWorld.known
      rw [List.takeWhile_cons, if_neg (by simpa using ht)]
      rfl

theorem known_all {s : MapWorld V} {vs : List (TypeId × V)} (hk : s.knows (vs.map (·.1))) : s.known vs = vs := by
  unfold MapWorld.known
  induction vs with
  | nil => rfl
  | cons p vs ih =>
    rw [List.takeWhile_cons, if_pos (by simpa using hk p.1 (by simp)), ih (fun t ht => hk t (by
      rw [List.map_cons]
      exact List.mem_cons_of_mem _ ht))]

theorem known_reg {s : MapWorld V} {vs : List (TypeId × V)} : ∀ p ∈ s.known vs, p.1 ∈ s.reg := by
  intro p hp
  unfold MapWorld.known at hp
  induction vs with
  | nil => simp at hp
  | cons q vs ih =>
    rw [List.takeWhile_cons] at hp
    split at hp
    · rename_i hq
      rcases List.mem_cons.1 hp with rfl | hp
      · simpa using hq
      · exact ih hp
    · simp at hp

/-- `insert` into an entity of `A`, whatever the types. -/
theorem insertSet_step {w : World V} {s : MapWorld V} {P : Entity → Nat → Prop} (h : InvX w s P) {e : Entity}
    (he : e ∈ s.life.alive) {vs : List (TypeId × V)} (hv : EvenPairs (w.components.insertPairs e vs))
    (hn : s.knows (vs.map (·.1)) ∨ (∀ k, P e k) ∨ s.NoNewGroup e (s.known vs)) :
    ∃ w', (w.insertSet e vs = if s.knows (vs.map (·.1)) then .ok () w' else .panic w') ∧
      InvX w' { s with table := s.table.setAll e (s.known vs) } P ∧
      ∀ x k, w'.components.Shown x k ↔ w.components.Shown x k ∨ (s.knows (vs.map (·.1)) ∧ x = e ∧
        s.InFamily (vs.map (·.1)) k ∧ ({ s with table := s.table.setAll e (s.known vs) } : MapWorld V).Full x k) := by
  have hA := h.life.idxUniq
  have hidx := h.life.index_lt he
  have hget : (s.table.setAll e (s.known vs)).get = w.components.value.setAll e (s.known vs) := by
    rw [Table.get_setAll, h.value]
  by_cases hk : s.knows (vs.map (·.1))
  · have hka := known_all hk
    have hr : ∀ p ∈ vs, (w.components.meta? p.1).isSome := fun p hp =>
      (h.reg p.1).2 (hk p.1 (List.mem_map.2 ⟨p, hp, rfl⟩))
    rw [hka] at hget ⊢
    obtain ⟨c', h1, h2, h3, h4, h5, h6, h7⟩ := insert_ok hA h.store h.grouped he hidx hr hv
    have hinv := h.of_store (s' := { s with table := s.table.setAll e vs }) rfl rfl rfl h2 h6 (h3.trans hget.symm) h5 h4
    refine ⟨{ w with components := c' }, ?_, hinv, fun x k => ?_⟩
    · simp only [World.insertSet, h1, if_pos hk]
    · rw [← h.inFamily_iff, ← hinv.full_iff]
      refine (h7 x k).trans ?_
      simp only [List.mem_map, exists_exists_and_eq_and, hk, true_and]
  · obtain ⟨t, v, post, h0, ht⟩ := known_split hk
    have hn := hn.resolve_left hk
    have hr : ∀ p ∈ s.known vs, (w.components.meta? p.1).isSome := fun p hp => (h.reg p.1).2 (known_reg p hp)
    have htn : w.components.meta? t = none := by
      have := (h.reg t).not.2 ht
      simpa using this
    obtain ⟨c', h1, h2, h3, h4, h5, h6, h7⟩ := insert_panic hA h.store h.grouped he hidx (post := post) (v := v) hr htn
      (fun k g hg hall => by
        rcases hn with hn | hn
        · exact .inl (hn k)
        refine .inr fun t m hm hr => ?_
        rw [← hget] at hall
        rw [h.value]
        have hkl : k < s.groups.length := by rw [h.groups.1]; exact (List.getElem?_eq_some_iff.1 hg).1
        have hty := h.groups.2 k g _ hg (List.getElem?_eq_getElem hkl)
        exact hn _ (List.getElem_mem hkl) (fun t' ht' => by
          obtain ⟨m', h1, h2⟩ := (hty t').1 ht'
          exact hall t' m' h1 h2) t ((hty t).2 ⟨m, hm, hr⟩))
    refine ⟨{ w with components := c' }, ?_, ?_, ?_⟩
    rotate_left 2
    · intro x k
      rw [h7 x k]
      simp [hk]
    · rw [← h0] at h1
      simp only [World.insertSet, h1, if_neg hk]
    · exact h.of_store rfl rfl rfl h2 h6 (h3.trans hget.symm) h5 (by rw [h4]; exact .refl _)

theorem InvX.life_eq {w : World V} {s : MapWorld V} {P : Entity → Nat → Prop} (h : InvX w s P) {l : Life}
    (hl : l = s.life) : InvX w { s with life := l } P := by
  subst hl
  exact h

/-- Making an entity. -/
theorem InvX.make {w : World V} {s : MapWorld V} {P : Entity → Nat → Prop} (h : InvX w s P) (hx : ¬ s.life.exhausted) :
    ∃ es, w.entities.create = .ok (s.life.nextEntity, es) ∧
      es.entities.entities = w.entities.entities.entities ++ [s.life.nextEntity] ∧
      InvX { w with entities := es } { s with life := s.life.step (.made s.life.nextEntity) } P := by
  obtain ⟨es, h1, h2, h3⟩ := h.life.create hx
  refine ⟨es, h1, h3, ?_⟩
  exact ⟨h2, h.store.mono (fun x hx => by simp [Life.step, hx]), h.grouped, h.value, h.reg, h.groups⟩

theorem Life.alive_made (l : Life) (e : Entity) : e ∈ (l.step (.made e)).alive := by simp [Life.step]

/-! extend -/

theorem LifeInv.makes_fresh : ∀ (n : Nat) {s : EntityStorage} {l : Life}, LifeInv s l → ∀ x ∈ l.makes n, x ∉ l.alive := by
  intro n
  induction n with
  | zero => intro s l _ x hx; simp [Life.makes] at hx
  | succ n ih =>
    intro s l h x hx
    by_cases he : l.exhausted
    · simp [Life.makes, he] at hx
    · simp only [Life.makes, he, if_false, List.mem_cons] at hx
      rcases hx with rfl | hx
      · exact h.next_fresh he
      · obtain ⟨es, _, h2, _⟩ := h.create he
        intro hc
        exact ih h2 x hx (by simp [Life.step, hc])

theorem Table.get_setItems_other {ts : List TypeId} {t : TypeId} (ht : t ∉ ts) (x : Entity) :
    ∀ (its : List (Entity × List V)) (tb : Table V), (tb.setItems ts its).get t x = tb.get t x := by
  intro its
  induction its with
  | nil => intro tb; rfl
  | cons p its ih =>
    intro tb
    obtain ⟨e, vs⟩ := p
    show (Table.setItems (tb.setAll e (ts.zip vs)) ts its).get t x = _
    rw [ih, Table.get_setAll, Content.setAll_other]
    intro p hp hc
    exact ht (hc ▸ (List.of_mem_zip hp).1)

theorem extendEach_step {ts : List TypeId} {idx : TypeId → Nat} {gs : List Group}
    {md : List (TypeId × ComponentMetadata)} :
    ∀ (items : List (List V)) (w : World V) (s : MapWorld V) (P : Entity → Nat → Prop), InvX w s P →
    s.knows ts → w.components.idxOf = idx → w.components.groups = gs → w.components.metadata = md →
    ∃ w', (World.extendEach (ts.map idx) items w =
        if (s.life.makes items.length).length = items.length then .ok () w' else .panic w') ∧
      InvX w' { s with
        life := s.life.run ((s.life.makes items.length).map .made)
        table := s.table.setItems ts ((s.life.makes items.length).zip items) }
        (fun x k => P x k ∨ x ∈ s.life.makes items.length ∧ ∃ t ∈ ts, ∃ m, md.lookup t = some m ∧
          m.insertMask.getLsbD k = true) ∧
      ((∀ g ∈ s.groups, ∃ t ∈ g, t ∉ ts) → GroupedExcept w'.components P) ∧
      w'.components.groups = gs ∧ w'.components.metadata = md ∧
      w'.entities.entities.entities = w.entities.entities.entities ++ s.life.makes items.length ∧
      w.entities.createUpTo items.length = s.life.makes items.length ∧
      ∀ x k, w'.components.Shown x k ↔ w.components.Shown x k := by
  intro items
  induction items with
  | nil =>
    intro w s P h hk hi hg hm
    refine ⟨w, by simp [World.extendEach, Life.makes], ⟨h.life, h.store, h.grouped.mono (fun x k => .inl), h.value, h.reg,
      h.groups⟩, fun _ => h.grouped, hg, hm, by simp [Life.makes], by simp [Life.makes, EntityStorage.createUpTo],
      fun _ _ => Iff.rfl⟩
  | cons vs items ih =>
    intro w s P h hk hi hg hm
    by_cases hx : s.life.exhausted
    · have hmk : s.life.makes (items.length + 1) = [] := by simp [Life.makes, hx]
      refine ⟨w, ?_, ?_, fun _ => h.grouped, hg, hm, ?_, ?_, fun _ _ => Iff.rfl⟩
      · simp [World.extendEach, (h.life.create_exhausted hx).1, hmk]
      · rw [List.length_cons, hmk]
        exact ⟨h.life, h.store, h.grouped.mono (fun x k => .inl), h.value, h.reg, h.groups⟩
      · rw [List.length_cons, hmk]; simp
      · rw [List.length_cons, hmk]
        simp [EntityStorage.createUpTo, (h.life.create_exhausted hx).1]
    · have hmk : s.life.makes (items.length + 1) =
          s.life.nextEntity :: (s.life.step (.made s.life.nextEntity)).makes items.length := by
        simp [Life.makes, hx]
      obtain ⟨es, h1, h2, h3⟩ := h.life.create hx
      have hal := Life.alive_made s.life s.life.nextEntity
      have hfresh := h.life.next_fresh hx
      obtain ⟨c', i1, i2, i3, i4, i5, i6, i7⟩ := insertAt_ok h2.idxUniq hal (h2.index_lt hal) ts vs w.components
        (h.store.mono (fun x hx => by simp [Life.step, hx])) (fun t ht => (h.reg t).2 (hk t ht))
      have hP : InvX (⟨es, c'⟩ : World V) { s with
          life := s.life.step (.made s.life.nextEntity)
          table := s.table.setAll s.life.nextEntity (ts.zip vs) }
          (fun x k => P x k ∨ (x = s.life.nextEntity ∧
            ∃ t ∈ ts, ∃ m, md.lookup t = some m ∧ m.insertMask.getLsbD k = true)) := by
        refine ⟨h2, i2, ?_, ?_, ?_, ?_⟩
        · have := i6 P h.grouped
          rw [← hm]
          exact this
        · rw [Table.get_setAll, ← h.value]
          exact i3
        · intro t
          rw [← h.reg]
          show (c'.metadata.lookup t).isSome ↔ _
          rw [i5]
          rfl
        · exact h.groups.of_same i5 (by rw [i4]; exact .refl _)
      obtain ⟨w', j1, j2, j3, j4, j5, j6, j7, j8⟩ := ih (⟨es, c'⟩ : World V) _ _ hP hk
        ((ComponentStorage.idxOf_same i5).trans hi) (i4.trans hg) (i5.trans hm)
      refine ⟨w', ?_, ?_, ?_, j4, j5, ?_, ?_, fun x k => (j8 x k).trans (ComponentStorage.shown_same i4 i7 x k)⟩
      · rw [List.length_cons, hmk, List.length_cons]
        simp only [World.extendEach, h1, Outcome.ofRes_ok]
        rw [← hi, i1]
        simp only [Outcome.ofRes_ok, Nat.add_right_cancel_iff]
        rw [hi]
        exact j1
      · rw [List.length_cons, hmk]
        refine ⟨j2.life, j2.store, j2.grouped.mono ?_, j2.value, j2.reg, j2.groups⟩
        rintro x k ((h7 | ⟨rfl, h7⟩) | ⟨h7, h8⟩)
        · exact .inl h7
        · exact .inr ⟨by simp, h7⟩
        · exact .inr ⟨by simp [h7], h8⟩
      · have hst := h.store.mono (B := (· ∈ (s.life.step (.made s.life.nextEntity)).alive))
          (fun x hx => by simp [Life.step, hx])
        have hrest : (∀ g ∈ s.groups, ∃ t ∈ g, t ∉ ts) → GroupedExcept c' P := by
          intro hng
          refine GroupedExcept.of_more hst i2 i4 i5 h.grouped ((i6 P h.grouped).mono ?_) i7 ?_ (e := s.life.nextEntity)
          · rintro x k (hx | ⟨hx, _⟩)
            · exact .inl hx
            · exact .inr hx
          · intro k g hg hall
            exfalso
            have hkl : k < s.groups.length := by rw [h.groups.1]; exact (List.getElem?_eq_some_iff.1 hg).1
            obtain ⟨t, ht, htn⟩ := hng _ (List.getElem_mem hkl)
            obtain ⟨m, hm', hr⟩ := (h.groups.2 k g _ hg (List.getElem?_eq_getElem hkl) t).1 ht
            have h4 := hall t m hm' hr
            rw [i3, Content.setAll_other (by
              intro p hp
              exact fun hc => htn (hc ▸ (List.of_mem_zip hp).1))] at h4
            exact hfresh (h.store.value_sub h4)
        intro hng
        have hP' : InvX (⟨es, c'⟩ : World V) { s with
            life := s.life.step (.made s.life.nextEntity)
            table := s.table.setAll s.life.nextEntity (ts.zip vs) } P :=
          ⟨hP.life, hP.store, hrest hng, hP.value, hP.reg, hP.groups⟩
        obtain ⟨w2, k1, _, k3, _⟩ := ih (⟨es, c'⟩ : World V) _ _ hP' hk
          ((ComponentStorage.idxOf_same i5).trans hi) (i4.trans hg) (i5.trans hm)
        have : w2 = w' := by
          rw [j1] at k1
          split at k1
          · exact ((Outcome.ok.injEq ..).mp k1).2.symm
          · exact ((Outcome.panic.injEq ..).mp k1).symm
        rw [← this]
        exact k3 hng
      · rw [j6, List.length_cons, hmk]
        simp only [h3, List.append_assoc, List.singleton_append]
      · rw [List.length_cons, hmk]
        simp only [EntityStorage.createUpTo, h1]
        rw [j7]

theorem extend_step {w : World V} {s : MapWorld V} {P : Entity → Nat → Prop} (h : InvX w s P)
    {ts : List TypeId} {it : Items V}
    (hf : (∀ x k, P x k) ∨ s.Fine (.extend ts it)) (hv : w.Even (.extend ts it)) :
    ∃ w', step w (.extend ts it) = some (s.answer (.extend ts it), w') ∧ InvX w' (s.next (.extend ts it)) P ∧
      ∀ x k, w'.components.Shown x k ↔ s.shownAfter (.extend ts it) w.components.Shown x k := by
  have hres : ∀ w', InvX w' (s.next (.extend ts it)) P → (∀ x k, w'.components.Shown x k ↔ w.components.Shown x k ∨
      ((s.knows ts ∧ (s.extendMakes ts it).length = it.items.length ∧ it.thenPanics = false) ∧
        x ∈ s.extendMakes ts it ∧ s.InFamily ts k ∧ (s.next (.extend ts it)).Full x k)) →
      ∀ x k, w'.components.Shown x k ↔ s.shownAfter (.extend ts it) w.components.Shown x k := by
    intro w' h' hs x k
    rw [hs]
    refine or_congr_right ⟨fun ⟨h1, h2, _, h3⟩ => ⟨h1, h2, h3⟩, fun ⟨h1, h2, h3⟩ => ⟨h1, h2, ?_, h3⟩⟩
    refine h.inFamily_of_inGroup ?_
    obtain ⟨us, h4, h5⟩ := h3
    obtain ⟨t, ht⟩ := h.group_type h4
    refine ⟨us, h4, t, ?_, ht⟩
    by_contra hn
    have h6 := h5 t ht
    have h7 : (s.next (.extend ts it)).table.get t x = s.table.get t x :=
      Table.get_setItems_other hn x _ _
    rw [h7, ← h.value] at h6
    have h8 : x ∈ s.life.alive := h.store.value_sub h6
    have h9 : x ∈ s.life.makes it.items.length := by
      simp only [MapWorld.extendMakes, h1.1, if_true] at h2
      exact h2
    exact h.life.makes_fresh _ x h9 h8
  simp only [MapWorld.Fine] at hf
  simp only [World.Even, World.swaps, World.extendPairs] at hv
  by_cases hk : s.knows ts
  · have hmk : s.extendMakes ts it = s.life.makes it.items.length := by simp [MapWorld.extendMakes, hk]
    obtain ⟨mask, l1, l2⟩ := lookupAll_ok h.store (·.insertMask) ts ((h.knows_iff ts).1 hk)
    obtain ⟨w1, j1, j2, j3, j4, j5, j6, j7, j8⟩ := extendEach_step (ts := ts) it.items w s P
      ⟨h.life, h.store, h.grouped, h.value, h.reg, h.groups⟩ hk rfl rfl rfl
    have hmade : extendMade w ts it = s.life.makes it.items.length := by
      simp only [extendMade, l1, j7]
    by_cases hfull : (s.life.makes it.items.length).length = it.items.length ∧ it.thenPanics = false
    · have hans : s.answer (.extend ts it) = .entities (s.life.makes it.items.length) := by
        simp [MapWorld.answer, hk, hmk, hfull]
      have hnext : s.next (.extend ts it) = { s with
          life := s.life.run ((s.life.makes it.items.length).map .made)
          table := s.table.setItems ts ((s.life.makes it.items.length).zip it.items) } := by
        simp [MapWorld.next, hans, events, MapWorld.regAfter, MapWorld.groupsAfter, MapWorld.tableAfter, hmk]
      rw [hnext] at hres ⊢
      rw [hans]
      rw [hmk] at hres
      rw [if_pos hfull.1] at j1
      have hslice : w1.entities.asSlice.drop w.entities.len = s.life.makes it.items.length := by
        unfold EntityStorage.asSlice EntityStorage.len
        rw [j6]
        simp
      have hlen : ¬ w1.entities.asSlice.length < w.entities.len := by
        unfold EntityStorage.asSlice EntityStorage.len
        rw [j6]
        simp
      have hbits : ∀ k, mask.getLsbD k = true ↔ ∃ t ∈ ts, ∃ m, w1.components.meta? t = some m ∧
          m.insertMask.getLsbD k = true := by
        intro k
        rw [l2]
        unfold ComponentStorage.meta?
        rw [j5]
      by_cases hm0 : mask = 0#64
      · have hinv : InvX w1 { s with
            life := s.life.run ((s.life.makes it.items.length).map .made)
            table := s.table.setItems ts ((s.life.makes it.items.length).zip it.items) } P := by
          refine ⟨j2.life, j2.store, j2.grouped.mono ?_, j2.value, j2.reg, j2.groups⟩
          rintro x k (hc | ⟨h8, h9⟩)
          · exact hc
          · have := (l2 k).2 h9
            rw [hm0] at this
            simp at this
        refine ⟨w1, ?_, hinv, hres w1 hinv fun x k => ?_⟩
        · simp only [step, retOutcome, World.extend, l1, Outcome.ofRes_ok, j1, Outcome.bind_ok, hfull.2, hlen, hslice,
            ComponentStorage.withMask, hm0, if_false, if_true, Bool.false_eq_true]
        · have hno : ¬ s.InFamily ts k := by
            rw [← h.inFamily_iff, ← l2, hm0]
            simp
          rw [j8]
          simp [hno]
      · simp only [l1, j1, hfull.2, hm0, if_false, hslice, Bool.false_eq_true] at hv
        obtain ⟨comps', gs', m1, m2, m3, m3b⟩ := groupEntities_store j2.life.idxUniq (s.life.makes it.items.length) w1.components
          j2.store hv (FamClosed.ofTypes j2.store hbits) j2.grouped
        obtain ⟨m4, m5⟩ := m2.store j2.store
        have hfin : GroupedExcept ({ w1.components with components := comps', groups := gs' } : ComponentStorage V)
            P := by
          refine m3.mono ?_
          rintro x k ⟨hc | ⟨h8, h9⟩, h10⟩
          · exact hc
          · refine (h10 ⟨h8, ?_⟩).elim
            rw [l2]
            exact h9
        have hinv : InvX { w1 with components := { w1.components with components := comps', groups := gs' } } { s with
            life := s.life.run ((s.life.makes it.items.length).map .made)
            table := s.table.setItems ts ((s.life.makes it.items.length).zip it.items) } P :=
          ⟨j2.life, m4, hfin, m5.trans j2.value, j2.reg, j2.groups.of_same rfl m2.stat⟩
        refine ⟨{ w1 with components := { w1.components with components := comps', groups := gs' } }, ?_, hinv,
          hres _ hinv fun x k => ?_⟩
        rotate_left
        · rw [← hinv.full_iff, ← h.inFamily_iff, ← l2]
          refine (m3b x k).trans ?_
          rw [j8, ← m2.full j2.store x k]
          simp only [hk, hfull, true_and, and_true]
        simp only [step, retOutcome, World.extend, l1, Outcome.ofRes_ok, j1, Outcome.bind_ok, hfull.2, hlen, hslice,
          ComponentStorage.withMask, hm0, if_false, m1, Res.bind_ok, Res.pure_eq, Bool.false_eq_true]
    · have hans : s.answer (.extend ts it) = .panicked (s.life.makes it.items.length) := by
        simp only [MapWorld.answer, hk, hmk, true_and]
        rw [if_neg hfull]
      have hnext : s.next (.extend ts it) = { s with
          life := s.life.run ((s.life.makes it.items.length).map .made)
          table := s.table.setItems ts ((s.life.makes it.items.length).zip it.items) } := by
        simp [MapWorld.next, hans, events, MapWorld.regAfter, MapWorld.groupsAfter, MapWorld.tableAfter, hmk]
      rw [hnext]
      rw [hans]
      refine ⟨w1, ?_, ⟨j2.life, j2.store, ?_, j2.value, j2.reg, j2.groups⟩, fun x k => ?_⟩
      rotate_left 2
      · rw [j8]
        simp only [MapWorld.shownAfter, hmk, hk, true_and, hfull, false_and, or_false]
      · by_cases hl : (s.life.makes it.items.length).length = it.items.length
        · rw [if_pos hl] at j1
          have htp : it.thenPanics = true := by
            cases ht : it.thenPanics
            · exact absurd ⟨hl, ht⟩ hfull
            · rfl
          simp only [step, retOutcome, World.extend, l1, Outcome.ofRes_ok, j1, Outcome.bind_ok, htp, if_true, hmade]
        · rw [if_neg hl] at j1
          simp only [step, retOutcome, World.extend, l1, Outcome.ofRes_ok, j1, Outcome.bind_panic, hmade]
      · rw [hmk] at hf
        rcases hf with h0 | h0 | h0 | h0
        · exact j2.grouped.mono fun x k _ => h0 x k
        · refine j2.grouped.mono ?_
          rintro x k (hc | ⟨h8, h9⟩)
          · exact hc
          · rw [h0] at h8
            simp at h8
        · exact absurd h0 hfull
        · exact j3 h0
  · have hmk : s.extendMakes ts it = [] := by simp [MapWorld.extendMakes, hk]
    have hans : s.answer (.extend ts it) = .panicked [] := by
      simp [MapWorld.answer, hk, hmk]
    have hnext : s.next (.extend ts it) = s := by
      simp [MapWorld.next, hans, events, MapWorld.regAfter, MapWorld.groupsAfter, MapWorld.tableAfter, hmk, Life.run_nil,
        Table.setItems]
    rw [hnext, hans]
    have hp : w.components.lookupAll (·.insertMask) ts = .panic := by
      apply lookupAll_panic
      rcases regs_cases w.components ts with h1 | h1
      · exact absurd ((h.knows_iff ts).2 h1) hk
      · exact h1
    refine ⟨w, ?_, h, fun x k => by simp [MapWorld.shownAfter, hk]⟩
    simp [step, retOutcome, World.extend, hp, extendMade]

theorem create_step {w : World V} {s : MapWorld V} {P : Entity → Nat → Prop} (h : InvX w s P)
    {vs : List (TypeId × V)} (hf : (∀ x k, P x k) ∨ s.Fine (.create vs))
    (hv : w.Even (.create vs)) :
    ∃ w', step w (.create vs) = some (s.answer (.create vs), w') ∧ InvX w' (s.next (.create vs)) P ∧
      ∀ x k, w'.components.Shown x k ↔ s.shownAfter (.create vs) w.components.Shown x k := by
  simp only [MapWorld.Fine] at hf
  by_cases hx : s.life.exhausted
  · have hans : s.answer (.create vs) = .panicked [] := by simp [MapWorld.answer, hx]
    have hnext : s.next (.create vs) = s := by
      simp [MapWorld.next, hans, events, MapWorld.regAfter, MapWorld.groupsAfter, MapWorld.tableAfter, hx, Life.run_nil]
    rw [hnext, hans]
    refine ⟨w, ?_, h, fun x k => by simp [MapWorld.shownAfter, hx]⟩
    simp [step, retOutcome, World.create, (h.life.create_exhausted hx).1, EntityStorage.createUpTo]
  · obtain ⟨es, h1, h2, h3⟩ := h.make hx
    have hmade : w.entities.createUpTo 1 = [s.life.nextEntity] := by
      simp [EntityStorage.createUpTo, h1]
    have hnext : s.next (.create vs) = { s with
        life := s.life.step (.made s.life.nextEntity), table := s.table.setAll s.life.nextEntity (s.known vs) } := by
      by_cases hk : s.knows (vs.map (·.1)) <;>
      simp [MapWorld.next, MapWorld.answer, events, MapWorld.regAfter, MapWorld.groupsAfter, MapWorld.tableAfter, hx, hk,
        Life.run_cons, Life.run_nil]
    rw [hnext]
    obtain ⟨w', j1, j2, j3⟩ := insertSet_step h3 (e := s.life.nextEntity) (Life.alive_made _ _) (vs := vs)
      (by simpa only [World.Even, World.swaps, h1] using hv)
      (by
        rcases hf with hf | hf | hf | hf
        · exact .inr (.inl (hf _))
        · exact absurd hf hx
        · exact .inl hf
        · exact .inr (.inr hf))
    refine ⟨w', ?_, j2, fun x k => ?_⟩
    rotate_left
    · simp only [MapWorld.shownAfter, hnext]
      refine (j3 x k).trans (or_congr_right ⟨fun ⟨k1, k2, _, k4⟩ => ⟨hx, k1, k2, k4⟩,
        fun ⟨_, k1, k2, k4⟩ => ⟨k1, k2, ?_, k4⟩⟩)
      subst k2
      refine h.inFamily_of_inGroup ?_
      obtain ⟨us, h4, h5⟩ := k4
      obtain ⟨t, ht⟩ := h.group_type h4
      refine ⟨us, h4, t, ?_, ht⟩
      by_contra hn
      have h6 := h5 t ht
      simp only at h6
      rw [known_all k1, Table.get_setAll, Content.setAll_other, ← h.value] at h6
      · exact h.life.next_fresh hx (h.store.value_sub h6)
      · intro p hp hc
        exact hn (List.mem_map.2 ⟨p, hp, hc⟩)
    by_cases hk : s.knows (vs.map (·.1))
    · rw [if_pos (by exact hk)] at j1
      simp [step, retOutcome, World.create, h1, j1, MapWorld.answer, hx, hk]
    · rw [if_neg (by exact hk)] at j1
      simp [step, retOutcome, World.create, h1, j1, MapWorld.answer, hx, hk, hmade]

theorem insert_step {w : World V} {s : MapWorld V} {P : Entity → Nat → Prop} (h : InvX w s P)
    {e : Entity} {vs : List (TypeId × V)}
    (hf : (∀ x k, P x k) ∨ s.Fine (.insert e vs)) (hv : w.Even (.insert e vs)) :
    ∃ w', step w (.insert e vs) = some (s.answer (.insert e vs), w') ∧ InvX w' (s.next (.insert e vs)) P ∧
      ∀ x k, w'.components.Shown x k ↔ s.shownAfter (.insert e vs) w.components.Shown x k := by
  simp only [MapWorld.Fine] at hf
  by_cases he : e ∈ s.life.alive
  · have hnext : s.next (.insert e vs) = { s with table := s.table.setAll e (s.known vs) } := by
      by_cases hk : s.knows (vs.map (·.1)) <;>
      simp [MapWorld.next, MapWorld.answer, events, MapWorld.regAfter, MapWorld.groupsAfter, MapWorld.tableAfter, he, hk,
        Life.run_nil]
    rw [hnext]
    have hc : w.entities.contains e = true := (h.life.contains_iff e).2 he
    obtain ⟨w', j1, j2, j3⟩ := insertSet_step h he (by simpa only [World.Even, World.swaps, hc, if_true] using hv)
      (by
        rcases hf with hf | hf | hf | hf
        · exact .inr (.inl (hf _))
        · exact absurd he hf
        · exact .inl hf
        · exact .inr (.inr hf))
    refine ⟨w', ?_, j2, fun x k => ?_⟩
    rotate_left
    · simp only [MapWorld.shownAfter, hnext, he, true_and]
      exact j3 x k
    by_cases hk : s.knows (vs.map (·.1))
    · rw [if_pos hk] at j1
      simp [step, retOutcome, World.insert, hc, j1, MapWorld.answer, he, hk]
    · rw [if_neg hk] at j1
      simp [step, retOutcome, World.insert, hc, j1, MapWorld.answer, he, hk]
  · have hnext : s.next (.insert e vs) = s := by
      simp [MapWorld.next, MapWorld.answer, events, MapWorld.regAfter, MapWorld.groupsAfter, MapWorld.tableAfter, he,
        Life.run_nil]
    rw [hnext]
    have hc : w.entities.contains e = false := by
      rw [Bool.eq_false_iff]
      exact fun hc => he ((h.life.contains_iff e).1 hc)
    refine ⟨w, ?_, h, fun x k => by simp [MapWorld.shownAfter, he]⟩
    simp [step, retOutcome, World.insert, hc, MapWorld.answer, he]

theorem destroy_step {w : World V} {s : MapWorld V} {P : Entity → Nat → Prop} (h : InvX w s P)
    {e : Entity} (hv : w.Even (.destroy e)) :
    ∃ w', step w (.destroy e) = some (s.answer (.destroy e), w') ∧ InvX w' (s.next (.destroy e)) P ∧
      ∀ x k, w'.components.Shown x k ↔ s.shownAfter (.destroy e) w.components.Shown x k := by
  by_cases he : e ∈ s.life.alive
  · have hnext : s.next (.destroy e) = { s with
        life := s.life.step (.killed e), table := s.table.strip e } := by
      simp [MapWorld.next, MapWorld.answer, events, MapWorld.regAfter, MapWorld.groupsAfter, MapWorld.tableAfter, he,
        Life.run_cons, Life.run_nil]
    rw [hnext]
    obtain ⟨es, h1, h2, h3⟩ := h.life.remove_present he
    obtain ⟨c', j1, j2, j3, j4, j5, j6, j7⟩ := strip_ok h.life.idxUniq h.store h.grouped e
      (by simpa only [World.Even, World.swaps, h1] using hv)
    refine ⟨⟨es, c'⟩, ?_, ⟨h2, ?_, j6, ?_, ?_, h.groups.of_same j5 j4⟩, j7⟩
    · simp [step, retRes, World.destroy, h1, j1, MapWorld.answer, he]
    · refine j2.mono ?_
      intro x hx
      simpa [Life.step] using hx
    · rw [Table.get_strip, ← h.value]
      exact j3
    · intro t
      rw [← h.reg]
      show (c'.metadata.lookup t).isSome ↔ _
      rw [j5]
      rfl
  · have hnext : s.next (.destroy e) = s := by
      simp [MapWorld.next, MapWorld.answer, events, MapWorld.regAfter, MapWorld.groupsAfter, MapWorld.tableAfter, he,
        Life.run_nil]
    rw [hnext]
    refine ⟨w, ?_, h, fun x k => ⟨fun hs => ⟨hs, ?_⟩, fun hs => hs.1⟩⟩
    rotate_left
    · rintro rfl
      exact he (h.full_alive (h.shown_full hs))
    simp [step, retRes, World.destroy, h.life.remove_absent he, MapWorld.answer, he]

theorem remove_step {w : World V} {s : MapWorld V} {P : Entity → Nat → Prop} (h : InvX w s P)
    {e : Entity} {ts : List TypeId}
    (hv : w.Even (.remove e ts)) :
    ∃ w', step w (.remove e ts) = some (s.answer (.remove e ts), w') ∧ InvX w' (s.next (.remove e ts)) P ∧
      step w (.delete e ts) = some (s.answer (.delete e ts), w') ∧
      ∀ x k, w'.components.Shown x k ↔ s.shownAfter (.remove e ts) w.components.Shown x k := by
  by_cases hk : s.knows ts
  · have hnext : s.next (.remove e ts) = { s with table := s.table.eraseAll e ts } := by
      simp [MapWorld.next, MapWorld.answer, events, MapWorld.regAfter, MapWorld.groupsAfter, MapWorld.tableAfter, hk,
        Life.run_nil]
    rw [hnext]
    obtain ⟨c', j1, j0, j2, j3, j4, j5, j6, j7⟩ := remove_ok h.life.idxUniq h.store h.grouped (e := e) hv
      ((h.knows_iff ts).1 hk)
    refine ⟨{ w with components := c' }, ?_, ?_, ?_, fun x k => by
      simp only [MapWorld.shownAfter, hk, true_and, ← h.inGroup_iff]
      exact j7 x k⟩
    · simp [step, retRes, World.remove, j1, MapWorld.answer, hk, h.value, Table.removed_eq]
    · exact h.of_store rfl rfl rfl j2 j6 (by rw [Table.get_eraseAll, ← h.value]; exact j3) j5 j4
    · simp [step, retRes, World.delete, j0, MapWorld.answer, hk]
  · have hnext : s.next (.remove e ts) = s := by
      simp [MapWorld.next, MapWorld.answer, events, MapWorld.regAfter, MapWorld.groupsAfter, MapWorld.tableAfter, hk,
        Life.run_nil]
    rw [hnext]
    have hp := remove_panic (c := w.components) (e := e) (ts := ts) (by
      rcases regs_cases w.components ts with h1 | h1
      · exact absurd ((h.knows_iff ts).2 h1) hk
      · exact h1)
    refine ⟨w, ?_, h, ?_, fun x k => by simp [MapWorld.shownAfter, hk]⟩
    · simp [step, retRes, World.remove, hp.1, MapWorld.answer, hk]
    · simp [step, retRes, World.delete, hp.2, MapWorld.answer, hk]

theorem next_delete (s : MapWorld V) (e : Entity) (ts : List TypeId) : s.next (.delete e ts) = s.next (.remove e ts) := by
  by_cases hk : s.knows ts <;>
  simp [MapWorld.next, MapWorld.answer, events, MapWorld.regAfter, MapWorld.groupsAfter, MapWorld.tableAfter, hk]

theorem write_step {w : World V} {s : MapWorld V} {P : Entity → Nat → Prop} (h : InvX w s P)
    {t : TypeId} {e : Entity} {v : V} :
    ∃ w', step w (.write t e v) = some (s.answer (.write t e v), w') ∧ InvX w' (s.next (.write t e v)) P ∧
      ∀ x k, w'.components.Shown x k ↔ w.components.Shown x k := by
  have hlife : s.life.run (events (.write t e v) (s.answer (.write t e v))) = s.life := by
    simp [events, Life.run_nil]
  by_cases hk : t ∈ s.reg
  · obtain ⟨m, hm⟩ := Option.isSome_iff_exists.1 ((h.reg t).2 hk)
    obtain ⟨c, h1, h2, h3, h4⟩ := h.store.set_at hm
    obtain ⟨c', h5, h6, h7, h8⟩ := h2.setMut e v
    obtain ⟨i1, i2, i3⟩ := h.store.update h1 h6 (by rw [h7]; exact h3) (fun k g _ _ p _ => by rw [h7])
    have hval := h.store.mem_lists_iff hm e
    have hlist : lists w.components.components m.storageIndex = c.entities := by
      unfold lists
      rw [h1]
      rfl
    rw [hlist, h.value] at hval
    refine ⟨{ w with components := { w.components with
      components := w.components.components.set m.storageIndex c' } }, ?_, ?_,
      ComponentStorage.shown_same (c := w.components)
        (c' := { w.components with components := w.components.components.set m.storageIndex c' }) rfl i2⟩
    · simp only [step, retRes, World.writeView, hm, h1, Res.unchecked_some, Res.bind_ok, h5, Res.pure_eq,
        MapWorld.answer, hk, if_true]
      have : decide (e ∈ c.entities) = (s.table.get t e).isSome := by
        rw [Bool.eq_iff_iff, decide_eq_true_eq, hval]
      rw [this]
    · refine h.of_store hlife rfl rfl i1 ?_ ?_ rfl (.refl _)
      · intro k g x hg hc
        rw [i2 k g hg x]
        refine h.grouped k g x hg ?_
        intro j hj1 hj2
        have := hc j hj1 hj2
        rw [lists_set (List.getElem?_eq_some_iff.1 h1).1] at this
        split at this
        · rename_i hji
          subst hji
          rw [hlist, ← h7]
          exact this
        · exact this
      · funext t' x
        rw [value_of_update h.store hm i3 t' x]
        have hc := h.store.mem_lists_iff hm e
        show _ = (if (s.table.get t e).isSome then s.table.set t e v else s.table).get t' x
        by_cases hs : (s.table.get t e).isSome
        · rw [if_pos hs, Table.get_set]
          unfold Content.set
          by_cases ht : t' = t
          · subst ht
            rw [if_pos rfl, h8]
            by_cases hxe : x = e
            · subst hxe
              simp [hval.2 hs]
            · simp [hxe, ← h.value, ComponentStorage.value_eq hm h1]
          · rw [if_neg ht, if_neg (by tauto), h.value]
        · rw [if_neg hs]
          by_cases ht : t' = t
          · subst ht
            rw [if_pos rfl, h8, ← h.value, ComponentStorage.value_eq hm h1]
            have : e ∉ c.entities := fun hc => hs (hval.1 hc)
            simp [this]
          · rw [if_neg ht, h.value]
  · have hn : w.components.meta? t = none := by
      have := (h.reg t).not.2 hk
      simpa using this
    have hg : s.table.get t e = none := by
      rw [← h.value]
      exact w.components.value_none hn e
    have hnext : s.next (.write t e v) = s := by
      simp [MapWorld.next, MapWorld.answer, events, MapWorld.regAfter, MapWorld.groupsAfter, MapWorld.tableAfter, hg,
        Life.run_nil]
    rw [hnext]
    refine ⟨w, ?_, h, fun _ _ => Iff.rfl⟩
    simp [step, retRes, World.writeView, hn, MapWorld.answer, hk]

theorem MapWorld.Fine.fair {s : MapWorld V} {op : Op V} (h : s.Fine op) : s.Fair op := by
  cases op with
  | maintain => exact h
  | setLayout rank gs => exact h
  | writeAt t pos v => exact h
  | _ => trivial

/-- One call: the world gives the answer of the map and stays in step with it. -/
theorem stepX {w : World V} {s : MapWorld V} {P : Entity → Nat → Prop} (h : InvX w s P) {op : Op V} (hf : s.Fair op)
    (hq : (∀ x k, P x k) ∨ s.Fine op) (hv : w.Even op) :
    ∃ w', step w op = some (s.answer op, w') ∧ InvX w' (s.next op) P ∧
      ∀ x k, w'.components.Shown x k ↔ s.shownAfter op w.components.Shown x k := by
  cases op with
  | register t =>
    obtain ⟨h1, h2, h3, h4, h5, h6, h7⟩ := register_ok h.store h.grouped t h.groups
    refine ⟨(w.register t).2, ?_, ?_, h7⟩
    · simp only [step, MapWorld.answer, Option.some.injEq, Prod.mk.injEq, and_true, Ret.bool.injEq]
      show (w.components.register t).1 = _
      rw [h1, Bool.eq_iff_iff, Option.isNone_iff_eq_none, decide_eq_true_eq, ← h.reg]
      simp
    · refine ⟨?_, ?_, h3, ?_, ?_, h6⟩
      · exact h.life
      · exact h2
      · exact h4.trans h.value
      · intro t'
        show ((w.components.register t).2.meta? t').isSome ↔ t' ∈ t :: s.reg
        rw [h5, h.reg, List.mem_cons]
  | setLayout rank gs =>
    obtain ⟨hl, hfit⟩ := hf
    obtain ⟨c', h1, h2, h3, h4, h5, h6⟩ := setLayout_ok h.life.idxUniq h.store hl hfit (es := w.entities.asSlice)
      (fun x hx => (h.life.alive x).2 hx) rank hv
    have hinv : Inv { w with components := c' } (s.next (.setLayout rank gs)) := by
      refine ⟨?_, ?_, h3, h4.trans h.value, ?_, h5⟩
      · simpa [MapWorld.next, MapWorld.answer, events, Life.run_nil] using h.life
      · simpa [MapWorld.next, MapWorld.answer, events, Life.run_nil] using h2
      · intro t
        show (c'.meta? t).isSome ↔ t ∈ layoutTypes (GroupLayout.build gs).2 ++ s.reg
        rw [h6, h.reg, List.mem_append]
        tauto
    refine ⟨{ w with components := c' }, ?_, hinv.mono (fun _ _ => False.elim), hinv.shown_all⟩
    simp [step, retOutcome, World.setLayout, h1, MapWorld.answer]
  | create vs => exact create_step h hq hv
  | extend ts it => exact extend_step h hq hv
  | destroy e => exact destroy_step h hv
  | createAtomic =>
    by_cases hx : s.life.exhausted
    · have hnext : s.next .createAtomic = s := by
        simp [MapWorld.next, MapWorld.answer, events, MapWorld.regAfter, MapWorld.groupsAfter, MapWorld.tableAfter, hx,
          Life.run_nil]
      rw [hnext]
      refine ⟨w, ?_, h, fun _ _ => Iff.rfl⟩
      simp [step, retRes, World.createAtomic, (h.life.create_exhausted hx).2, MapWorld.answer, hx]
    · have hnext : s.next .createAtomic = { s with life := s.life.step (.queued s.life.nextEntity) } := by
        simp [MapWorld.next, MapWorld.answer, events, MapWorld.regAfter, MapWorld.groupsAfter, MapWorld.tableAfter, hx,
          Life.run_nil, Life.run_cons]
      rw [hnext]
      obtain ⟨es, h1, h2, h3⟩ := h.life.createAtomic hx
      have hal : (s.life.step (.queued s.life.nextEntity)).alive = s.life.alive := by
        unfold Life.step Life.take
        cases s.life.waiting <;> rfl
      refine ⟨{ w with entities := es }, ?_, ⟨h2, by rw [hal]; exact h.store, h.grouped, h.value, h.reg, h.groups⟩,
        fun _ _ => Iff.rfl⟩
      simp [step, retRes, World.createAtomic, h1, MapWorld.answer, hx]
  | maintain =>
    have hnext : s.next .maintain = { s with life := s.life.step .maintained } := by
      simp [MapWorld.next, MapWorld.answer, events, MapWorld.regAfter, MapWorld.groupsAfter, MapWorld.tableAfter,
        Life.run_nil, Life.run_cons]
    rw [hnext]
    obtain ⟨es, h1, h2⟩ := h.life.maintain hf
    refine ⟨{ w with entities := es }, ?_, ⟨h2, h.store.mono ?_, h.grouped, h.value, h.reg, h.groups⟩,
      fun _ _ => Iff.rfl⟩
    · simp [step, retRes, World.maintain, h1, MapWorld.answer]
    · intro x hx
      simp [Life.step, hx]
  | insert e vs => exact insert_step h hq hv
  | remove e ts =>
    obtain ⟨w', h1, h2, _, h4⟩ := remove_step h hv
    exact ⟨w', h1, h2, h4⟩
  | delete e ts =>
    rw [next_delete]
    obtain ⟨w', _, h2, h3, h4⟩ := remove_step h (e := e) (ts := ts) hv
    exact ⟨w', h3, h2, h4⟩
  | clear =>
    obtain ⟨es, h1, h2, h3⟩ := h.life.clear
    obtain ⟨j1, j2, j3, j4, j5⟩ := clear_ok h.store
    have hinv : Inv ⟨es, w.components.clear⟩ (s.next .clear) := by
      refine ⟨?_, ?_, j5, j2, ?_, h.groups.of_same j4 j3⟩
      · simpa [MapWorld.next, MapWorld.answer, events, Life.run_nil, Life.run_cons] using h2
      · exact j1.mono (fun _ hx => hx.elim)
      · intro t
        exact h.reg t
    refine ⟨⟨es, w.components.clear⟩, ?_, hinv.mono (fun _ _ => False.elim), hinv.shown_all⟩
    simp [step, retRes, World.clear, h1, MapWorld.answer]
  | reset =>
    obtain ⟨j1, j2, j3, j4, j5⟩ := clear_ok h.store
    have hinv : Inv w.reset (s.next .reset) := by
      refine ⟨?_, ?_, j5, j2, ?_, h.groups.of_same j4 j3⟩
      · exact LifeInv.reset w.entities
      · exact j1.mono (fun _ hx => hx.elim)
      · intro t
        exact h.reg t
    exact ⟨w.reset, rfl, hinv.mono (fun _ _ => False.elim), hinv.shown_all⟩
  | write t e v => exact write_step h
  | writeAt t pos v => exact hf.elim

theorem step_refines {w : World V} {s : MapWorld V} (h : Inv w s) {op : Op V} (hf : s.Fine op) (hv : w.Even op) :
    ∃ w', step w op = some (s.answer op, w') ∧ Inv w' (s.next op) := by
  obtain ⟨w', h1, h2, _⟩ := stepX h hf.fair (.inr hf) hv
  exact ⟨w', h1, h2⟩

/-- Interrupted calls included. -/
theorem step_fair {w : World V} {s : MapWorld V} (h : InvL w s) {op : Op V} (hf : s.Fair op) (hv : w.Even op) :
    ∃ w', step w op = some (s.answer op, w') ∧ InvL w' (s.next op) := by
  obtain ⟨w', h1, h2, _⟩ := stepX h hf (.inl fun _ _ => trivial) hv
  exact ⟨w', h1, h2⟩

/-! ### Histories -/

theorem MapWorld.run_append (s : MapWorld V) (a b : List (Op V)) : s.run (a ++ b) = (s.run a).run b :=
  List.foldl_append

theorem MapWorld.allFine_append : ∀ (a b : List (Op V)) (s : MapWorld V),
    s.AllFine (a ++ b) ↔ s.AllFine a ∧ (s.run a).AllFine b := by
  intro a
  induction a with
  | nil => intro b s; simp [MapWorld.AllFine, MapWorld.run]
  | cons op a ih =>
    intro b s
    simp only [List.cons_append, MapWorld.AllFine, ih, and_assoc]
    rfl

theorem MapWorld.allFair_append : ∀ (a b : List (Op V)) (s : MapWorld V),
    s.AllFair (a ++ b) ↔ s.AllFair a ∧ (s.run a).AllFair b := by
  intro a
  induction a with
  | nil => intro b s; simp [MapWorld.AllFair, MapWorld.run]
  | cons op a ih =>
    intro b s
    simp only [List.cons_append, MapWorld.AllFair, ih, and_assoc]
    rfl

theorem MapWorld.answers_append : ∀ (a b : List (Op V)) (s : MapWorld V),
    s.answers (a ++ b) = s.answers a ++ (s.run a).answers b := by
  intro a
  induction a with
  | nil => intro b s; rfl
  | cons op a ih =>
    intro b s
    simp only [List.cons_append, MapWorld.answers, ih]
    rfl

theorem run_snoc : ∀ (a : List (Op V)) {w w1 w2 : World V} {rs : List (Ret V)} {op : Op V} {r : Ret V},
    run w a = some (rs, w1) → step w1 op = some (r, w2) → run w (a ++ [op]) = some (rs ++ [r], w2) := by
  intro a
  induction a with
  | nil =>
    intro w w1 w2 rs op r h h1
    cases h
    simp [run, h1]
  | cons o a ih =>
    intro w w1 w2 rs op r h h1
    simp only [run] at h
    cases h2 : step w o with
    | none => simp [h2] at h
    | some p =>
      obtain ⟨r', w'⟩ := p
      simp only [h2] at h
      cases h3 : run w' a with
      | none => simp [h3] at h
      | some q =>
        obtain ⟨rs', w''⟩ := q
        simp only [h3] at h
        cases h
        simp [run, h2, ih h3 h1]

theorem Reach.run {w w' : World V} {h : History V} (hr : Reach w h w') :
    Sparsey.run w (h.map (·.1)) = some (h.map (·.2), w') := by
  induction hr with
  | nil => rfl
  | snoc hr hs ih =>
    rw [List.map_append, List.map_append]
    exact run_snoc _ ih hs

theorem GoodFrom.split : ∀ (a b : List (Op V)) {w w' : World V} {s : MapWorld V} {rs : List (Ret V)},
    run w a = some (rs, w') → (GoodFrom w s (a ++ b) ↔ GoodFrom w s a ∧ GoodFrom w' (s.run a) b) := by
  intro a
  induction a with
  | nil =>
    intro b w w' s rs h
    cases h
    simp [GoodFrom, MapWorld.run]
  | cons op a ih =>
    intro b w w' s rs h
    simp only [run] at h
    cases h1 : step w op with
    | none => simp [h1] at h
    | some p =>
      obtain ⟨r, w1⟩ := p
      simp only [h1] at h
      cases h2 : run w1 a with
      | none => simp [h2] at h
      | some q =>
        obtain ⟨rs', w2⟩ := q
        simp only [h2] at h
        cases h
        simp only [List.cons_append, GoodFrom, h1, ih b h2, and_assoc]
        rfl

theorem Good.snoc {h : History V} {w : World V} (hr : Reach World.empty h w) {op : Op V}
    (hg : Good (h.map (·.1) ++ [op])) : Good (h.map (·.1)) ∧ (mapOf (h.map (·.1))).Fine op ∧ w.Even op := by
  obtain ⟨h1, h2, h3, _⟩ := (GoodFrom.split _ [op] hr.run).1 hg
  exact ⟨h1, h2, h3⟩

theorem Good.of_fine {h : History V} {w : World V} (hr : Reach World.empty h w) {op : Op V}
    (hg : Good (h.map (·.1))) (hf : (mapOf (h.map (·.1))).Fine op) (hv : w.Even op) : Good (h.map (·.1) ++ [op]) := by
  refine (GoodFrom.split _ [op] hr.run).2 ⟨hg, hf, hv, ?_⟩
  cases step w op <;> trivial

theorem mapOf_snoc (a : List (Op V)) (op : Op V) : mapOf (a ++ [op]) = (mapOf a).next op := by
  unfold mapOf
  rw [MapWorld.run_append]
  rfl

/-- Running calls from a world that represents a map. -/
theorem run_refines : ∀ (ops : List (Op V)) (w : World V) (s : MapWorld V), Inv w s → GoodFrom w s ops →
    ∃ w', run w ops = some (s.answers ops, w') ∧ Inv w' (s.run ops) := by
  intro ops
  induction ops with
  | nil => intro w s h _; exact ⟨w, rfl, h⟩
  | cons op ops ih =>
    intro w s h hf
    obtain ⟨hf1, hf2, hf3⟩ := hf
    obtain ⟨w1, h1, h2⟩ := step_refines h hf1 hf2
    simp only [h1] at hf3
    obtain ⟨w2, h3, h4⟩ := ih w1 _ h2 hf3
    refine ⟨w2, ?_, h4⟩
    simp only [run, h1, h3]
    rfl

/-- Every reachable world of a good history represents the map. -/
theorem reach_refines {h : History V} {w : World V} (hr : Reach World.empty h w) (hg : Good (h.map (·.1))) :
    Inv w (mapOf (h.map (·.1))) ∧ h.map (·.2) = MapWorld.init.answers (h.map (·.1)) ∧
      life h = (mapOf (h.map (·.1))).life := by
  induction hr with
  | nil => exact ⟨Inv.init, rfl, rfl⟩
  | @snoc h w₁ w₂ op r hr hs ih =>
    rw [List.map_append, List.map_singleton] at hg ⊢
    obtain ⟨hg1, hf, hv⟩ := Good.snoc hr hg
    obtain ⟨i1, i2, i3⟩ := ih hg1
    obtain ⟨w', h1, h2⟩ := step_refines i1 hf hv
    rw [hs] at h1
    simp only [Option.some.injEq, Prod.mk.injEq] at h1
    obtain ⟨rfl, rfl⟩ := h1
    rw [mapOf_snoc]
    refine ⟨h2, ?_, ?_⟩
    · rw [MapWorld.answers_append, List.map_append, i2]
      rfl
    · rw [life_snoc, i3]
      rfl

/-- The next call of a good history. -/
theorem reach_step {h : History V} {w : World V} (hr : Reach World.empty h w) {op : Op V}
    (hg : Good (h.map (·.1) ++ [op])) :
    Inv w (mapOf (h.map (·.1))) ∧
    ∃ w', step w op = some ((mapOf (h.map (·.1))).answer op, w') ∧ Inv w' ((mapOf (h.map (·.1))).next op) := by
  obtain ⟨hg1, hf, hv⟩ := Good.snoc hr hg
  have hi := (reach_refines hr hg1).1
  exact ⟨hi, step_refines hi hf hv⟩

/-! ### Fair histories -/

theorem GoodFrom.fair : ∀ (ops : List (Op V)) {w : World V} {s : MapWorld V}, GoodFrom w s ops → FairFrom w s ops := by
  intro ops
  induction ops with
  | nil => intros; trivial
  | cons op ops ih =>
    rintro w s ⟨h1, h2, h3⟩
    refine ⟨h1.fair, h2, ?_⟩
    cases hs : step w op with
    | none => trivial
    | some p =>
      rw [hs] at h3
      exact ih h3

theorem Good.fair {ops : List (Op V)} (h : Good ops) : Fair ops := GoodFrom.fair ops h

theorem FairFrom.split : ∀ (a b : List (Op V)) {w w' : World V} {s : MapWorld V} {rs : List (Ret V)},
    run w a = some (rs, w') → (FairFrom w s (a ++ b) ↔ FairFrom w s a ∧ FairFrom w' (s.run a) b) := by
  intro a
  induction a with
  | nil =>
    intro b w w' s rs h
    cases h
    simp [FairFrom, MapWorld.run]
  | cons op a ih =>
    intro b w w' s rs h
    simp only [run] at h
    cases h1 : step w op with
    | none => simp [h1] at h
    | some p =>
      obtain ⟨r, w1⟩ := p
      simp only [h1] at h
      cases h2 : run w1 a with
      | none => simp [h2] at h
      | some q =>
        obtain ⟨rs', w2⟩ := q
        simp only [h2] at h
        cases h
        simp only [List.cons_append, FairFrom, h1, ih b h2, and_assoc]
        rfl

theorem Fair.snoc {h : History V} {w : World V} (hr : Reach World.empty h w) {op : Op V}
    (hg : Fair (h.map (·.1) ++ [op])) : Fair (h.map (·.1)) ∧ (mapOf (h.map (·.1))).Fair op ∧ w.Even op := by
  obtain ⟨h1, h2, h3, _⟩ := (FairFrom.split _ [op] hr.run).1 hg
  exact ⟨h1, h2, h3⟩

theorem Fair.of_fair {h : History V} {w : World V} (hr : Reach World.empty h w) {op : Op V}
    (hg : Fair (h.map (·.1))) (hf : (mapOf (h.map (·.1))).Fair op) (hv : w.Even op) : Fair (h.map (·.1) ++ [op]) := by
  refine (FairFrom.split _ [op] hr.run).2 ⟨hg, hf, hv, ?_⟩
  cases step w op <;> trivial

/-- Running calls from a world that represents a map. -/
theorem run_fair : ∀ (ops : List (Op V)) (w : World V) (s : MapWorld V), InvL w s → FairFrom w s ops →
    ∃ w', run w ops = some (s.answers ops, w') ∧ InvL w' (s.run ops) := by
  intro ops
  induction ops with
  | nil => intro w s h _; exact ⟨w, rfl, h⟩
  | cons op ops ih =>
    intro w s h hf
    obtain ⟨hf1, hf2, hf3⟩ := hf
    obtain ⟨w1, h1, h2⟩ := step_fair h hf1 hf2
    simp only [h1] at hf3
    obtain ⟨w2, h3, h4⟩ := ih w1 _ h2 hf3
    refine ⟨w2, ?_, h4⟩
    simp only [run, h1, h3]
    rfl

/-- Every reachable world of a fair history represents the map. -/
theorem reach_fair {h : History V} {w : World V} (hr : Reach World.empty h w) (hg : Fair (h.map (·.1))) :
    InvL w (mapOf (h.map (·.1))) ∧ h.map (·.2) = MapWorld.init.answers (h.map (·.1)) ∧
      life h = (mapOf (h.map (·.1))).life := by
  induction hr with
  | nil => exact ⟨Inv.init.loose, rfl, rfl⟩
  | @snoc h w₁ w₂ op r hr hs ih =>
    rw [List.map_append, List.map_singleton] at hg ⊢
    obtain ⟨hg1, hf, hv⟩ := Fair.snoc hr hg
    obtain ⟨i1, i2, i3⟩ := ih hg1
    obtain ⟨w', h1, h2⟩ := step_fair i1 hf hv
    rw [hs] at h1
    simp only [Option.some.injEq, Prod.mk.injEq] at h1
    obtain ⟨rfl, rfl⟩ := h1
    rw [mapOf_snoc]
    refine ⟨h2, ?_, ?_⟩
    · rw [MapWorld.answers_append, List.map_append, i2]
      rfl
    · rw [life_snoc, i3]
      rfl

/-- A call on a world that a history leads to. -/
theorem reach_stepL {h : History V} {w : World V} (hr : Reach World.empty h w) {op : Op V}
    (hg : Fair (h.map (·.1) ++ [op])) :
    InvL w (mapOf (h.map (·.1))) ∧
    ∃ w', step w op = some ((mapOf (h.map (·.1))).answer op, w') ∧ InvL w' ((mapOf (h.map (·.1))).next op) := by
  obtain ⟨hg1, hf, hv⟩ := Fair.snoc hr hg
  have hi := (reach_fair hr hg1).1
  exact ⟨hi, step_fair hi hf hv⟩

end Sparsey
