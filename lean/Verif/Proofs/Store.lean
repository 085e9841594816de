import Verif.Model.World
import Verif.Proofs.GroupLoop

/-!
The component storage as a map from types and entities to values.
-/

set_option autoImplicit false
set_option linter.unusedSimpArgs false

namespace Sparsey
variable {V : Type}

/-! ### Contents -/

/-- What is stored: a partial map. -/
abbrev Content (V : Type) := TypeId → Entity → Option V

namespace Content

def set (f : Content V) (t : TypeId) (e : Entity) (v : V) : Content V :=
  fun t' x => if t' = t ∧ x = e then some v else f t' x

def setAll (f : Content V) (e : Entity) : List (TypeId × V) → Content V
  | [] => f
  | (t, v) :: vs => setAll (f.set t e v) e vs

def erase (f : Content V) (t : TypeId) (e : Entity) : Content V :=
  fun t' x => if t' = t ∧ x = e then none else f t' x

def eraseAll (f : Content V) (e : Entity) : List TypeId → Content V
  | [] => f
  | t :: ts => eraseAll (f.erase t e) e ts

/-- The values found by removing the types one after the other. -/
def removed (f : Content V) (e : Entity) : List TypeId → List (Option V)
  | [] => []
  | t :: ts => f t e :: removed (f.erase t e) e ts

def strip (f : Content V) (e : Entity) : Content V := fun t x => if x = e then none else f t x

theorem eraseAll_eq (f : Content V) (e : Entity) (ts : List TypeId) :
    f.eraseAll e ts = fun t x => if t ∈ ts ∧ x = e then none else f t x := by
  induction ts generalizing f with
  | nil => simp [eraseAll]
  | cons t ts ih =>
    rw [eraseAll, ih]
    funext t' x
    simp only [erase, List.mem_cons]
    by_cases h1 : x = e <;> by_cases h2 : t' ∈ ts <;> by_cases h3 : t' = t <;> simp [h1, h2, h3]

end Content

namespace ComponentStorage

/-- The value stored for a type and an entity. -/
def value (c : ComponentStorage V) : Content V := fun t e =>
  match c.meta? t with
  | none => none
  | some m =>
    match c.components[m.storageIndex]? with
    | none => none
    | some s => s.val e

theorem value_eq {c : ComponentStorage V} {t : TypeId} {m : ComponentMetadata} {s : CompSet V} (hm : c.meta? t = some m)
    (hs : c.components[m.storageIndex]? = some s) (e : Entity) : c.value t e = s.val e := by
  simp [value, hm, hs]

end ComponentStorage

/-! ### Static part of the metadata -/

/-- The storage index `i` is in the range of group `g`. -/
def InRange (g : Group) (i : Nat) : Prop := g.storageStart ≤ i ∧ i < g.storageEnd

instance (g : Group) (i : Nat) : Decidable (InRange g i) := inferInstanceAs (Decidable (_ ∧ _))

/-- The metadata agrees with the groups. -/
structure MetaOK (gs : List Group) (md : List (TypeId × ComponentMetadata)) (n : Nat) : Prop where
  keys : (md.map Prod.fst).Nodup
  idx : ∀ t m, md.lookup t = some m → m.storageIndex < n
  inj : ∀ t t' m m', md.lookup t = some m → md.lookup t' = some m' → m.storageIndex = m'.storageIndex → t = t'
  cover : ∀ (j : Nat) (g : Group) (i : Nat), gs[j]? = some g → InRange g i →
    ∃ t m, md.lookup t = some m ∧ m.storageIndex = i
  del : ∀ t m k, md.lookup t = some m → (m.deleteMask.getLsbD k = true ↔
    ∃ g, gs[k]? = some g ∧ InRange g m.storageIndex)
  ins : ∀ t m k, md.lookup t = some m → (m.insertMask.getLsbD k = true ↔
    ∃ (g : Group) (k' : Nat) (g' : Group), gs[k]? = some g ∧ gs[k']? = some g' ∧
      g'.storageStart = g.storageStart ∧ InRange g' m.storageIndex)
  infoNone : ∀ t m, md.lookup t = some m → m.groupInfo = none →
    ∀ (j : Nat) (g : Group), gs[j]? = some g → ¬ InRange g m.storageIndex
  infoSome : ∀ t m i, md.lookup t = some m → m.groupInfo = some i →
    ∃ (j : Nat) (g g0 : Group), gs[j]? = some g ∧ g.newStorageStart ≤ m.storageIndex ∧
      m.storageIndex < g.storageEnd ∧ i.groupEnd = j + 1 ∧ i.groupStart ≤ j ∧ gs[i.groupStart]? = some g0 ∧
      g0.storageStart = g.storageStart ∧ g0.newStorageStart = g0.storageStart ∧
      m.storageIndex - g.storageStart < 16 ∧
      ∀ b < 16, i.storageMask.getLsbD b = decide (b = m.storageIndex - g.storageStart)

theorem InRange.stat {g g' : Group} (h : g.stat = g'.stat) (i : Nat) : InRange g i ↔ InRange g' i := by
  unfold InRange
  rw [Group.stat_start h, Group.stat_end h]

theorem SameStat.exists_range {gs gs' : List Group} (hs : SameStat gs gs') (k i : Nat) :
    (∃ g, gs'[k]? = some g ∧ InRange g i) ↔ ∃ g, gs[k]? = some g ∧ InRange g i := by
  constructor
  · rintro ⟨g, h1, h2⟩
    obtain ⟨g', h3, h4⟩ := hs.get h1
    exact ⟨g', h3, (InRange.stat h4 i).1 h2⟩
  · rintro ⟨g, h1, h2⟩
    obtain ⟨g', h3, h4⟩ := hs.symm.get h1
    exact ⟨g', h3, (InRange.stat h4 i).1 h2⟩

theorem MetaOK.of_same {gs gs' : List Group} {md : List (TypeId × ComponentMetadata)} {n : Nat}
    (h : MetaOK gs md n) (hs : SameStat gs gs') : MetaOK gs' md n where
  keys := h.keys
  idx := h.idx
  inj := h.inj
  cover j g i hg hi := by
    obtain ⟨g', h1, h2⟩ := hs.get hg
    exact h.cover j g' i h1 ((InRange.stat h2 i).1 hi)
  del t m k hm := by rw [hs.exists_range]; exact h.del t m k hm
  ins t m k hm := by
    rw [h.ins t m k hm]
    constructor
    · rintro ⟨g, k', g', h1, h2, h3, h4⟩
      obtain ⟨x, h5, h6⟩ := hs.symm.get h1
      obtain ⟨y, h7, h8⟩ := hs.symm.get h2
      exact ⟨x, k', y, h5, h7, by rw [← Group.stat_start h6, ← Group.stat_start h8]; exact h3,
        (InRange.stat h8 _).1 h4⟩
    · rintro ⟨g, k', g', h1, h2, h3, h4⟩
      obtain ⟨x, h5, h6⟩ := hs.get h1
      obtain ⟨y, h7, h8⟩ := hs.get h2
      exact ⟨x, k', y, h5, h7, by rw [← Group.stat_start h6, ← Group.stat_start h8]; exact h3,
        (InRange.stat h8 _).1 h4⟩
  infoNone t m hm hi j g hg hr := by
    obtain ⟨g', h1, h2⟩ := hs.get hg
    exact h.infoNone t m hm hi j g' h1 ((InRange.stat h2 _).1 hr)
  infoSome t m i hm hi := by
    obtain ⟨j, g, g0, h1, h2, h3, h4, h5, h6, h7, h8, h9, h10⟩ := h.infoSome t m i hm hi
    obtain ⟨g', a1, a2⟩ := hs.symm.get h1
    obtain ⟨g0', b1, b2⟩ := hs.symm.get h6
    refine ⟨j, g', g0', a1, ?_, ?_, h4, h5, b1, ?_, ?_, ?_, ?_⟩
    · rw [← Group.stat_newStart a2]; exact h2
    · rw [← Group.stat_end a2]; exact h3
    · rw [← Group.stat_start a2, ← Group.stat_start b2]; exact h7
    · rw [← Group.stat_start b2, ← Group.stat_newStart b2]; exact h8
    · rw [← Group.stat_start a2]; exact h9
    · rw [← Group.stat_start a2]; exact h10

/-! ### The storage invariant -/

/-- Invariant of a component storage whose entities are among `A`. -/
structure StoreOK (A : Entity → Prop) (c : ComponentStorage V) : Prop where
  gstat : GStat c.groups c.components.length
  mds : MetaOK c.groups c.metadata c.components.length
  sets : SetsOK A c.components
  packed : Packed (lists c.components) c.groups

/-- The part of the invariant that does not look into the sets: groups and metadata describe the same layout. -/
structure StoreStat (c : ComponentStorage V) : Prop where
  gstat : GStat c.groups c.components.length
  mds : MetaOK c.groups c.metadata c.components.length

theorem StoreOK.stat {A : Entity → Prop} {c : ComponentStorage V} (h : StoreOK A c) : StoreStat c := ⟨h.gstat, h.mds⟩

/-- Every entity with all component types of a group is in its packed part, except for the pairs of entity and group
in `P`. -/
def GroupedExcept (c : ComponentStorage V) (P : Entity → Nat → Prop) : Prop :=
  ∀ (k : Nat) (g : Group) (x : Entity), c.groups[k]? = some g → Complete (lists c.components) g x →
    InPrefix (lists c.components) g x ∨ P x k

/-- Every entity with all component types of a group is in its packed part. -/
def AllGrouped (c : ComponentStorage V) : Prop := GroupedExcept c (fun _ _ => False)

theorem GroupedExcept.mono {c : ComponentStorage V} {P Q : Entity → Nat → Prop} (h : GroupedExcept c P)
    (hpq : ∀ x k, P x k → Q x k) : GroupedExcept c Q := fun k g x hg hc =>
  (h k g x hg hc).imp id (hpq x k)

theorem StoreOK.mono {A B : Entity → Prop} {c : ComponentStorage V} (h : StoreOK A c) (hab : ∀ x, A x → B x) :
    StoreOK B c :=
  { h with sets := ⟨h.sets.wf, fun s hs x hx => hab x (h.sets.sub s hs x hx)⟩ }

theorem lists_set {comps : List (CompSet V)} {i : Nat} (hi : i < comps.length) (s' : CompSet V) (s : Nat) :
    lists (comps.set i s') s = if s = i then s'.entities else lists comps s := by
  unfold lists
  rw [Rep.set_index_get _ _ _ _ hi]
  split <;> rfl

namespace StoreOK
variable {A : Entity → Prop} {c : ComponentStorage V}

theorem set_at (h : StoreOK A c) {t : TypeId} {m : ComponentMetadata} (hm : c.meta? t = some m) :
    ∃ s, c.components[m.storageIndex]? = some s ∧ s.WF ∧ (∀ e ∈ s.entities, A e) ∧ s ∈ c.components := by
  have hi := h.mds.idx t m hm
  exact ⟨_, List.getElem?_eq_getElem hi, h.sets.wf _ (List.getElem_mem hi), h.sets.sub _ (List.getElem_mem hi),
    List.getElem_mem hi⟩

theorem value_sub (h : StoreOK A c) {t : TypeId} {e : Entity} (hv : (c.value t e).isSome) : A e := by
  cases hm : c.meta? t with
  | none => simp [ComponentStorage.value, hm] at hv
  | some m =>
    obtain ⟨s, h1, h2, h3, _⟩ := h.set_at hm
    rw [c.value_eq hm h1] at hv
    exact h3 e ((h2.mem_iff e).2 hv)

theorem mem_lists_iff (h : StoreOK A c) {t : TypeId} {m : ComponentMetadata} (hm : c.meta? t = some m) (e : Entity) :
    e ∈ lists c.components m.storageIndex ↔ (c.value t e).isSome := by
  obtain ⟨s, h1, h2, h3, _⟩ := h.set_at hm
  rw [lists_some h1, c.value_eq hm h1, h2.mem_iff]

/-- Replacing one set by one that agrees on the packed parts. -/
theorem update (h : StoreOK A c) {i : Nat} {s s' : CompSet V} (hi : c.components[i]? = some s) (hw : s'.WF)
    (hsub : ∀ e ∈ s'.entities, A e)
    (hpre : ∀ (k : Nat) (g : Group), c.groups[k]? = some g → InRange g i → ∀ p < g.len,
      s'.entities[p]? = s.entities[p]?) :
    StoreOK A { c with components := c.components.set i s' } ∧
    (∀ (k : Nat) (g : Group), c.groups[k]? = some g → ∀ x,
      InPrefix (lists (c.components.set i s')) g x ↔ InPrefix (lists c.components) g x) ∧
    (∀ t m x, c.meta? t = some m → ({ c with components := c.components.set i s' } : ComponentStorage V).value t x =
      if m.storageIndex = i then s'.val x else c.value t x) := by
  have hil : i < c.components.length := (List.getElem?_eq_some_iff.1 hi).1
  have hl := lists_set hil s'
  have hpos : ∀ (k : Nat) (g : Group), c.groups[k]? = some g → ∀ j, InRange g j → ∀ p < g.len,
      (lists (c.components.set i s') j)[p]? = (lists c.components j)[p]? := by
    intro k g hg j hj p hp
    rw [hl]
    split
    · rename_i hji
      subst hji
      rw [lists_some hi]
      exact hpre k g hg hj p hp
    · rfl
  refine ⟨⟨?_, ?_, ⟨?_, ?_⟩, ⟨?_, h.packed.nested⟩⟩, ?_, ?_⟩
  · simpa using h.gstat
  · simpa using h.mds
  · intro x hx
    rcases List.mem_or_eq_of_mem_set hx with hx | rfl
    · exact h.sets.wf x hx
    · exact hw
  · intro x hx
    rcases List.mem_or_eq_of_mem_set hx with hx | rfl
    · exact h.sets.sub x hx
    · exact hsub
  · intro j g hg p hp
    obtain ⟨e, he⟩ := h.packed.aligned j g hg p hp
    exact ⟨e, fun q h1 h2 => by
      show (lists (c.components.set i s') q)[p]? = _
      rw [hpos j g hg q ⟨h1, h2⟩ p hp]; exact he q h1 h2⟩
  · intro k g hg x
    have hb := h.gstat.bounds k g hg
    unfold InPrefix
    constructor
    · rintro ⟨p, hp, hx⟩
      exact ⟨p, hp, by rw [← hpos k g hg _ ⟨Nat.le_refl _, by omega⟩ p hp]; exact hx⟩
    · rintro ⟨p, hp, hx⟩
      exact ⟨p, hp, by rw [hpos k g hg _ ⟨Nat.le_refl _, by omega⟩ p hp]; exact hx⟩
  · intro t m x hm
    unfold ComponentStorage.value
    have hm' : ({ c with components := c.components.set i s' } : ComponentStorage V).meta? t = some m := hm
    simp only [hm, hm']
    rw [Rep.set_index_get _ _ _ _ hil]
    by_cases hmi : m.storageIndex = i
    · simp [hmi]
    · simp [hmi]

/-- The groups of a storage index are below its packed length. -/
theorem len_le (h : StoreOK A c) {i : Nat} {s : CompSet V} (hi : c.components[i]? = some s) {k : Nat} {g : Group}
    (hg : c.groups[k]? = some g) (hr : InRange g i) : g.len ≤ s.entities.length := by
  have := h.packed.len_le h.sets h.gstat hg hr.1 hr.2
  rw [lists_some hi] at this
  exact this

end StoreOK

/-- Unregistered types have no values. -/
theorem ComponentStorage.value_none {c : ComponentStorage V} {t : TypeId} (hm : c.meta? t = none) (e : Entity) :
    c.value t e = none := by
  simp [ComponentStorage.value, hm]

/-- `value` of a storage that differs in one set. -/
theorem value_of_update {c : ComponentStorage V} {A : Entity → Prop} (h : StoreOK A c) {t : TypeId}
    {m : ComponentMetadata} (hm : c.meta? t = some m) {s' : CompSet V}
    (hv : ∀ t' m' x, c.meta? t' = some m' →
      ({ c with components := c.components.set m.storageIndex s' } : ComponentStorage V).value t' x =
      if m'.storageIndex = m.storageIndex then s'.val x else c.value t' x) (t' : TypeId) (x : Entity) :
    ({ c with components := c.components.set m.storageIndex s' } : ComponentStorage V).value t' x =
      if t' = t then s'.val x else c.value t' x := by
  cases hm' : c.meta? t' with
  | none =>
    have h1 : t' ≠ t := by rintro rfl; rw [hm] at hm'; cases hm'
    rw [if_neg h1, c.value_none hm', ComponentStorage.value_none]
    exact hm'
  | some m' =>
    rw [hv t' m' x hm']
    by_cases ht : t' = t
    · subst ht
      rw [hm] at hm'
      cases hm'
      simp
    · rw [if_neg ht, if_neg]
      intro hc
      exact ht (h.mds.inj t' t m' m hm' hm hc)

namespace StoreOK
variable {A : Entity → Prop} {c : ComponentStorage V}

/-- An entity is complete for a group if it has components of all its types. -/
theorem complete_iff (h : StoreOK A c) {k : Nat} {g : Group} (hg : c.groups[k]? = some g) (e : Entity) :
    Complete (lists c.components) g e ↔
      ∀ t m, c.meta? t = some m → InRange g m.storageIndex → (c.value t e).isSome := by
  constructor
  · intro hc t m hm hr
    exact (h.mem_lists_iff hm e).1 (hc _ hr.1 hr.2)
  · intro hc s h1 h2
    obtain ⟨t, m, hm, rfl⟩ := h.mds.cover k g s hg ⟨h1, h2⟩
    exact (h.mem_lists_iff hm e).2 (hc t m hm ⟨h1, h2⟩)

/-- One insertion. -/
theorem insertOne (h : StoreOK A c) (hA : IdxUniq A) {e : Entity} (he : A e) (hu : e.index < u32Size) {t : TypeId}
    {m : ComponentMetadata} (hm : c.meta? t = some m) (v : V) :
    ∃ s s', c.components[m.storageIndex]? = some s ∧ s.insert e v = .ok (s.val e, s') ∧
      StoreOK A { c with components := c.components.set m.storageIndex s' } ∧
      ({ c with components := c.components.set m.storageIndex s' } : ComponentStorage V).value =
        c.value.set t e v ∧
      (∀ P, GroupedExcept c P → GroupedExcept { c with components := c.components.set m.storageIndex s' }
        (fun x k => P x k ∨ (x = e ∧ m.insertMask.getLsbD k = true))) ∧
      (∀ (k : Nat) (g : Group), c.groups[k]? = some g → ∀ x,
        InPrefix (lists (c.components.set m.storageIndex s')) g x ↔ InPrefix (lists c.components) g x) := by
  obtain ⟨s, h1, h2, h3, h4⟩ := h.set_at hm
  obtain ⟨s', h5, h6, h7, h8⟩ := h2.insert (e := e) v (fun x hx hi => hA x e (h3 x hx) he hi) hu
  have hsub : ∀ x ∈ s'.entities, A x := by
    intro x hx
    rw [h7] at hx
    split at hx
    · exact h3 x hx
    · simp only [List.mem_append, List.mem_singleton] at hx
      rcases hx with hx | rfl
      · exact h3 x hx
      · exact he
  have hil : m.storageIndex < c.components.length := (List.getElem?_eq_some_iff.1 h1).1
  obtain ⟨u1, u2, u3⟩ := h.update h1 h6 hsub (by
    intro k g hg hr p hp
    have := h.len_le h1 hg hr
    rw [h7]
    split
    · rfl
    · rw [List.getElem?_append_left (by omega)])
  have hval := value_of_update h hm u3
  have hcomp : ∀ (k : Nat) (g : Group) (x : Entity), c.groups[k]? = some g →
      Complete (lists (c.components.set m.storageIndex s')) g x →
      Complete (lists c.components) g x ∨ (x = e ∧ InRange g m.storageIndex ∧ e ∉ s.entities) := by
    intro k g x hg hc
    by_cases hx : x = e ∧ InRange g m.storageIndex ∧ e ∉ s.entities
    · exact .inr hx
    · left
      intro j h9 h10
      have := hc j h9 h10
      rw [lists_set hil] at this
      split at this
      · rename_i hj
        subst hj
        rw [lists_some h1]
        rw [h7] at this
        split at this
        · exact this
        · rename_i hne
          simp only [List.mem_append, List.mem_singleton] at this
          rcases this with h11 | rfl
          · exact h11
          · exact absurd ⟨rfl, ⟨h9, h10⟩, hne⟩ hx
      · exact this
  refine ⟨s, s', h1, h5, u1, ?_, ?_, u2⟩
  · funext t' x
    rw [hval]
    unfold Content.set
    by_cases ht : t' = t
    · subst ht
      rw [if_pos rfl, h8, c.value_eq hm h1]
      by_cases hx : x = e <;> simp [hx]
    · simp [ht]
  · intro P hP k g x hg hc
    rcases hcomp k g x hg hc with h9 | ⟨rfl, h9, _⟩
    · rcases hP k g x hg h9 with h10 | h10
      · exact .inl ((u2 k g hg x).2 h10)
      · exact .inr (.inl h10)
    · exact .inr (.inr ⟨rfl, (h.mds.ins t m k hm).2 ⟨g, k, g, hg, hg, rfl, h9⟩⟩)

/-- One removal, of an entity that is in no packed part of the set. -/
theorem removeOne (h : StoreOK A c) {e : Entity} {t : TypeId} {m : ComponentMetadata} (hm : c.meta? t = some m)
    (hn : ∀ (k : Nat) (g : Group), c.groups[k]? = some g → InRange g m.storageIndex →
      ¬ InPrefix (lists c.components) g e) :
    ∃ s s', c.components[m.storageIndex]? = some s ∧ s.remove e = .ok (c.value t e, s') ∧ s.delete e = .ok s' ∧
      StoreOK A { c with components := c.components.set m.storageIndex s' } ∧
      ({ c with components := c.components.set m.storageIndex s' } : ComponentStorage V).value =
        c.value.erase t e ∧
      (∀ (k : Nat) (g : Group), c.groups[k]? = some g → ∀ x,
        InPrefix (lists (c.components.set m.storageIndex s')) g x ↔ InPrefix (lists c.components) g x) := by
  obtain ⟨s, h1, h2, h3, h4⟩ := h.set_at hm
  have hfin : ∀ s' : CompSet V, s'.WF → (∀ x, s'.val x = if x = e then none else s.val x) →
      (∀ (k : Nat) (g : Group), c.groups[k]? = some g → InRange g m.storageIndex → ∀ p < g.len,
        s'.entities[p]? = s.entities[p]?) →
      StoreOK A { c with components := c.components.set m.storageIndex s' } ∧
      ({ c with components := c.components.set m.storageIndex s' } : ComponentStorage V).value =
        c.value.erase t e ∧
      (∀ (k : Nat) (g : Group), c.groups[k]? = some g → ∀ x,
        InPrefix (lists (c.components.set m.storageIndex s')) g x ↔ InPrefix (lists c.components) g x) := by
    intro s' hw hv hpre
    obtain ⟨u1, u2, u3⟩ := h.update h1 hw (by
      intro x hx
      rw [hw.mem_iff, hv] at hx
      split at hx
      · cases hx
      · exact h3 x ((h2.mem_iff x).2 hx)) hpre
    refine ⟨u1, ?_, u2⟩
    funext t' x
    rw [value_of_update h hm u3]
    unfold Content.erase
    by_cases ht : t' = t
    · subst ht
      rw [if_pos rfl, hv, c.value_eq hm h1]
      simp
    · simp [ht]
  by_cases he : e ∈ s.entities
  · obtain ⟨d, hd⟩ := List.mem_iff_getElem?.1 he
    obtain ⟨s', h5, h6, h7, h8, h9⟩ := h2.remove_present hd
    refine ⟨s, s', h1, by rw [c.value_eq hm h1]; exact h5, h6, hfin s' h7 h9 ?_⟩
    intro k g hg hr p hp
    have hle := pos_ge_len h.sets h.gstat h.packed hg (hn k g hg hr) hr.1 hr.2 (d := d)
      (by rw [lists_some h1]; exact hd)
    have hdl := (List.getElem?_eq_some_iff.1 hd).1
    rw [h8, if_pos (by omega), if_neg (by omega)]
  · obtain ⟨h5, h6⟩ := h2.remove_absent he
    have hnone := (h2.val_eq_none e).2 he
    refine ⟨s, s, h1, by rw [c.value_eq hm h1, hnone]; exact h5, h6, hfin s h2 ?_ ?_⟩
    · intro x
      split
      · rename_i hx; rw [hx, hnone]
      · rfl
    · intros; rfl

end StoreOK

/-! ### Masks of several types -/

/-- A mask that contains whole families. -/
def FamClosed (gs : List Group) (m : BitVec 64) : Prop :=
  (∀ j, m.getLsbD j = true → j < gs.length) ∧
  ∀ (j p : Nat) (gj gp : Group), m.getLsbD j = true → gs[j]? = some gj → gs[p]? = some gp →
    gp.storageStart = gj.storageStart → m.getLsbD p = true

/-- A mask that contains with a group all larger groups of its family. -/
def UpClosed (gs : List Group) (m : BitVec 64) : Prop :=
  (∀ j, m.getLsbD j = true → j < gs.length) ∧
  ∀ (j p : Nat) (gj gp : Group), m.getLsbD j = true → j < p → gs[j]? = some gj → gs[p]? = some gp →
    gp.storageStart = gj.storageStart → m.getLsbD p = true

theorem FamClosed.zero (gs : List Group) : FamClosed gs 0#64 := ⟨by simp, by simp⟩

theorem FamClosed.or {gs : List Group} {m m' : BitVec 64} (h : FamClosed gs m) (h' : FamClosed gs m') :
    FamClosed gs (m ||| m') := by
  refine ⟨fun j hj => ?_, fun j p gj gp hj hgj hgp hf => ?_⟩
  · rw [BitVec.getLsbD_or, Bool.or_eq_true] at hj
    exact hj.elim (h.1 j) (h'.1 j)
  · rw [BitVec.getLsbD_or, Bool.or_eq_true] at hj ⊢
    exact hj.imp (fun hj => h.2 j p gj gp hj hgj hgp hf) (fun hj => h'.2 j p gj gp hj hgj hgp hf)

theorem UpClosed.zero (gs : List Group) : UpClosed gs 0#64 := ⟨by simp, by simp⟩

theorem UpClosed.or {gs : List Group} {m m' : BitVec 64} (h : UpClosed gs m) (h' : UpClosed gs m') :
    UpClosed gs (m ||| m') := by
  refine ⟨fun j hj => ?_, fun j p gj gp hj hjp hgj hgp hf => ?_⟩
  · rw [BitVec.getLsbD_or, Bool.or_eq_true] at hj
    exact hj.elim (h.1 j) (h'.1 j)
  · rw [BitVec.getLsbD_or, Bool.or_eq_true] at hj ⊢
    exact hj.imp (fun hj => h.2 j p gj gp hj hjp hgj hgp hf) (fun hj => h'.2 j p gj gp hj hjp hgj hgp hf)

theorem MetaOK.insertClosed {gs : List Group} {md : List (TypeId × ComponentMetadata)} {n : Nat} (h : MetaOK gs md n)
    {t : TypeId} {m : ComponentMetadata} (hm : md.lookup t = some m) : FamClosed gs m.insertMask := by
  refine ⟨fun j hj => ?_, fun j p gj gp hj hgj hgp hf => ?_⟩
  · obtain ⟨g, _, _, h1, _⟩ := (h.ins t m j hm).1 hj
    exact (List.getElem?_eq_some_iff.1 h1).1
  · obtain ⟨g, k', g', h1, h2, h3, h4⟩ := (h.ins t m j hm).1 hj
    rw [hgj] at h1
    cases h1
    exact (h.ins t m p hm).2 ⟨gp, k', g', hgp, h2, by rw [h3, hf], h4⟩

theorem MetaOK.deleteClosed {gs : List Group} {md : List (TypeId × ComponentMetadata)} {n : Nat} (h : MetaOK gs md n)
    (hs : GStat gs n)
    {t : TypeId} {m : ComponentMetadata} (hm : md.lookup t = some m) : UpClosed gs m.deleteMask := by
  refine ⟨fun j hj => ?_, fun j p gj gp hj hjp hgj hgp hf => ?_⟩
  · obtain ⟨g, h1, _⟩ := (h.del t m j hm).1 hj
    exact (List.getElem?_eq_some_iff.1 h1).1
  · obtain ⟨g, h1, h2⟩ := (h.del t m j hm).1 hj
    rw [hgj] at h1
    cases h1
    refine (h.del t m p hm).2 ⟨gp, hgp, ?_⟩
    have := hs.nest j p gj gp hjp hgj hgp hf.symm
    have := hs.bounds p gp hgp
    unfold InRange at *
    omega

/-- The storage index of a registered type. -/
def ComponentStorage.idxOf (c : ComponentStorage V) (t : TypeId) : Nat :=
  match c.meta? t with
  | some m => m.storageIndex
  | none => 0

theorem ComponentStorage.idxOf_eq {c : ComponentStorage V} {t : TypeId} {m : ComponentMetadata}
    (hm : c.meta? t = some m) : c.idxOf t = m.storageIndex := by
  simp [ComponentStorage.idxOf, hm]

/-- `lookupAll` on registered types. -/
theorem lookupAll_ok {A : Entity → Prop} {c : ComponentStorage V} (h : StoreOK A c)
    (f : ComponentMetadata → GroupMask) : ∀ (ts : List TypeId), (∀ t ∈ ts, (c.meta? t).isSome) →
    ∃ mask, c.lookupAll f ts = .ok (ts.map c.idxOf, mask) ∧
      (∀ k, mask.getLsbD k = true ↔ ∃ t ∈ ts, ∃ m, c.meta? t = some m ∧ (f m).getLsbD k = true) := by
  intro ts
  induction ts with
  | nil => intro _; exact ⟨0#64, rfl, by simp⟩
  | cons t ts ih =>
    intro hts
    obtain ⟨mask, h1, h4⟩ := ih (fun t' ht' => hts t' (by simp [ht']))
    obtain ⟨m, hm⟩ := Option.isSome_iff_exists.1 (hts t (by simp))
    obtain ⟨s, h5, _⟩ := h.set_at hm
    refine ⟨f m ||| mask, ?_, ?_⟩
    · unfold ComponentStorage.lookupAll
      simp [hm, h1, h5, c.idxOf_eq hm]
    · intro k
      rw [BitVec.getLsbD_or, Bool.or_eq_true, h4]
      constructor
      · rintro (h6 | ⟨t', h6, m', h7, h8⟩)
        · exact ⟨t, by simp, m, hm, h6⟩
        · exact ⟨t', by simp [h6], m', h7, h8⟩
      · rintro ⟨t', h6, m', h7, h8⟩
        rcases List.mem_cons.1 h6 with rfl | h6
        · rw [hm] at h7
          cases h7
          exact .inl h8
        · exact .inr ⟨t', h6, m', h7, h8⟩

theorem lookupAll_panic {c : ComponentStorage V}
    (f : ComponentMetadata → GroupMask) : ∀ (ts : List TypeId), (∃ t ∈ ts, c.meta? t = none) →
    c.lookupAll f ts = .panic := by
  intro ts
  induction ts with
  | nil => simp
  | cons t ts ih =>
    rintro ⟨t', ht', hn⟩
    unfold ComponentStorage.lookupAll
    cases hm : c.meta? t with
    | none => rfl
    | some m =>
      simp only
      rcases List.mem_cons.1 ht' with rfl | ht'
      · rw [hm] at hn; cases hn
      · rw [ih ⟨t', ht', hn⟩]; rfl

/-- Types of the list are all registered, or not. -/
theorem regs_cases (c : ComponentStorage V) (ts : List TypeId) :
    (∀ t ∈ ts, (c.meta? t).isSome) ∨ ∃ t ∈ ts, c.meta? t = none := by
  by_cases h : ∀ t ∈ ts, (c.meta? t).isSome
  · exact .inl h
  · right
    push Not at h
    obtain ⟨t, h1, h2⟩ := h
    exact ⟨t, h1, by simpa using h2⟩

theorem FamClosed.ofTypes {A : Entity → Prop} {c : ComponentStorage V} (h : StoreOK A c) {ts : List TypeId}
    {mask : BitVec 64}
    (hm : ∀ k, mask.getLsbD k = true ↔ ∃ t ∈ ts, ∃ m, c.meta? t = some m ∧ m.insertMask.getLsbD k = true) :
    FamClosed c.groups mask := by
  refine ⟨fun j hj => ?_, fun j p gj gp hj hgj hgp hf => ?_⟩
  · obtain ⟨t, ht, m, h1, h2⟩ := (hm j).1 hj
    exact (h.mds.insertClosed h1).1 j h2
  · obtain ⟨t, ht, m, h1, h2⟩ := (hm j).1 hj
    exact (hm p).2 ⟨t, ht, m, h1, (h.mds.insertClosed h1).2 j p gj gp h2 hgj hgp hf⟩

theorem UpClosed.ofTypes {A : Entity → Prop} {c : ComponentStorage V} (h : StoreOK A c) {ts : List TypeId}
    {mask : BitVec 64}
    (hm : ∀ k, mask.getLsbD k = true ↔ ∃ t ∈ ts, ∃ m, c.meta? t = some m ∧ m.deleteMask.getLsbD k = true) :
    UpClosed c.groups mask := by
  refine ⟨fun j hj => ?_, fun j p gj gp hj hjp hgj hgp hf => ?_⟩
  · obtain ⟨t, ht, m, h1, h2⟩ := (hm j).1 hj
    exact (h.mds.deleteClosed h.gstat h1).1 j h2
  · obtain ⟨t, ht, m, h1, h2⟩ := (hm j).1 hj
    exact (hm p).2 ⟨t, ht, m, h1, (h.mds.deleteClosed h.gstat h1).2 j p gj gp h2 hjp hgj hgp hf⟩

/-! ### Regrouping a storage -/

/-- Same storage up to regrouping. -/
theorem Regroup.store {A : Entity → Prop} {c : ComponentStorage V} (h : StoreOK A c) {comps' : List (CompSet V)}
    {gs' : List Group} (hr : Regroup A c.components c.groups comps' gs') :
    StoreOK A { c with components := comps', groups := gs' } ∧
    ({ c with components := comps', groups := gs' } : ComponentStorage V).value = c.value := by
  refine ⟨⟨?_, ?_, hr.ok, hr.packed⟩, ?_⟩
  · show GStat gs' comps'.length
    rw [hr.vals.1]
    exact h.gstat.of_same hr.stat
  · show MetaOK gs' c.metadata comps'.length
    rw [hr.vals.1]
    exact h.mds.of_same hr.stat
  · funext t x
    cases hm : c.meta? t with
    | none => rw [c.value_none hm, ComponentStorage.value_none]; exact hm
    | some m =>
      obtain ⟨s, h1, _⟩ := h.set_at hm
      have hi : m.storageIndex < comps'.length := by rw [hr.vals.1]; exact h.mds.idx t m hm
      have h2 := List.getElem?_eq_getElem hi
      rw [c.value_eq hm h1, ComponentStorage.value_eq (c := { c with components := comps', groups := gs' }) hm h2]
      exact hr.vals.2 _ _ _ h1 h2 x

/-- `x` is in the packed part of the `k`-th group. -/
def ComponentStorage.Shown (c : ComponentStorage V) (x : Entity) (k : Nat) : Prop :=
  ∃ g, c.groups[k]? = some g ∧ InPrefix (lists c.components) g x

/-- `x` has all types of the `k`-th group. -/
def ComponentStorage.Full (c : ComponentStorage V) (x : Entity) (k : Nat) : Prop :=
  ∃ g, c.groups[k]? = some g ∧ Complete (lists c.components) g x

theorem StoreOK.full_of_shown {A : Entity → Prop} {c : ComponentStorage V} (h : StoreOK A c) {x : Entity} {k : Nat}
    (hs : c.Shown x k) : c.Full x k := by
  obtain ⟨g, h1, h2⟩ := hs
  exact ⟨g, h1, h2.complete h.packed h.gstat h1⟩

theorem ComponentStorage.shown_same {c c' : ComponentStorage V} (hg : c'.groups = c.groups)
    (hp : ∀ (k : Nat) (g : Group), c.groups[k]? = some g → ∀ x,
      InPrefix (lists c'.components) g x ↔ InPrefix (lists c.components) g x) (x : Entity) (k : Nat) :
    c'.Shown x k ↔ c.Shown x k := by
  unfold ComponentStorage.Shown
  rw [hg]
  constructor
  · rintro ⟨g, h1, h2⟩
    exact ⟨g, h1, (hp k g h1 x).1 h2⟩
  · rintro ⟨g, h1, h2⟩
    exact ⟨g, h1, (hp k g h1 x).2 h2⟩

theorem Regroup.full {A : Entity → Prop} {c : ComponentStorage V} (h : StoreOK A c) {comps' : List (CompSet V)}
    {gs' : List Group} (hr : Regroup A c.components c.groups comps' gs') (x : Entity) (k : Nat) :
    ({ c with components := comps', groups := gs' } : ComponentStorage V).Full x k ↔ c.Full x k := by
  constructor
  · rintro ⟨g, h1, h2⟩
    obtain ⟨g0, h3, h4⟩ := hr.stat.get h1
    exact ⟨g0, h3, (hr.vals.complete h.sets hr.ok h4 x).1 h2⟩
  · rintro ⟨g0, h1, h2⟩
    have hk : k < gs'.length := by
      rw [hr.stat.length]
      exact (List.getElem?_eq_some_iff.1 h1).1
    have h3 : gs'[k]? = some gs'[k] := List.getElem?_eq_getElem hk
    obtain ⟨g1, h4, h5⟩ := hr.stat.get h3
    rw [h1] at h4
    cases h4
    exact ⟨_, h3, (hr.vals.complete h.sets hr.ok h5 x).2 h2⟩

/-- Grouping one entity in whole families. -/
theorem group_store {A : Entity → Prop} (hA : IdxUniq A) {c : ComponentStorage V} (h : StoreOK A c)
    {mask : BitVec 64} (hm : FamClosed c.groups mask) {e : Entity}
    (hv : EvenPairs (groupPairs (c.components, c.groups) mask e)) {P : Entity → Nat → Prop} (hP : GroupedExcept c P) :
    ∃ comps' gs', group (c.components, c.groups) mask e = .ok (comps', gs') ∧
      Regroup A c.components c.groups comps' gs' ∧
      GroupedExcept { c with components := comps', groups := gs' }
        (fun x k => P x k ∧ ¬ (x = e ∧ mask.getLsbD k = true)) ∧
      ∀ x k, ({ c with components := comps', groups := gs' } : ComponentStorage V).Shown x k ↔
        c.Shown x k ∨ (x = e ∧ mask.getLsbD k = true ∧ c.Full x k) := by
  obtain ⟨comps', gs', h1, h2, h3, h4, h4b⟩ := group_ok hA (e := e) (m := mask) h.sets h.gstat h.packed hv hm.1
    (fun j p gj gp hj _ hgj hgp hf => .inl (hm.2 j p gj gp hj hgj hgp hf))
  refine ⟨comps', gs', h1, h2, ?_, ?_⟩
  rotate_left
  · intro x k
    constructor
    · rintro ⟨g, h5, h6⟩
      obtain ⟨g0, h7, h8⟩ := h2.stat.get h5
      rcases h4b k g0 g h7 h5 x h6 with h9 | ⟨rfl, h9⟩
      · exact .inl ⟨g0, h7, h9⟩
      · exact .inr ⟨rfl, h9, (h2.full h x k).1 ((h2.store h).1.full_of_shown ⟨g, h5, h6⟩)⟩
    · rintro (⟨g0, h5, h6⟩ | ⟨rfl, h5, h6⟩)
      · have hk : k < gs'.length := by
          rw [h2.stat.length]
          exact (List.getElem?_eq_some_iff.1 h5).1
        exact ⟨_, List.getElem?_eq_getElem hk, h3 k g0 _ h5 (List.getElem?_eq_getElem hk) x h6⟩
      · obtain ⟨g, h7, h8⟩ := (h2.full h x k).2 h6
        exact ⟨g, h7, h4 k g h5 h7 h8⟩
  intro k g x hg hc
  obtain ⟨g0, hg0, hs⟩ := h2.stat.get hg
  by_cases hx : x = e ∧ mask.getLsbD k = true
  · obtain ⟨rfl, hk⟩ := hx
    exact .inl (h4 k g hk hg hc)
  · rcases hP k g0 x hg0 ((h2.vals.complete h.sets h2.ok hs x).1 hc) with h5 | h5
    · exact .inl (h3 k g0 g hg0 hg x h5)
    · exact .inr ⟨h5, hx⟩

/-- Grouping several entities. -/
theorem groupEntities_store {A : Entity → Prop} (hA : IdxUniq A) {mask : BitVec 64} :
    ∀ (es : List Entity) (c : ComponentStorage V), StoreOK A c →
    EvenPairs (ComponentStorage.groupEntitiesPairs mask es (c.components, c.groups)) → FamClosed c.groups mask →
    ∀ {P : Entity → Nat → Prop}, GroupedExcept c P →
    ∃ comps' gs', ComponentStorage.groupEntities mask es (c.components, c.groups) = .ok (comps', gs') ∧
      Regroup A c.components c.groups comps' gs' ∧
      GroupedExcept { c with components := comps', groups := gs' }
        (fun x k => P x k ∧ ¬ (x ∈ es ∧ mask.getLsbD k = true)) ∧
      ∀ x k, ({ c with components := comps', groups := gs' } : ComponentStorage V).Shown x k ↔
        c.Shown x k ∨ (x ∈ es ∧ mask.getLsbD k = true ∧ c.Full x k) := by
  intro es
  induction es with
  | nil =>
    intro c h hv hm P hP
    exact ⟨_, _, rfl, ⟨h.sets, .refl _, .refl _, h.packed⟩, hP.mono (by simp), by simp⟩
  | cons e es ih =>
    intro c h hv hm P hP
    unfold ComponentStorage.groupEntitiesPairs at hv
    obtain ⟨comps1, gs1, h1, h2, h3, h3b⟩ := group_store hA h hm (e := e)
      (fun pr hpr => hv pr (List.mem_append_left _ hpr)) hP
    simp only [h1] at hv
    obtain ⟨h4, _⟩ := h2.store h
    obtain ⟨comps2, gs2, h5, h6, h7, h7b⟩ := ih { c with components := comps1, groups := gs1 } h4
      (fun pr hpr => hv pr (List.mem_append_right _ hpr)) (by
        refine ⟨fun j hj => ?_, fun j p gj gp hj hgj hgp hf => ?_⟩
        · show j < gs1.length
          rw [h2.stat.length]
          exact hm.1 j hj
        · obtain ⟨a, ha, ha'⟩ := h2.stat.get hgj
          obtain ⟨b, hb, hb'⟩ := h2.stat.get hgp
          exact hm.2 j p a b hj ha hb (by rw [← Group.stat_start ha', ← Group.stat_start hb']; exact hf)) h3
    refine ⟨comps2, gs2, ?_, ⟨h6.ok, h2.vals.trans h6.vals, h2.stat.trans h6.stat, h6.packed⟩, ?_, ?_⟩
    rotate_left 2
    · intro x k
      have hx := h7b x k
      rw [h3b x k, h2.full h x k] at hx
      refine hx.trans ?_
      rw [List.mem_cons]
      constructor
      · rintro ((h8 | ⟨h8, h9⟩) | ⟨h8, h9⟩)
        · exact .inl h8
        · exact .inr ⟨.inl h8, h9⟩
        · exact .inr ⟨.inr h8, h9⟩
      · rintro (h8 | ⟨h8 | h8, h9⟩)
        · exact .inl (.inl h8)
        · exact .inl (.inr ⟨h8, h9⟩)
        · exact .inr ⟨h8, h9⟩
    · unfold ComponentStorage.groupEntities
      rw [h1]
      exact h5
    · refine h7.mono ?_
      rintro x k ⟨⟨h8, h9⟩, h10⟩
      refine ⟨h8, ?_⟩
      simp only [List.mem_cons]
      tauto

end Sparsey
