import Verif.Proofs.EntitySet
import Verif.Proofs.CompSet
import Verif.Proofs.Static

/-!
What holds in every reachable world, also after histories that are not `Good`: slots and dense entities agree up to
versions (`IdxRep`), entity indexes fit in 32 bits, and the allocator stays in range.
-/

set_option autoImplicit false
set_option linter.unusedSimpArgs false

namespace Sparsey
variable {V : Type}

/-! ### Agreement up to versions -/

/-- A sparse vector agrees with a dense list up to versions. -/
structure IdxRep (sv : SparseVec) (ents : List Entity) : Prop where
  fwd : ∀ (d : Nat) (e : Entity), ents[d]? = some e → ∃ v, sv.slots[e.index]? = some (some ⟨d, v⟩)
  bwd : ∀ (i d v : Nat), sv.slots[i]? = some (some ⟨d, v⟩) → ∃ e, ents[d]? = some e ∧ e.index = i
  small : ∀ e ∈ ents, e.index < u32Size

/-- Forgets the version. -/
def Entity.erase (e : Entity) : Entity := ⟨e.index, 0⟩

/-- Forgets the version. -/
def Slot.erase (s : Slot) : Slot := ⟨s.index, 0⟩

/-- Forgets the versions. -/
def SparseVec.erase (s : SparseVec) : SparseVec := ⟨s.slots.map (Option.map Slot.erase)⟩

namespace IdxRep
variable {sv : SparseVec} {ents : List Entity}

theorem iff_erase : IdxRep sv ents ↔ Rep sv.erase (ents.map Entity.erase) := by
  constructor
  · intro h
    constructor
    · intro d e he
      rw [List.getElem?_map, Option.map_eq_some_iff] at he
      obtain ⟨x, hx, rfl⟩ := he
      obtain ⟨v, hv⟩ := h.fwd d x hx
      show (sv.slots.map (Option.map Slot.erase))[x.index]? = _
      rw [List.getElem?_map, hv]
      rfl
    · intro i d v hs
      simp only [SparseVec.erase, List.getElem?_map, Option.map_eq_some_iff] at hs
      obtain ⟨o, ho, x, rfl, hx⟩ := hs
      obtain ⟨e, he, rfl⟩ := h.bwd i x.index x.version ho
      simp only [Slot.erase, Slot.mk.injEq] at hx
      obtain ⟨rfl, rfl⟩ := hx
      rw [List.getElem?_map, he]
      rfl
    · intro e he
      obtain ⟨x, hx, rfl⟩ := List.mem_map.1 he
      exact h.small x hx
  · intro h
    constructor
    · intro d e he
      have := h.fwd d e.erase (by rw [List.getElem?_map, he]; rfl)
      simp only [SparseVec.erase, List.getElem?_map, Option.map_eq_some_iff] at this
      obtain ⟨o, ho, x, rfl, hx⟩ := this
      simp only [Slot.erase, Slot.mk.injEq] at hx
      exact ⟨x.version, by rw [← hx.1]; exact ho⟩
    · intro i d v hs
      have := h.bwd i d 0 (by simp only [SparseVec.erase, List.getElem?_map, hs]; rfl)
      rw [List.getElem?_map, Option.map_eq_some_iff] at this
      obtain ⟨x, hx, hx'⟩ := this
      simp only [Entity.erase, Entity.mk.injEq] at hx'
      exact ⟨x, hx, hx'.1⟩
    · intro e he
      exact h.small e.erase (List.mem_map_of_mem he)

theorem nil : IdxRep ⟨[]⟩ [] where
  fwd d e h := by simp at h
  bwd i d v h := by simp at h
  small := by simp

theorem pos_unique (h : IdxRep sv ents) {a b : Nat} {x y : Entity} (ha : ents[a]? = some x)
    (hb : ents[b]? = some y) (hi : x.index = y.index) : a = b := by
  obtain ⟨v, h1⟩ := h.fwd a x ha
  obtain ⟨v', h2⟩ := h.fwd b y hb
  rw [hi, h2] at h1
  simp at h1
  exact h1.1.symm

theorem nodup_index (h : IdxRep sv ents) : (ents.map (·.index)).Nodup := by
  have := (iff_erase.1 h).nodup_index
  rwa [List.map_map] at this

theorem nodup (h : IdxRep sv ents) : ents.Nodup := List.Nodup.of_map _ h.nodup_index

theorem length_le (h : IdxRep sv ents) : ents.length ≤ u32Size := by
  have := (iff_erase.1 h).length_le
  rwa [List.length_map] at this

theorem alloc (h : IdxRep sv ents) (i : Nat) : IdxRep (sv.allocateAt i) ents where
  fwd d e he := by
    obtain ⟨v, hv⟩ := h.fwd d e he
    exact ⟨v, (sv.allocateAt_some i _ _).2 hv⟩
  bwd j d v hs := h.bwd j d v ((sv.allocateAt_some i _ _).1 hs)
  small := h.small

theorem push (h : IdxRep sv ents) {e : Entity} (hi : ∀ x ∈ ents, x.index ≠ e.index)
    (hl : e.index < sv.slots.length) (hs : e.index < u32Size) :
    IdxRep ⟨sv.slots.set e.index (some ⟨asU32 ents.length, e.version⟩)⟩ (ents ++ [e]) ∧
      asU32 ents.length = ents.length := by
  have := (iff_erase.1 h).push (e := e.erase) (by
    intro x hx
    obtain ⟨y, hy, rfl⟩ := List.mem_map.1 hx
    exact hi y hy) (by simpa [SparseVec.erase, Entity.erase] using hl) hs
  rw [List.length_map] at this
  refine ⟨iff_erase.2 ?_, this.2⟩
  have h1 := this.1
  simpa [SparseVec.erase, List.map_set, Entity.erase, Slot.erase] using h1

/-- Replacing an entity by one with the same index. -/
theorem replace (h : IdxRep sv ents) {d : Nat} {x e : Entity} (hx : ents[d]? = some x) (hi : e.index = x.index) :
    IdxRep sv (ents.set d e) := by
  rw [iff_erase]
  have : (ents.set d e).map Entity.erase = ents.map Entity.erase := by
    rw [List.map_set]
    refine List.ext_getElem? fun j => ?_
    rw [List.getElem?_set]
    split
    · rename_i hj
      subst hj
      have hd := (List.getElem?_eq_some_iff.1 hx).1
      simp only [List.length_map, hd, if_true, List.getElem?_map, hx, Option.map_some, Entity.erase, hi]
    · rfl
  rw [this]
  exact iff_erase.1 h

theorem slot_lt (h : IdxRep sv ents) {d : Nat} {e : Entity} (he : ents[d]? = some e) :
    e.index < sv.slots.length := by
  obtain ⟨v, hv⟩ := h.fwd d e he
  exact (List.getElem?_eq_some_iff.1 hv).1

theorem removeAt (h : IdxRep sv ents) {d : Nat} {e last : Entity} (he : ents[d]? = some e)
    (hl : ents[ents.length - 1]? = some last) :
    IdxRep ⟨if d < ents.length - 1 then (sv.slots.set e.index none).set last.index (some ⟨d, last.version⟩)
          else sv.slots.set e.index none⟩
        ((ents.set d last).take (ents.length - 1)) := by
  have := (iff_erase.1 h).removeAt (d := d) (e := e.erase) (last := last.erase) (by rw [List.getElem?_map, he]; rfl)
    (by rw [List.getElem?_map, List.length_map, hl]; rfl)
  rw [iff_erase]
  rw [List.length_map] at this
  by_cases hd : d < ents.length - 1
  · simp only [hd, if_true] at this ⊢
    simpa [SparseVec.erase, List.map_set, Entity.erase, Slot.erase, List.map_take] using this
  · simp only [hd, if_false] at this ⊢
    simpa [SparseVec.erase, List.map_set, Entity.erase, Slot.erase, List.map_take] using this

theorem swap (h : IdxRep sv ents) {a b : Nat} {x y : Entity} (ha : ents[a]? = some x)
    (hb : ents[b]? = some y) (hab : a ≠ b) :
    ∃ sx sy, sv.slots[x.index]? = some sx ∧ sv.slots[y.index]? = some sy ∧ x.index ≠ y.index ∧
      IdxRep ⟨(sv.slots.set x.index sy).set y.index sx⟩ ((ents.set a y).set b x) := by
  obtain ⟨vx, hx⟩ := h.fwd a x ha
  obtain ⟨vy, hy⟩ := h.fwd b y hb
  obtain ⟨sx, sy, h1, h2, h3, h4⟩ := (iff_erase.1 h).swap (a := a) (b := b) (x := x.erase) (y := y.erase)
    (by rw [List.getElem?_map, ha]; rfl) (by rw [List.getElem?_map, hb]; rfl) hab rfl
  refine ⟨_, _, hx, hy, h3, ?_⟩
  simp only [SparseVec.erase, List.getElem?_map, Entity.erase, hx, hy, Option.map_some, Option.some.injEq] at h1 h2
  subst h1 h2
  rw [iff_erase]
  simpa [SparseVec.erase, List.map_set, Entity.erase, Slot.erase] using h4

/-- An occupied slot points to a dense entity with this index. -/
theorem slot (h : IdxRep sv ents) {i : Nat} {sl : Slot} (hs : sv.slots[i]? = some (some sl)) :
    ∃ e, ents[sl.index]? = some e ∧ e.index = i := h.bwd i sl.index sl.version hs

theorem small_of_contains (h : IdxRep sv ents) {e : Entity} (hc : sv.contains e = true) : e.index < u32Size := by
  unfold SparseVec.contains at hc
  split at hc
  · rename_i sl hs
    obtain ⟨x, hx, hi⟩ := h.slot hs
    have := h.small x (List.mem_iff_getElem?.2 ⟨_, hx⟩)
    rw [hi] at this
    exact this
  · cases hc

theorem get_at (h : IdxRep sv ents) {e : Entity} {d : Nat} (hg : sv.get e = some d) :
    ∃ x, ents[d]? = some x ∧ x.index = e.index := by
  unfold SparseVec.get at hg
  split at hg
  · cases hg
  · rename_i slot hs
    cases slot with
    | none => simp at hg
    | some sl =>
      simp only [Option.filter] at hg
      split at hg
      · simp only [Option.map_some, Option.some.injEq] at hg
        subst hg
        exact h.slot hs
      · simp at hg

theorem getSparse_iff (h : IdxRep sv ents) {i d : Nat} :
    sv.getSparse i = some d ↔ ∃ x, ents[d]? = some x ∧ x.index = i := by
  unfold SparseVec.getSparse
  constructor
  · intro hg
    split at hg
    · cases hg
    · rename_i slot hs
      cases slot with
      | none => simp at hg
      | some sl =>
        simp only [Option.map_some, Option.some.injEq] at hg
        subst hg
        exact h.slot hs
  · rintro ⟨x, hx, rfl⟩
    obtain ⟨v, hv⟩ := h.fwd d x hx
    rw [hv]
    rfl

/-- `remove` on the sparse vector: nothing, or the position of an entity with this index. -/
theorem remove_cases (h : IdxRep sv ents) (e : Entity) : sv.remove e = (none, sv) ∨
    ∃ d x, sv.remove e = (some d, ⟨sv.slots.set e.index none⟩) ∧ ents[d]? = some x ∧ x.index = e.index := by
  unfold SparseVec.remove
  split
  · rename_i sl hs
    split
    · right
      obtain ⟨x, hx, hi⟩ := h.slot hs
      exact ⟨sl.index, x, rfl, hx, hi⟩
    · exact .inl rfl
  · exact .inl rfl

end IdxRep

/-! ### Component sets -/

namespace CompSet

/-- What holds of every component set in every reachable world. -/
structure IdxOk (s : CompSet V) : Prop where
  rep : IdxRep s.sparse s.entities
  len : s.components.length = s.entities.length

theorem idx_new : (CompSet.new : CompSet V).IdxOk := ⟨IdxRep.nil, rfl⟩

theorem idx_clear (s : CompSet V) : s.clear.IdxOk := ⟨IdxRep.nil, rfl⟩

theorem IdxOk.comp_at {s : CompSet V} (h : s.IdxOk) {d : Nat} {e : Entity} (he : s.entities[d]? = some e) :
    ∃ v, s.components[d]? = some v := by
  have hd : d < s.entities.length := (List.getElem?_eq_some_iff.1 he).1
  exact ⟨_, List.getElem?_eq_getElem (by rw [h.len]; exact hd)⟩

theorem IdxOk.insert {s : CompSet V} (h : s.IdxOk) (e : Entity) (v : V) (he : e.index < u32Size) :
    ∃ o s', s.insert e v = .ok (o, s') ∧ s'.IdxOk := by
  rcases s.sparse.allocateAt_self e.index with ⟨sl, h1, h2⟩ | ⟨h1, h2⟩
  · obtain ⟨x, hx, hi⟩ := h.rep.slot h2
    obtain ⟨old, hold⟩ := h.comp_at hx
    refine ⟨some old, ⟨s.sparse.allocateAt e.index, s.entities.set sl.index e, s.components.set sl.index v⟩, ?_, ?_⟩
    · simp [CompSet.insert, Entity.sparse, h1, hx, hold]
    · exact ⟨(h.rep.alloc e.index).replace hx hi.symm, by simp [h.len]⟩
  · have hfresh : ∀ x ∈ s.entities, x.index ≠ e.index := by
      intro x hx hi
      obtain ⟨d, hd⟩ := List.mem_iff_getElem?.1 hx
      obtain ⟨v, hv⟩ := h.rep.fwd d x hd
      rw [hi] at hv
      exact h2 _ hv
    have hl := s.sparse.allocateAt_length e.index
    have := (h.rep.alloc e.index).push hfresh hl he
    refine ⟨none, ⟨⟨(s.sparse.allocateAt e.index).slots.set e.index (some ⟨asU32 s.entities.length, e.version⟩)⟩,
      s.entities ++ [e], s.components ++ [v]⟩, ?_, ⟨this.1, by simp [h.len]⟩⟩
    simp only [CompSet.insert, Entity.sparse, h1, SparseVec.setUnchecked, hl, Res.unchecked_some, Res.bind_ok, if_true,
      Res.pure_eq]

theorem IdxOk.remove {s : CompSet V} (h : s.IdxOk) (e : Entity) :
    ∃ o s', s.remove e = .ok (o, s') ∧ s.delete e = .ok s' ∧ s'.IdxOk := by
  rcases h.rep.remove_cases e with hr | ⟨d, x, hr, hd, hi⟩
  · exact ⟨none, s, by simp [CompSet.remove, hr], by simp [CompSet.delete, hr], h⟩
  · have hdl : d < s.entities.length := (List.getElem?_eq_some_iff.1 hd).1
    obtain ⟨last, hlast⟩ : ∃ y, s.entities[s.entities.length - 1]? = some y :=
      ⟨_, List.getElem?_eq_getElem (by omega)⟩
    obtain ⟨v, hv⟩ := h.comp_at hd
    obtain ⟨v', hv'⟩ := h.comp_at hlast
    have hrep := h.rep.removeAt hd hlast
    have hls := h.rep.slot_lt hlast
    rw [hi] at hrep
    refine ⟨some v, ⟨_, _, (s.components.set d v').take (s.entities.length - 1)⟩, ?_, ?_, ⟨hrep, ?_⟩⟩
    · by_cases hlt : d < s.entities.length - 1
      · simp [CompSet.remove, hr, hlast, hd, hlt, SparseVec.setUnchecked, Entity.sparse, hls, hv, hv']
      · simp [CompSet.remove, hr, hlast, hd, hlt, SparseVec.setUnchecked, Entity.sparse, hls, hv, hv']
    · by_cases hlt : d < s.entities.length - 1
      · simp [CompSet.delete, hr, hlast, hd, hlt, SparseVec.setUnchecked, Entity.sparse, hls, hv, hv']
      · simp [CompSet.delete, hr, hlast, hd, hlt, SparseVec.setUnchecked, Entity.sparse, hls, hv, hv']
    · simp [h.len]

theorem IdxOk.setMut {s : CompSet V} (h : s.IdxOk) (e : Entity) (v : V) :
    ∃ b s', s.setMut e v = .ok (b, s') ∧ s'.IdxOk := by
  unfold CompSet.setMut
  split
  · exact ⟨_, _, rfl, h⟩
  · rename_i d hg
    obtain ⟨x, hx, _⟩ := h.rep.get_at hg
    obtain ⟨w, hw⟩ := h.comp_at hx
    exact ⟨true, { s with components := s.components.set d v }, by rw [hw]; rfl, ⟨h.rep, by simp [h.len]⟩⟩

theorem IdxOk.setAt {s s' : CompSet V} (h : s.IdxOk) {pos : Nat} {v : V} (hs : s.setAt pos v = .ok s') : s'.IdxOk := by
  unfold CompSet.setAt at hs
  rw [Res.bind_eq_ok] at hs
  obtain ⟨_, _, hs⟩ := hs
  cases hs
  exact ⟨h.rep, by simp [h.len]⟩

theorem IdxOk.get {s : CompSet V} (h : s.IdxOk) (e : Entity) : ∃ o, s.get e = .ok o := by
  unfold CompSet.get
  split
  · exact ⟨_, rfl⟩
  · rename_i d hg
    obtain ⟨x, hx, _⟩ := h.rep.get_at hg
    obtain ⟨w, hw⟩ := h.comp_at hx
    exact ⟨_, by rw [hw]; rfl⟩

theorem IdxOk.swap {s s' : CompSet V} (h : s.IdxOk) {a b : Nat} (hs : s.swap a b = .ok s') : s'.IdxOk := by
  unfold CompSet.swap at hs
  obtain ⟨ea, ha, hs⟩ := Res.bind_ok' hs
  obtain ⟨eb, hb, hs⟩ := Res.bind_ok' hs
  have ha := Res.unchecked_ok ha
  have hb := Res.unchecked_ok hb
  obtain ⟨sp, hsp, hs⟩ := Res.bind_ok' hs
  obtain ⟨va, hva, hs⟩ := Res.bind_ok' hs
  obtain ⟨vb, hvb, hs⟩ := Res.bind_ok' hs
  cases hs
  have hab : a ≠ b := by
    rintro rfl
    rw [ha] at hb
    cases hb
    unfold SparseVec.swapNonoverlapping at hsp
    split at hsp
    · rw [if_pos rfl] at hsp
      cases hsp
    · cases hsp
  obtain ⟨sx, sy, h1, h2, h3, h4⟩ := h.rep.swap ha hb hab
  have : sp = ⟨(s.sparse.slots.set ea.index sy).set eb.index sx⟩ := by
    have h3' : ¬ ea.sparse = eb.sparse := h3
    have h1' : s.sparse.slots[ea.sparse]? = some sx := h1
    have h2' : s.sparse.slots[eb.sparse]? = some sy := h2
    unfold SparseVec.swapNonoverlapping at hsp
    rw [h1', h2'] at hsp
    simp only at hsp
    rw [if_neg h3'] at hsp
    cases hsp
    rfl
  subst this
  exact ⟨h4, by simp [h.len]⟩

end CompSet

/-! ### Entities -/

namespace EntitySparseSet

theorem idx_insert {s : EntitySparseSet} (h : IdxRep s.sparse s.entities) (e : Entity) (he : e.index < u32Size) :
    ∃ o s', s.insert e = .ok (o, s') ∧ IdxRep s'.sparse s'.entities := by
  rcases s.sparse.allocateAt_self e.index with ⟨sl, h1, h2⟩ | ⟨h1, h2⟩
  · obtain ⟨x, hx, hi⟩ := h.slot h2
    refine ⟨some x, ⟨s.sparse.allocateAt e.index, s.entities.set sl.index e⟩, ?_, ?_⟩
    · simp [EntitySparseSet.insert, Entity.sparse, h1, hx]
    · exact (h.alloc e.index).replace hx hi.symm
  · have hfresh : ∀ x ∈ s.entities, x.index ≠ e.index := by
      intro x hx hi
      obtain ⟨d, hd⟩ := List.mem_iff_getElem?.1 hx
      obtain ⟨v, hv⟩ := h.fwd d x hd
      rw [hi] at hv
      exact h2 _ hv
    have hl := s.sparse.allocateAt_length e.index
    have := (h.alloc e.index).push hfresh hl he
    refine ⟨none, ⟨⟨(s.sparse.allocateAt e.index).slots.set e.index (some ⟨asU32 s.entities.length, e.version⟩)⟩,
      s.entities ++ [e]⟩, ?_, this.1⟩
    simp only [EntitySparseSet.insert, Entity.sparse, h1, SparseVec.setUnchecked, hl, Res.unchecked_some, Res.bind_ok,
      if_true, Res.pure_eq]

theorem idx_remove {s : EntitySparseSet} (h : IdxRep s.sparse s.entities) (e : Entity) :
    ∃ b s', s.remove e = .ok (b, s') ∧ IdxRep s'.sparse s'.entities ∧ (b = true → e.index < u32Size) := by
  rcases h.remove_cases e with hr | ⟨d, x, hr, hd, hi⟩
  · exact ⟨false, s, by simp [EntitySparseSet.remove, hr], h, by simp⟩
  · have hdl : d < s.entities.length := (List.getElem?_eq_some_iff.1 hd).1
    obtain ⟨last, hlast⟩ : ∃ y, s.entities[s.entities.length - 1]? = some y :=
      ⟨_, List.getElem?_eq_getElem (by omega)⟩
    have hrep := h.removeAt hd hlast
    have hls := h.slot_lt hlast
    rw [hi] at hrep
    refine ⟨true, ⟨_, _⟩, ?_, hrep, fun _ => by rw [← hi]; exact h.small x (List.mem_iff_getElem?.2 ⟨_, hd⟩)⟩
    have hget := Rep.removeAt_get s.entities (last := last) hdl d
    unfold EntitySparseSet.remove
    by_cases hlt : d < s.entities.length - 1
    · simp [hr, hdl, swapRemove_eq _ d last hlast, hget, hlt, SparseVec.setUnchecked, Entity.sparse, hls]
    · simp [hr, hdl, swapRemove_eq _ d last hlast, hget, hlt]

end EntitySparseSet

/-- What holds of the entities in every reachable world. -/
structure EntOk (s : EntityStorage) : Prop where
  rep : IdxRep s.entities.sparse s.entities.entities
  small : ∀ e ∈ s.allocator.recycled, e.index < u32Size
  next : s.allocator.nextIndexToAllocate ≤ u32Size
  taken : s.allocator.recycledSinceMaintain ≤ s.allocator.recycled.length

namespace EntOk
variable {s : EntityStorage}

theorem empty : EntOk EntityStorage.empty :=
  ⟨IdxRep.nil, by simp [EntityStorage.empty, EntityAllocator.empty], by decide, by decide⟩

/-- `allocate` returns an entity in range, or nothing. -/
theorem allocate (h : EntOk s) : ∃ o a, s.allocator.allocate = .ok (o, a) ∧ (∀ e, o = some e → e.index < u32Size) ∧
    (o = none → a = s.allocator) ∧ ∀ es, IdxRep es.sparse es.entities → EntOk ⟨a, es⟩ := by
  unfold EntityAllocator.allocate
  have ht := h.taken
  split
  · rename_i hlt
    have hi : s.allocator.recycled.length - s.allocator.recycledSinceMaintain - 1 < s.allocator.recycled.length := by
      omega
    rw [List.getElem?_eq_getElem hi]
    refine ⟨_, _, rfl, ?_, by simp, fun es hes => ⟨hes, h.small, h.next, ?_⟩⟩
    · rintro e ⟨rfl⟩
      exact h.small _ (List.getElem_mem _)
    · simp only
      omega
  · split
    · rename_i hlt
      refine ⟨_, _, rfl, ?_, by simp, fun es hes => ⟨hes, h.small, ?_, h.taken⟩⟩
      · rintro e ⟨rfl⟩
        exact hlt
      · simp only
        omega
    · exact ⟨_, _, rfl, by simp, by simp, fun es hes => ⟨hes, h.small, h.next, h.taken⟩⟩

theorem allocateAtomic (s : EntityStorage) : s.allocator.allocateAtomic = s.allocator.allocate := by
  unfold EntityAllocator.allocateAtomic EntityAllocator.allocate EntityAllocator.incrementRecycledSinceMaintain
    EntityAllocator.incrementNextIndexToAllocate
  by_cases h1 : s.allocator.recycledSinceMaintain < s.allocator.recycled.length
  · simp [h1]
  · by_cases h2 : s.allocator.nextIndexToAllocate < u32Size <;> simp [h1, h2]

/-- `create` panics without effect or makes an entity in range. -/
theorem create (h : EntOk s) : s.create = .panic ∨
    ∃ e s', s.create = .ok (e, s') ∧ e.index < u32Size ∧ EntOk s' := by
  obtain ⟨o, a, h1, h2, h3, h4⟩ := h.allocate
  unfold EntityStorage.create
  rw [h1]
  cases o with
  | none => left; rfl
  | some e =>
    obtain ⟨o', es, h5, h6⟩ := EntitySparseSet.idx_insert h.rep e (h2 e rfl)
    exact .inr ⟨e, ⟨a, es⟩, by simp [h5], h2 e rfl, h4 es h6⟩

theorem createAtomic (h : EntOk s) : s.createAtomic = .panic ∨
    ∃ e s', s.createAtomic = .ok (e, s') ∧ e.index < u32Size ∧ EntOk s' := by
  obtain ⟨o, a, h1, h2, h3, h4⟩ := h.allocate
  unfold EntityStorage.createAtomic
  rw [allocateAtomic, h1]
  cases o with
  | none => left; rfl
  | some e => exact .inr ⟨e, ⟨a, s.entities⟩, by simp, h2 e rfl, h4 s.entities h.rep⟩

theorem insertAll : ∀ {es : List Entity} {s : EntitySparseSet}, IdxRep s.sparse s.entities →
    (∀ e ∈ es, e.index < u32Size) → ∃ s', EntityStorage.insertAll s es = .ok s' ∧ IdxRep s'.sparse s'.entities
  | [], s, h, _ => ⟨s, rfl, h⟩
  | e :: es, s, h, hs => by
    obtain ⟨o, s1, h1, h2⟩ := EntitySparseSet.idx_insert h e (hs e (.head _))
    obtain ⟨s2, h3, h4⟩ := insertAll h2 (fun e he => hs e (.tail _ he))
    exact ⟨s2, by simp [EntityStorage.insertAll, h1, h3], h4⟩

/-- `maintain` on the allocator never panics. -/
theorem maintain_alloc (h : EntOk s) : ∃ es a, s.allocator.maintain = .ok (es, a) ∧ (∀ e ∈ es, e.index < u32Size) ∧
    ∀ es, IdxRep es.sparse es.entities → EntOk ⟨a, es⟩ := by
  unfold EntityAllocator.maintain
  rw [decide_eq_true h.taken]
  refine ⟨_, _, rfl, ?_, fun es hes => ⟨hes, ?_, h.next, Nat.zero_le _⟩⟩
  · intro e he
    rw [List.mem_append] at he
    rcases he with he | he
    · exact h.small e (List.mem_of_mem_drop he)
    · obtain ⟨i, _, rfl⟩ := List.mem_map.1 he
      exact Nat.mod_lt _ (by decide)
  · exact fun e he => h.small e (List.mem_of_mem_take he)

theorem maintain (h : EntOk s) : ∃ s', s.maintain = .ok s' ∧ EntOk s' := by
  obtain ⟨es, a, h1, h2, h3⟩ := h.maintain_alloc
  obtain ⟨s1, h4, h5⟩ := insertAll h.rep h2
  exact ⟨⟨a, s1⟩, by simp [EntityStorage.maintain, h1, h4], h3 s1 h5⟩

theorem clear (h : EntOk s) : ∃ s', s.clear = .ok s' ∧ EntOk s' := by
  obtain ⟨es, a, h1, h2, h3⟩ := h.maintain_alloc
  exact ⟨⟨a, s.entities.clear⟩, by simp [EntityStorage.clear, h1], h3 _ IdxRep.nil⟩

theorem reset (s : EntityStorage) : EntOk s.reset :=
  ⟨IdxRep.nil, by simp [EntityStorage.reset, EntityAllocator.reset], Nat.zero_le _, Nat.zero_le _⟩

theorem remove (h : EntOk s) (e : Entity) : ∃ b s', s.remove e = .ok (b, s') ∧ EntOk s' := by
  obtain ⟨b, es, h1, h2, h3⟩ := EntitySparseSet.idx_remove h.rep e
  unfold EntityStorage.remove
  rw [h1]
  cases b with
  | false => exact ⟨_, _, rfl, ⟨h2, h.small, h.next, h.taken⟩⟩
  | true =>
    refine ⟨_, _, rfl, ?_⟩
    unfold EntityAllocator.recycle
    split
    · refine ⟨h2, ?_, h.next, ?_⟩
      · intro x hx
        simp only [List.mem_cons] at hx
        rcases hx with rfl | hx
        · exact h3 rfl
        · exact h.small x hx
      · have := h.taken
        simp only [List.length_cons]
        omega
    · exact ⟨h2, h.small, h.next, h.taken⟩

theorem small_of_contains (h : EntOk s) {e : Entity} (he : s.contains e = true) : e.index < u32Size :=
  h.rep.small_of_contains he

end EntOk
end Sparsey
