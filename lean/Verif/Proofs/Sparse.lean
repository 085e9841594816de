import Verif.Model.CompSet
import Mathlib.Data.List.Nodup
import Mathlib.Data.Finset.Card
import Mathlib.Data.List.Perm.Basic
import Mathlib.Data.Nat.Log
import Mathlib.Tactic.Ring

/-!
Lemmas about `SparseVec` and the representation invariant that ties a sparse vector to a dense list of entities.
-/

set_option autoImplicit false
set_option linter.unusedSimpArgs false

namespace Sparsey

/-! ### Growth -/

theorem le_nextPow (n : Nat) : n ≤ (SparseVec.checkedNextPowerOfTwo n).getD n := by
  unfold SparseVec.checkedNextPowerOfTwo
  split
  · simp; omega
  · split
    · simp only [Option.getD_some]
      have := @Nat.lt_log2_self (n - 1)
      omega
    · simp

theorem SparseVec.allocateAt_length (s : SparseVec) (i : Nat) :
    i < (s.allocateAt i).slots.length := by
  unfold SparseVec.allocateAt
  split
  · have := le_nextPow i
    simp only [SparseVec.extendToIndex, List.length_append, List.length_replicate]
    omega
  · omega

/-- Growth keeps every slot; new slots are empty. -/
theorem SparseVec.allocateAt_get (s : SparseVec) (i j : Nat) :
    ((s.allocateAt i).slots[j]? = s.slots[j]?) ∨
      (s.slots[j]? = none ∧ (s.allocateAt i).slots[j]? = some none) := by
  unfold SparseVec.allocateAt
  split
  · simp only [SparseVec.extendToIndex]
    by_cases hj : j < s.slots.length
    · left; rw [List.getElem?_append_left hj]
    · have h0 : s.slots[j]? = none := by simp; omega
      rw [List.getElem?_append_right (by omega), List.getElem?_replicate, h0]
      split <;> simp
  · left; rfl

theorem SparseVec.allocateAt_some (s : SparseVec) (i j : Nat) (x : Slot) :
    (s.allocateAt i).slots[j]? = some (some x) ↔ s.slots[j]? = some (some x) := by
  rcases s.allocateAt_get i j with h | ⟨h1, h2⟩
  · rw [h]
  · simp [h1, h2]

theorem SparseVec.allocateAt_self (s : SparseVec) (i : Nat) :
    (∃ x, (s.allocateAt i).slots[i]? = some (some x) ∧ s.slots[i]? = some (some x)) ∨
    ((s.allocateAt i).slots[i]? = some none ∧ ∀ x, s.slots[i]? ≠ some (some x)) := by
  have hl := s.allocateAt_length i
  obtain ⟨y, hy⟩ : ∃ y, (s.allocateAt i).slots[i]? = some y := ⟨_, List.getElem?_eq_getElem hl⟩
  cases y with
  | some x => exact .inl ⟨x, hy, (s.allocateAt_some i i x).1 hy⟩
  | none =>
    right
    refine ⟨hy, fun x hx => ?_⟩
    have := (s.allocateAt_some i i x).2 hx
    rw [hy] at this
    simp at this

/-! ### Representation invariant -/

/-- The sparse vector `sv` represents exactly the dense list `ents`: slot `i` holds position `d` and version `v`
if and only if the entity `⟨i, v⟩` is at position `d`; indexes are 32-bit. -/
structure Rep (sv : SparseVec) (ents : List Entity) : Prop where
  fwd : ∀ (d : Nat) (e : Entity), ents[d]? = some e → sv.slots[e.index]? = some (some ⟨d, e.version⟩)
  bwd : ∀ (i d v : Nat), sv.slots[i]? = some (some ⟨d, v⟩) → ents[d]? = some ⟨i, v⟩
  small : ∀ e ∈ ents, e.index < u32Size

namespace Rep
variable {sv : SparseVec} {ents : List Entity}

theorem nil : Rep SparseVec.new [] where
  fwd := by simp
  bwd := by simp [SparseVec.new]
  small := by simp

theorem nil' : Rep ⟨[]⟩ [] := nil

theorem pos_unique (h : Rep sv ents) {a b : Nat} {x y : Entity} (ha : ents[a]? = some x)
    (hb : ents[b]? = some y) (hi : x.index = y.index) : a = b := by
  have h1 := h.fwd a x ha
  have h2 := h.fwd b y hb
  rw [hi, h2] at h1
  simp at h1
  exact h1.1.symm

theorem eq_of_index (h : Rep sv ents) {x y : Entity} (hx : x ∈ ents) (hy : y ∈ ents)
    (hi : x.index = y.index) : x = y := by
  obtain ⟨a, ha⟩ := List.mem_iff_getElem?.1 hx
  obtain ⟨b, hb⟩ := List.mem_iff_getElem?.1 hy
  have := h.pos_unique ha hb hi
  subst this
  rw [ha] at hb
  simpa using hb

theorem nodup_index (h : Rep sv ents) : (ents.map (·.index)).Nodup := by
  rw [List.nodup_iff_getElem?_ne_getElem?]
  intro a b hab hb
  simp only [List.length_map] at hb
  have ha : a < ents.length := by omega
  simp only [List.getElem?_map, List.getElem?_eq_getElem ha, List.getElem?_eq_getElem hb,
    Option.map_some, ne_eq, Option.some.injEq]
  intro hi
  have := h.pos_unique (List.getElem?_eq_getElem ha) (List.getElem?_eq_getElem hb) hi
  omega

theorem nodup (h : Rep sv ents) : ents.Nodup := List.Nodup.of_map _ h.nodup_index

theorem length_le (h : Rep sv ents) : ents.length ≤ u32Size := by
  have h1 := h.nodup_index
  have h2 : (ents.map (·.index)).toFinset ⊆ Finset.range u32Size := by
    intro i hi
    simp only [List.mem_toFinset, List.mem_map] at hi
    obtain ⟨e, he, rfl⟩ := hi
    exact Finset.mem_range.2 (h.small e he)
  have h3 := Finset.card_le_card h2
  rw [List.toFinset_card_of_nodup h1, Finset.card_range] at h3
  simpa using h3

theorem get_eq_some (h : Rep sv ents) (e : Entity) (d : Nat) :
    sv.get e = some d ↔ ents[d]? = some e := by
  unfold SparseVec.get Entity.sparse
  constructor
  · intro hg
    split at hg
    · simp at hg
    · rename_i slot hs
      cases slot with
      | none => simp at hg
      | some sl =>
        simp only [Option.filter] at hg
        split at hg
        · rename_i hv
          simp at hg hv
          have := h.bwd e.index sl.index sl.version hs
          rw [← hg, this, hv]
        · simp at hg
  · intro he
    rw [h.fwd d e he]
    simp [Option.filter]

theorem get_eq_none (h : Rep sv ents) (e : Entity) : sv.get e = none ↔ e ∉ ents := by
  constructor
  · intro hg he
    obtain ⟨d, hd⟩ := List.mem_iff_getElem?.1 he
    rw [(h.get_eq_some e d).2 hd] at hg
    simp at hg
  · intro he
    cases hg : sv.get e with
    | none => rfl
    | some d => exact absurd (List.mem_iff_getElem?.2 ⟨d, (h.get_eq_some e d).1 hg⟩) he

theorem contains_eq (sv : SparseVec) (e : Entity) : sv.contains e = (sv.get e).isSome := by
  unfold SparseVec.contains SparseVec.get
  split
  · rename_i sl hs
    simp only [hs, Option.filter]
    split <;> simp_all
  · rename_i hs
    cases h : sv.slots[e.sparse]? with
    | none => simp
    | some o => cases o with
      | none => simp
      | some x => exact absurd h (hs x)

theorem contains_iff (h : Rep sv ents) (e : Entity) : sv.contains e = true ↔ e ∈ ents := by
  rw [contains_eq, ← not_iff_not, Bool.not_eq_true, Option.isSome_eq_false_iff, Option.isNone_iff_eq_none]
  exact h.get_eq_none e

theorem containsSparse_iff (h : Rep sv ents) (i : Nat) :
    sv.containsSparse i = true ↔ ∃ e ∈ ents, e.index = i := by
  unfold SparseVec.containsSparse
  constructor
  · intro hc
    split at hc
    · rename_i sl hs
      have := h.bwd i sl.index sl.version hs
      exact ⟨_, List.mem_iff_getElem?.2 ⟨_, this⟩, rfl⟩
    · simp at hc
  · rintro ⟨e, he, rfl⟩
    obtain ⟨d, hd⟩ := List.mem_iff_getElem?.1 he
    rw [h.fwd d e hd]

theorem getSparse_eq_some (h : Rep sv ents) (i d : Nat) :
    sv.getSparse i = some d ↔ ∃ e, ents[d]? = some e ∧ e.index = i := by
  unfold SparseVec.getSparse
  constructor
  · intro hc
    split at hc
    · simp at hc
    · rename_i slot hs
      cases slot with
      | none => simp at hc
      | some sl =>
        simp at hc
        subst hc
        exact ⟨_, h.bwd i sl.index sl.version hs, rfl⟩
  · rintro ⟨e, he, rfl⟩
    rw [h.fwd d e he]
    simp

theorem getSparseUnchecked_eq (h : Rep sv ents) {d : Nat} {e : Entity} (he : ents[d]? = some e) :
    sv.getSparseUnchecked e.index = .ok d := by
  unfold SparseVec.getSparseUnchecked
  rw [h.fwd d e he]

theorem alloc (h : Rep sv ents) (i : Nat) : Rep (sv.allocateAt i) ents where
  fwd d e he := (sv.allocateAt_some i _ _).2 (h.fwd d e he)
  bwd j d v hs := h.bwd j d v ((sv.allocateAt_some i _ _).1 hs)
  small := h.small

/-- Appending an entity whose index is not represented. -/
theorem push (h : Rep sv ents) {e : Entity} (hi : ∀ x ∈ ents, x.index ≠ e.index)
    (hl : e.index < sv.slots.length) (hs : e.index < u32Size) :
    Rep ⟨sv.slots.set e.index (some ⟨asU32 ents.length, e.version⟩)⟩ (ents ++ [e]) ∧
      asU32 ents.length = ents.length := by
  have hlen : ents.length < u32Size := by
    have h1 : (e.index :: ents.map (·.index)).Nodup := by
      rw [List.nodup_cons]
      refine ⟨?_, h.nodup_index⟩
      simp only [List.mem_map, not_exists, not_and]
      exact fun x hx => hi x hx
    have h2 : (e.index :: ents.map (·.index)).toFinset ⊆ Finset.range u32Size := by
      intro i hi
      simp only [List.mem_toFinset, List.mem_cons, List.mem_map] at hi
      rcases hi with rfl | ⟨x, hx, rfl⟩
      · exact Finset.mem_range.2 hs
      · exact Finset.mem_range.2 (h.small x hx)
    have h3 := Finset.card_le_card h2
    rw [List.toFinset_card_of_nodup h1, Finset.card_range] at h3
    simp at h3
    omega
  have hmod : asU32 ents.length = ents.length := Nat.mod_eq_of_lt hlen
  refine ⟨⟨?_, ?_, ?_⟩, hmod⟩
  · intro d x hx
    rw [hmod]
    rw [List.getElem?_append] at hx
    split at hx
    · have hne := hi x (List.mem_iff_getElem?.2 ⟨d, hx⟩)
      rw [List.getElem?_set_ne (Ne.symm hne)]
      exact h.fwd d x hx
    · rename_i hd
      have : d = ents.length := by
        by_contra hne
        have : 1 ≤ d - ents.length := by omega
        rw [List.getElem?_eq_none (by simpa using this)] at hx
        simp at hx
      subst this
      simp at hx
      subst hx
      simp [List.getElem?_set, hl]
  · intro i d v hs'
    rw [hmod] at hs'
    rw [List.getElem?_set] at hs'
    split at hs'
    · rename_i hie
      simp only [hl, if_true, Option.some.injEq, Slot.mk.injEq] at hs'
      obtain ⟨rfl, rfl⟩ := hs'
      subst hie
      simp
    · have := h.bwd i d v hs'
      rw [List.getElem?_append_left]
      · exact this
      · exact (List.getElem?_eq_some_iff.1 this).1
  · intro x hx
    rw [List.mem_append] at hx
    rcases hx with hx | hx
    · exact h.small x hx
    · simp at hx; subst hx; exact hs

theorem removeAt_get {α : Type} (l : List α) {d : Nat} {last : α} (hd : d < l.length) (j : Nat) :
    ((l.set d last).take (l.length - 1))[j]? =
      if j < l.length - 1 then (if j = d then some last else l[j]?) else none := by
  rw [List.getElem?_take]
  split
  · rw [List.getElem?_set]
    by_cases hj : d = j
    · subst hj; simp [hd]
    · simp [hj, Ne.symm hj]
  · rfl

theorem set_index_get {α : Type} (l : List α) (i j : Nat) (x : α) (hi : i < l.length) :
    (l.set i x)[j]? = if j = i then some x else l[j]? := by
  rw [List.getElem?_set]
  by_cases h : i = j
  · subst h; simp [hi]
  · simp [h, Ne.symm h]

theorem slot_lt (h : Rep sv ents) {d : Nat} {e : Entity} (he : ents[d]? = some e) :
    e.index < sv.slots.length :=
  (List.getElem?_eq_some_iff.1 (h.fwd d e he)).1

/-- Removing the entity at position `d` by moving the last one into its place. -/
theorem removeAt (h : Rep sv ents) {d : Nat} {e last : Entity} (he : ents[d]? = some e)
    (hl : ents[ents.length - 1]? = some last) :
    Rep ⟨if d < ents.length - 1 then (sv.slots.set e.index none).set last.index (some ⟨d, last.version⟩)
          else sv.slots.set e.index none⟩
        ((ents.set d last).take (ents.length - 1)) := by
  have hd : d < ents.length := (List.getElem?_eq_some_iff.1 he).1
  have hes := h.slot_lt he
  have hls := h.slot_lt hl
  constructor
  · intro j x hx
    rw [removeAt_get _ hd] at hx
    split at hx
    · rename_i hj
      split at hx
      · rename_i hjd
        subst hjd
        simp only [Option.some.injEq] at hx
        subst hx
        simp only [hj, if_true]
        rw [set_index_get _ _ _ _ (by simpa using hls)]
        simp
      · rename_i hjd
        have hxe : x.index ≠ e.index := fun hc => hjd (h.pos_unique hx he hc)
        have hxl : x.index ≠ last.index := fun hc => by
          have := h.pos_unique hx hl hc
          omega
        have := h.fwd j x hx
        split
        · rw [set_index_get _ _ _ _ (by simpa using hls), set_index_get _ _ _ _ hes]
          simp [hxe, hxl, this]
        · rw [set_index_get _ _ _ _ hes]
          simp [hxe, this]
    · simp at hx
  · intro i j v hs
    rw [removeAt_get _ hd]
    split at hs
    · rename_i hdn
      rw [set_index_get _ _ _ _ (by simpa using hls), set_index_get _ _ _ _ hes] at hs
      split at hs
      · rename_i hil
        simp only [Option.some.injEq, Slot.mk.injEq] at hs
        obtain ⟨rfl, rfl⟩ := hs
        subst hil
        simp [hdn]
      · rename_i hil
        split at hs
        · simp at hs
        · rename_i hie
          have hb := h.bwd i j v hs
          have hjn : j < ents.length := (List.getElem?_eq_some_iff.1 hb).1
          have hjl : j ≠ ents.length - 1 := by
            rintro rfl
            rw [hl] at hb
            simp only [Option.some.injEq] at hb
            subst hb
            exact hil rfl
          have hjd : j ≠ d := by
            rintro rfl
            rw [he] at hb
            simp only [Option.some.injEq] at hb
            subst hb
            exact hie rfl
          simp [show j < ents.length - 1 by omega, hjd, hb]
    · rename_i hdn
      rw [set_index_get _ _ _ _ hes] at hs
      split at hs
      · simp at hs
      · rename_i hie
        have hb := h.bwd i j v hs
        have hjn : j < ents.length := (List.getElem?_eq_some_iff.1 hb).1
        have hjd : j ≠ d := by
          rintro rfl
          rw [he] at hb
          simp only [Option.some.injEq] at hb
          subst hb
          exact hie rfl
        simp [show j < ents.length - 1 by omega, hjd, hb]
  · intro x hx
    obtain ⟨j, hj⟩ := List.mem_iff_getElem?.1 hx
    rw [removeAt_get _ hd] at hj
    split at hj
    · split at hj
      · simp only [Option.some.injEq] at hj
        subst hj
        exact h.small _ (List.mem_iff_getElem?.2 ⟨_, hl⟩)
      · exact h.small _ (List.mem_iff_getElem?.2 ⟨_, hj⟩)
    · simp at hj

theorem swap_get {α : Type} (l : List α) {a b : Nat} {x y : α} (ha : a < l.length)
    (hb : b < l.length) (hab : a ≠ b) (j : Nat) :
    ((l.set a y).set b x)[j]? = if j = a then some y else if j = b then some x else l[j]? := by
  rw [set_index_get _ _ _ _ (by simpa using hb), set_index_get _ _ _ _ ha]
  by_cases h1 : j = a
  · subst h1; simp [hab]
  · by_cases h2 : j = b
    · subst h2; simp [h1]
    · simp [h1, h2]

/-- Swapping two entities of the *same version* together with their slots. -/
theorem swap (h : Rep sv ents) {a b : Nat} {x y : Entity} (ha : ents[a]? = some x)
    (hb : ents[b]? = some y) (hab : a ≠ b) (hv : x.version = y.version) :
    ∃ sx sy, sv.slots[x.index]? = some sx ∧ sv.slots[y.index]? = some sy ∧ x.index ≠ y.index ∧
      Rep ⟨(sv.slots.set x.index sy).set y.index sx⟩ ((ents.set a y).set b x) := by
  have hne : x.index ≠ y.index := fun hc => hab (h.pos_unique ha hb hc)
  have hxl := h.slot_lt ha
  have hyl := h.slot_lt hb
  have hal : a < ents.length := (List.getElem?_eq_some_iff.1 ha).1
  have hbl : b < ents.length := (List.getElem?_eq_some_iff.1 hb).1
  refine ⟨_, _, h.fwd a x ha, h.fwd b y hb, hne, ?_⟩
  constructor
  · intro j e he
    rw [swap_get _ hal hbl hab] at he
    rw [swap_get _ hxl hyl hne]
    split at he
    · rename_i hj
      subst hj
      simp only [Option.some.injEq] at he
      subst he
      simp [Ne.symm hne, hv]
    · rename_i hja
      split at he
      · rename_i hj
        subst hj
        simp only [Option.some.injEq] at he
        subst he
        simp [hv]
      · rename_i hjb
        have h1 : e.index ≠ x.index := fun hc => hja (h.pos_unique he ha hc)
        have h2 : e.index ≠ y.index := fun hc => hjb (h.pos_unique he hb hc)
        simp [h1, h2, h.fwd j e he]
  · intro i d v hs
    rw [swap_get _ hxl hyl hne] at hs
    rw [swap_get _ hal hbl hab]
    split at hs
    · rename_i hi
      simp only [Option.some.injEq, Slot.mk.injEq] at hs
      obtain ⟨rfl, rfl⟩ := hs
      subst hi
      simp [Ne.symm hab, ← hv]
    · rename_i hix
      split at hs
      · rename_i hi
        simp only [Option.some.injEq, Slot.mk.injEq] at hs
        obtain ⟨rfl, rfl⟩ := hs
        subst hi
        simp [hv]
      · rename_i hiy
        have hb' := h.bwd i d v hs
        have h1 : d ≠ a := by
          rintro rfl
          rw [ha] at hb'
          simp only [Option.some.injEq] at hb'
          subst hb'
          exact hix rfl
        have h2 : d ≠ b := by
          rintro rfl
          rw [hb] at hb'
          simp only [Option.some.injEq] at hb'
          subst hb'
          exact hiy rfl
        simp [h1, h2, hb']
  · intro e he
    obtain ⟨j, hj⟩ := List.mem_iff_getElem?.1 he
    rw [swap_get _ hal hbl hab] at hj
    split at hj
    · simp only [Option.some.injEq] at hj
      subst hj
      exact h.small _ (List.mem_iff_getElem?.2 ⟨_, hb⟩)
    · split at hj
      · simp only [Option.some.injEq] at hj
        subst hj
        exact h.small _ (List.mem_iff_getElem?.2 ⟨_, ha⟩)
      · exact h.small _ (List.mem_iff_getElem?.2 ⟨_, hj⟩)

end Rep
end Sparsey
