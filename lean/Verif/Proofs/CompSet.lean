import Verif.Proofs.Sparse

/-!
Lemmas about the operations of `CompSet`, in terms of the dense entity list and of `val`, the value
attached to an entity.
-/

set_option autoImplicit false
set_option linter.unusedSimpArgs false

namespace Sparsey
namespace CompSet
variable {V : Type}

/-- Representation invariant of a component sparse set. -/
structure WF (s : CompSet V) : Prop where
  rep : Rep s.sparse s.entities
  len : s.components.length = s.entities.length

/-- The value attached to an entity. -/
def val (s : CompSet V) (e : Entity) : Option V :=
  match s.sparse.get e with
  | none => none
  | some d => s.components[d]?

theorem wf_new : (CompSet.new : CompSet V).WF := ⟨Rep.nil, rfl⟩

theorem wf_clear (s : CompSet V) : s.clear.WF := ⟨Rep.nil, rfl⟩

theorem val_new (e : Entity) : (CompSet.new : CompSet V).val e = none := by
  simp [val, new, SparseVec.new, SparseVec.get]

theorem val_clear (s : CompSet V) (e : Entity) : s.clear.val e = none := by
  simp [val, clear, SparseVec.clear, SparseVec.get]

theorem WF.comp_at {s : CompSet V} (h : s.WF) {d : Nat} {e : Entity} (he : s.entities[d]? = some e) :
    ∃ v, s.components[d]? = some v := by
  have hd : d < s.entities.length := (List.getElem?_eq_some_iff.1 he).1
  exact ⟨_, List.getElem?_eq_getElem (by rw [h.len]; exact hd)⟩

theorem WF.ent_at {s : CompSet V} (h : s.WF) {d : Nat} {v : V} (hv : s.components[d]? = some v) :
    ∃ e, s.entities[d]? = some e := by
  have hd : d < s.components.length := (List.getElem?_eq_some_iff.1 hv).1
  exact ⟨_, List.getElem?_eq_getElem (by rw [← h.len]; exact hd)⟩

theorem WF.val_at {s : CompSet V} (h : s.WF) {d : Nat} {e : Entity} (he : s.entities[d]? = some e) :
    s.val e = s.components[d]? := by
  simp [val, (h.rep.get_eq_some e d).2 he]

theorem WF.val_eq_none {s : CompSet V} (h : s.WF) (e : Entity) : s.val e = none ↔ e ∉ s.entities := by
  constructor
  · intro hv he
    obtain ⟨d, hd⟩ := List.mem_iff_getElem?.1 he
    obtain ⟨v, hc⟩ := h.comp_at hd
    rw [h.val_at hd, hc] at hv
    simp at hv
  · intro he
    simp [val, (h.rep.get_eq_none e).2 he]

theorem WF.val_eq_some {s : CompSet V} (h : s.WF) (e : Entity) (v : V) :
    s.val e = some v ↔ ∃ d : Nat, s.entities[d]? = some e ∧ s.components[d]? = some v := by
  constructor
  · intro hv
    have he : e ∈ s.entities := by
      by_contra hc
      rw [(h.val_eq_none e).2 hc] at hv
      simp at hv
    obtain ⟨d, hd⟩ := List.mem_iff_getElem?.1 he
    exact ⟨d, hd, by rw [← h.val_at hd, hv]⟩
  · rintro ⟨d, hd, hc⟩
    rw [h.val_at hd, hc]

theorem WF.mem_iff {s : CompSet V} (h : s.WF) (e : Entity) : e ∈ s.entities ↔ (s.val e).isSome := by
  rw [Option.isSome_iff_ne_none, ne_eq, h.val_eq_none]
  simp

theorem WF.get_eq {s : CompSet V} (h : s.WF) (e : Entity) : s.get e = .ok (s.val e) := by
  unfold CompSet.get val
  cases hg : s.sparse.get e with
  | none => rfl
  | some d =>
    obtain ⟨v, hv⟩ := h.comp_at ((h.rep.get_eq_some e d).1 hg)
    simp [hv]

theorem WF.contains_iff {s : CompSet V} (h : s.WF) (e : Entity) : s.contains e = true ↔ e ∈ s.entities :=
  h.rep.contains_iff e

/-- Two well formed sets with the same entities at the same positions and componentwise related values. -/
theorem WF.val_of_positions {s s' : CompSet V} (h : s.WF) (h' : s'.WF) (e : Entity)
    (hp : ∀ d d' : Nat, s.entities[d]? = some e → s'.entities[d']? = some e →
      s'.components[d']? = s.components[d]?)
    (hm : e ∈ s'.entities ↔ e ∈ s.entities) : s'.val e = s.val e := by
  by_cases he : e ∈ s.entities
  · obtain ⟨d, hd⟩ := List.mem_iff_getElem?.1 he
    obtain ⟨d', hd'⟩ := List.mem_iff_getElem?.1 (hm.2 he)
    rw [h.val_at hd, h'.val_at hd', hp d d' hd hd']
  · rw [(h.val_eq_none e).2 he, (h'.val_eq_none e).2 (fun hc => he (hm.1 hc))]

/-! ### insert -/

theorem WF.insert_new {s : CompSet V} (h : s.WF) {e : Entity} (v : V)
    (hi : ∀ x ∈ s.entities, x.index ≠ e.index) (hs : e.index < u32Size) :
    ∃ s', s.insert e v = .ok (none, s') ∧ s'.WF ∧ s'.entities = s.entities ++ [e] ∧
      s'.components = s.components ++ [v] := by
  have hslot : (s.sparse.allocateAt e.index).slots[e.index]? = some none := by
    rcases s.sparse.allocateAt_self e.index with ⟨x, _, hx⟩ | ⟨h1, _⟩
    · exfalso
      have := h.rep.bwd e.index x.index x.version hx
      exact hi _ (List.mem_iff_getElem?.2 ⟨_, this⟩) rfl
    · exact h1
  have hl := s.sparse.allocateAt_length e.index
  obtain ⟨hrep, _⟩ := (h.rep.alloc e.index).push hi hl hs
  refine ⟨⟨⟨(s.sparse.allocateAt e.index).slots.set e.index
    (some ⟨asU32 s.entities.length, e.version⟩)⟩, s.entities ++ [e], s.components ++ [v]⟩, ?_, ⟨hrep, ?_⟩,
    rfl, rfl⟩
  · simp only [CompSet.insert, Entity.sparse, hslot, SparseVec.setUnchecked, hl, Res.unchecked_some,
      Res.bind_ok, if_true, Res.pure_eq]
  · simp [h.len]

theorem WF.insert_old {s : CompSet V} (h : s.WF) {e : Entity} (v : V) {d : Nat}
    (he : s.entities[d]? = some e) :
    ∃ s', s.insert e v = .ok (s.components[d]?, s') ∧ s'.WF ∧ s'.entities = s.entities ∧
      s'.components = s.components.set d v := by
  have hslot := (h.rep.alloc e.index).fwd d e he
  have hd : d < s.entities.length := (List.getElem?_eq_some_iff.1 he).1
  obtain ⟨old, hold⟩ := h.comp_at he
  have hset : s.entities.set d e = s.entities := by
    apply List.ext_getElem?
    intro j
    rw [Rep.set_index_get _ _ _ _ hd]
    split
    · rename_i hj; rw [hj, he]
    · rfl
  refine ⟨⟨s.sparse.allocateAt e.index, s.entities, s.components.set d v⟩, ?_, ⟨h.rep.alloc _, ?_⟩, rfl, rfl⟩
  · simp [CompSet.insert, Entity.sparse, hslot, he, hold, hset]
  · simp [h.len]

/-- Insertion of an entity that is the only one with its index. -/
theorem WF.insert {s : CompSet V} (h : s.WF) {e : Entity} (v : V)
    (hi : ∀ x ∈ s.entities, x.index = e.index → x = e) (hs : e.index < u32Size) :
    ∃ s', s.insert e v = .ok (s.val e, s') ∧ s'.WF ∧
      s'.entities = (if e ∈ s.entities then s.entities else s.entities ++ [e]) ∧
      ∀ x, s'.val x = if x = e then some v else s.val x := by
  by_cases he : e ∈ s.entities
  · obtain ⟨d, hd⟩ := List.mem_iff_getElem?.1 he
    obtain ⟨s', h1, h2, h3, h4⟩ := h.insert_old v hd
    refine ⟨s', by rw [h1, h.val_at hd], h2, by simp [he, h3], fun x => ?_⟩
    have hdl : d < s.components.length := by
      rw [h.len]; exact (List.getElem?_eq_some_iff.1 hd).1
    split
    · rename_i hx
      subst hx
      rw [h2.val_at (d := d) (by rw [h3]; exact hd), h4]
      simp [hdl]
    · rename_i hx
      refine WF.val_of_positions h h2 x ?_ (by rw [h3])
      intro a b ha hb
      rw [h3] at hb
      have hab := h.rep.pos_unique ha hb rfl
      subst hab
      have had : a ≠ d := by
        rintro rfl
        rw [hd] at ha
        simp at ha
        exact hx ha.symm
      rw [h4, Rep.set_index_get _ _ _ _ hdl]
      simp [had]
  · have hi' : ∀ x ∈ s.entities, x.index ≠ e.index := fun x hx hc => he (hi x hx hc ▸ hx)
    obtain ⟨s', h1, h2, h3, h4⟩ := h.insert_new v hi' hs
    refine ⟨s', by rw [h1, (h.val_eq_none e).2 he], h2, by simp [he, h3], fun x => ?_⟩
    split
    · rename_i hx
      subst hx
      rw [h2.val_at (d := s.entities.length) (by rw [h3]; simp), h4]
      simp [← h.len]
    · rename_i hx
      refine WF.val_of_positions h h2 x ?_ (by rw [h3]; simp [hx])
      intro a b ha hb
      have hal : a < s.entities.length := (List.getElem?_eq_some_iff.1 ha).1
      have : s'.entities[a]? = some x := by rw [h3, List.getElem?_append_left hal, ha]
      have hab := h2.rep.pos_unique this hb rfl
      subst hab
      rw [h4, List.getElem?_append_left (by rw [h.len]; exact hal)]

/-! ### remove and delete -/

theorem WF.remove_absent {s : CompSet V} (h : s.WF) {e : Entity} (he : e ∉ s.entities) :
    s.remove e = .ok (none, s) ∧ s.delete e = .ok s := by
  have hrem : s.sparse.remove e = (none, s.sparse) := by
    unfold SparseVec.remove
    split
    · rename_i sl hs
      split
      · rename_i hv
        exfalso
        have := h.rep.bwd e.index sl.index sl.version hs
        simp at hv
        rw [hv] at this
        exact he (List.mem_iff_getElem?.2 ⟨_, this⟩)
      · rfl
    · rfl
  simp [CompSet.remove, CompSet.delete, hrem]

theorem WF.remove_present {s : CompSet V} (h : s.WF) {e : Entity} {d : Nat}
    (he : s.entities[d]? = some e) :
    ∃ s', s.remove e = .ok (s.val e, s') ∧ s.delete e = .ok s' ∧ s'.WF ∧
      (∀ j : Nat, s'.entities[j]? = if j < s.entities.length - 1 then
        (if j = d then s.entities[s.entities.length - 1]? else s.entities[j]?) else none) ∧
      ∀ x, s'.val x = if x = e then none else s.val x := by
  have hd : d < s.entities.length := (List.getElem?_eq_some_iff.1 he).1
  have hn : s.entities.length - 1 < s.entities.length := by omega
  obtain ⟨last, hlast⟩ : ∃ x, s.entities[s.entities.length - 1]? = some x :=
    ⟨_, List.getElem?_eq_getElem hn⟩
  obtain ⟨v, hv⟩ := h.comp_at he
  obtain ⟨vl, hvl⟩ := h.comp_at hlast
  have hrem : s.sparse.remove e = (some d, ⟨s.sparse.slots.set e.index none⟩) := by
    unfold SparseVec.remove
    simp [Entity.sparse, h.rep.fwd d e he]
  have hrep := h.rep.removeAt he hlast
  have hls := h.rep.slot_lt hlast
  have hval := h.val_at he
  refine ⟨⟨⟨if d < s.entities.length - 1 then
      (s.sparse.slots.set e.index none).set last.index (some ⟨d, last.version⟩)
      else s.sparse.slots.set e.index none⟩,
    (s.entities.set d last).take (s.entities.length - 1),
    (s.components.set d vl).take (s.entities.length - 1)⟩, ?_, ?_, ?_, ?_, ?_⟩
  · unfold CompSet.remove
    rw [hrem]
    simp only [hlast, he, hvl, hv, hval, Res.unchecked_some, Res.bind_ok, Entity.sparse,
      SparseVec.setUnchecked, List.length_set, hls, if_true]
    split <;> simp_all
  · unfold CompSet.delete
    rw [hrem]
    simp only [hlast, he, hvl, hv, Res.unchecked_some, Res.bind_ok, Entity.sparse,
      SparseVec.setUnchecked, List.length_set, hls, if_true]
    split <;> simp_all
  · refine ⟨hrep, ?_⟩
    simp [h.len]
  · intro j
    simp only
    rw [Rep.removeAt_get _ hd, hlast]
  · intro x
    have hwf' : WF (V := V) ⟨⟨if d < s.entities.length - 1 then
      (s.sparse.slots.set e.index none).set last.index (some ⟨d, last.version⟩)
      else s.sparse.slots.set e.index none⟩,
    (s.entities.set d last).take (s.entities.length - 1),
    (s.components.set d vl).take (s.entities.length - 1)⟩ := ⟨hrep, by simp [h.len]⟩
    have hents : ∀ j : Nat, ((s.entities.set d last).take (s.entities.length - 1))[j]? =
        if j < s.entities.length - 1 then (if j = d then some last else s.entities[j]?) else none :=
      fun j => Rep.removeAt_get _ hd j
    have hcomps : ∀ j : Nat, ((s.components.set d vl).take (s.entities.length - 1))[j]? =
        if j < s.entities.length - 1 then (if j = d then some vl else s.components[j]?) else none := by
      intro j
      have := Rep.removeAt_get s.components (d := d) (last := vl) (by rw [h.len]; exact hd) j
      rw [h.len] at this
      exact this
    by_cases hx : x = e
    · rw [if_pos hx]
      subst hx
      rw [hwf'.val_eq_none]
      intro hc
      obtain ⟨j, hj⟩ := List.mem_iff_getElem?.1 hc
      simp only at hj
      rw [hents] at hj
      split at hj
      · split at hj
        · rename_i hjn hjd
          simp at hj
          subst hj
          have := h.rep.pos_unique he hlast rfl
          omega
        · rename_i hjd
          exact hjd (h.rep.pos_unique hj he rfl)
      · simp at hj
    · rw [if_neg hx]
      refine WF.val_of_positions h hwf' x ?_ ?_
      · intro a b ha hb
        simp only at hb ⊢
        rw [hents] at hb
        rw [hcomps]
        split at hb
        · rename_i hbn
          simp only [hbn, if_true]
          split at hb
          · rename_i hbd
            simp at hb
            subst hb
            have := h.rep.pos_unique ha hlast rfl
            subst this
            simp [hbd, hvl]
          · rename_i hbd
            have := h.rep.pos_unique ha hb rfl
            subst this
            simp [hbd]
        · simp at hb
      · simp only
        constructor
        · intro hc
          obtain ⟨j, hj⟩ := List.mem_iff_getElem?.1 hc
          rw [hents] at hj
          split at hj
          · split at hj
            · simp at hj; subst hj
              exact List.mem_iff_getElem?.2 ⟨_, hlast⟩
            · exact List.mem_iff_getElem?.2 ⟨_, hj⟩
          · simp at hj
        · intro hc
          obtain ⟨j, hj⟩ := List.mem_iff_getElem?.1 hc
          have hjl : j < s.entities.length := (List.getElem?_eq_some_iff.1 hj).1
          have hjd : j ≠ d := by
            rintro rfl
            rw [he] at hj
            simp at hj
            exact hx hj.symm
          by_cases hjn : j < s.entities.length - 1
          · exact List.mem_iff_getElem?.2 ⟨j, by rw [hents]; simp [hjn, hjd, hj]⟩
          · have : j = s.entities.length - 1 := by omega
            subst this
            rw [hlast] at hj
            refine List.mem_iff_getElem?.2 ⟨d, by rw [hents]; simp [show d < s.entities.length - 1 by omega]; simpa using hj⟩

/-! ### swap -/

theorem WF.swap {s : CompSet V} (h : s.WF) {a b : Nat} {x y : Entity} (ha : s.entities[a]? = some x)
    (hb : s.entities[b]? = some y) (hab : a ≠ b) (hv : x.version = y.version) :
    ∃ s', s.swap a b = .ok s' ∧ s'.WF ∧
      (∀ j : Nat, s'.entities[j]? = if j = a then some y else if j = b then some x else s.entities[j]?) ∧
      ∀ z, s'.val z = s.val z := by
  obtain ⟨sx, sy, h1, h2, hne, hrep⟩ := h.rep.swap ha hb hab hv
  obtain ⟨va, hva⟩ := h.comp_at ha
  obtain ⟨vb, hvb⟩ := h.comp_at hb
  have hal : a < s.entities.length := (List.getElem?_eq_some_iff.1 ha).1
  have hbl : b < s.entities.length := (List.getElem?_eq_some_iff.1 hb).1
  have hents := fun j => Rep.swap_get s.entities (x := x) (y := y) hal hbl hab j
  have hcomps := fun j => Rep.swap_get s.components (x := va) (y := vb) (by rw [h.len]; exact hal)
    (by rw [h.len]; exact hbl) hab j
  have hwf' : WF (V := V) ⟨⟨(s.sparse.slots.set x.index sy).set y.index sx⟩,
    (s.entities.set a y).set b x, (s.components.set a vb).set b va⟩ := ⟨hrep, by simp [h.len]⟩
  refine ⟨_, ?_, hwf', hents, ?_⟩
  · simp [CompSet.swap, ha, hb, hva, hvb, SparseVec.swapNonoverlapping, Entity.sparse, h1, h2, hne]
  · intro z
    refine WF.val_of_positions h hwf' z ?_ ?_
    · intro i j hi hj
      simp only at hj ⊢
      rw [hents] at hj
      rw [hcomps]
      split at hj
      · rename_i hja
        simp only [Option.some.injEq] at hj
        subst hj
        have := h.rep.pos_unique hi hb rfl
        subst this
        simp [hja, hvb]
      · rename_i hja
        split at hj
        · rename_i hjb
          simp only [Option.some.injEq] at hj
          subst hj
          have := h.rep.pos_unique hi ha rfl
          subst this
          simp [hjb, Ne.symm hab, hva]
        · rename_i hjb
          have := h.rep.pos_unique hi hj rfl
          subst this
          simp [hja, hjb]
    · simp only
      constructor
      · intro hc
        obtain ⟨j, hj⟩ := List.mem_iff_getElem?.1 hc
        rw [hents] at hj
        split at hj
        · simp only [Option.some.injEq] at hj; subst hj
          exact List.mem_iff_getElem?.2 ⟨_, hb⟩
        · split at hj
          · simp only [Option.some.injEq] at hj; subst hj
            exact List.mem_iff_getElem?.2 ⟨_, ha⟩
          · exact List.mem_iff_getElem?.2 ⟨_, hj⟩
      · intro hc
        obtain ⟨j, hj⟩ := List.mem_iff_getElem?.1 hc
        by_cases hja : j = a
        · subst hja
          rw [ha] at hj
          refine List.mem_iff_getElem?.2 ⟨b, by rw [hents]; simp [Ne.symm hab]; simpa using hj⟩
        · by_cases hjb : j = b
          · subst hjb
            rw [hb] at hj
            refine List.mem_iff_getElem?.2 ⟨a, by rw [hents]; simpa using hj⟩
          · exact List.mem_iff_getElem?.2 ⟨j, by rw [hents]; simp [hja, hjb, hj]⟩

/-! ### writes -/

theorem WF.setMut {s : CompSet V} (h : s.WF) (e : Entity) (v : V) :
    ∃ s', s.setMut e v = .ok (decide (e ∈ s.entities), s') ∧ s'.WF ∧ s'.entities = s.entities ∧
      ∀ x, s'.val x = if x = e ∧ e ∈ s.entities then some v else s.val x := by
  by_cases he : e ∈ s.entities
  · obtain ⟨d, hd⟩ := List.mem_iff_getElem?.1 he
    obtain ⟨old, hold⟩ := h.comp_at hd
    have hdl : d < s.components.length := (List.getElem?_eq_some_iff.1 hold).1
    have hwf' : WF (V := V) { s with components := s.components.set d v } := ⟨h.rep, by simp [h.len]⟩
    refine ⟨{ s with components := s.components.set d v }, ?_, hwf', rfl, fun x => ?_⟩
    · simp [CompSet.setMut, (h.rep.get_eq_some e d).2 hd, hold, he]
    · split
      · rename_i hx
        obtain ⟨rfl, _⟩ := hx
        rw [hwf'.val_at (d := d) hd]
        simp [hdl]
      · rename_i hx
        have hx' : x ≠ e := fun hc => hx ⟨hc, he⟩
        refine WF.val_of_positions h hwf' x ?_ (Iff.rfl)
        intro a b ha hb
        have := h.rep.pos_unique ha hb rfl
        subst this
        have had : a ≠ d := by
          rintro rfl
          rw [hd] at ha
          simp at ha
          exact hx' ha.symm
        simp [Ne.symm had]
  · refine ⟨s, ?_, h, rfl, fun x => ?_⟩
    · simp [CompSet.setMut, (h.rep.get_eq_none e).2 he, he]
    · simp [he]

end CompSet
end Sparsey
