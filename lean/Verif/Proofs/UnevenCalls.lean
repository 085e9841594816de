import Verif.Proofs.Uneven
import Verif.Proofs.Observe

/-!
A call that exchanges entities of different versions loses a component: the map has it, the view does not find it.
-/

set_option autoImplicit false
set_option linter.unusedSimpArgs false

namespace Sparsey
variable {V : Type}

/-! ### Removing from a damaged set -/

namespace CompSet

/-- The slot of another entity `x` is wrong, and `x` is before the position of `e`. -/
def Before (e x : Entity) (c : CompSet V) : Prop :=
  ∃ r : Nat, c.entities[r]? = some x ∧ ¬ c.Right x ∧ x.index ≠ e.index ∧
    ∀ (p : Nat) (y : Entity), c.entities[p]? = some y → y.index = e.index → r < p

theorem before_of_trail {c : CompSet V} {e : Entity} (h : Trail (fun a b : Nat => b < a) e c) (hw : ¬ c.WF) :
    ∃ x, Before e x c := by
  obtain ⟨p, hp, _, r, x, h1, h2, h3⟩ := h.2.resolve_left hw
  refine ⟨x, r, h2, h3, ?_, ?_⟩
  · intro hi
    have := h.1.rep.pos_unique h2 hp hi
    omega
  · intro p' y hy hi
    have := h.1.rep.pos_unique hy hp hi
    omega

theorem Before.lost {e x : Entity} {c : CompSet V} (h : Before e x c) : c.sparse.get x = none := by
  obtain ⟨r, _, h2, _⟩ := h
  exact get_of_not_right h2

theorem Before.ne {e x : Entity} {c : CompSet V} (h : Before e x c) : x ≠ e := by
  obtain ⟨r, _, _, h3, _⟩ := h
  rintro rfl
  exact h3 rfl

theorem Before.mem {e x : Entity} {c : CompSet V} (h : Before e x c) : x ∈ c.entities := by
  obtain ⟨r, h1, _⟩ := h
  exact List.mem_of_getElem? h1

theorem IdxOk.remove_before {s : CompSet V} (h : s.IdxOk) {e z : Entity} (hb : Before e z s) :
    ∃ o s', s.remove e = .ok (o, s') ∧ s.delete e = .ok s' ∧ s'.IdxOk ∧ Before e z s' := by
  obtain ⟨r, hr1, hr2, hr3, hr4⟩ := hb
  rcases h.rep.remove_cases e with hr | ⟨d, x, hr, hd, hi⟩
  · exact ⟨none, s, by simp [CompSet.remove, hr], by simp [CompSet.delete, hr], h, r, hr1, hr2, hr3, hr4⟩
  · have hdl : d < s.entities.length := (List.getElem?_eq_some_iff.1 hd).1
    obtain ⟨last, hlast⟩ : ∃ y, s.entities[s.entities.length - 1]? = some y :=
      ⟨_, List.getElem?_eq_getElem (by omega)⟩
    obtain ⟨v, hv⟩ := h.comp_at hd
    obtain ⟨v', hv'⟩ := h.comp_at hlast
    have hrep := h.rep.removeAt hd hlast
    have hls := h.rep.slot_lt hlast
    have hrd := hr4 d x hd hi
    have hxl := h.rep.slot_lt hd
    rw [hi] at hrep hxl
    have hslot : ∀ (i : Nat), (if d < s.entities.length - 1 then
        (s.sparse.slots.set e.index none).set last.index (some ⟨d, last.version⟩)
        else s.sparse.slots.set e.index none)[i]? =
        if d < s.entities.length - 1 ∧ i = last.index then some (some ⟨d, last.version⟩)
        else if i = e.index then some none else s.sparse.slots[i]? := by
      intro i
      by_cases hlt : d < s.entities.length - 1
      · simp only [hlt, if_true, true_and, List.getElem?_set, List.length_set]
        by_cases h1 : i = last.index
        · subst h1; simp [hls]
        · rw [if_neg (Ne.symm h1), if_neg h1]
          by_cases h2 : i = e.index
          · subst h2; simp [hxl]
          · rw [if_neg (Ne.symm h2), if_neg h2]
      · simp only [hlt, if_false, false_and, List.getElem?_set]
        by_cases h2 : i = e.index
        · subst h2; simp [hxl]
        · rw [if_neg (Ne.symm h2), if_neg h2]
    have hlz : d < s.entities.length - 1 → z.index ≠ last.index := by
      intro hlt hc
      have := h.rep.pos_unique hr1 hlast hc
      omega
    have hle : d < s.entities.length - 1 → e.index ≠ last.index := by
      intro hlt hc
      have := h.rep.pos_unique hd hlast (hi.trans hc)
      omega
    refine ⟨some v, ⟨_, _, (s.components.set d v').take (s.entities.length - 1)⟩, ?_, ?_, ⟨hrep, ?_⟩, r, ?_, ?_, hr3, ?_⟩
    · by_cases hlt : d < s.entities.length - 1
      · simp [CompSet.remove, hr, hlast, hd, hlt, SparseVec.setUnchecked, Entity.sparse, hls, hv, hv']
      · simp [CompSet.remove, hr, hlast, hd, hlt, SparseVec.setUnchecked, Entity.sparse, hls, hv, hv']
    · by_cases hlt : d < s.entities.length - 1
      · simp [CompSet.delete, hr, hlast, hd, hlt, SparseVec.setUnchecked, Entity.sparse, hls, hv, hv']
      · simp [CompSet.delete, hr, hlast, hd, hlt, SparseVec.setUnchecked, Entity.sparse, hls, hv, hv']
    · simp [h.len]
    · show ((s.entities.set d last).take (s.entities.length - 1))[r]? = some z
      rw [List.getElem?_take, if_pos (by omega), List.getElem?_set, if_neg (by omega), hr1]
    · rintro ⟨d', hd'⟩
      have hd' := (hslot _).symm.trans hd'
      rw [if_neg (fun hc => hlz hc.1 hc.2), if_neg hr3] at hd'
      exact hr2 ⟨d', hd'⟩
    · intro p y hy hyi
      obtain ⟨v0, hv0⟩ := hrep.fwd p y hy
      have hv0 := (hslot _).symm.trans hv0
      rw [hyi, if_neg (fun hc => hle hc.1 hc.2), if_pos rfl] at hv0
      simp at hv0

end CompSet

/-- All sets are right up to versions, and the slot of `x`, which is before `e`, is wrong in the set at `i`. -/
structure Torn (e x : Entity) (i : Nat) (comps : List (CompSet V)) : Prop where
  idx : ∀ c ∈ comps, c.IdxOk
  before : ∃ c, comps[i]? = some c ∧ c.Before e x

theorem removeEach_torn {e x : Entity} {i : Nat} : ∀ (idxs : List Nat) (c : ComponentStorage V),
    Torn e x i c.components → (∀ k ∈ idxs, k < c.components.length) →
    ∃ vs c', ComponentStorage.removeEach e idxs c = .ok (vs, c') ∧ ComponentStorage.deleteEach e idxs c = .ok c' ∧
      Torn e x i c'.components ∧ c'.metadata = c.metadata
  | [], c, h, _ => ⟨[], c, rfl, rfl, h, rfl⟩
  | k :: ks, c, h, hk => by
    have hkl := hk k (.head _)
    have hc := List.getElem?_eq_getElem hkl
    have hi := h.idx _ (List.getElem_mem hkl)
    have key : ∃ o s', c.components[k].remove e = .ok (o, s') ∧ c.components[k].delete e = .ok s' ∧
        Torn e x i (c.components.set k s') := by
      obtain ⟨c0, h1, h2⟩ := h.before
      by_cases hik : k = i
      · subst hik
        rw [hc] at h1
        cases h1
        obtain ⟨o, s', h3, h4, h5, h6⟩ := hi.remove_before h2
        refine ⟨o, s', h3, h4, ?_, s', ?_, h6⟩
        · intro y hy
          rcases List.mem_or_eq_of_mem_set hy with hy | rfl
          · exact h.idx y hy
          · exact h5
        · rw [List.getElem?_set, if_pos rfl, if_pos hkl]
      · obtain ⟨o, s', h3, h4, h5⟩ := hi.remove e
        refine ⟨o, s', h3, h4, ?_, c0, ?_, h2⟩
        · intro y hy
          rcases List.mem_or_eq_of_mem_set hy with hy | rfl
          · exact h.idx y hy
          · exact h5
        · rw [List.getElem?_set, if_neg hik, h1]
    obtain ⟨o, s', h1, h2, h3⟩ := key
    obtain ⟨vs, c', h4, h5, h6, h7⟩ := removeEach_torn ks { c with components := c.components.set k s' } h3
      (fun k' hk' => by simpa using hk k' (.tail _ hk'))
    refine ⟨o :: vs, c', ?_, ?_, h6, h7⟩
    · simp [ComponentStorage.removeEach, hc, h1, h4]
    · simp [ComponentStorage.deleteEach, hc, h2, h5]

theorem deleteAll_idx {e : Entity} : ∀ (comps : List (CompSet V)), (∀ c ∈ comps, c.IdxOk) →
    ∃ comps', ComponentStorage.deleteAll e comps = .ok comps' ∧
      ∀ (x : Entity) (i : Nat) (c : CompSet V), comps[i]? = some c → c.Before e x →
        ∃ c', comps'[i]? = some c' ∧ c'.Before e x
  | [], _ => ⟨[], rfl, by simp⟩
  | c :: cs, h => by
    obtain ⟨cs', h1, h2⟩ := deleteAll_idx (e := e) cs (fun x hx => h x (.tail _ hx))
    obtain ⟨o, c', h3, h4, h5⟩ := (h c (.head _)).remove e
    refine ⟨c' :: cs', by simp [ComponentStorage.deleteAll, h4, h1], ?_⟩
    intro x i s hs hsb
    cases i with
    | zero =>
      cases hs
      obtain ⟨o', c2, k1, k2, k3, k4⟩ := (h c (.head _)).remove_before hsb
      rw [h4] at k2
      cases k2
      exact ⟨c', rfl, k4⟩
    | succ i => exact h2 x i s hs hsb

/-! ### Storage -/

section
variable {A : Entity → Prop} {c : ComponentStorage V}

theorem StoreOK.trails (h : StoreOK A c) (ahead : Nat → Nat → Prop) (e : Entity) :
    Trails ahead A e c.components :=
  ⟨fun s hs => ⟨(h.sets.wf s hs).idxOk, .inl (h.sets.wf s hs)⟩, h.sets.sub⟩

/-- The index of a set of a registered type. -/
def ComponentStorage.HasIdx (c : ComponentStorage V) (i : Nat) : Prop := ∃ t m, c.meta? t = some m ∧ m.storageIndex = i

theorem StoreOK.ranges (h : StoreOK A c) : RangesIn c.HasIdx c.groups := fun j g s hg h1 h2 =>
  h.mds.cover j g s hg ⟨h1, h2⟩

theorem StoreOK.toGroup (h : StoreOK A c) (e : Entity) {m : BitVec 64} (hm : FamClosed c.groups m) :
    ToGroup e m c.components c.groups where
  bound := hm.1
  place := by
    intro j g _ hg
    have hb := h.gstat.bounds j g hg
    by_cases hin : InPrefix (lists c.components) g e
    · left
      intro d hd
      obtain ⟨i, hi, hie⟩ := hin
      have := h.packed.prefix_pos h.gstat hg hi hie hb.1 hb.2.1
      rw [nodup_pos (h.sets.nodup _) hd this]
      exact hi
    · right
      intro s h1 h2 d hd
      exact pos_ge_len h.sets h.gstat h.packed hg hin h1 h2 hd
  nested := fun i j gi gj _ _ hij hgi hgj hf => h.packed.nested i j gi gj hij hgi hgj hf
  parents := fun j p gj gp hj _ hgj hgp hf => .inl (hm.2 j p gj gp hj hgj hgp hf)

theorem StoreOK.toUngroup (h : StoreOK A c) (e : Entity) (P : Nat → Prop) :
    ToUngroup e P c.components c.groups where
  place := by
    intro j g _ hg
    have hb := h.gstat.bounds j g hg
    by_cases hin : InPrefix (lists c.components) g e
    · left
      obtain ⟨i, hi, hie⟩ := hin
      exact ⟨i, hi, fun s h1 h2 => h.packed.prefix_pos h.gstat hg hi hie h1 h2⟩
    · right
      intro d hd
      exact pos_ge_len h.sets h.gstat h.packed hg hin hb.1 hb.2.1 hd
  nested := fun i j gi gj _ _ hij hgi hgj hf => h.packed.nested i j gi gj hij hgi hgj hf
  length := fun j g _ hg s h1 h2 => h.packed.len_le h.sets h.gstat hg h1 h2

/-- A value of the map that the storage does not find. -/
def Lost (f : Content V) (c : ComponentStorage V) : Prop :=
  ∃ (t : TypeId) (m : ComponentMetadata) (s : CompSet V) (x : Entity), c.meta? t = some m ∧
    c.components[m.storageIndex]? = some s ∧ (f t x).isSome ∧ s.sparse.get x = none

theorem insert_uneven (hA : IdxUniq A) (h : StoreOK A c) {e : Entity} (he : A e) (hu : e.index < u32Size)
    {vs : List (TypeId × V)} (hr : ∀ p ∈ vs, (c.meta? p.1).isSome) (hv : ¬ EvenPairs (c.insertPairs e vs)) :
    ∃ c', c.insert e vs = .ok () c' ∧ Lost (c.value.setAll e vs) c' := by
  obtain ⟨mask, c1, h1, h2, h3, h4, h5, h6, _⟩ := insertEach_ok hA he hu vs 0#64 c h (.zero _) hr
  unfold ComponentStorage.insertPairs at hv
  simp only [h1] at hv
  have hm0 : mask ≠ 0#64 := by
    rintro rfl
    exact hv (by simp [EvenPairs])
  rw [if_neg hm0] at hv
  obtain ⟨comps', gs', h7, h8, h9, h10, h11⟩ := groupLoop_trail hA he (R := c1.HasIdx) 64 mask c1.components c1.groups
    (maskCard_le mask) (h2.trails _ e) h2.gstat (h2.toGroup e (by rw [h4]; exact h6)) h2.ranges
  obtain ⟨i, s, ⟨t, m, hm, rfl⟩, hs, hw⟩ := h11 (.inr hv)
  have hgrp : group (c1.components, c1.groups) mask e = .ok (comps', gs') := h7
  refine ⟨{ c1 with components := comps', groups := gs' }, ?_, ?_⟩
  · unfold ComponentStorage.insert
    rw [h1]
    simp only [Outcome.bind_ok, ComponentStorage.withMask, if_neg hm0, hgrp]
    rfl
  · have hi := (h8.trail s (List.mem_of_getElem? hs)).1
    rw [hi.wf_iff] at hw
    push Not at hw
    obtain ⟨x, hx, hxr⟩ := hw
    refine ⟨t, m, s, x, hm, hs, ?_, CompSet.get_of_not_right hxr⟩
    rw [← h3, ← h2.mem_lists_iff hm, ← h9.mem, lists_some hs]
    exact hx

/-- Removing an entity after an uneven ungrouping. -/
theorem Damaged.lost_before {ahead : Nat → Nat → Prop} (hh : ahead = fun a b : Nat => b < a) {e : Entity}
    {comps : List (CompSet V)} (ht : Trails ahead A e comps) (hd : Damaged c.HasIdx comps) :
    ∃ t m s x, c.meta? t = some m ∧ comps[m.storageIndex]? = some s ∧ s.Before e x := by
  subst hh
  obtain ⟨i, s, ⟨t, m, hm, rfl⟩, hs, hw⟩ := hd
  obtain ⟨x, hx⟩ := CompSet.before_of_trail (ht.trail s (List.mem_of_getElem? hs)) hw
  exact ⟨t, m, s, x, hm, hs, hx⟩

/-- An entity without components is not exchanged. -/
theorem ungroupStep_absent (hA : IdxUniq A) (h : StoreOK A c) {e : Entity} (he : ∀ i, e ∉ lists c.components i)
    {j : Nat} (hj : j < c.groups.length) :
    ungroupStep e j (c.components, c.groups) = .ok (c.components, c.groups) ∧
      ungroupStepPairs e j (c.components, c.groups) = [] := by
  have hg := List.getElem?_eq_getElem hj
  have hb := h.gstat.bounds j _ hg
  unfold ungroupStep ungroupStepPairs
  simp only [hg, Res.unchecked_some, Res.bind_ok, compRange_ok (Nat.le_of_lt hb.2.1) hb.2.2]
  rcases getGroupStatus_spec hA h.sets hb.2.1 hb.2.2 c.groups[j].len e with ⟨hs1, _⟩ | ⟨d, hd, _⟩
  · simp only [hs1, Res.bind_ok, Res.pure_eq, and_self]
  · exact absurd (List.mem_of_getElem? hd) (he _)

theorem ungroupLoop_absent (hA : IdxUniq A) (h : StoreOK A c) {e : Entity} (he : ∀ i, e ∉ lists c.components i) :
    ∀ (fuel : Nat) (m : BitVec 64), (∀ j, m.getLsbD j = true → j < c.groups.length) →
    ungroupLoopPairs e fuel m (c.components, c.groups) = []
  | 0, m, _ => by
    unfold ungroupLoopPairs
    cases bitNextBack m <;> rfl
  | fuel + 1, m, hm => by
    unfold ungroupLoopPairs
    cases hb : bitNextBack m with
    | none => rfl
    | some r =>
      obtain ⟨j, m'⟩ := r
      obtain ⟨hj64, hjm, _, hm'⟩ := bitNextBack_some hb
      obtain ⟨h1, h2⟩ := ungroupStep_absent hA h he (hm j hjm)
      simp only [h1, h2, List.nil_append]
      refine ungroupLoop_absent hA h he fuel m' (fun k hk => hm k ?_)
      rw [hm', Bool.and_eq_true] at hk
      exact hk.1

theorem remove_uneven (hA : IdxUniq A) (h : StoreOK A c) {e : Entity} {ts : List TypeId}
    (hr : ∀ t ∈ ts, (c.meta? t).isSome) (hv : ¬ EvenPairs (c.removePairs e ts)) :
    ∃ vs c', c.remove e ts = .ok (vs, c') ∧ c.delete e ts = .ok c' ∧ Lost (c.value.eraseAll e ts) c' := by
  obtain ⟨mask, h1, h2⟩ := lookupAll_ok h (·.deleteMask) ts hr
  have hup := UpClosed.ofTypes h h2
  unfold ComponentStorage.removePairs at hv
  simp only [h1] at hv
  have hm0 : mask ≠ 0#64 := by
    rintro rfl
    exact hv (by simp [EvenPairs])
  rw [if_neg hm0] at hv
  have he : A e := by
    by_contra hne
    refine hv ?_
    unfold ungroupPairs
    rw [ungroupLoop_absent hA h (fun i hi => hne (h.sets.lists_sub hi)) 64 mask hup.1]
    simp [EvenPairs]
  obtain ⟨comps', gs', h7, h8, h9, h10, h11⟩ := ungroupLoop_trail hA he (R := c.HasIdx) 64 mask c.components c.groups
    (maskCard_le mask) (h.trails _ e) h.gstat h.ranges hup.1 (h.toUngroup e _)
  obtain ⟨t, m, s, x, hm, hs, hb⟩ := Damaged.lost_before rfl h8 (h11 (.inr hv))
  have hgrp : ungroup (c.components, c.groups) mask e = .ok (comps', gs') := h7
  obtain ⟨vs, c', i1, i2, i3, i4⟩ := removeEach_torn (e := e) (x := x) (i := m.storageIndex) (ts.map c.idxOf)
    { c with components := comps', groups := gs' } ⟨fun s hs => (h8.trail s hs).1, s, hs, hb⟩ (by
      intro k hk
      obtain ⟨t', ht', rfl⟩ := List.mem_map.1 hk
      obtain ⟨m', hm'⟩ := Option.isSome_iff_exists.1 (hr t' ht')
      rw [c.idxOf_eq hm']
      show m'.storageIndex < comps'.length
      rw [h9.length]
      exact h.mds.idx t' m' hm')
  refine ⟨vs, c', ?_, ?_, ?_⟩
  · unfold ComponentStorage.remove ComponentStorage.withMask
    rw [h1]
    simp only [Res.bind_ok, if_neg hm0, hgrp, Res.pure_eq]
    exact i1
  · unfold ComponentStorage.delete ComponentStorage.withMask
    rw [h1]
    simp only [Res.bind_ok, if_neg hm0, hgrp, Res.pure_eq]
    exact i2
  · obtain ⟨s', k1, k2⟩ := i3.before
    refine ⟨t, m, s', x, ?_, k1, ?_, CompSet.Before.lost k2⟩
    · unfold ComponentStorage.meta?
      rw [i4]
      exact hm
    · rw [Content.eraseAll_eq]
      have hne : x ≠ e := hb.ne
      simp only [hne, and_false, if_false]
      rw [← h.mem_lists_iff hm, ← h9.mem, lists_some hs]
      exact hb.mem

theorem strip_uneven (hA : IdxUniq A) (h : StoreOK A c) {e : Entity} (he : A e)
    (hv : ¬ EvenPairs (ungroupAllPairs (c.components, c.groups) e)) :
    ∃ c', c.strip e = .ok c' ∧ Lost (c.value.strip e) c' := by
  obtain ⟨comps', gs', h7, h8, h9, h10, h11⟩ := ungroupAllLoop_trail hA he (R := c.HasIdx) c.groups.length c.components
    c.groups (Nat.le_refl _) (h.trails _ e) h.gstat h.ranges (h.toUngroup e _)
  obtain ⟨t, m, s, x, hm, hs, hb⟩ := Damaged.lost_before rfl h8 (h11 (.inr hv))
  have hgrp : ungroupAll (c.components, c.groups) e = .ok (comps', gs') := h7
  obtain ⟨comps2, i1, i2⟩ := deleteAll_idx (e := e) comps' (fun s hs => (h8.trail s hs).1)
  obtain ⟨s', k1, k2⟩ := i2 x m.storageIndex s hs hb
  refine ⟨{ c with groups := gs', components := comps2 }, ?_, t, m, s', x, hm, k1, ?_, CompSet.Before.lost k2⟩
  · unfold ComponentStorage.strip
    rw [hgrp]
    simp only [Res.bind_ok, i1, Res.pure_eq]
  · have hne : x ≠ e := hb.ne
    simp only [Content.strip, hne, if_false]
    rw [← h.mem_lists_iff hm, ← h9.mem, lists_some hs]
    exact hb.mem

end

/-! ### Worlds -/

/-- A value of the map that no view finds. -/
def World.Misses (w : World V) (tb : Table V) : Prop := ∃ t x v, tb.get t x = some v ∧ w.viewGet t x = .ok none

theorem Lost.misses {f : Content V} {w : World V} {tb : Table V} (h : Lost f w.components) (hf : tb.get = f) :
    w.Misses tb := by
  obtain ⟨t, m, s, x, hm, hs, hx, hg⟩ := h
  obtain ⟨v, hv⟩ := Option.isSome_iff_exists.1 hx
  refine ⟨t, x, v, by rw [hf]; exact hv, ?_⟩
  unfold World.viewGet World.borrow
  simp only [hm, hs, Res.unchecked_some, Res.bind_ok, Res.pure_eq]
  unfold CompSet.get
  rw [hg]

theorem insertSet_uneven {w : World V} {s : MapWorld V} {P : Entity → Nat → Prop} (h : InvX w s P) {e : Entity} (he : e ∈ s.life.alive)
    {vs : List (TypeId × V)} (hv : ¬ EvenPairs (w.components.insertPairs e vs)) :
    s.knows (vs.map (·.1)) ∧ ∃ w', w.insertSet e vs = .ok () w' ∧ w'.Misses (s.table.setAll e (s.known vs)) := by
  have hk : s.knows (vs.map (·.1)) := by
    by_contra hk
    obtain ⟨t, v, post, h0, ht⟩ := known_split hk
    have hr : ∀ p ∈ s.known vs, (w.components.meta? p.1).isSome := fun p hp => (h.reg p.1).2 (known_reg p hp)
    have htn : w.components.meta? t = none := by
      have := (h.reg t).not.2 ht
      simpa using this
    obtain ⟨c', h1, _⟩ := insertEach_panic h.life.idxUniq he (h.life.index_lt he) (s.known vs) 0#64 w.components h.store
      hr htn (v := v) (post := post)
    rw [← h0] at h1
    refine hv ?_
    unfold ComponentStorage.insertPairs
    rw [h1]
    simp [EvenPairs]
  refine ⟨hk, ?_⟩
  have hka := known_all hk
  have hr : ∀ p ∈ vs, (w.components.meta? p.1).isSome := fun p hp =>
    (h.reg p.1).2 (hk p.1 (List.mem_map.2 ⟨p, hp, rfl⟩))
  obtain ⟨c', h1, h2⟩ := insert_uneven h.life.idxUniq h.store he (h.life.index_lt he) hr hv
  refine ⟨{ w with components := c' }, by simp only [World.insertSet, h1], ?_⟩
  rw [hka]
  exact Lost.misses h2 (by rw [Table.get_setAll, h.value])

theorem uneven_step {w : World V} {s : MapWorld V} {P : Entity → Nat → Prop} (h : InvX w s P) {op : Op V} (hs : SingleCall op)
    (hv : ¬ w.Even op) : ∃ r w', step w op = some (r, w') ∧ w'.Misses (s.next op).table := by
  have hnil : EvenPairs [] := by simp [EvenPairs]
  unfold World.Even at hv
  cases op with
  | create vs =>
    by_cases hx : s.life.exhausted
    · refine absurd ?_ hv
      simp only [World.swaps, (h.life.create_exhausted hx).1]
      exact hnil
    · obtain ⟨es, h1, h2, h3⟩ := h.make hx
      simp only [World.swaps, h1] at hv
      obtain ⟨hk, w', j1, j2⟩ := insertSet_uneven h3 (e := s.life.nextEntity) (Life.alive_made _ _) hv
      refine ⟨.entity s.life.nextEntity, w', ?_, ?_⟩
      · simp [step, retOutcome, World.create, h1, j1]
      · have hk : s.knows (vs.map (·.1)) := hk
        simpa [MapWorld.next, MapWorld.answer, events, MapWorld.regAfter, MapWorld.groupsAfter, MapWorld.tableAfter, hx,
          hk] using (show w'.Misses (s.table.setAll s.life.nextEntity (s.known vs)) from j2)
  | insert e vs =>
    by_cases he : e ∈ s.life.alive
    · have hc : w.entities.contains e = true := (h.life.contains_iff e).2 he
      simp only [World.swaps, hc, if_true] at hv
      obtain ⟨hk, w', j1, j2⟩ := insertSet_uneven h he hv
      refine ⟨.bool true, w', ?_, ?_⟩
      · simp [step, retOutcome, World.insert, hc, j1]
      · simpa [MapWorld.next, MapWorld.answer, events, MapWorld.regAfter, MapWorld.groupsAfter, MapWorld.tableAfter, he,
          hk] using j2
    · have hc : w.entities.contains e = false := by
        rw [Bool.eq_false_iff]
        exact fun hc => he ((h.life.contains_iff e).1 hc)
      simp [World.swaps, hc, hnil] at hv
  | remove e ts =>
    by_cases hk : s.knows ts
    · obtain ⟨vs, c', j1, j2, j3⟩ := remove_uneven h.life.idxUniq h.store ((h.knows_iff ts).1 hk) hv
      refine ⟨.values vs, { w with components := c' }, by simp [step, retRes, World.remove, j1], ?_⟩
      rw [show (s.next (.remove e ts)).table = s.table.eraseAll e ts by
        simp [MapWorld.next, MapWorld.answer, events, MapWorld.regAfter, MapWorld.groupsAfter, MapWorld.tableAfter, hk]]
      exact Lost.misses j3 (by rw [Table.get_eraseAll, h.value])
    · refine absurd ?_ hv
      rcases regs_cases w.components ts with h1 | h1
      · exact absurd ((h.knows_iff ts).2 h1) hk
      · simp only [World.swaps, ComponentStorage.removePairs, lookupAll_panic _ ts h1]
        exact hnil
  | delete e ts =>
    by_cases hk : s.knows ts
    · obtain ⟨vs, c', j1, j2, j3⟩ := remove_uneven h.life.idxUniq h.store ((h.knows_iff ts).1 hk) hv
      refine ⟨.unit, { w with components := c' }, by simp [step, retRes, World.delete, j2], ?_⟩
      rw [show (s.next (.delete e ts)).table = s.table.eraseAll e ts by
        simp [MapWorld.next, MapWorld.answer, events, MapWorld.regAfter, MapWorld.groupsAfter, MapWorld.tableAfter, hk]]
      exact Lost.misses j3 (by rw [Table.get_eraseAll, h.value])
    · refine absurd ?_ hv
      rcases regs_cases w.components ts with h1 | h1
      · exact absurd ((h.knows_iff ts).2 h1) hk
      · simp only [World.swaps, ComponentStorage.removePairs, lookupAll_panic _ ts h1]
        exact hnil
  | destroy e =>
    by_cases he : e ∈ s.life.alive
    · obtain ⟨es, h1, h2, h3⟩ := h.life.remove_present he
      simp only [World.swaps, h1] at hv
      obtain ⟨c', j1, j2⟩ := strip_uneven h.life.idxUniq h.store he hv
      refine ⟨.bool true, ⟨es, c'⟩, by simp [step, retRes, World.destroy, h1, j1], ?_⟩
      rw [show (s.next (.destroy e)).table = s.table.strip e by
        simp [MapWorld.next, MapWorld.answer, events, MapWorld.regAfter, MapWorld.groupsAfter, MapWorld.tableAfter, he]]
      exact Lost.misses j2 (by rw [Table.get_strip, h.value])
    · refine absurd ?_ hv
      simp only [World.swaps, h.life.remove_absent he]
      exact hnil
  | _ => exact hs.elim

end Sparsey
