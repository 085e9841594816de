import Verif.Proofs.World
import Verif.Proofs.Indexes

/-!
What an exchange of entities of different versions does: the sets stay readable, but at least one slot keeps a wrong
version until the end of the call, and its entity is not found.
-/

set_option autoImplicit false
set_option linter.unusedSimpArgs false

namespace Sparsey
variable {V : Type}

/-! ### One set -/

namespace CompSet

/-- The slot of the entity has its version. -/
def Right (c : CompSet V) (x : Entity) : Prop := ∃ d, c.sparse.slots[x.index]? = some (some ⟨d, x.version⟩)

theorem WF.idxOk {c : CompSet V} (h : c.WF) : c.IdxOk where
  rep := {
    fwd := fun d e he => ⟨_, h.rep.fwd d e he⟩
    bwd := fun i d v hs => ⟨_, h.rep.bwd i d v hs, rfl⟩
    small := h.rep.small }
  len := h.len

theorem WF.right {c : CompSet V} (h : c.WF) {x : Entity} (hx : x ∈ c.entities) : c.Right x := by
  obtain ⟨d, hd⟩ := List.mem_iff_getElem?.1 hx
  exact ⟨d, h.rep.fwd d x hd⟩

theorem IdxOk.wf {c : CompSet V} (h : c.IdxOk) (hr : ∀ x ∈ c.entities, c.Right x) : c.WF where
  rep := {
    fwd := by
      intro d e he
      obtain ⟨v, hv⟩ := h.rep.fwd d e he
      obtain ⟨d', hd'⟩ := hr e (List.mem_of_getElem? he)
      rw [hv] at hd'
      cases hd'
      exact hv
    bwd := by
      intro i d v hs
      obtain ⟨e, he, rfl⟩ := h.rep.bwd i d v hs
      obtain ⟨d', hd'⟩ := hr e (List.mem_of_getElem? he)
      rw [hs] at hd'
      cases hd'
      exact he
    small := h.rep.small }
  len := h.len

theorem IdxOk.wf_iff {c : CompSet V} (h : c.IdxOk) : c.WF ↔ ∀ x ∈ c.entities, c.Right x :=
  ⟨fun hw _ hx => hw.right hx, h.wf⟩

theorem get_of_not_right {c : CompSet V} {x : Entity} (h : ¬ c.Right x) : c.sparse.get x = none := by
  unfold SparseVec.get
  split
  · rfl
  · rename_i slot hs
    cases slot with
    | none => rfl
    | some sl =>
      have : ¬ sl.version = x.version := by
        intro hv
        exact h ⟨sl.index, by rw [← hv]; exact hs⟩
      simp [Option.filter, this]

/-- An exchange exchanges the slots. -/
theorem IdxOk.swap_at {c : CompSet V} (h : c.IdxOk) {a b : Nat} {x y : Entity} (ha : c.entities[a]? = some x)
    (hb : c.entities[b]? = some y) (hab : a ≠ b) :
    ∃ c', c.swap a b = .ok c' ∧ c'.IdxOk ∧ c'.entities.length = c.entities.length ∧
      (∀ i : Nat, c'.entities[i]? = if i = a then some y else if i = b then some x else c.entities[i]?) ∧
      (∃ vx vy, c.sparse.slots[x.index]? = some (some ⟨a, vx⟩) ∧ c.sparse.slots[y.index]? = some (some ⟨b, vy⟩) ∧
        c'.sparse.slots[x.index]? = some (some ⟨b, vy⟩) ∧ c'.sparse.slots[y.index]? = some (some ⟨a, vx⟩)) ∧
      ∀ i, i ≠ x.index → i ≠ y.index → c'.sparse.slots[i]? = c.sparse.slots[i]? := by
  obtain ⟨sx, sy, h1, h2, h3, h4⟩ := h.rep.swap ha hb hab
  obtain ⟨vx, hx⟩ := h.rep.fwd a x ha
  obtain ⟨vy, hy⟩ := h.rep.fwd b y hb
  rw [hx] at h1
  rw [hy] at h2
  cases h1
  cases h2
  obtain ⟨va, hva⟩ := h.comp_at ha
  obtain ⟨vb, hvb⟩ := h.comp_at hb
  have hal := (List.getElem?_eq_some_iff.1 ha).1
  have hbl := (List.getElem?_eq_some_iff.1 hb).1
  have hxl := h.rep.slot_lt ha
  have hyl := h.rep.slot_lt hb
  refine ⟨⟨⟨(c.sparse.slots.set x.index (some ⟨b, vy⟩)).set y.index (some ⟨a, vx⟩)⟩,
    (c.entities.set a y).set b x, (c.components.set a vb).set b va⟩, ?_, ⟨h4, by simp [h.len]⟩, by simp, ?_, ?_, ?_⟩
  · simp [CompSet.swap, ha, hb, SparseVec.swapNonoverlapping, Entity.sparse, hx, hy, h3, hva, hvb]
  · intro i
    simp only [List.getElem?_set, List.length_set]
    by_cases hi : i = a
    · subst hi
      simp [hal, hab.symm]
    · by_cases hi' : i = b
      · subst hi'
        simp [hbl, hi]
      · simp [hi, hi', Ne.symm hi, Ne.symm hi']
  · refine ⟨vx, vy, hx, hy, ?_, ?_⟩
    · simp [List.getElem?_set, hxl, h3.symm]
    · simp [List.getElem?_set, hyl]
  · intro i hi hi'
    simp [List.getElem?_set, Ne.symm hi, Ne.symm hi']

end CompSet

/-! ### The trail of an entity -/

/-- An order of positions: the direction in which an entity moves. -/
structure Heading (ahead : Nat → Nat → Prop) : Prop where
  irrefl : ∀ a, ¬ ahead a a
  trans : ∀ a b c, ahead a b → ahead b c → ahead a c

theorem heading_lt : Heading (fun a b : Nat => a < b) := ⟨fun _ => Nat.lt_irrefl _, fun _ _ _ h h' => Nat.lt_trans h h'⟩

theorem heading_gt : Heading (fun a b : Nat => b < a) := ⟨fun _ => Nat.lt_irrefl _, fun _ _ _ h h' => Nat.lt_trans h' h⟩

/-- The set is well formed, or the slots are right ahead of `e` and one behind `e` is wrong. -/
def Trail (ahead : Nat → Nat → Prop) (e : Entity) (c : CompSet V) : Prop :=
  c.IdxOk ∧ (c.WF ∨ ∃ p : Nat, c.entities[p]? = some e ∧
    (∀ (r : Nat) (x : Entity), ahead r p → c.entities[r]? = some x → c.Right x) ∧
    ∃ (r : Nat) (x : Entity), ahead p r ∧ c.entities[r]? = some x ∧ ¬ c.Right x)

/-- What moving `e` to the position `q` does to a set. -/
structure Shift (ahead : Nat → Nat → Prop) (e : Entity) (q : Nat) (c c' : CompSet V) : Prop where
  trail : Trail ahead e c'
  length : c'.entities.length = c.entities.length
  moved : ∃ p : Nat, c.entities[p]? = some e ∧ ∀ i : Nat, c'.entities[i]? =
    if i = q then some e else if i = p then c.entities[q]? else c.entities[i]?
  bad : ¬ c.WF ∨ ¬ EvenPairs (swapToPairs c q e.index) → ¬ c'.WF

theorem swapTo_trail {ahead : Nat → Nat → Prop} (hh : Heading ahead) {c : CompSet V} {e : Entity}
    (hc : Trail ahead e c) {p q : Nat} (hp : c.entities[p]? = some e) (hq : q < c.entities.length)
    (ha : q = p ∨ ahead q p) : ∃ c', swapTo c q e.index = .ok c' ∧ Shift ahead e q c c' := by
  obtain ⟨vp, hsp⟩ := hc.1.rep.fwd p e hp
  have hgs : c.sparse.getSparseUnchecked e.index = .ok p := by
    unfold SparseVec.getSparseUnchecked
    rw [hsp]
  unfold swapTo
  rw [hgs]
  simp only [Res.bind_ok]
  by_cases hpq : p = q
  · subst hpq
    refine ⟨c, by simp, hc, rfl, ⟨p, hp, fun i => ?_⟩, ?_⟩
    · by_cases hi : i = p
      · subst hi; simp [hp]
      · simp [hi]
    · rintro (h | h)
      · exact h
      · exact absurd (by simp [swapToPairs, hgs, EvenPairs]) h
  · rw [if_pos hpq]
    have ha : ahead q p := ha.resolve_left (Ne.symm hpq)
    have hy := List.getElem?_eq_getElem hq
    generalize c.entities[q] = y at hy
    obtain ⟨c', h1, h2, h3, h4, ⟨vx, vy, h5, h6, h7, h8⟩, h9⟩ := hc.1.swap_at hp hy hpq
    have hpairs : swapToPairs c q e.index = [(e, y)] := by
      simp [swapToPairs, hgs, hpq, hp, hy]
    have hright : ∀ (r : Nat) (x : Entity), c.entities[r]? = some x → r ≠ p → r ≠ q → (c'.Right x ↔ c.Right x) := by
      intro r x hx hrp hrq
      unfold CompSet.Right
      rw [h9 x.index (fun hi => hrp (hc.1.rep.pos_unique hx hp hi)) (fun hi => hrq (hc.1.rep.pos_unique hx hy hi))]
    have hat : ∀ (r : Nat), r ≠ p → r ≠ q → c'.entities[r]? = c.entities[r]? := by
      intro r h h'
      rw [h4, if_neg h, if_neg h']
    have hmoved : ∀ i : Nat, c'.entities[i]? =
        if i = q then some e else if i = p then c.entities[q]? else c.entities[i]? := by
      intro i
      rw [h4, hy]
      by_cases hi : i = p
      · subst hi; simp [hpq]
      · simp [hi]
    have hne : ∀ r, ahead r q → r ≠ p ∧ r ≠ q := by
      intro r hr
      constructor
      · rintro rfl; exact hh.irrefl _ (hh.trans _ _ _ hr ha)
      · rintro rfl; exact hh.irrefl _ hr
    have hyp : c'.entities[p]? = some y := by rw [h4, if_pos rfl]
    have heq : c'.entities[q]? = some e := by rw [hmoved, if_pos rfl]
    rcases hc.2 with hwf | ⟨p', hp', hr1, r, x, hr2, hr3, hr4⟩
    · by_cases hv : e.version = y.version
      · obtain ⟨c2, k1, k2, _⟩ := hwf.swap hp hy hpq hv
        rw [h1] at k1
        cases k1
        refine ⟨c', h1, ⟨h2, .inl k2⟩, h3, ⟨p, hp, hmoved⟩, ?_⟩
        rintro (h | h)
        · exact absurd hwf h
        · exact absurd (by simp [hpairs, EvenPairs, hv]) h
      · have hnr : ¬ c'.Right y := by
          rintro ⟨d, hd⟩
          rw [h8] at hd
          simp only [Option.some.injEq, Slot.mk.injEq] at hd
          have := hwf.rep.fwd p e hp
          rw [h5] at this
          simp only [Option.some.injEq, Slot.mk.injEq] at this
          exact hv (this.2.symm.trans hd.2)
        refine ⟨c', h1, ⟨h2, .inr ⟨q, heq, ?_, p, y, ha, hyp, hnr⟩⟩, h3, ⟨p, hp, hmoved⟩, ?_⟩
        · intro r x hr hx
          obtain ⟨k1, k2⟩ := hne r hr
          rw [hat r k1 k2] at hx
          exact (hright r x hx k1 k2).2 (hwf.right (List.mem_of_getElem? hx))
        · intro _ hw
          exact hnr (hw.right (List.mem_of_getElem? hyp))
    · have := nodup_pos hc.1.rep.nodup hp' hp
      subst this
      have hrp : r ≠ p' := by rintro rfl; exact hh.irrefl _ hr2
      have hqr := hh.trans _ _ _ ha hr2
      have hrq : r ≠ q := by rintro rfl; exact hh.irrefl _ hqr
      have hnr : ¬ c'.Right x := fun h => hr4 ((hright r x hr3 hrp hrq).1 h)
      have hx' : c'.entities[r]? = some x := by rw [hat r hrp hrq]; exact hr3
      refine ⟨c', h1, ⟨h2, .inr ⟨q, heq, ?_, r, x, hqr, hx', hnr⟩⟩, h3, ⟨p', hp, hmoved⟩, ?_⟩
      · intro r x hr hx
        obtain ⟨k1, k2⟩ := hne r hr
        rw [hat r k1 k2] at hx
        exact (hright r x hx k1 k2).2 (hr1 r x (hh.trans _ _ _ hr ha) hx)
      · intro _ hw
        exact hnr (hw.right (List.mem_of_getElem? hx'))

/-! ### Slices -/

theorem swapAllTo_shift {ahead : Nat → Nat → Prop} {q : Nat} {e : Entity} : ∀ (seg : List (CompSet V)),
    (∀ c ∈ seg, ∃ c', swapTo c q e.index = .ok c' ∧ Shift ahead e q c c') →
    ∃ seg', swapAllTo q e.index seg = .ok seg' ∧ seg'.length = seg.length ∧
      ∀ (s : Nat) (c c' : CompSet V), seg[s]? = some c → seg'[s]? = some c' → Shift ahead e q c c' := by
  intro seg
  induction seg with
  | nil => intro _; exact ⟨[], rfl, rfl, by simp⟩
  | cons c cs ih =>
    intro h
    obtain ⟨c', h1, h2⟩ := h c (by simp)
    obtain ⟨cs', h9, h10, h11⟩ := ih (fun x hx => h x (by simp [hx]))
    refine ⟨c' :: cs', by simp [swapAllTo, h1, h9], by simp [h10], fun s x x' hx hx' => ?_⟩
    cases s with
    | zero =>
      simp at hx hx'
      subst hx hx'
      exact h2
    | succ s =>
      simp at hx hx'
      exact h11 s x x' hx hx'

/-- Every set is on the trail of `e` and contains only entities of `A`. -/
structure Trails (ahead : Nat → Nat → Prop) (A : Entity → Prop) (e : Entity) (comps : List (CompSet V)) : Prop where
  trail : ∀ c ∈ comps, Trail ahead e c
  sub : ∀ c ∈ comps, ∀ x ∈ c.entities, A x

/-- Some set at an index of `R` is not well formed. -/
def Damaged (R : Nat → Prop) (comps : List (CompSet V)) : Prop := ∃ s c, R s ∧ comps[s]? = some c ∧ ¬ c.WF

/-- The sets hold the same entities. -/
structure SameEnts (comps comps' : List (CompSet V)) : Prop where
  length : comps'.length = comps.length
  lens : ∀ s, (lists comps' s).length = (lists comps s).length
  mem : ∀ s x, x ∈ lists comps' s ↔ x ∈ lists comps s

theorem SameEnts.refl (comps : List (CompSet V)) : SameEnts comps comps := ⟨rfl, fun _ => rfl, fun _ _ => Iff.rfl⟩

theorem SameEnts.trans {a b c : List (CompSet V)} (h : SameEnts a b) (h' : SameEnts b c) : SameEnts a c :=
  ⟨h'.length.trans h.length, fun s => (h'.lens s).trans (h.lens s), fun s x => (h'.mem s x).trans (h.mem s x)⟩

theorem Trails.nodup {ahead : Nat → Nat → Prop} {A : Entity → Prop} {e : Entity} {comps : List (CompSet V)}
    (h : Trails ahead A e comps) (s : Nat) : (lists comps s).Nodup := by
  by_cases hs : s < comps.length
  · rw [lists_some (List.getElem?_eq_getElem hs)]
    exact (h.trail _ (List.getElem_mem hs)).1.rep.nodup
  · rw [lists_none (by omega)]
    exact List.nodup_nil

theorem mem_of_moved {l l' : List Entity} {p q : Nat} {e : Entity} (hp : l[p]? = some e) (hq : q < l.length)
    (h : ∀ i : Nat, l'[i]? = if i = q then some e else if i = p then l[q]? else l[i]?) (x : Entity) :
    x ∈ l' ↔ x ∈ l := by
  rw [List.mem_iff_getElem?, List.mem_iff_getElem?]
  constructor
  · rintro ⟨i, hi⟩
    rw [h] at hi
    split at hi
    · cases hi; exact ⟨p, hp⟩
    · split at hi
      · exact ⟨q, hi⟩
      · exact ⟨i, hi⟩
  · rintro ⟨i, hi⟩
    by_cases hiq : i = q
    · subst hiq
      by_cases hpi : p = i
      · subst hpi
        exact ⟨p, by rw [h, if_pos rfl, ← hp, hi]⟩
      · exact ⟨p, by rw [h, if_neg hpi, if_pos rfl, hi]⟩
    · by_cases hip : i = p
      · subst hip
        rw [hp] at hi
        exact ⟨q, by rw [h, if_pos rfl, hi]⟩
      · exact ⟨i, by rw [h, if_neg hiq, if_neg hip, hi]⟩

theorem swapRange_trail {ahead : Nat → Nat → Prop} (hh : Heading ahead) {A : Entity → Prop} {e : Entity}
    {R : Nat → Prop} {comps : List (CompSet V)} (h : Trails ahead A e comps) {a b q : Nat}
    (hR : ∀ s, a ≤ s → s < b → R s)
    (hab : a ≤ b) (hb : b ≤ comps.length) (he : ∀ s, a ≤ s → s < b → ∃ p : Nat, (lists comps s)[p]? = some e ∧
      q < (lists comps s).length ∧ (q = p ∨ ahead q p)) :
    ∃ comps', swapRange comps a b q e.index = .ok comps' ∧ Trails ahead A e comps' ∧ SameEnts comps comps' ∧
      Moved (lists comps) (lists comps') a b q e ∧
      (Damaged R comps ∨ ¬ EvenPairs (swapRangePairs comps a b q e.index) → Damaged R comps') := by
  have hseg : ∀ c ∈ (comps.drop a).take (b - a), ∃ c', swapTo c q e.index = .ok c' ∧ Shift ahead e q c c' := by
    intro c hc
    obtain ⟨s, h1, h2, h3⟩ := mem_seg.1 hc
    obtain ⟨p, h4, h5, h6⟩ := he s h1 h2
    rw [lists_some h3] at h4 h5
    exact swapTo_trail hh (h.trail c (List.mem_of_getElem? h3)) h4 h5 h6
  obtain ⟨seg', h1, h2, h3⟩ := swapAllTo_shift _ hseg
  have hsl : seg'.length = b - a := by
    rw [h2, List.length_take, List.length_drop]; omega
  refine ⟨comps.take a ++ seg' ++ comps.drop b, ?_, ?_⟩
  · simp [swapRange, compRange_ok hab hb, h1]
  · have hget := splice_get (l := comps) (seg' := seg') hab hb hsl
    generalize comps.take a ++ seg' ++ comps.drop b = comps' at hget
    have hlen : comps'.length = comps.length := by
      apply Nat.le_antisymm
      · by_contra hc
        have := hget comps.length
        rw [if_neg (by omega), List.getElem?_eq_none (Nat.le_refl _), List.getElem?_eq_none_iff] at this
        omega
      · by_contra hc
        have := hget comps'.length
        rw [List.getElem?_eq_none (Nat.le_refl _)] at this
        split at this
        · have := this.symm
          rw [List.getElem?_eq_none_iff] at this
          omega
        · have := this.symm
          rw [List.getElem?_eq_none_iff] at this
          omega
    have hcase : ∀ (s : Nat) (c c' : CompSet V), comps[s]? = some c → comps'[s]? = some c' →
        (¬ (a ≤ s ∧ s < b) ∧ c' = c) ∨ (a ≤ s ∧ s < b ∧ Shift ahead e q c c') := by
      intro s c c' hc hc'
      rw [hget] at hc'
      split at hc'
      · rename_i hr
        right
        refine ⟨hr.1, hr.2, h3 (s - a) _ c' ?_ hc'⟩
        rw [seg_get comps (s - a) (by omega), show a + (s - a) = s by omega, hc]
      · rename_i hr
        left
        rw [hc] at hc'
        exact ⟨hr, by simpa using hc'.symm⟩
    have hback : ∀ (s : Nat) (c' : CompSet V), comps'[s]? = some c' → ∃ c, comps[s]? = some c := by
      intro s c' hc'
      have hs : s < comps.length := by rw [← hlen]; exact (List.getElem?_eq_some_iff.1 hc').1
      exact ⟨_, List.getElem?_eq_getElem hs⟩
    have hforth : ∀ (s : Nat) (c : CompSet V), comps[s]? = some c → ∃ c', comps'[s]? = some c' := by
      intro s c hc
      have hs : s < comps'.length := by rw [hlen]; exact (List.getElem?_eq_some_iff.1 hc).1
      exact ⟨_, List.getElem?_eq_getElem hs⟩
    have hmoved : Moved (lists comps) (lists comps') a b q e := by
      refine ⟨fun s h4 h5 => ?_, fun s hs => ?_⟩
      · have hs : s < comps.length := by omega
        have hc := List.getElem?_eq_getElem hs
        obtain ⟨c', hc'⟩ := hforth s _ hc
        obtain ⟨p, k1, k2, k3⟩ := he s h4 h5
        rcases hcase s _ c' hc hc' with ⟨h8, _⟩ | ⟨_, _, h9⟩
        · exact absurd ⟨h4, h5⟩ h8
        · obtain ⟨p', k4, k5⟩ := h9.moved
          exact ⟨p', by rw [lists_some hc]; exact k4, k2, fun i => by
            rw [lists_some hc, lists_some hc']; exact k5 i⟩
      · unfold lists
        rw [hget, if_neg hs]
    have hmem : ∀ s x, x ∈ lists comps' s ↔ x ∈ lists comps s := by
      intro s x
      by_cases hs : a ≤ s ∧ s < b
      · obtain ⟨p, k1, k2, k3⟩ := hmoved.1 s hs.1 hs.2
        exact mem_of_moved k1 k2 k3 x
      · rw [hmoved.2 s hs]
    refine ⟨⟨?_, ?_⟩, ⟨hlen, ?_, hmem⟩, hmoved, ?_⟩
    · intro c' hc'
      obtain ⟨s, hs⟩ := List.mem_iff_getElem?.1 hc'
      obtain ⟨c, hc⟩ := hback s c' hs
      rcases hcase s c c' hc hs with ⟨_, rfl⟩ | ⟨_, _, h6⟩
      · exact h.trail _ (List.mem_of_getElem? hc)
      · exact h6.trail
    · intro c' hc' x hx
      obtain ⟨s, hs⟩ := List.mem_iff_getElem?.1 hc'
      obtain ⟨c, hc⟩ := hback s c' hs
      apply h.sub c (List.mem_of_getElem? hc)
      rw [← lists_some hc, ← hmem, lists_some hs]
      exact hx
    · intro s
      by_cases hs : s < comps.length
      · have hc := List.getElem?_eq_getElem hs
        obtain ⟨c', hc'⟩ := hforth s _ hc
        rw [lists_some hc, lists_some hc']
        rcases hcase s _ c' hc hc' with ⟨_, rfl⟩ | ⟨_, _, h6⟩
        · rfl
        · exact h6.length
      · rw [lists_none (by omega), lists_none (by omega)]
    · rintro (⟨s, c, hrs, hs, hw⟩ | hv)
      · obtain ⟨c', hc'⟩ := hforth s c hs
        refine ⟨s, c', hrs, hc', ?_⟩
        rcases hcase s c c' hs hc' with ⟨_, rfl⟩ | ⟨_, _, h6⟩
        · exact hw
        · exact h6.bad (.inl hw)
      · unfold EvenPairs at hv
        push Not at hv
        obtain ⟨pr, hpr, hne⟩ := hv
        obtain ⟨c, hc, hpc⟩ := List.mem_flatMap.1 hpr
        obtain ⟨s, k1, k2, hs⟩ := mem_seg.1 hc
        obtain ⟨c', hc'⟩ := hforth s c hs
        refine ⟨s, c', hR s k1 k2, hc', ?_⟩
        rcases hcase s c c' hs hc' with ⟨h8, _⟩ | ⟨_, _, h6⟩
        · exact absurd ⟨k1, k2⟩ h8
        · exact h6.bad (.inr (fun h => hne (h pr hpc)))

/-- The status of an entity on sets that are right up to versions. -/
theorem getGroupStatus_trail {ahead : Nat → Nat → Prop} {A : Entity → Prop} (hA : IdxUniq A) {e : Entity} (hAe : A e)
    {comps : List (CompSet V)} (h : Trails ahead A e comps) {a b : Nat} (hab : a < b) (hb : b ≤ comps.length)
    (len : Nat) :
    getGroupStatus ((comps.drop a).take (b - a)) len e = .ok .incomplete ∨
    (∃ d : Nat, (lists comps a)[d]? = some e ∧ (∀ s, a ≤ s → s < b → e ∈ lists comps s) ∧
      getGroupStatus ((comps.drop a).take (b - a)) len e = .ok (if d < len then .grouped else .ungrouped)) := by
  have ha : a < comps.length := by omega
  have hseg : (comps.drop a).take (b - a) = comps[a] :: (comps.drop (a + 1)).take (b - a - 1) := by
    rw [List.drop_eq_getElem_cons ha, show b - a = (b - a - 1) + 1 by omega, List.take_succ_cons]
    simp
  rw [hseg]
  have hfirst := List.getElem?_eq_getElem ha
  have hfm := List.getElem_mem ha
  unfold getGroupStatus
  simp only
  cases hd : comps[a].sparse.get e with
  | none => exact .inl rfl
  | some d =>
    simp only
    obtain ⟨x, hx, hi⟩ := (h.trail _ hfm).1.rep.get_at hd
    have := hA x e (h.sub _ hfm x (List.mem_of_getElem? hx)) hAe hi
    subst this
    by_cases hall : ((comps.drop (a + 1)).take (b - a - 1)).all (fun s => s.sparse.containsSparse x.sparse) = true
    · right
      refine ⟨d, by rw [lists_some hfirst]; exact hx, ?_, by rw [if_pos hall]⟩
      intro s h1 h2
      have hs : s < comps.length := by omega
      have hs' := List.getElem?_eq_getElem hs
      have hsm := List.getElem_mem hs
      rw [lists_some hs']
      have hmem : comps[s] ∈ (comps.drop a).take (b - a) := mem_seg.2 ⟨s, h1, h2, hs'⟩
      rw [hseg, List.mem_cons] at hmem
      rcases hmem with hmem | hmem
      · rw [hmem]; exact List.mem_of_getElem? hx
      · have := List.all_eq_true.1 hall _ hmem
        unfold SparseVec.containsSparse at this
        split at this
        · rename_i sl hsl
          obtain ⟨y, hy, hyi⟩ := (h.trail _ hsm).1.rep.slot hsl
          have := hA y x (h.sub _ hsm y (List.mem_of_getElem? hy)) hAe hyi
          subst this
          exact List.mem_of_getElem? hy
        · cases this
    · left
      rw [if_neg hall]

/-- The sets of the groups are in `R`. -/
def RangesIn (R : Nat → Prop) (gs : List Group) : Prop :=
  ∀ (j : Nat) (g : Group) (s : Nat), gs[j]? = some g → g.storageStart ≤ s → s < g.storageEnd → R s

theorem RangesIn.of_same {R : Nat → Prop} {gs gs' : List Group} (h : RangesIn R gs) (hs : SameStat gs gs') :
    RangesIn R gs' := by
  intro j g s hg h1 h2
  obtain ⟨g', h3, h4⟩ := hs.get hg
  exact h j g' s h3 (by rw [← Group.stat_start h4]; exact h1) (by rw [← Group.stat_end h4]; exact h2)

/-! ### `group` -/

theorem not_even_append {l l' : List (Entity × Entity)} (h : ¬ EvenPairs (l ++ l')) :
    ¬ EvenPairs l ∨ ¬ EvenPairs l' := by
  by_contra hc
  push Not at hc
  refine h fun pr hpr => ?_
  rcases List.mem_append.1 hpr with h1 | h1
  · exact hc.1 pr h1
  · exact hc.2 pr h1

/-- What the rest of the loop of `group` needs: a group still to be visited has `e` before its length in its first new
set or behind its length in all its sets; groups are nested; the smaller groups of the family are still to be visited or
`e` has all their types. -/
structure ToGroup (e : Entity) (m : BitVec 64) (comps : List (CompSet V)) (gs : List Group) : Prop where
  bound : ∀ j, m.getLsbD j = true → j < gs.length
  place : ∀ (j : Nat) (g : Group), m.getLsbD j = true → gs[j]? = some g →
    (∀ d : Nat, (lists comps g.newStorageStart)[d]? = some e → d < g.len) ∨
    (∀ s, g.storageStart ≤ s → s < g.storageEnd → ∀ d : Nat, (lists comps s)[d]? = some e → g.len ≤ d)
  nested : ∀ (i j : Nat) (gi gj : Group), m.getLsbD i = true → m.getLsbD j = true → i < j → gs[i]? = some gi →
    gs[j]? = some gj → gi.storageStart = gj.storageStart → gj.len ≤ gi.len
  parents : ∀ (j p : Nat) (gj gp : Group), m.getLsbD j = true → p < j → gs[j]? = some gj → gs[p]? = some gp →
    gp.storageStart = gj.storageStart → m.getLsbD p = true ∨ Complete (lists comps) gp e

theorem groupLoop_trail {A : Entity → Prop} (hA : IdxUniq A) {e : Entity} (hAe : A e) {R : Nat → Prop} :
    ∀ (fuel : Nat) (m : BitVec 64) (comps : List (CompSet V)) (gs : List Group), maskCard m ≤ fuel →
    Trails (fun a b : Nat => a < b) A e comps → GStat gs comps.length → ToGroup e m comps gs →
    RangesIn R gs →
    ∃ comps' gs', groupLoop e fuel m (comps, gs) = .ok (comps', gs') ∧
      Trails (fun a b : Nat => a < b) A e comps' ∧ SameEnts comps comps' ∧ SameStat gs gs' ∧
      (Damaged R comps ∨ ¬ EvenPairs (groupLoopPairs e fuel m (comps, gs)) → Damaged R comps') := by
  intro fuel
  induction fuel with
  | zero =>
    intro m comps gs hf hok hst ht hR
    have hm : m = 0#64 := maskCard_zero hf
    subst hm
    refine ⟨comps, gs, ?_, hok, .refl _, .refl _, ?_⟩
    · unfold groupLoop
      rw [bitNext_none.2 rfl]
    · rintro (h | h)
      · exact h
      · refine absurd ?_ h
        unfold groupLoopPairs
        rw [bitNext_none.2 rfl]
        simp [EvenPairs]
  | succ fuel ih =>
    intro m comps gs hf hok hst ht hR
    cases hb : bitNext m with
    | none =>
      refine ⟨comps, gs, ?_, hok, .refl _, .refl _, ?_⟩
      · unfold groupLoop
        rw [hb]
      · rintro (h | h)
        · exact h
        · refine absurd ?_ h
          unfold groupLoopPairs
          rw [hb]
          simp [EvenPairs]
    | some r =>
      obtain ⟨j, m'⟩ := r
      obtain ⟨hj64, hjm, hlow, hm'⟩ := bitNext_some hb
      have hcard := maskCard_clear hj64 hjm hm'
      have hjl := ht.bound j hjm
      have hg := List.getElem?_eq_getElem hjl
      generalize hgd : gs[j] = g at hg
      have hbd := hst.bounds j g hg
      have hm'sub : ∀ k, m'.getLsbD k = true → m.getLsbD k = true ∧ j < k := by
        intro k hk
        rw [hm', Bool.and_eq_true] at hk
        refine ⟨hk.1, ?_⟩
        have hne : k ≠ j := by simpa using hk.2
        by_contra hc
        have := hlow k (by omega)
        rw [hk.1] at this
        cases this
      have hm'mem : ∀ k, m.getLsbD k = true → k ≠ j → m'.getLsbD k = true := by
        intro k hk hne
        rw [hm', hk]
        simp [hne]
      have hpar : ∀ (p : Nat) (gp : Group), p < j → gs[p]? = some gp → gp.storageStart = g.storageStart →
          Complete (lists comps) gp e := by
        intro p gp hpj hgp hfam
        rcases ht.parents j p g gp hjm hpj hg hgp hfam with h | h
        · rw [hlow p hpj] at h; cases h
        · exact h
      have hcomp : (∀ s, g.newStorageStart ≤ s → s < g.storageEnd → e ∈ lists comps s) →
          Complete (lists comps) g e := by
        intro hnew s h1 h2
        by_cases h3 : g.newStorageStart ≤ s
        · exact hnew s h3 h2
        · rcases hst.chain j g hg with hc | ⟨i, gi, hij, hgi, h4, h5⟩
          · omega
          · exact hpar i gi (by omega) hgi h4 s (by omega) (by omega)
      have heq : groupLoop e (fuel + 1) m (comps, gs) =
          (match getGroupStatus ((comps.drop g.newStorageStart).take (g.storageEnd - g.newStorageStart)) g.len e with
            | .ok .incomplete => groupLoop e fuel (m' &&& g.skipMask) (comps, gs)
            | .ok .ungrouped => (groupComponents comps g e).bind fun r => groupLoop e fuel m' (r.1, gs.set j r.2)
            | .ok .grouped => groupLoop e fuel m' (comps, gs)
            | .panic => .panic
            | .ub => .ub) := by
        rw [groupLoop]
        simp only [hb, hg, Res.unchecked_some, Res.bind_ok, compRange_ok (Nat.le_of_lt hbd.2.1) hbd.2.2]
        cases getGroupStatus ((comps.drop g.newStorageStart).take (g.storageEnd - g.newStorageStart)) g.len e with
        | ok st => cases st <;> rfl
        | panic => rfl
        | ub => rfl
      rw [heq, groupLoopPairs]
      simp only [hb, hg, compRange_ok (Nat.le_of_lt hbd.2.1) hbd.2.2]
      rcases getGroupStatus_trail hA hAe hok hbd.2.1 hbd.2.2 g.len with hs1 | ⟨d, hd, hall, hs1⟩
      · -- incomplete
        simp only [hs1]
        have hsk : ∀ k, (m' &&& g.skipMask).getLsbD k = true → m.getLsbD k = true ∧ j < k ∧
            ∀ gk, gs[k]? = some gk → gk.storageStart ≠ g.storageStart := by
          intro k hk
          rw [BitVec.getLsbD_and, Bool.and_eq_true] at hk
          obtain ⟨h1, h2⟩ := hm'sub k hk.1
          refine ⟨h1, h2, fun gk hgk hfam => ?_⟩
          have h4 := (hst.skip j k g gk hg hgk).2 ⟨by omega, hfam⟩
          rw [h4] at hk
          exact absurd hk.2 (by simp)
        refine ih (m' &&& g.skipMask) comps gs (Nat.le_trans (maskCard_and_le _ _) (by omega)) hok hst ?_ hR
        refine ⟨fun k hk => ht.bound k (hsk k hk).1, fun k gk hk => ht.place k gk (hsk k hk).1,
          fun i k gi gk hi hk => ht.nested i k gi gk (hsk i hi).1 (hsk k hk).1, ?_⟩
        intro k p gk gp hk hpk hgk hgp hfam
        obtain ⟨h1, h2, h3⟩ := hsk k hk
        rcases ht.parents k p gk gp h1 hpk hgk hgp hfam with h4 | h4
        · by_cases hpj : p = j
          · subst hpj
            rw [hg] at hgp
            cases hgp
            exact absurd hfam.symm (h3 gk hgk)
          · left
            rw [BitVec.getLsbD_and, hm'mem p h4 hpj]
            simp only [Bool.true_and]
            by_contra hc
            have := (hst.skip j p g gp hg hgp).1 (by simpa using hc)
            exact h3 gk hgk (by rw [← hfam, this.2])
        · exact .inr h4
      · have hc := hcomp hall
        by_cases hdl : d < g.len
        · -- grouped
          simp only [hs1, if_pos hdl]
          refine ih m' comps gs (by omega) hok hst ?_ hR
          refine ⟨fun k hk => ht.bound k (hm'sub k hk).1, fun k gk hk => ht.place k gk (hm'sub k hk).1,
            fun i k gi gk hi hk => ht.nested i k gi gk (hm'sub i hi).1 (hm'sub k hk).1, ?_⟩
          intro k p gk gp hk hpk hgk hgp hfam
          by_cases hpj : p = j
          · subst hpj
            rw [hg] at hgp
            cases hgp
            exact .inr hc
          · exact (ht.parents k p gk gp (hm'sub k hk).1 hpk hgk hgp hfam).imp (fun h => hm'mem p h hpj) id
        · -- ungrouped
          simp only [hs1, if_neg hdl]
          have hpl := (ht.place j g hjm hg).resolve_left (fun h => hdl (h d hd))
          obtain ⟨comps1, h1, h2, h3, h4, h5⟩ := swapRange_trail heading_lt (R := R) hok (a := g.storageStart)
            (b := g.storageEnd) (q := g.len) (fun s => hR j g s hg) (by omega) hbd.2.2 (by
              intro s h1 h2
              obtain ⟨p, hpe⟩ := List.mem_iff_getElem?.1 (hc s h1 h2)
              have h3 := hpl s h1 h2 p hpe
              have h4 := (List.getElem?_eq_some_iff.1 hpe).1
              exact ⟨p, hpe, by omega, by omega⟩)
          have hgc : groupComponents comps g e = .ok (comps1, { g with len := g.len + 1 }) := by
            unfold groupComponents
            unfold Entity.sparse
            rw [h1]
            rfl
          rw [hgc]
          simp only [Res.bind]
          have hss := SameStat.set hg (g.len + 1)
          have hgj : (gs.set j { g with len := g.len + 1 })[j]? = some { g with len := g.len + 1 } := by
            rw [Rep.set_index_get _ _ _ _ hjl, if_pos rfl]
          have hgk : ∀ k, k ≠ j → (gs.set j { g with len := g.len + 1 })[k]? = gs[k]? := by
            intro k hk
            rw [Rep.set_index_get _ _ _ _ hjl, if_neg hk]
          obtain ⟨comps', gs', h8, h9, h10, h11, h12⟩ := ih m' comps1 (gs.set j { g with len := g.len + 1 }) (by omega) h2
            (by rw [h3.length]; exact hst.of_same hss) (by
              refine ⟨fun k hk => by rw [List.length_set]; exact ht.bound k (hm'sub k hk).1, ?_, ?_, ?_⟩
              · intro k gk hk hgk'
                obtain ⟨k1, k2⟩ := hm'sub k hk
                rw [hgk k (by omega)] at hgk'
                by_cases hfam : g.storageStart = gk.storageStart
                · have k3 := hst.nest j k g gk k2 hg hgk' hfam
                  have k4 := ht.nested j k g gk hjm k1 k2 hg hgk' hfam
                  refine (ht.place k gk k1 hgk').imp (fun h d hd => ?_) (fun h s hs hs' d hd => ?_)
                  · rw [h4.2 _ (by omega)] at hd
                    exact h d hd
                  · by_cases hin : g.storageStart ≤ s ∧ s < g.storageEnd
                    · obtain ⟨p, k5, k6, k7⟩ := h4.1 s hin.1 hin.2
                      have k8 := k7 g.len
                      rw [if_pos rfl] at k8
                      have := nodup_pos (h2.nodup s) hd k8
                      omega
                    · rw [h4.2 s hin] at hd
                      exact h s hs hs' d hd
                · have k3 := hst.bounds k gk hgk'
                  have k4 : ∀ s, gk.storageStart ≤ s → s < gk.storageEnd → lists comps1 s = lists comps s := by
                    intro s hs hs'
                    refine h4.2 s fun hin => ?_
                    exact hst.disjoint hg hgk' hfam hin.1 hin.2 hs hs'
                  refine (ht.place k gk k1 hgk').imp (fun h d hd => ?_) (fun h s hs hs' d hd => ?_)
                  · rw [k4 _ k3.1 k3.2.1] at hd
                    exact h d hd
                  · rw [k4 s hs hs'] at hd
                    exact h s hs hs' d hd
              · intro i k gi gk hi hk hik hgi hgk' hfam
                obtain ⟨k1, k2⟩ := hm'sub i hi
                obtain ⟨k3, k4⟩ := hm'sub k hk
                rw [hgk _ (by omega)] at hgi hgk'
                exact ht.nested i k gi gk k1 k3 hik hgi hgk' hfam
              · intro k p gk gp hk hpk hgk' hgp hfam
                obtain ⟨k1, k2⟩ := hm'sub k hk
                rw [hgk _ (by omega)] at hgk'
                by_cases hpj : p = j
                · subst hpj
                  rw [hgj] at hgp
                  cases hgp
                  exact .inr (fun s hs hs' => (h3.mem s e).2 (hc s hs hs'))
                · rw [hgk _ hpj] at hgp
                  exact (ht.parents k p gk gp k1 hpk hgk' hgp hfam).imp (fun h => hm'mem p h hpj)
                    (fun h s hs hs' => (h3.mem s e).2 (h s hs hs'))) (hR.of_same hss)
          refine ⟨comps', gs', h8, h9, h3.trans h10, hss.trans h11, ?_⟩
          rintro (h | h)
          · exact h12 (.inl (h5 (.inl h)))
          · rcases not_even_append h with h | h
            · exact h12 (.inl (h5 (.inr h)))
            · exact h12 (.inr h)

/-! ### `ungroup` -/

/-- What the rest of the loop of `ungroup` needs of the groups still to be visited. -/
structure ToUngroup (e : Entity) (P : Nat → Prop) (comps : List (CompSet V)) (gs : List Group) : Prop where
  place : ∀ (j : Nat) (g : Group), P j → gs[j]? = some g →
    (∃ p < g.len, ∀ s, g.storageStart ≤ s → s < g.storageEnd → (lists comps s)[p]? = some e) ∨
    (∀ d : Nat, (lists comps g.newStorageStart)[d]? = some e → g.len ≤ d)
  nested : ∀ (i j : Nat) (gi gj : Group), P i → P j → i < j → gs[i]? = some gi →
    gs[j]? = some gj → gi.storageStart = gj.storageStart → gj.len ≤ gi.len
  length : ∀ (j : Nat) (g : Group), P j → gs[j]? = some g → ∀ s, g.storageStart ≤ s → s < g.storageEnd →
    g.len ≤ (lists comps s).length

theorem ToUngroup.mono {e : Entity} {P Q : Nat → Prop} {comps : List (CompSet V)} {gs : List Group}
    (h : ToUngroup e P comps gs) (hq : ∀ j, Q j → P j) : ToUngroup e Q comps gs :=
  ⟨fun j g hj => h.place j g (hq j hj), fun i j gi gj hi hj => h.nested i j gi gj (hq i hi) (hq j hj),
    fun j g hj => h.length j g (hq j hj)⟩

theorem ungroupStep_trail {A : Entity → Prop} (hA : IdxUniq A) {e : Entity} (hAe : A e) {P : Nat → Prop} {j : Nat}
    {R : Nat → Prop} {g : Group} {comps : List (CompSet V)} {gs : List Group}
    (hR : RangesIn R gs)
    (hok : Trails (fun a b : Nat => b < a) A e comps) (hst : GStat gs comps.length) (ht : ToUngroup e P comps gs)
    (hg : gs[j]? = some g) (hj : P j) (hmax : ∀ k, P k → k ≤ j) :
    ∃ comps' gs', ungroupStep e j (comps, gs) = .ok (comps', gs') ∧
      Trails (fun a b : Nat => b < a) A e comps' ∧ SameEnts comps comps' ∧ SameStat gs gs' ∧
      ToUngroup e (fun k => P k ∧ k ≠ j) comps' gs' ∧
      (Damaged R comps ∨ ¬ EvenPairs (ungroupStepPairs e j (comps, gs)) → Damaged R comps') := by
  have hbd := hst.bounds j g hg
  have hjl : j < gs.length := (List.getElem?_eq_some_iff.1 hg).1
  unfold ungroupStepPairs ungroupStep
  simp only [hg, compRange_ok (Nat.le_of_lt hbd.2.1) hbd.2.2, Res.unchecked_some, Res.bind_ok]
  have keep : ∀ l : List (Entity × Entity), l = [] → ∃ comps' gs', (Res.ok (comps, gs) : Res (Sets V)) = .ok (comps', gs') ∧
      Trails (fun a b : Nat => b < a) A e comps' ∧ SameEnts comps comps' ∧ SameStat gs gs' ∧
      ToUngroup e (fun k => P k ∧ k ≠ j) comps' gs' ∧ (Damaged R comps ∨ ¬ EvenPairs l → Damaged R comps') := by
    rintro l rfl
    refine ⟨comps, gs, rfl, hok, .refl _, .refl _, ht.mono fun _ h => h.1, ?_⟩
    rintro (h | h)
    · exact h
    · exact absurd (by simp [EvenPairs]) h
  rcases getGroupStatus_trail hA hAe hok hbd.2.1 hbd.2.2 g.len with hs1 | ⟨d, hd, hall, hs1⟩
  · simp only [hs1, Res.bind_ok, Res.pure_eq]
    exact keep _ rfl
  · by_cases hdl : d < g.len
    · simp only [hs1, if_pos hdl, Res.bind_ok, Res.pure_eq]
      obtain ⟨p, hp, hpe⟩ := (ht.place j g hj hg).resolve_right (fun h => by have := h d hd; omega)
      obtain ⟨comps1, h1, h2, h3, h4, h5⟩ := swapRange_trail heading_gt (R := R) hok (a := g.storageStart)
        (b := g.storageEnd) (q := g.len - 1) (fun s => hR j g s hg) (by omega) hbd.2.2 (by
          intro s h1 h2
          have := ht.length j g hj hg s h1 h2
          exact ⟨p, hpe s h1 h2, by omega, by omega⟩)
      have hgc : ungroupComponents comps g e = .ok (comps1, { g with len := g.len - 1 }) := by
        unfold ungroupComponents
        rw [if_neg (by omega)]
        unfold Entity.sparse
        rw [h1]
        rfl
      rw [hgc]
      have hgk : ∀ k, k ≠ j → (gs.set j { g with len := g.len - 1 })[k]? = gs[k]? := by
        intro k hk
        rw [Rep.set_index_get _ _ _ _ hjl, if_neg hk]
      refine ⟨comps1, gs.set j { g with len := g.len - 1 }, rfl, h2, h3, SameStat.set hg _, ⟨?_, ?_, ?_⟩, h5⟩
      · rintro k gk ⟨hk, hkj⟩ hgk'
        rw [hgk k hkj] at hgk'
        have hlt : k < j := by have := hmax k hk; omega
        have hbk := hst.bounds k gk hgk'
        by_cases hfam : gk.storageStart = g.storageStart
        · left
          have k1 := ht.nested k j gk g hk hj hlt hgk' hg hfam
          have k2 := hst.nest k j gk g hlt hgk' hg hfam
          refine ⟨g.len - 1, by omega, fun s hs hs' => ?_⟩
          obtain ⟨p', k5, k6, k7⟩ := h4.1 s (by omega) (by omega)
          rw [k7, if_pos rfl]
        · have k4 : ∀ s, gk.storageStart ≤ s → s < gk.storageEnd → lists comps1 s = lists comps s := by
            intro s hs hs'
            refine h4.2 s fun hin => ?_
            exact hst.disjoint hgk' hg hfam hs hs' hin.1 hin.2
          refine (ht.place k gk hk hgk').imp ?_ (fun h d hd => ?_)
          · rintro ⟨p', k5, k6⟩
            exact ⟨p', k5, fun s hs hs' => by rw [k4 s hs hs']; exact k6 s hs hs'⟩
          · rw [k4 _ hbk.1 hbk.2.1] at hd
            exact h d hd
      · rintro i k gi gk ⟨hi, hij⟩ ⟨hk, hkj⟩ hik hgi hgk' hfam
        rw [hgk _ hij] at hgi
        rw [hgk _ hkj] at hgk'
        exact ht.nested i k gi gk hi hk hik hgi hgk' hfam
      · rintro k gk ⟨hk, hkj⟩ hgk' s hs hs'
        rw [hgk _ hkj] at hgk'
        rw [h3.lens]
        exact ht.length k gk hk hgk' s hs hs'
    · simp only [hs1, if_neg hdl, Res.bind_ok, Res.pure_eq]
      exact keep _ rfl

theorem ungroupLoop_trail {A : Entity → Prop} (hA : IdxUniq A) {e : Entity} (hAe : A e) {R : Nat → Prop} :
    ∀ (fuel : Nat) (m : BitVec 64) (comps : List (CompSet V)) (gs : List Group), maskCard m ≤ fuel →
    Trails (fun a b : Nat => b < a) A e comps → GStat gs comps.length →
    RangesIn R gs →
    (∀ j, m.getLsbD j = true → j < gs.length) → ToUngroup e (fun j => m.getLsbD j = true) comps gs →
    ∃ comps' gs', ungroupLoop e fuel m (comps, gs) = .ok (comps', gs') ∧
      Trails (fun a b : Nat => b < a) A e comps' ∧ SameEnts comps comps' ∧ SameStat gs gs' ∧
      (Damaged R comps ∨ ¬ EvenPairs (ungroupLoopPairs e fuel m (comps, gs)) → Damaged R comps') := by
  intro fuel
  induction fuel with
  | zero =>
    intro m comps gs hf hok hst hR hml ht
    have hm : m = 0#64 := maskCard_zero hf
    subst hm
    refine ⟨comps, gs, ?_, hok, .refl _, .refl _, ?_⟩
    · unfold ungroupLoop
      rw [bitNextBack_none.2 rfl]
    · rintro (h | h)
      · exact h
      · refine absurd ?_ h
        unfold ungroupLoopPairs
        rw [bitNextBack_none.2 rfl]
        simp [EvenPairs]
  | succ fuel ih =>
    intro m comps gs hf hok hst hR hml ht
    cases hb : bitNextBack m with
    | none =>
      refine ⟨comps, gs, ?_, hok, .refl _, .refl _, ?_⟩
      · unfold ungroupLoop
        rw [hb]
      · rintro (h | h)
        · exact h
        · refine absurd ?_ h
          unfold ungroupLoopPairs
          rw [hb]
          simp [EvenPairs]
    | some r =>
      obtain ⟨j, m'⟩ := r
      obtain ⟨hj64, hjm, hhigh, hm'⟩ := bitNextBack_some hb
      have hcard := maskCard_clear hj64 hjm hm'
      have hjl := hml j hjm
      have hg := List.getElem?_eq_getElem hjl
      have hm'sub : ∀ k, m'.getLsbD k = true → m.getLsbD k = true ∧ k ≠ j := by
        intro k hk
        rw [hm', Bool.and_eq_true] at hk
        exact ⟨hk.1, by simpa using hk.2⟩
      obtain ⟨comps1, gs1, h1, h2, h3, h4, h5, h6⟩ := ungroupStep_trail hA hAe hR hok hst ht hg hjm (by
        intro k hk
        by_contra hc
        have := hhigh k (by omega)
        rw [hk] at this
        cases this)
      obtain ⟨comps', gs', h7, h8, h9, h10, h11⟩ := ih m' comps1 gs1 (by omega) h2
        (by rw [h3.length]; exact hst.of_same h4) (hR.of_same h4)
        (fun k hk => by rw [h4.length]; exact hml k (hm'sub k hk).1) (h5.mono fun k hk => hm'sub k hk)
      refine ⟨comps', gs', ?_, h8, h3.trans h9, h4.trans h10, ?_⟩
      · unfold ungroupLoop
        simp only [hb, h1, Res.bind_ok]
        exact h7
      · unfold ungroupLoopPairs
        simp only [hb, h1]
        rintro (h | h)
        · exact h11 (.inl (h6 (.inl h)))
        · rcases not_even_append h with h | h
          · exact h11 (.inl (h6 (.inr h)))
          · exact h11 (.inr h)

theorem ungroupAllLoop_trail {A : Entity → Prop} (hA : IdxUniq A) {e : Entity} (hAe : A e) {R : Nat → Prop} :
    ∀ (n : Nat) (comps : List (CompSet V)) (gs : List Group), n ≤ gs.length →
    Trails (fun a b : Nat => b < a) A e comps → GStat gs comps.length →
    RangesIn R gs → ToUngroup e (· < n) comps gs →
    ∃ comps' gs', ungroupAllLoop e n (comps, gs) = .ok (comps', gs') ∧
      Trails (fun a b : Nat => b < a) A e comps' ∧ SameEnts comps comps' ∧ SameStat gs gs' ∧
      (Damaged R comps ∨ ¬ EvenPairs (ungroupAllLoopPairs e n (comps, gs)) → Damaged R comps') := by
  intro n
  induction n with
  | zero =>
    intro comps gs hn hok hst hR ht
    refine ⟨comps, gs, rfl, hok, .refl _, .refl _, ?_⟩
    rintro (h | h)
    · exact h
    · exact absurd (by simp [EvenPairs, ungroupAllLoopPairs]) h
  | succ n ih =>
    intro comps gs hn hok hst hR ht
    have hg := List.getElem?_eq_getElem (show n < gs.length by omega)
    obtain ⟨comps1, gs1, h1, h2, h3, h4, h5, h6⟩ := ungroupStep_trail hA hAe hR hok hst ht hg (Nat.lt_succ_self n)
      (fun k hk => Nat.lt_succ_iff.1 hk)
    obtain ⟨comps', gs', h7, h8, h9, h10, h11⟩ := ih comps1 gs1 (by rw [h4.length]; omega) h2
      (by rw [h3.length]; exact hst.of_same h4) (hR.of_same h4) (h5.mono fun k (hk : k < n) => ⟨by omega, by omega⟩)
    refine ⟨comps', gs', ?_, h8, h3.trans h9, h4.trans h10, ?_⟩
    · unfold ungroupAllLoop
      rw [h1]
      exact h7
    · unfold ungroupAllLoopPairs
      simp only [h1]
      rintro (h | h)
      · exact h11 (.inl (h6 (.inl h)))
      · rcases not_even_append h with h | h
        · exact h11 (.inl (h6 (.inr h)))
        · exact h11 (.inr h)

end Sparsey
