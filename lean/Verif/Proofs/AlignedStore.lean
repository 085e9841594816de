import Verif.Proofs.Aligned

/-!
The calls on the component storage keep the grouped parts aligned by index, versions forgotten (C31).
-/

set_option autoImplicit false
set_option linter.unusedSimpArgs false

namespace Sparsey
variable {V : Type}

/-- The grouped parts of the sets are aligned by index. -/
structure Aligned (c : ComponentStorage V) : Prop where
  stat : StoreStat c
  idx : AllSets CompSet.IdxOk c.components
  packed : Packed (ilists c.components) c.groups

theorem ilists_some {comps : List (CompSet V)} {i : Nat} {s : CompSet V} (h : comps[i]? = some s) :
    ilists comps i = s.entities.map Entity.erase := by
  unfold ilists
  rw [lists_some (c := s.blank) (by rw [List.getElem?_map, h]; rfl)]
  rfl

theorem Aligned.gstat' {c : ComponentStorage V} (h : Aligned c) :
    GStat c.groups (c.components.map CompSet.blank).length := by
  rw [List.length_map]
  exact h.stat.gstat

theorem Aligned.len_le {c : ComponentStorage V} (h : Aligned c) {i : Nat} {s : CompSet V} (hi : c.components[i]? = some s)
    {k : Nat} {g : Group} (hg : c.groups[k]? = some g) (hr : InRange g i) : g.len ≤ s.entities.length := by
  have := h.packed.len_le (blank_setsOK h.idx) h.gstat' hg hr.1 hr.2
  rw [show lists (c.components.map CompSet.blank) i = s.entities.map Entity.erase from ilists_some hi, List.length_map] at this
  exact this

/-- Sets can be exchanged for others with the same grouped parts. -/
theorem Aligned.refit {c : ComponentStorage V} (h : Aligned c) {comps' : List (CompSet V)}
    (hlen : comps'.length = c.components.length) (hidx : AllSets CompSet.IdxOk comps')
    (hpre : ∀ (k : Nat) (g : Group), c.groups[k]? = some g → ∀ i, InRange g i → ∀ p < g.len,
      (ilists comps' i)[p]? = (ilists c.components i)[p]?) :
    Aligned { c with components := comps' } ∧
      ∀ (k : Nat) (g : Group), c.groups[k]? = some g → ∀ x,
        InPrefix (ilists comps') g x ↔ InPrefix (ilists c.components) g x := by
  refine ⟨⟨⟨?_, ?_⟩, hidx, ?_, h.packed.nested⟩, ?_⟩
  · show GStat c.groups comps'.length
    rw [hlen]
    exact h.stat.gstat
  · show MetaOK c.groups c.metadata comps'.length
    rw [hlen]
    exact h.stat.mds
  · intro j g hg i hi
    obtain ⟨e, he⟩ := h.packed.aligned j g hg i hi
    exact ⟨e, fun s h1 h2 => by rw [hpre j g hg s ⟨h1, h2⟩ i hi]; exact he s h1 h2⟩
  · intro k g hg x
    have hb := h.stat.gstat.bounds k g hg
    unfold InPrefix
    constructor
    · rintro ⟨p, hp, hx⟩
      exact ⟨p, hp, by rw [← hpre k g hg _ ⟨Nat.le_refl _, by omega⟩ p hp]; exact hx⟩
    · rintro ⟨p, hp, hx⟩
      exact ⟨p, hp, by rw [hpre k g hg _ ⟨Nat.le_refl _, by omega⟩ p hp]; exact hx⟩

theorem Aligned.refitOne {c : ComponentStorage V} (h : Aligned c) {i : Nat} {s s' : CompSet V}
    (hi : c.components[i]? = some s) (hs' : s'.IdxOk)
    (hpre : ∀ (k : Nat) (g : Group), c.groups[k]? = some g → InRange g i → ∀ p < g.len,
      (s'.entities.map Entity.erase)[p]? = (s.entities.map Entity.erase)[p]?) :
    Aligned { c with components := c.components.set i s' } ∧
      ∀ (k : Nat) (g : Group), c.groups[k]? = some g → ∀ x,
        InPrefix (ilists (c.components.set i s')) g x ↔ InPrefix (ilists c.components) g x := by
  have hil := (List.getElem?_eq_some_iff.1 hi).1
  refine h.refit (List.length_set ..) (h.idx.set hs' i) ?_
  intro k g hg j hj p hp
  by_cases hij : j = i
  · subst hij
    rw [ilists_some (s := s') (by rw [List.getElem?_set_self hil]), ilists_some hi]
    exact hpre k g hg hj p hp
  · unfold ilists lists
    rw [List.getElem?_map, List.getElem?_map, List.getElem?_set_ne (fun h => hij h.symm)]

theorem insert_prefix {s s' : CompSet V} {e : Entity} {v : V} {o : Option V} (h : s.IdxOk)
    (hr : s.insert e v = .ok (o, s')) {p : Nat} (hp : p < s.entities.length) :
    (s'.entities.map Entity.erase)[p]? = (s.entities.map Entity.erase)[p]? := by
  unfold CompSet.insert at hr
  obtain ⟨slot, hs, hr⟩ := Res.bind_ok' hr
  have hs := Res.unchecked_ok hs
  cases slot with
  | some sl =>
    obtain ⟨x, hx, hr⟩ := Res.bind_ok' hr
    obtain ⟨y, hy, hr⟩ := Res.bind_ok' hr
    cases hr
    obtain ⟨x', hx', hi⟩ := h.rep.slot ((SparseVec.allocateAt_some _ _ _ _).1 hs)
    simp only [List.getElem?_map]
    by_cases hq : sl.index = p
    · subst hq
      rw [List.getElem?_set_self hp, hx']
      simp only [Option.map_some, Option.some.injEq]
      unfold Entity.erase
      rw [hi]
      rfl
    · rw [List.getElem?_set_ne hq]
  | none =>
    obtain ⟨sp, _, hr⟩ := Res.bind_ok' hr
    cases hr
    simp only [List.getElem?_map]
    rw [List.getElem?_append_left hp]

theorem remove_prefix {s s' : CompSet V} {e : Entity} {o : Option V} (h : s.IdxOk) (hr : s.remove e = .ok (o, s')) {n : Nat}
    (hd : ∀ (d : Nat) (x : Entity), s.entities[d]? = some x → x.index = e.index → n ≤ d) {p : Nat} (hp : p < n) :
    (s'.entities.map Entity.erase)[p]? = (s.entities.map Entity.erase)[p]? := by
  unfold CompSet.remove at hr
  rcases h.rep.remove_cases e with h1 | ⟨d, x, h1, h2, h3⟩
  · rw [h1] at hr
    cases hr
    rfl
  · rw [h1] at hr
    simp only at hr
    obtain ⟨last, _, hr⟩ := Res.bind_ok' hr
    obtain ⟨_, _, hr⟩ := Res.bind_ok' hr
    have hs' : s'.entities = (s.entities.set d last).take (s.entities.length - 1) := by
      split at hr
      all_goals
        obtain ⟨_, _, hr⟩ := Res.bind_ok' hr
        obtain ⟨_, _, hr⟩ := Res.bind_ok' hr
        obtain ⟨_, _, hr⟩ := Res.bind_ok' hr
        cases hr
        rfl
    rw [hs']
    have h4 := hd d x h2 h3
    have h5 := (List.getElem?_eq_some_iff.1 h2).1
    simp only [List.getElem?_map]
    rw [List.getElem?_take_of_lt (by omega), List.getElem?_set_ne (by omega)]

/-! ### Putting components -/

theorem Aligned.insertOne {c : ComponentStorage V} (h : Aligned c) {i : Nat} {s s' : CompSet V} {e : Entity} {v : V}
    {o : Option V} (he : e.index < u32Size) (hi : c.components[i]? = some s) (hr : s.insert e v = .ok (o, s')) :
    Aligned { c with components := c.components.set i s' } := by
  have hs := h.idx s (List.mem_of_getElem? hi)
  exact (h.refitOne hi (stable_idx.insert hs he hr) fun k g hg hin p hp =>
    insert_prefix hs hr (Nat.lt_of_lt_of_le hp (h.len_le hi hg hin))).1

theorem Aligned.set_at {c : ComponentStorage V} (h : Aligned c) {t : TypeId} {m : ComponentMetadata} (hm : c.meta? t = some m) :
    ∃ s, c.components[m.storageIndex]? = some s := ⟨_, List.getElem?_eq_getElem (h.stat.mds.idx t m hm)⟩

theorem Aligned.insertEach {e : Entity} (he : e.index < u32Size) : ∀ (vs : List (TypeId × V)) (mask : BitVec 64)
    (c : ComponentStorage V), Aligned c → FamClosed c.groups mask →
    ComponentStorage.insertEach e vs mask c ≠ .ub ∧
      (∀ mask' c', ComponentStorage.insertEach e vs mask c = .ok mask' c' → Aligned c' ∧ FamClosed c'.groups mask') ∧
      ∀ c', ComponentStorage.insertEach e vs mask c = .panic c' → Aligned c'
  | [], mask, c, h, hm => by
    refine ⟨by simp [ComponentStorage.insertEach], fun mask' c' hr => ?_, fun c' hr => ?_⟩
    · cases hr
      exact ⟨h, hm⟩
    · cases hr
  | (t, v) :: vs, mask, c, h, hm => by
    rw [ComponentStorage.insertEach]
    cases ht : c.meta? t with
    | none =>
      refine ⟨by simp, fun mask' c' hr => ?_, fun c' hr => ?_⟩
      · cases hr
      · cases hr
        exact h
    | some m =>
      obtain ⟨s, hs⟩ := h.set_at ht
      obtain ⟨o, s', h1, _⟩ := (h.idx s (List.mem_of_getElem? hs)).insert e v he
      simp only [hs, Res.unchecked_some, Outcome.ofRes_ok, h1]
      exact Aligned.insertEach he vs _ _ (h.insertOne he hs h1) (hm.or (h.stat.mds.insertClosed ht))

theorem Aligned.regroup {c : ComponentStorage V} (h : Aligned c) {comps' : List (CompSet V)} {gs' : List Group}
    (h1 : AllSets CompSet.IdxOk comps') (h2 : comps'.length = c.components.length) (h3 : SameStat c.groups gs')
    (h4 : Packed (ilists comps') gs') : Aligned { c with components := comps', groups := gs' } := by
  refine ⟨⟨?_, ?_⟩, h1, h4⟩
  · show GStat gs' comps'.length
    rw [h2]
    exact h.stat.gstat.of_same h3
  · show MetaOK gs' c.metadata comps'.length
    rw [h2]
    exact h.stat.mds.of_same h3

theorem Aligned.groupEntities {c : ComponentStorage V} (h : Aligned c) {mask : BitVec 64} (hm : FamClosed c.groups mask)
    (es : List Entity) : ∃ comps' gs', ComponentStorage.groupEntities mask es (c.components, c.groups) = .ok (comps', gs') ∧
      Aligned { c with components := comps', groups := gs' } := by
  obtain ⟨comps', gs', h1, h2, h3, h4, h5⟩ := groupEntities_aligned es c.components c.groups h.idx h.stat.gstat h.packed hm
  exact ⟨comps', gs', h1, h.regroup h2 h3 h4 h5⟩

theorem Aligned.withMask {c : ComponentStorage V} (h : Aligned c) {mask : BitVec 64} {f : Sets V → Res (Sets V)}
    (hf : ∃ comps' gs', f (c.components, c.groups) = .ok (comps', gs') ∧ Aligned { c with components := comps', groups := gs' }) :
    ∃ c', c.withMask mask f = .ok c' ∧ Aligned c' := by
  unfold ComponentStorage.withMask
  by_cases hz : mask = 0#64
  · rw [if_pos hz]
    exact ⟨c, rfl, h⟩
  · rw [if_neg hz]
    obtain ⟨comps', gs', h1, h2⟩ := hf
    exact ⟨_, by rw [h1]; rfl, h2⟩

/-- `insert` of the component storage. -/
theorem Aligned.insert {c : ComponentStorage V} (h : Aligned c) {e : Entity} (he : e.index < u32Size)
    (vs : List (TypeId × V)) :
    c.insert e vs ≠ .ub ∧ (∀ u c', c.insert e vs = .ok u c' → Aligned c') ∧ ∀ c', c.insert e vs = .panic c' → Aligned c' := by
  unfold ComponentStorage.insert
  obtain ⟨h1, h2, h3⟩ := Aligned.insertEach he vs 0#64 c h (.zero _)
  cases hr : ComponentStorage.insertEach e vs 0#64 c with
  | ub => exact absurd hr h1
  | panic c1 =>
    refine ⟨by simp [Outcome.bind], fun u c' hc => ?_, fun c' hc => ?_⟩
    · cases hc
    · cases hc
      exact h3 c1 hr
  | ok mask c1 =>
    obtain ⟨h4, h5⟩ := h2 mask c1 hr
    obtain ⟨c2, h6, h7⟩ := h4.withMask (mask := mask) (f := (group · mask e)) (by
      obtain ⟨comps', gs', g1, g2⟩ := h4.groupEntities h5 [e]
      refine ⟨comps', gs', ?_, g2⟩
      unfold ComponentStorage.groupEntities at g1
      obtain ⟨s, g3, g4⟩ := Res.bind_ok' g1
      cases g4
      exact g3)
    simp only [Outcome.bind, h6, Outcome.ofRes_ok]
    refine ⟨by simp, fun u c' hc => ?_, fun c' hc => ?_⟩
    · cases hc
      exact h7
    · cases hc

theorem Aligned.insertAt {e : Entity} (he : e.index < u32Size) : ∀ (l : List (Nat × V)) (c : ComponentStorage V), Aligned c →
    (∀ p ∈ l, p.1 < c.components.length) → ∃ c', ComponentStorage.insertAt e l c = .ok c' ∧ Aligned c' ∧
      c'.groups = c.groups ∧ c'.metadata = c.metadata ∧ c'.components.length = c.components.length
  | [], c, h, _ => ⟨c, rfl, h, rfl, rfl, rfl⟩
  | (i, v) :: l, c, h, hi => by
    have hlt : i < c.components.length := hi (i, v) (.head _)
    have hs := List.getElem?_eq_getElem hlt
    obtain ⟨o, s', h1, h2⟩ := (h.idx _ (List.getElem_mem hlt)).insert e v he
    obtain ⟨c', h3, h4, h5, h6, h7⟩ := Aligned.insertAt he l _ (h.insertOne he hs h1)
      (fun p hp => by simpa using hi p (List.mem_cons_of_mem _ hp))
    refine ⟨c', ?_, h4, h5, h6, by simpa using h7⟩
    simp [ComponentStorage.insertAt, hs, h1, h3]

/-! ### Taking components -/

/-- `e` is in no grouped part of the sets at the positions `is`. -/
def FreeAt (e : Entity) (is : List Nat) (c : ComponentStorage V) : Prop :=
  ∀ i ∈ is, ∀ (k : Nat) (g : Group), c.groups[k]? = some g → InRange g i → ¬ InPrefix (ilists c.components) g e.erase

theorem Aligned.pos_ge {c : ComponentStorage V} (h : Aligned c) {i : Nat} {s : CompSet V} (hi : c.components[i]? = some s)
    {k : Nat} {g : Group} (hg : c.groups[k]? = some g) (hr : InRange g i) {e : Entity}
    (hn : ¬ InPrefix (ilists c.components) g e.erase) (d : Nat) (x : Entity) (hx : s.entities[d]? = some x)
    (hxe : x.index = e.index) : g.len ≤ d := by
  refine pos_ge_len (blank_setsOK h.idx) h.gstat' h.packed hg hn hr.1 hr.2 (d := d) ?_
  rw [show lists (c.components.map CompSet.blank) i = s.entities.map Entity.erase from ilists_some hi, List.getElem?_map, hx]
  unfold Entity.erase
  simp [hxe]

theorem Aligned.removeOne {c : ComponentStorage V} (h : Aligned c) {i : Nat} {s s' : CompSet V} {e : Entity} {o : Option V}
    (hi : c.components[i]? = some s) (hr : s.remove e = .ok (o, s'))
    (hn : ∀ (k : Nat) (g : Group), c.groups[k]? = some g → InRange g i → ¬ InPrefix (ilists c.components) g e.erase) :
    Aligned { c with components := c.components.set i s' } ∧
      ∀ (k : Nat) (g : Group), c.groups[k]? = some g → ∀ x,
        InPrefix (ilists (c.components.set i s')) g x ↔ InPrefix (ilists c.components) g x := by
  have hs := h.idx s (List.mem_of_getElem? hi)
  exact h.refitOne hi (stable_idx.remove hs hr) fun k g hg hin p hp =>
    remove_prefix hs hr (h.pos_ge hi hg hin (hn k g hg hin)) hp

theorem Aligned.removeEach {e : Entity} : ∀ (is : List Nat) (c : ComponentStorage V), Aligned c →
    (∀ i ∈ is, i < c.components.length) → FreeAt e is c →
    ∃ vs c', ComponentStorage.removeEach e is c = .ok (vs, c') ∧ ComponentStorage.deleteEach e is c = .ok c' ∧ Aligned c'
  | [], c, h, _, _ => ⟨[], c, rfl, rfl, h⟩
  | i :: is, c, h, hlt, hn => by
    have hil := hlt i (.head _)
    have hs := List.getElem?_eq_getElem hil
    obtain ⟨o, s', h1, h2, h3⟩ := (h.idx _ (List.getElem_mem hil)).remove e
    obtain ⟨h4, h5⟩ := h.removeOne hs h1 (hn i (.head _))
    obtain ⟨vs, c', h6, h7, h8⟩ := Aligned.removeEach is _ h4 (fun j hj => by simpa using hlt j (List.mem_cons_of_mem _ hj)) (by
      intro j hj k g hg hin hpre
      exact hn j (List.mem_cons_of_mem _ hj) k g hg hin ((h5 k g hg _).1 hpre))
    exact ⟨o :: vs, c', by simp [ComponentStorage.removeEach, hs, h1, h6],
      by simp [ComponentStorage.deleteEach, hs, h2, h7], h8⟩

theorem deleteAll_eachGet {e : Entity} : ∀ (l l' : List (CompSet V)), ComponentStorage.deleteAll e l = .ok l' →
    l'.length = l.length ∧ ∀ (i : Nat) (s s' : CompSet V), l[i]? = some s → l'[i]? = some s' → s.delete e = .ok s'
  | [], l', h => by
    cases h
    exact ⟨rfl, fun i s s' h => by simp at h⟩
  | a :: l, l', h => by
    obtain ⟨a', h1, h⟩ := Res.bind_ok' h
    obtain ⟨t', h2, h⟩ := Res.bind_ok' h
    cases h
    obtain ⟨h3, h4⟩ := deleteAll_eachGet l t' h2
    refine ⟨by simp [h3], fun i s s' hs hs' => ?_⟩
    cases i with
    | zero =>
      simp only [List.getElem?_cons_zero, Option.some.injEq] at hs hs'
      subst hs; subst hs'
      exact h1
    | succ i =>
      simp only [List.getElem?_cons_succ] at hs hs'
      exact h4 i s s' hs hs'

theorem Aligned.deleteAll {c : ComponentStorage V} (h : Aligned c) {e : Entity}
    (hn : ∀ (k : Nat) (g : Group), c.groups[k]? = some g → ¬ InPrefix (ilists c.components) g e.erase) :
    ∃ l, ComponentStorage.deleteAll e c.components = .ok l ∧ Aligned { c with components := l } := by
  obtain ⟨l, h1⟩ := Sound.deleteAll e h.idx
  obtain ⟨h2, h3⟩ := deleteAll_eachGet _ _ h1
  refine ⟨l, h1, (h.refit h2 (stable_idx.deleteAll h.idx h1) ?_).1⟩
  intro k g hg i hin p hp
  have hb := h.stat.gstat.bounds k g hg
  have hil : i < c.components.length := Nat.lt_of_lt_of_le hin.2 hb.2.2
  have hil' : i < l.length := by rw [h2]; exact hil
  have hs := List.getElem?_eq_getElem hil
  have hs' := List.getElem?_eq_getElem hil'
  rw [ilists_some hs, ilists_some hs']
  have hok := h.idx _ (List.getElem_mem hil)
  obtain ⟨o, s1, h4, h5, _⟩ := hok.remove e
  have h6 := h3 i _ _ hs hs'
  rw [h5] at h6
  cases h6
  exact remove_prefix hok h4 (h.pos_ge hs hg hin (hn k g hg)) hp

/-! ### Taking an entity out of the groups -/

/-- Positions that belong to a type. -/
def ComponentStorage.Typed (c : ComponentStorage V) (k : Nat) : Prop := ∃ t m, c.meta? t = some m ∧ m.storageIndex = k

theorem StoreStat.within {c : ComponentStorage V} (h : StoreStat c) : Within c.Typed c.groups := by
  intro j g hg k h1 h2
  have hb := h.gstat.bounds j g hg
  exact h.mds.cover j g k hg ⟨by omega, h2⟩

/-- No set of a type finds the entity. -/
def ComponentStorage.Misses (c : ComponentStorage V) (e : Entity) : Prop :=
  ∀ (k : Nat) (s : CompSet V), c.Typed k → c.components[k]? = some s → s.sparse.get e = none

theorem ungroupStep_skip {c : ComponentStorage V} (h : StoreStat c) {e : Entity}
    (hn : c.Misses e) {i : Nat} (hi : i < c.groups.length) :
    ungroupStep e i (c.components, c.groups) = .ok (c.components, c.groups) := by
  have hg := List.getElem?_eq_getElem hi
  generalize c.groups[i] = g at hg
  have hb := h.gstat.bounds i g hg
  unfold ungroupStep
  simp only [hg, Res.unchecked_some, Res.bind_ok, compRange_ok (Nat.le_of_lt hb.2.1) hb.2.2]
  cases hseg : (c.components.drop g.newStorageStart).take (g.storageEnd - g.newStorageStart) with
  | nil =>
    have := congrArg List.length hseg
    simp only [List.length_take, List.length_drop, List.length_nil] at this
    omega
  | cons a l =>
    obtain ⟨k, hk1, hk2, hk⟩ := mem_seg.1 (show a ∈ _ by rw [hseg]; exact List.mem_cons_self)
    unfold getGroupStatus
    simp only [hn k a (h.within i g hg k (.inr hk1) hk2) hk, Res.bind_ok]
    rfl

theorem ungroupLoop_skip {c : ComponentStorage V} (h : StoreStat c) {e : Entity}
    (hn : c.Misses e) : ∀ (fuel : Nat) (m : BitVec 64), maskCard m ≤ fuel →
    (∀ j, m.getLsbD j = true → j < c.groups.length) →
    ungroupLoop e fuel m (c.components, c.groups) = .ok (c.components, c.groups)
  | 0, m, hf, hm => by
    have hm : m = 0#64 := maskCard_zero hf
    subst hm
    unfold ungroupLoop
    rw [bitNextBack_none.2 rfl]
  | fuel + 1, m, hf, hm => by
    unfold ungroupLoop
    cases hb : bitNextBack m with
    | none => rfl
    | some r =>
      obtain ⟨j, m'⟩ := r
      obtain ⟨hj64, hjm, _, hm'⟩ := bitNextBack_some hb
      have hcard := maskCard_clear hj64 hjm hm'
      simp only
      rw [ungroupStep_skip h hn (hm j hjm)]
      simp only [Res.bind_ok]
      refine ungroupLoop_skip h hn fuel m' (by omega) fun k hk => hm k ?_
      rw [hm', Bool.and_eq_true] at hk
      exact hk.1

theorem ungroupAllLoop_skip {c : ComponentStorage V} (h : StoreStat c) {e : Entity}
    (hn : c.Misses e) : ∀ (n : Nat), n ≤ c.groups.length →
    ungroupAllLoop e n (c.components, c.groups) = .ok (c.components, c.groups)
  | 0, _ => rfl
  | n + 1, hl => by
    unfold ungroupAllLoop
    rw [ungroupStep_skip h hn (by omega)]
    exact ungroupAllLoop_skip h hn n (by omega)

theorem remove_skip {s : CompSet V} {e : Entity} (hn : s.sparse.get e = none) :
    s.remove e = .ok (none, s) ∧ s.delete e = .ok s := by
  have h1 : s.sparse.remove e = (none, s.sparse) := by
    unfold SparseVec.get at hn
    unfold SparseVec.remove
    rcases hs : s.sparse.slots[e.sparse]? with _ | _ | sl
    · rfl
    · rfl
    · rw [hs] at hn
      simp only
      by_cases hv : sl.version = e.version
      · simp [hv] at hn
      · simp [hv]
  unfold CompSet.remove CompSet.delete
  rw [h1]
  exact ⟨rfl, rfl⟩

theorem removeEach_skip {e : Entity} {c : ComponentStorage V} (hn : c.Misses e) :
    ∀ (is : List Nat), (∀ i ∈ is, i < c.components.length ∧ c.Typed i) →
    (∃ vs, ComponentStorage.removeEach e is c = .ok (vs, c)) ∧ ComponentStorage.deleteEach e is c = .ok c
  | [], _ => ⟨⟨[], rfl⟩, rfl⟩
  | i :: is, hlt => by
    obtain ⟨hil, hty⟩ := hlt i (.head _)
    have hs := List.getElem?_eq_getElem hil
    obtain ⟨h1, h2⟩ := remove_skip (hn i _ hty hs)
    obtain ⟨⟨vs, h3⟩, h4⟩ := removeEach_skip hn is fun j hj => hlt j (List.mem_cons_of_mem _ hj)
    have h5 : c.components.set i c.components[i] = c.components := List.set_getElem_self hil
    refine ⟨⟨none :: vs, ?_⟩, ?_⟩
    · simp only [ComponentStorage.removeEach, hs, Res.unchecked_some, Res.bind_ok, h1, h5, h3, Res.pure_eq]
    · simp only [ComponentStorage.deleteEach, hs, Res.unchecked_some, Res.bind_ok, h2, h5, h4]

theorem Packed.all {L : Nat → List Entity} {gs : List Group} (h : Packed L gs) : Packed L (gs.take gs.length) := by
  rw [List.take_length]
  exact h

/-- `ungroup` is always defined, and takes the entity out of the groups if no other version is stored for it then. -/
theorem Aligned.ungroup {c : ComponentStorage V} (h : Aligned c) {mask : BitVec 64} (hm : UpClosed c.groups mask) (e : Entity) :
    ∃ comps' gs', Sparsey.ungroup (c.components, c.groups) mask e = .ok (comps', gs') ∧
      AllSets CompSet.IdxOk comps' ∧ SameStat c.groups gs' ∧ comps'.length = c.components.length ∧
      (LabOk c.Typed e comps' → Aligned { c with components := comps', groups := gs' } ∧
        ∀ (k : Nat) (g : Group), mask.getLsbD k = true → gs'[k]? = some g → ¬ InPrefix (ilists comps') g e.erase) := by
  obtain ⟨⟨comps', gs'⟩, h0⟩ := ungroupLoop_real (e := e) 64 mask c.components c.groups c.groups.length (maskCard_le mask)
    h.idx h.stat.gstat hm.1 (Nat.le_refl _) h.packed.all
  have hs := ungroupLoop_shape _ _ _ _ h0
  refine ⟨comps', gs', h0, stable_idx.ungroupLoop _ _ _ _ h.idx h0, hs.2, hs.1, fun hl => ?_⟩
  obtain ⟨comps1, gs1, h1, h2, _, h4⟩ := ungroup_ok blank_uniq (e := e.erase) (blank_setsOK h.idx) h.gstat' h.packed
    (PairsIn.blank h.idx (ungroupLoopPairs_in _ _ _ _)) hm.1
    (fun j k gj gk hj hjk hgj hgk hf => .inl (hm.2 j k gj gk hj hjk hgj hgk hf))
  have hb := ungroupLoop_blank 64 mask c.components c.groups _ h.stat.gstat h.stat.within hm.1 h0 hl
  unfold Sparsey.ungroup at h1
  rw [hb] at h1
  simp only [Res.ok.injEq, Prod.mk.injEq] at h1
  obtain ⟨rfl, rfl⟩ := h1
  exact ⟨h.regroup (stable_idx.ungroupLoop _ _ _ _ h.idx h0) hs.1 h2.stat h2.packed, h4⟩

theorem Aligned.ungroupAll {c : ComponentStorage V} (h : Aligned c) (e : Entity) :
    ∃ comps' gs', Sparsey.ungroupAll (c.components, c.groups) e = .ok (comps', gs') ∧
      AllSets CompSet.IdxOk comps' ∧ comps'.length = c.components.length ∧
      (LabOk c.Typed e comps' → Aligned { c with components := comps', groups := gs' } ∧
        ∀ (k : Nat) (g : Group), gs'[k]? = some g → ¬ InPrefix (ilists comps') g e.erase) := by
  obtain ⟨⟨comps', gs'⟩, h0⟩ := ungroupAllLoop_real (e := e) c.groups.length c.components c.groups
    h.idx h.stat.gstat (Nat.le_refl _) h.packed.all
  have hs := ungroupAllLoop_shape _ _ _ h0
  refine ⟨comps', gs', h0, stable_idx.ungroupAllLoop _ _ _ h.idx h0, hs.1, fun hl => ?_⟩
  obtain ⟨comps1, gs1, h1, h2, _, h4⟩ := ungroupAll_ok blank_uniq (e := e.erase) (blank_setsOK h.idx) h.gstat' h.packed
    (PairsIn.blank h.idx (ungroupAllLoopPairs_in _ _ _))
  have hb := ungroupAllLoop_blank c.groups.length c.components c.groups _ h.stat.gstat h.stat.within (Nat.le_refl _) h0 hl
  unfold Sparsey.ungroupAll at h1
  simp only at h1
  rw [hb] at h1
  simp only [Res.ok.injEq, Prod.mk.injEq] at h1
  obtain ⟨rfl, rfl⟩ := h1
  exact ⟨h.regroup (stable_idx.ungroupAllLoop _ _ _ h.idx h0) hs.1 h2.stat h2.packed, h4⟩

theorem get_none_of_label {s : CompSet V} {e : Entity} {v : Nat} (h : s.label e.index = some v) (hne : v ≠ e.version) :
    s.sparse.get e = none := by
  unfold CompSet.label at h
  unfold SparseVec.get
  rw [show e.sparse = e.index from rfl]
  rcases hs : s.sparse.slots[e.index]? with _ | _ | sl
  · rfl
  · rfl
  · rw [hs] at h
    cases h
    simp [hne]

/-- Taking `e` from sets leaves the sets alone that have another version for it. -/
theorem removeEach_both {e : Entity} : ∀ (is : List Nat) (c : ComponentStorage V), AllSets CompSet.IdxOk c.components →
    (∀ i ∈ is, i < c.components.length) →
    ∃ vs c', ComponentStorage.removeEach e is c = .ok (vs, c') ∧ ComponentStorage.deleteEach e is c = .ok c' ∧
      c'.metadata = c.metadata ∧
      ∀ (k : Nat) (s : CompSet V) (v : Nat), c.components[k]? = some s → s.label e.index = some v → v ≠ e.version →
        c'.components[k]? = some s
  | [], c, _, _ => ⟨[], c, rfl, rfl, rfl, fun k s v h _ _ => h⟩
  | i :: is, c, h, hlt => by
    have hil := hlt i (.head _)
    have hs := List.getElem?_eq_getElem hil
    obtain ⟨o, s', h1, h2, h3⟩ := (h _ (List.getElem_mem hil)).remove e
    obtain ⟨vs, c', h6, h7, h8, h9⟩ := removeEach_both is { c with components := c.components.set i s' }
      (h.set h3 i) (fun j hj => by simpa using hlt j (List.mem_cons_of_mem _ hj))
    refine ⟨o :: vs, c', by simp [ComponentStorage.removeEach, hs, h1, h6],
      by simp [ComponentStorage.deleteEach, hs, h2, h7], h8, fun k s v hk hl hv => h9 k s v ?_ hl hv⟩
    show (c.components.set i s')[k]? = some s
    rw [List.getElem?_set]
    by_cases hik : i = k
    · subst hik
      rw [if_pos rfl, if_pos hil]
      rw [hs] at hk
      cases hk
      rw [(remove_skip (get_none_of_label hl hv)).1] at h1
      cases h1
      rfl
    · rw [if_neg hik]
      exact hk

def ComponentStorage.blank (c : ComponentStorage V) : ComponentStorage V :=
  { c with components := c.components.map CompSet.blank }

theorem Aligned.store {c : ComponentStorage V} (h : Aligned c) : StoreOK Blank c.blank where
  gstat := h.gstat'
  mds := by
    show MetaOK c.groups c.metadata (c.components.map CompSet.blank).length
    rw [List.length_map]
    exact h.stat.mds
  sets := blank_setsOK h.idx
  packed := h.packed

theorem lookupAll_blank (c : ComponentStorage V) (f : ComponentMetadata → GroupMask) : ∀ (ts : List TypeId),
    c.blank.lookupAll f ts = c.lookupAll f ts
  | [] => rfl
  | t :: ts => by
    rw [ComponentStorage.lookupAll, ComponentStorage.lookupAll, lookupAll_blank c f ts]
    show (match c.meta? t with
      | none => _
      | some m => _) = _
    cases c.meta? t with
    | none => rfl
    | some m =>
      simp only
      cases c.lookupAll f ts with
      | panic => rfl
      | ub => rfl
      | ok r =>
        simp only [Res.bind_ok]
        show (Res.unchecked ((c.components.map CompSet.blank)[m.storageIndex]?) >>= _) = _
        rw [List.getElem?_map]
        cases c.components[m.storageIndex]? <;> rfl

theorem ComponentStorage.Typed.same {c c' : ComponentStorage V} (h : c'.metadata = c.metadata) : c'.Typed = c.Typed := by
  funext k
  unfold ComponentStorage.Typed ComponentStorage.meta?
  rw [h]

/-- `remove` and `delete` of the component storage: always defined, and the groups stay in order if the entity was found
nowhere, or no other version is stored for it afterwards. -/
theorem Aligned.take {c : ComponentStorage V} (h : Aligned c) {e : Entity} {ts : List TypeId}
    (hr : ∀ t ∈ ts, (c.meta? t).isSome) :
    ∃ vs c', c.remove e ts = .ok (vs, c') ∧ c.delete e ts = .ok c' ∧
      (c.Misses e ∨ LabOk c'.Typed e c'.components → Aligned c') := by
  obtain ⟨mask, h1, h2⟩ := lookupAll_ok h.store (·.deleteMask) ts hr
  rw [lookupAll_blank] at h1
  have hup : UpClosed c.groups mask := UpClosed.ofTypes h.store h2
  have hidx : ∀ i ∈ ts.map c.idxOf, i < c.components.length := by
    intro i hi
    obtain ⟨t, ht, rfl⟩ := List.mem_map.1 hi
    obtain ⟨m, hm⟩ := Option.isSome_iff_exists.1 (hr t ht)
    rw [ComponentStorage.idxOf_eq hm]
    exact h.stat.mds.idx t m hm
  have htyp : ∀ i ∈ ts.map c.idxOf, c.Typed i := by
    intro i hi
    obtain ⟨t, ht, rfl⟩ := List.mem_map.1 hi
    obtain ⟨m, hm⟩ := Option.isSome_iff_exists.1 (hr t ht)
    rw [ComponentStorage.idxOf_eq hm]
    exact ⟨t, m, hm, rfl⟩
  have h1 : c.lookupAll (·.deleteMask) ts = .ok (ts.map c.idxOf, mask) := h1
  unfold ComponentStorage.remove ComponentStorage.delete
  rw [h1]
  simp only [Res.bind_ok]
  by_cases hn : c.Misses e
  · have h3 : c.withMask mask (Sparsey.ungroup · mask e) = .ok c := by
      unfold ComponentStorage.withMask
      by_cases hz : mask = 0#64
      · rw [if_pos hz]
      · rw [if_neg hz]
        unfold Sparsey.ungroup
        dsimp only
        rw [ungroupLoop_skip h.stat hn 64 mask (maskCard_le mask) hup.1]
        rfl
    rw [h3]
    simp only [Res.bind_ok]
    obtain ⟨⟨vs, h4⟩, h5⟩ := removeEach_skip hn _ fun i hi => ⟨hidx i hi, htyp i hi⟩
    exact ⟨vs, c, h4, h5, fun _ => h⟩
  have hfree : ∀ c' : ComponentStorage V, SameStat c.groups c'.groups → c'.metadata = c.metadata →
      (∀ (k : Nat) (g : Group), mask.getLsbD k = true → c'.groups[k]? = some g → ¬ InPrefix (ilists c'.components) g e.erase) →
      FreeAt e (ts.map c.idxOf) c' := by
    intro c' hs hmd hn i hi k g hg hin
    refine hn k g ?_ hg
    obtain ⟨t, ht, rfl⟩ := List.mem_map.1 hi
    obtain ⟨m, hm⟩ := Option.isSome_iff_exists.1 (hr t ht)
    rw [ComponentStorage.idxOf_eq hm] at hin
    rw [h2]
    exact ⟨t, ht, m, hm, (h.stat.mds.del t m k hm).2 ((hs.exists_range k _).1 ⟨g, hg, hin⟩)⟩
  have key : ∃ c1, c.withMask mask (Sparsey.ungroup · mask e) = .ok c1 ∧ AllSets CompSet.IdxOk c1.components ∧
      c1.components.length = c.components.length ∧ c1.metadata = c.metadata ∧
      (LabOk c.Typed e c1.components → Aligned c1 ∧ FreeAt e (ts.map c.idxOf) c1) := by
    unfold ComponentStorage.withMask
    by_cases hz : mask = 0#64
    · rw [if_pos hz]
      exact ⟨c, rfl, h.idx, rfl, rfl, fun _ => ⟨h, hfree c (.refl _) rfl fun k g hk => by rw [hz] at hk; simp at hk⟩⟩
    · rw [if_neg hz]
      obtain ⟨comps', gs', h3, h4, h5, h6, h7⟩ := h.ungroup hup e
      simp only [h3, Res.bind_ok, Res.pure_eq]
      refine ⟨_, rfl, h4, h6, rfl, fun hl => ?_⟩
      obtain ⟨h8, h9⟩ := h7 hl
      exact ⟨h8, hfree _ h5 rfl h9⟩
  obtain ⟨c1, k1, k2, k3, k4, k5⟩ := key
  rw [k1]
  simp only [Res.bind_ok]
  obtain ⟨vs, c', m1, m2, m3, m4⟩ := removeEach_both (e := e) (ts.map c.idxOf) c1 k2 (by rw [k3]; exact hidx)
  refine ⟨vs, c', m1, m2, ?_⟩
  rintro (hc | hl)
  · exact absurd hc hn
  obtain ⟨k6, k7⟩ := k5 (by
    intro k s hk hs v hv
    by_contra hne
    exact hne (hl k s (by rw [ComponentStorage.Typed.same (m3.trans k4)]; exact hk) (m4 k s v hs hv hne) v hv))
  obtain ⟨vs', c2, n1, n2, n3⟩ := Aligned.removeEach (ts.map c.idxOf) c1 k6 (by rw [k3]; exact hidx) k7
  rw [n2] at m2
  cases m2
  exact n3

/-- `strip` of the component storage: as `Aligned.take`. -/
theorem Aligned.strip {c : ComponentStorage V} (h : Aligned c) (e : Entity) :
    ∃ c', c.strip e = .ok c' ∧ (c.Misses e ∨ LabOk c'.Typed e c'.components → Aligned c') := by
  unfold ComponentStorage.strip
  by_cases hn : c.Misses e
  · obtain ⟨l, h1⟩ := Sound.deleteAll e h.idx
    obtain ⟨h2, h3⟩ := deleteAll_eachGet _ _ h1
    refine ⟨{ c with components := l }, ?_, fun _ => (h.refit h2 (stable_idx.deleteAll h.idx h1) ?_).1⟩
    · unfold Sparsey.ungroupAll
      simp only
      rw [ungroupAllLoop_skip h.stat hn _ (Nat.le_refl _)]
      simp only [Res.bind_ok, h1, Res.pure_eq]
    · intro k g hg i hi p _
      have hil : i < c.components.length := Nat.lt_of_lt_of_le hi.2 (h.stat.gstat.bounds k g hg).2.2
      have hs := List.getElem?_eq_getElem hil
      have hs' := List.getElem?_eq_getElem (show i < l.length by omega)
      have h4 := h3 i _ _ hs hs'
      rw [(remove_skip (hn i _ (h.stat.within k g hg i (.inl hi.1) hi.2) hs)).2] at h4
      rw [ilists_some hs, ilists_some hs', Res.ok.inj h4]
  · obtain ⟨comps', gs', h1, h2, h3, h4⟩ := h.ungroupAll e
    obtain ⟨l, h5⟩ := Sound.deleteAll e h2
    obtain ⟨h6, h7⟩ := deleteAll_eachGet _ _ h5
    rw [h1]
    simp only [Res.bind_ok, h5, Res.pure_eq]
    refine ⟨_, rfl, ?_⟩
    rintro (hc | hl)
    · exact absurd hc hn
    obtain ⟨h8, h9⟩ := h4 (by
      intro k s hk hs v hv
      by_contra hne
      have hkl := (List.getElem?_eq_some_iff.1 hs).1
      have hs' := List.getElem?_eq_getElem (show k < l.length by omega)
      have h10 := h7 k _ _ hs hs'
      rw [(remove_skip (get_none_of_label hv hne)).2] at h10
      rw [← Res.ok.inj h10] at hs'
      exact hne (hl k s hk hs' v hv))
    obtain ⟨l', n1, n2⟩ := h8.deleteAll h9
    rw [show ComponentStorage.deleteAll e comps' = .ok l' from n1] at h5
    cases h5
    exact n2

theorem StoreStat.cleared {c : ComponentStorage V} (h : StoreStat c) : Aligned c.clear := by
  have hs : SameStat c.groups c.clear.groups := by
    show (c.groups.map fun g => { g with len := 0 }).map Group.stat = c.groups.map Group.stat
    rw [List.map_map]
    rfl
  refine ⟨⟨?_, ?_⟩, ?_, ?_, ?_⟩
  · show GStat (c.groups.map fun g => { g with len := 0 }) (c.components.map CompSet.clear).length
    rw [List.length_map]
    exact h.gstat.of_same hs
  · show MetaOK (c.groups.map fun g => { g with len := 0 }) c.metadata (c.components.map CompSet.clear).length
    rw [List.length_map]
    exact h.mds.of_same hs
  · intro s hs
    obtain ⟨x, _, rfl⟩ := List.mem_map.1 hs
    exact CompSet.idx_clear x
  · intro j g hg i hi
    have hg : (c.groups.map fun g => { g with len := 0 })[j]? = some g := hg
    rw [List.getElem?_map] at hg
    obtain ⟨g0, _, rfl⟩ := Option.map_eq_some_iff.1 hg
    simp at hi
  · intro i j gi gj _ _ hj _
    have hj : (c.groups.map fun g => { g with len := 0 })[j]? = some gj := hj
    rw [List.getElem?_map] at hj
    obtain ⟨g0, _, rfl⟩ := Option.map_eq_some_iff.1 hj
    simp

theorem Aligned.empty : Aligned (ComponentStorage.empty : ComponentStorage V) where
  stat := LayStat.empty.store
  idx := by intro s hs; simp [ComponentStorage.empty] at hs
  packed := ⟨fun j g hg => by simp [ComponentStorage.empty] at hg, fun i j gi gj _ hg => by simp [ComponentStorage.empty] at hg⟩

theorem Aligned.register {c : ComponentStorage V} (h : Aligned c) (t : TypeId) : Aligned (c.register t).2 := by
  unfold ComponentStorage.register
  cases hm : c.meta? t with
  | some m => exact h
  | none =>
    refine ⟨(addSet_stat h.stat hm CompSet.new).1, h.idx.append (.single CompSet.idx_new), ?_, h.packed.nested⟩
    intro j g hg i hi
    obtain ⟨e, he⟩ := h.packed.aligned j g hg i hi
    refine ⟨e, fun s h1 h2 => ?_⟩
    have hb := h.stat.gstat.bounds j g hg
    show (lists ((c.components ++ [CompSet.new]).map CompSet.blank) s)[i]? = some e
    rw [List.map_append, lists_append (by rw [List.length_map]; omega)]
    exact he s h1 h2

/-- `set_layout` of the component storage with a layout that fits. -/
theorem AllSets.layout {c : ComponentStorage V} (h : AllSets CompSet.IdxOk c.components) (hc : Static c)
    (hk : (c.metadata.map Prod.fst).Nodup) {l : GroupLayout} (hl : LayoutOK l) (hfit : LayoutFits l) (rank : TypeId → Nat) (es : List Entity) : ∃ c', c.setLayout rank l es = .ok () c' ∧ Aligned c' := by
  obtain ⟨c1, mask, h1, _, h3, h4, _, h6⟩ := setLayout_stat hk hc.idx hc.inj hl hfit rank
  have h7 := stable_idx.setLayout rank l [] h
  rw [h6 []] at h7
  have ha : Aligned c1 := by
    refine ⟨h1, h7, ?_, ?_⟩
    · intro j g hg i hi
      rw [h4 j g hg] at hi
      omega
    · intro i j gi gj _ _ hj _
      rw [h4 j gj hj]
      exact Nat.zero_le _
  obtain ⟨comps', gs', h8, h9⟩ := ha.groupEntities (mask := mask) (es := es) ⟨fun j hj => (h3 j).1 hj,
    fun j p gj gp _ _ hgp _ => (h3 p).2 (List.getElem?_eq_some_iff.1 hgp).1⟩
  rw [h6 es, h8]
  exact ⟨_, rfl, h9⟩

end Sparsey
