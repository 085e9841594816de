import Verif.Model.Swaps
import Verif.Proofs.Group

/-!
The functions of `src/component/group.rs` on well formed sets.
-/

set_option autoImplicit false
set_option linter.unusedSimpArgs false

namespace Sparsey
variable {V : Type}

/-- Different entities of `A` have different indexes. -/
def IdxUniq (A : Entity → Prop) : Prop := ∀ x y, A x → A y → x.index = y.index → x = y

/-- All sets are well formed and contain only entities of `A`. -/
structure SetsOK (A : Entity → Prop) (comps : List (CompSet V)) : Prop where
  wf : ∀ c ∈ comps, c.WF
  sub : ∀ c ∈ comps, ∀ e ∈ c.entities, A e

/-- The sets hold the same values. -/
def SameVals (comps comps' : List (CompSet V)) : Prop :=
  comps'.length = comps.length ∧
    ∀ (s : Nat) (c c' : CompSet V), comps[s]? = some c → comps'[s]? = some c' → ∀ z, c'.val z = c.val z

/-- In every set of a group all entities have the same version. -/
def VersOK (L : Nat → List Entity) (gs : List Group) : Prop :=
  ∀ (j : Nat) (g : Group), gs[j]? = some g → ∀ s, g.storageStart ≤ s → s < g.storageEnd →
    ∀ x ∈ L s, ∀ y ∈ L s, x.version = y.version

theorem SameVals.refl (comps : List (CompSet V)) : SameVals comps comps :=
  ⟨rfl, fun s c c' h h' z => by rw [h] at h'; cases h'; rfl⟩

theorem SameVals.trans {a b c : List (CompSet V)} (h : SameVals a b) (h' : SameVals b c) : SameVals a c := by
  refine ⟨h'.1.trans h.1, fun s x z hx hz e => ?_⟩
  have hs : s < b.length := by
    rw [h.1]; exact (List.getElem?_eq_some_iff.1 hx).1
  have hb : b[s]? = some b[s] := List.getElem?_eq_getElem hs
  rw [h'.2 s _ z hb hz e, h.2 s x _ hx hb e]

theorem SetsOK.nodup {A : Entity → Prop} {comps : List (CompSet V)} (h : SetsOK A comps) (s : Nat) :
    (lists comps s).Nodup := by
  by_cases hs : s < comps.length
  · have := List.getElem?_eq_getElem hs
    rw [lists_some this]
    exact (h.wf _ (List.getElem_mem hs)).rep.nodup
  · rw [lists_none (by omega)]; exact List.nodup_nil

theorem SetsOK.lists_sub {A : Entity → Prop} {comps : List (CompSet V)} (h : SetsOK A comps) {s : Nat} {e : Entity}
    (he : e ∈ lists comps s) : A e := by
  by_cases hs : s < comps.length
  · have := List.getElem?_eq_getElem hs
    rw [lists_some this] at he
    exact h.sub _ (List.getElem_mem hs) e he
  · rw [lists_none (by omega)] at he; simp at he

theorem SameVals.mem {A A' : Entity → Prop} {a b : List (CompSet V)} (h : SameVals a b) (ha : SetsOK A a)
    (hb : SetsOK A' b) (s : Nat) (e : Entity) : e ∈ lists b s ↔ e ∈ lists a s := by
  by_cases hs : s < a.length
  · have h1 := List.getElem?_eq_getElem hs
    have hs' : s < b.length := by rw [h.1]; exact hs
    have h2 := List.getElem?_eq_getElem hs'
    rw [lists_some h1, lists_some h2, (ha.wf _ (List.getElem_mem hs)).mem_iff,
      (hb.wf _ (List.getElem_mem hs')).mem_iff, h.2 s _ _ h1 h2]
  · have := h.1
    rw [lists_none (comps := b) (by omega), lists_none (comps := a) (by omega)]

theorem VersOK.of {L L' : Nat → List Entity} {gs gs' : List Group} (h : VersOK L gs) (hs : SameStat gs gs')
    (hm : ∀ s e, e ∈ L' s ↔ e ∈ L s) : VersOK L' gs' := by
  intro j g hg s h1 h2 x hx y hy
  obtain ⟨g', h3, h4⟩ := hs.get hg
  exact h j g' h3 s (by rw [← Group.stat_start h4]; exact h1) (by rw [← Group.stat_end h4]; exact h2) x
    ((hm s x).1 hx) y ((hm s y).1 hy)

theorem SameVals.complete {A A' : Entity → Prop} {a b : List (CompSet V)} (h : SameVals a b) (ha : SetsOK A a)
    (hb : SetsOK A' b) {g g' : Group} (hg : g'.stat = g.stat) (e : Entity) :
    Complete (lists b) g' e ↔ Complete (lists a) g e := by
  unfold Complete
  rw [Group.stat_start hg, Group.stat_end hg]
  constructor
  · intro hc s h1 h2; exact (h.mem ha hb s e).1 (hc s h1 h2)
  · intro hc s h1 h2; exact (h.mem ha hb s e).2 (hc s h1 h2)

/-! ### Slices and swaps -/

theorem compRange_ok {comps : List (CompSet V)} {a b : Nat} (hab : a ≤ b) (hb : b ≤ comps.length) :
    compRange comps a b = .ok ((comps.drop a).take (b - a)) := by
  unfold compRange
  rw [if_pos ⟨hab, hb⟩]

theorem seg_get {α : Type} (l : List α) {a b : Nat} (i : Nat) (hi : i < b - a) :
    ((l.drop a).take (b - a))[i]? = l[a + i]? := by
  rw [List.getElem?_take, if_pos hi, List.getElem?_drop]

theorem mem_seg {α : Type} {l : List α} {a b : Nat} {x : α} :
    x ∈ (l.drop a).take (b - a) ↔ ∃ s, a ≤ s ∧ s < b ∧ l[s]? = some x := by
  rw [List.mem_iff_getElem?]
  constructor
  · rintro ⟨i, hi⟩
    rw [List.getElem?_take] at hi
    split at hi
    · rename_i hlt
      rw [List.getElem?_drop] at hi
      exact ⟨a + i, by omega, by omega, hi⟩
    · cases hi
  · rintro ⟨s, h1, h2, h3⟩
    refine ⟨s - a, ?_⟩
    rw [seg_get l (s - a) (by omega), show a + (s - a) = s by omega, h3]

theorem swapTo_ok {c : CompSet V} (hc : c.WF) {q p : Nat} {e : Entity} (he : c.entities[p]? = some e)
    (hq : q < c.entities.length) (hv : EvenPairs (swapToPairs c q e.index)) :
    ∃ c', swapTo c q e.index = .ok c' ∧ c'.WF ∧
      (∀ i : Nat, c'.entities[i]? = if i = q then some e else if i = p then c.entities[q]? else c.entities[i]?) ∧
      ∀ z, c'.val z = c.val z := by
  unfold swapTo
  rw [hc.rep.getSparseUnchecked_eq he]
  simp only [Res.bind_ok]
  by_cases hpq : p = q
  · subst hpq
    refine ⟨c, by simp, hc, fun i => ?_, fun z => rfl⟩
    by_cases hi : i = p
    · subst hi; simp [he]
    · simp [hi]
  · rw [if_pos hpq]
    have hy := List.getElem?_eq_getElem hq
    obtain ⟨c', h1, h2, h3, h4⟩ := hc.swap he hy hpq
      (hv (e, c.entities[q]) (by simp [swapToPairs, hc.rep.getSparseUnchecked_eq he, hpq, he, hy]))
    refine ⟨c', h1, h2, fun i => ?_, h4⟩
    rw [h3, hy]
    by_cases h5 : i = p
    · subst h5; simp [hpq]
    · simp [h5]

theorem swapAllTo_ok {q : Nat} {e : Entity} : ∀ (seg : List (CompSet V)),
    (∀ c ∈ seg, c.WF ∧ e ∈ c.entities ∧ q < c.entities.length ∧ EvenPairs (swapToPairs c q e.index)) →
    ∃ seg', swapAllTo q e.index seg = .ok seg' ∧ seg'.length = seg.length ∧
      ∀ (s : Nat) (c c' : CompSet V), seg[s]? = some c → seg'[s]? = some c' →
        c'.WF ∧ (∃ p : Nat, c.entities[p]? = some e ∧ ∀ i : Nat, c'.entities[i]? =
          if i = q then some e else if i = p then c.entities[q]? else c.entities[i]?) ∧
        ∀ z, c'.val z = c.val z := by
  intro seg
  induction seg with
  | nil => intro _; exact ⟨[], rfl, rfl, by simp⟩
  | cons c cs ih =>
    intro h
    obtain ⟨h1, h2, h3, h4⟩ := h c (by simp)
    obtain ⟨p, hp⟩ := List.mem_iff_getElem?.1 h2
    obtain ⟨c', h5, h6, h7, h8⟩ := swapTo_ok h1 hp h3 h4
    obtain ⟨cs', h9, h10, h11⟩ := ih (fun x hx => h x (by simp [hx]))
    refine ⟨c' :: cs', by simp [swapAllTo, h5, h9], by simp [h10], fun s x x' hx hx' => ?_⟩
    cases s with
    | zero =>
      simp at hx hx'
      subst hx hx'
      exact ⟨h6, ⟨p, hp, h7⟩, h8⟩
    | succ s =>
      simp at hx hx'
      exact h11 s x x' hx hx'

theorem splice_get {α : Type} {l seg' : List α} {a b : Nat} (hab : a ≤ b) (hb : b ≤ l.length)
    (hl : seg'.length = b - a) (s : Nat) :
    (l.take a ++ seg' ++ l.drop b)[s]? = if a ≤ s ∧ s < b then seg'[s - a]? else l[s]? := by
  have h1 : (l.take a).length = a := by rw [List.length_take]; omega
  rcases Nat.lt_or_ge s a with hs | hs
  · rw [if_neg (by omega), List.append_assoc, List.getElem?_append_left (by omega), List.getElem?_take,
      if_pos hs]
  · rcases Nat.lt_or_ge s b with hs' | hs'
    · rw [if_pos ⟨hs, hs'⟩, List.getElem?_append_left (by simp; omega),
        List.getElem?_append_right (by omega), h1]
    · rw [if_neg (by omega), List.getElem?_append_right (by simp; omega), List.getElem?_drop]
      congr 1
      simp
      omega

theorem swapRange_ok {A : Entity → Prop} {comps : List (CompSet V)} (h : SetsOK A comps) {a b q : Nat} {e : Entity}
    (hab : a ≤ b) (hb : b ≤ comps.length) (he : ∀ s, a ≤ s → s < b → e ∈ lists comps s)
    (hq : ∀ s, a ≤ s → s < b → q < (lists comps s).length)
    (hv : EvenPairs (swapRangePairs comps a b q e.index)) :
    ∃ comps', swapRange comps a b q e.index = .ok comps' ∧ SetsOK A comps' ∧ SameVals comps comps' ∧
      Moved (lists comps) (lists comps') a b q e := by
  have hseg : ∀ c ∈ (comps.drop a).take (b - a), c.WF ∧ e ∈ c.entities ∧ q < c.entities.length ∧
      EvenPairs (swapToPairs c q e.index) := by
    intro c hc
    obtain ⟨s, h1, h2, h3⟩ := mem_seg.1 hc
    have h4 := lists_some h3
    refine ⟨h.wf c (List.mem_of_getElem? h3), ?_, ?_, ?_⟩
    · rw [← h4]; exact he s h1 h2
    · rw [← h4]; exact hq s h1 h2
    · exact fun pr hpr => hv pr (List.mem_flatMap.2 ⟨c, hc, hpr⟩)
  obtain ⟨seg', h1, h2, h3⟩ := swapAllTo_ok _ hseg
  have hsl : seg'.length = b - a := by
    rw [h2, List.length_take, List.length_drop]; omega
  refine ⟨comps.take a ++ seg' ++ comps.drop b, ?_, ?_⟩
  · simp [swapRange, compRange_ok hab hb, h1]
  · have hget := splice_get (l := comps) (seg' := seg') hab hb hsl
    generalize comps.take a ++ seg' ++ comps.drop b = comps' at hget
    have hlen : comps'.length = comps.length := by
      apply Nat.le_antisymm
      · by_contra hc
        have := hget comps.length
        rw [if_neg (by omega), List.getElem?_eq_none (Nat.le_refl _), List.getElem?_eq_none_iff] at this
        omega
      · by_contra hc
        have := hget comps'.length
        rw [List.getElem?_eq_none (Nat.le_refl _)] at this
        split at this
        · have := this.symm
          rw [List.getElem?_eq_none_iff] at this
          omega
        · have := this.symm
          rw [List.getElem?_eq_none_iff] at this
          omega
    have hcase : ∀ (s : Nat) (c' : CompSet V), comps'[s]? = some c' → ∃ c, comps[s]? = some c ∧
        ((¬ (a ≤ s ∧ s < b) ∧ c' = c) ∨ (a ≤ s ∧ s < b ∧ c'.WF ∧
          (∃ p : Nat, c.entities[p]? = some e ∧ ∀ i : Nat, c'.entities[i]? =
          if i = q then some e else if i = p then c.entities[q]? else c.entities[i]?) ∧
          ∀ z, c'.val z = c.val z)) := by
      intro s c' hc'
      have hs : s < comps.length := by rw [← hlen]; exact (List.getElem?_eq_some_iff.1 hc').1
      refine ⟨comps[s], List.getElem?_eq_getElem hs, ?_⟩
      rw [hget] at hc'
      split at hc'
      · rename_i hr
        right
        refine ⟨hr.1, hr.2, h3 (s - a) _ c' ?_ hc'⟩
        rw [seg_get comps (s - a) (by omega), show a + (s - a) = s by omega, List.getElem?_eq_getElem hs]
      · rename_i hr
        left
        rw [List.getElem?_eq_getElem hs] at hc'
        exact ⟨hr, by simpa using hc'.symm⟩
    have hvals : SameVals comps comps' := by
      refine ⟨hlen, fun s c c' hc hc' z => ?_⟩
      obtain ⟨c2, h4, h5⟩ := hcase s c' hc'
      rw [hc] at h4
      cases h4
      rcases h5 with ⟨_, rfl⟩ | ⟨_, _, _, _, h6⟩
      · rfl
      · exact h6 z
    have hwf : ∀ c ∈ comps', c.WF := by
      intro c' hc'
      obtain ⟨s, hs⟩ := List.mem_iff_getElem?.1 hc'
      obtain ⟨c, h4, h5⟩ := hcase s c' hs
      rcases h5 with ⟨_, rfl⟩ | ⟨_, _, h6, _⟩
      · exact h.wf _ (List.mem_of_getElem? h4)
      · exact h6
    refine ⟨⟨hwf, ?_⟩, hvals, ?_, ?_⟩
    · intro c' hc' x hx
      obtain ⟨s, hs⟩ := List.mem_iff_getElem?.1 hc'
      obtain ⟨c, h4, _⟩ := hcase s c' hs
      apply h.sub c (List.mem_of_getElem? h4)
      rw [(h.wf c (List.mem_of_getElem? h4)).mem_iff, ← hvals.2 s c c' h4 hs, ← (hwf c' hc').mem_iff]
      exact hx
    · intro s h4 h5
      have hs : s < comps'.length := by omega
      have hs' := List.getElem?_eq_getElem hs
      obtain ⟨c, h6, h7⟩ := hcase s _ hs'
      rcases h7 with ⟨h8, _⟩ | ⟨_, _, _, ⟨p, h9, h10⟩, _⟩
      · exact absurd ⟨h4, h5⟩ h8
      · exact ⟨p, by rw [lists_some h6]; exact h9, hq s h4 h5, fun i => by
          rw [lists_some h6, lists_some hs']; exact h10 i⟩
    · intro s hs
      unfold lists
      rw [hget, if_neg hs]

/-! ### Status -/

theorem getGroupStatus_spec {A : Entity → Prop} (hA : IdxUniq A) {comps : List (CompSet V)} (h : SetsOK A comps)
    {a b : Nat} (hab : a < b) (hb : b ≤ comps.length) (len : Nat) (e : Entity) :
    (getGroupStatus ((comps.drop a).take (b - a)) len e = .ok .incomplete ∧
      ∃ s, a ≤ s ∧ s < b ∧ e ∉ lists comps s) ∨
    (∃ d : Nat, (lists comps a)[d]? = some e ∧ (∀ s, a ≤ s → s < b → e ∈ lists comps s) ∧
      getGroupStatus ((comps.drop a).take (b - a)) len e =
        .ok (if d < len then .grouped else .ungrouped)) := by
  have ha : a < comps.length := by omega
  have hseg : (comps.drop a).take (b - a) = comps[a] :: (comps.drop (a + 1)).take (b - a - 1) := by
    rw [List.drop_eq_getElem_cons ha, show b - a = (b - a - 1) + 1 by omega, List.take_succ_cons]
    simp
  rw [hseg]
  have hfirst := List.getElem?_eq_getElem ha
  have hwf := h.wf _ (List.getElem_mem ha)
  unfold getGroupStatus
  simp only
  cases hd : comps[a].sparse.get e with
  | none =>
    left
    refine ⟨rfl, a, Nat.le_refl _, hab, ?_⟩
    rw [lists_some hfirst]
    exact (hwf.rep.get_eq_none e).1 hd
  | some d =>
    have hde := (hwf.rep.get_eq_some e d).1 hd
    have hAe : A e := h.sub _ (List.getElem_mem ha) e (List.mem_of_getElem? hde)
    have hc : ∀ c ∈ comps, c.sparse.containsSparse e.sparse = true ↔ e ∈ c.entities := by
      intro c hc
      rw [(h.wf c hc).rep.containsSparse_iff]
      constructor
      · rintro ⟨x, hx, hi⟩
        have := hA x e (h.sub c hc x hx) hAe hi
        rw [← this]; exact hx
      · intro he; exact ⟨e, he, rfl⟩
    simp only
    by_cases hall : (∀ s, a ≤ s → s < b → e ∈ lists comps s)
    · right
      refine ⟨d, by rw [lists_some hfirst]; exact hde, hall, ?_⟩
      rw [if_pos]
      rw [List.all_eq_true]
      intro c hcm
      have hcm' : c ∈ (comps.drop a).take (b - a) := by rw [hseg]; simp [hcm]
      obtain ⟨s, h1, h2, h3⟩ := mem_seg.1 hcm'
      rw [hc c (List.mem_of_getElem? h3), ← lists_some h3]
      exact hall s h1 h2
    · left
      push Not at hall
      obtain ⟨s, h1, h2, h3⟩ := hall
      refine ⟨?_, s, h1, h2, h3⟩
      rw [if_neg]
      rw [List.all_eq_true]
      intro hcm
      apply h3
      have hs : s < comps.length := by omega
      have hs' := List.getElem?_eq_getElem hs
      rw [lists_some hs']
      have hmem : comps[s] ∈ (comps.drop a).take (b - a) := mem_seg.2 ⟨s, h1, h2, hs'⟩
      rw [hseg, List.mem_cons] at hmem
      rcases hmem with hmem | hmem
      · rw [hmem]; exact List.mem_of_getElem? hde
      · exact (hc _ (List.getElem_mem hs)).1 (hcm _ hmem)

/-! ### `group` -/

/-- What regrouping keeps: the sets stay well formed and keep their values; the groups keep their shape. -/
structure Regroup (A : Entity → Prop) (comps : List (CompSet V)) (gs : List Group) (comps' : List (CompSet V))
    (gs' : List Group) : Prop where
  ok : SetsOK A comps'
  vals : SameVals comps comps'
  stat : SameStat gs gs'
  packed : Packed (lists comps') gs'

theorem Packed.len_le {A : Entity → Prop} {comps : List (CompSet V)} {gs : List Group} (_h : SetsOK A comps)
    (hs : GStat gs comps.length) (hp : Packed (lists comps) gs) {j : Nat} {g : Group} (hg : gs[j]? = some g)
    {s : Nat} (h1 : g.storageStart ≤ s) (h2 : s < g.storageEnd) : g.len ≤ (lists comps s).length := by
  by_contra hc
  have hb := hs.bounds j g hg
  obtain ⟨e, he⟩ := hp.aligned j g hg (g.len - 1) (by omega)
  have := (List.getElem?_eq_some_iff.1 (he s h1 h2)).1
  omega

theorem pos_ge_len {A : Entity → Prop} {comps : List (CompSet V)} {gs : List Group} (h : SetsOK A comps)
    (hs : GStat gs comps.length) (hp : Packed (lists comps) gs) {j : Nat} {g : Group} (hg : gs[j]? = some g)
    {e : Entity} (hn : ¬ InPrefix (lists comps) g e) {s : Nat} (h1 : g.storageStart ≤ s) (h2 : s < g.storageEnd)
    {d : Nat} (hd : (lists comps s)[d]? = some e) : g.len ≤ d := by
  by_contra hc
  have hb := hs.bounds j g hg
  obtain ⟨x, hx⟩ := hp.aligned j g hg d (by omega)
  have h3 := hx s h1 h2
  rw [hd] at h3
  cases h3
  exact hn ⟨d, by omega, hx _ (Nat.le_refl _) (by omega)⟩

theorem inPrefix_of_pos {comps : List (CompSet V)} {gs : List Group} {n : Nat}
    (hs : GStat gs n) (hp : Packed (lists comps) gs) {j : Nat} {g : Group} (hg : gs[j]? = some g)
    {e : Entity} {s : Nat} (h1 : g.storageStart ≤ s) (h2 : s < g.storageEnd)
    {d : Nat} (hd : (lists comps s)[d]? = some e) (hlt : d < g.len) : InPrefix (lists comps) g e := by
  have hb := hs.bounds j g hg
  obtain ⟨x, hx⟩ := hp.aligned j g hg d hlt
  have h3 := hx s h1 h2
  rw [hd] at h3
  cases h3
  exact ⟨d, hlt, hx _ (Nat.le_refl _) (by omega)⟩

/-- Precondition of the `group` loop on the bits that remain: whenever a group is still to be visited, the groups
before it in its family are either also still to be visited or `e` is in their packed part. -/
def MaskOK (L : Nat → List Entity) (gs : List Group) (m : BitVec 64) (e : Entity) : Prop :=
  ∀ (j p : Nat) (gj gp : Group), m.getLsbD j = true → p < j → gs[j]? = some gj → gs[p]? = some gp →
    gp.storageStart = gj.storageStart → m.getLsbD p = true ∨ InPrefix L gp e

theorem groupLoop_ok {A : Entity → Prop} (hA : IdxUniq A) {e : Entity} :
    ∀ (fuel : Nat) (m : BitVec 64) (comps : List (CompSet V)) (gs : List Group), maskCard m ≤ fuel →
    SetsOK A comps → GStat gs comps.length → Packed (lists comps) gs →
    EvenPairs (groupLoopPairs e fuel m (comps, gs)) →
    (∀ j, m.getLsbD j = true → j < gs.length) → MaskOK (lists comps) gs m e →
    ∃ comps' gs', groupLoop e fuel m (comps, gs) = .ok (comps', gs') ∧ Regroup A comps gs comps' gs' ∧
      (∀ (k : Nat) (gk gk' : Group), gs[k]? = some gk → gs'[k]? = some gk' → ∀ x,
        InPrefix (lists comps) gk x → InPrefix (lists comps') gk' x) ∧
      (∀ (k : Nat) (gk' : Group), m.getLsbD k = true → gs'[k]? = some gk' →
        Complete (lists comps') gk' e → InPrefix (lists comps') gk' e) ∧
      (∀ (k : Nat) (gk gk' : Group), gs[k]? = some gk → gs'[k]? = some gk' → ∀ x,
        InPrefix (lists comps') gk' x → InPrefix (lists comps) gk x ∨ (x = e ∧ m.getLsbD k = true)) := by
  intro fuel
  induction fuel with
  | zero =>
    intro m comps gs hf hok hst hp hv hml hmo
    have hm : m = 0#64 := maskCard_zero hf
    subst hm
    refine ⟨comps, gs, ?_, ⟨hok, .refl _, .refl _, hp⟩, ?_, by simp, ?_⟩
    · unfold groupLoop
      rw [bitNext_none.2 rfl]
    · intro k gk gk' h1 h2 x hx
      rw [h1] at h2; cases h2; exact hx
    · intro k gk gk' h1 h2 x hx
      rw [h1] at h2; cases h2; exact .inl hx
  | succ fuel ih =>
    intro m comps gs hf hok hst hp hv hml hmo
    cases hb : bitNext m with
    | none =>
      have hm := bitNext_none.1 hb
      subst hm
      refine ⟨comps, gs, ?_, ⟨hok, .refl _, .refl _, hp⟩, ?_, by simp, ?_⟩
      · unfold groupLoop
        rw [hb]
      · intro k gk gk' h1 h2 x hx
        rw [h1] at h2; cases h2; exact hx
      · intro k gk gk' h1 h2 x hx
        rw [h1] at h2; cases h2; exact .inl hx
    | some r =>
      obtain ⟨j, m'⟩ := r
      obtain ⟨hj64, hjm, hlow, hm'⟩ := bitNext_some hb
      have hcard := maskCard_clear hj64 hjm hm'
      have hjl := hml j hjm
      have hg := List.getElem?_eq_getElem hjl
      generalize hgd : gs[j] = g at hg
      have hbd := hst.bounds j g hg
      have hm'sub : ∀ k, m'.getLsbD k = true → m.getLsbD k = true ∧ k ≠ j := by
        intro k hk
        rw [hm', Bool.and_eq_true] at hk
        exact ⟨hk.1, by simpa using hk.2⟩
      have hm'mem : ∀ k, m.getLsbD k = true → k ≠ j → m'.getLsbD k = true := by
        intro k hk hne
        rw [hm', hk]
        simp [hne]
      -- parents
      have hpar : ∀ (p : Nat) (gp : Group), p < j → gs[p]? = some gp → gp.storageStart = g.storageStart →
          InPrefix (lists comps) gp e := by
        intro p gp hpj hgp hfam
        rcases hmo j p g gp hjm hpj hg hgp hfam with h | h
        · rw [hlow p hpj] at h; cases h
        · exact h
      -- complete as soon as the new range is complete
      have hcomp : (∀ s, g.newStorageStart ≤ s → s < g.storageEnd → e ∈ lists comps s) →
          Complete (lists comps) g e := by
        intro hnew s h1 h2
        by_cases h3 : g.newStorageStart ≤ s
        · exact hnew s h3 h2
        · rcases hst.chain j g hg with hc | ⟨i, gi, hij, hgi, h4, h5⟩
          · omega
          · exact (hpar i gi (by omega) hgi h4).complete hp hst hgi s (by omega) (by omega)
      have heq : ∀ st, groupLoop e (fuel + 1) m (comps, gs) =
          (match getGroupStatus ((comps.drop g.newStorageStart).take (g.storageEnd - g.newStorageStart)) g.len e with
            | .ok .incomplete => groupLoop e fuel (m' &&& g.skipMask) (comps, gs)
            | .ok .ungrouped => (groupComponents comps g e).bind fun r => groupLoop e fuel m' (r.1, gs.set j r.2)
            | .ok .grouped => groupLoop e fuel m' (comps, gs)
            | .panic => .panic
            | .ub => .ub) ∨ st := by
        intro st
        left
        rw [groupLoop]
        simp only [hb, hg, Res.unchecked_some, Res.bind_ok, compRange_ok (Nat.le_of_lt hbd.2.1) hbd.2.2]
        cases getGroupStatus ((comps.drop g.newStorageStart).take (g.storageEnd - g.newStorageStart)) g.len e with
        | ok st => cases st <;> rfl
        | panic => rfl
        | ub => rfl
      have heq := (heq False).resolve_right id
      rw [heq]
      rw [groupLoopPairs] at hv
      simp only [hb, hg, compRange_ok (Nat.le_of_lt hbd.2.1) hbd.2.2] at hv
      rcases getGroupStatus_spec hA hok hbd.2.1 hbd.2.2 g.len e with ⟨hs1, s, hs2, hs3, hs4⟩ | ⟨d, hd, hall, hs1⟩
      · -- incomplete
        rw [hs1]
        simp only [hs1] at hv
        simp only
        have hsk : ∀ k, (m' &&& g.skipMask).getLsbD k = true → m.getLsbD k = true ∧ k ≠ j ∧
            ∀ gk, gs[k]? = some gk → gk.storageStart ≠ g.storageStart := by
          intro k hk
          rw [BitVec.getLsbD_and, Bool.and_eq_true] at hk
          obtain ⟨h1, h2⟩ := hm'sub k hk.1
          refine ⟨h1, h2, fun gk hgk hfam => ?_⟩
          have h3 : j ≤ k := by
            by_contra hc
            rw [hlow k (by omega)] at h1
            cases h1
          have h4 := (hst.skip j k g gk hg hgk).2 ⟨h3, hfam⟩
          rw [h4] at hk
          exact absurd hk.2 (by simp)
        obtain ⟨comps', gs', h1, h2, h3, h4, h4b⟩ := ih (m' &&& g.skipMask) comps gs
          (Nat.le_trans (maskCard_and_le _ _) (by omega)) hok hst hp hv
          (fun k hk => hml k (hsk k hk).1) (by
            intro k p gk gp hk hpk hgk hgp hfam
            obtain ⟨h1, h2, h3⟩ := hsk k hk
            rcases hmo k p gk gp h1 hpk hgk hgp hfam with h4 | h4
            · by_cases hpj : p = j
              · subst hpj
                rw [hg] at hgp
                cases hgp
                exact absurd hfam.symm (h3 gk hgk)
              · left
                rw [BitVec.getLsbD_and, hm'mem p h4 hpj]
                simp only [Bool.true_and]
                by_contra hc
                have := (hst.skip j p g gp hg hgp).1 (by simpa using hc)
                exact h3 gk hgk (by rw [← hfam, this.2])
            · exact .inr h4)
        refine ⟨comps', gs', h1, h2, h3, ?_, fun k gk gk' hk hk' x hx =>
          (h4b k gk gk' hk hk' x hx).imp id fun h => ⟨h.1, (hsk k h.2).1⟩⟩
        intro k gk' hk hgk' hck
        obtain ⟨gk, hgk, hst'⟩ := h2.stat.get hgk'
        by_cases hfam : j ≤ k ∧ gk.storageStart = g.storageStart
        · -- not complete
          exfalso
          have hck' := (h2.vals.complete hok h2.ok hst' e).1 hck
          apply hs4
          apply hck' s (by omega)
          rcases Nat.lt_or_ge j k with hjk | hjk
          · have h5 := hst.nest j k g gk hjk hg hgk hfam.2.symm
            have h6 := hst.bounds k gk hgk
            omega
          · have : k = j := by omega
            subst this
            rw [hg] at hgk
            cases hgk
            exact hs3
        · apply h4 k gk' _ hgk' hck
          rw [BitVec.getLsbD_and, hm'mem k hk (fun hc => hfam (by
            subst hc
            rw [hg] at hgk
            cases hgk
            exact ⟨Nat.le_refl _, rfl⟩))]
          simp only [Bool.true_and]
          by_contra hc
          exact hfam ((hst.skip j k g gk hg hgk).1 (by simpa using hc))
      · have hc := hcomp hall
        by_cases hdl : d < g.len
        · -- grouped
          simp only [hs1, if_pos hdl] at hv
          rw [hs1, if_pos hdl]
          simp only
          have hin := inPrefix_of_pos hst hp hg hbd.1 hbd.2.1 hd hdl
          obtain ⟨comps', gs', h1, h2, h3, h4, h4b⟩ := ih m' comps gs (by omega) hok hst hp hv
            (fun k hk => hml k (hm'sub k hk).1) (by
              intro k p gk gp hk hpk hgk hgp hfam
              obtain ⟨h1, h2⟩ := hm'sub k hk
              by_cases hpj : p = j
              · subst hpj
                rw [hg] at hgp
                cases hgp
                exact .inr hin
              · rcases hmo k p gk gp h1 hpk hgk hgp hfam with h4 | h4
                · exact .inl (hm'mem p h4 hpj)
                · exact .inr h4)
          refine ⟨comps', gs', h1, h2, h3, ?_, fun k gk gk' hk hk' x hx =>
            (h4b k gk gk' hk hk' x hx).imp id fun h => ⟨h.1, (hm'sub k h.2).1⟩⟩
          intro k gk' hk hgk' hck
          by_cases hkj : k = j
          · subst hkj
            exact h3 k g gk' hg hgk' e hin
          · exact h4 k gk' (hm'mem k hk hkj) hgk' hck
        · -- ungrouped
          simp only [hs1, if_neg hdl] at hv
          rw [hs1, if_neg hdl]
          simp only
          have hnin : ¬ InPrefix (lists comps) g e := by
            rintro ⟨i, hi, hie⟩
            have h1 := hp.prefix_pos hst hg hi hie hbd.1 hbd.2.1
            exact hdl (by rw [← nodup_pos (hok.nodup _) h1 hd]; exact hi)
          obtain ⟨comps1, h1, h2, h3, h4⟩ := swapRange_ok hok (a := g.storageStart) (b := g.storageEnd) (q := g.len)
            (e := e) (by omega) hbd.2.2 hc (by
              intro s h1 h2
              obtain ⟨p, hpe⟩ := List.mem_iff_getElem?.1 (hc s h1 h2)
              have := pos_ge_len hok hst hp hg hnin h1 h2 hpe
              have := (List.getElem?_eq_some_iff.1 hpe).1
              omega) (fun pr hpr => hv pr (List.mem_append_left _ hpr))
          have hgc : groupComponents comps g e = .ok (comps1, { g with len := g.len + 1 }) := by
            unfold groupComponents
            unfold Entity.sparse
            rw [h1]
            rfl
          rw [hgc]
          simp only [hgc] at hv
          obtain ⟨h5, h6, h7⟩ := group_step hst hp hok.nodup hg hc hpar hnin h4
          have hss := SameStat.set hg (g.len + 1)
          have hgj : (gs.set j { g with len := g.len + 1 })[j]? = some { g with len := g.len + 1 } := by
            rw [Rep.set_index_get _ _ _ _ hjl, if_pos rfl]
          have hgk : ∀ k, k ≠ j → (gs.set j { g with len := g.len + 1 })[k]? = gs[k]? := by
            intro k hk
            rw [Rep.set_index_get _ _ _ _ hjl, if_neg hk]
          obtain ⟨comps', gs', h8, h9, h10, h11, h11b⟩ := ih m' comps1 (gs.set j { g with len := g.len + 1 }) (by omega) h2
            (by rw [h3.1]; exact hst.of_same hss) h5 (fun pr hpr => hv pr (List.mem_append_right _ hpr))
            (fun k hk => by rw [List.length_set]; exact hml k (hm'sub k hk).1) (by
              intro k p gk gp hk hpk hgk' hgp hfam
              obtain ⟨h1, h2⟩ := hm'sub k hk
              by_cases hpj : p = j
              · subst hpj
                rw [hgj] at hgp
                cases hgp
                exact .inr h7
              · rw [hgk k h2] at hgk'
                have hgp' := hgp
                rw [hgk p hpj] at hgp'
                rcases hmo k p gk gp h1 hpk hgk' hgp' hfam with h4 | h4
                · exact .inl (hm'mem p h4 hpj)
                · exact .inr (h6 p gp gp hgp' hgp e h4))
          refine ⟨comps', gs', h8, ⟨h9.ok, h3.trans h9.vals, hss.trans h9.stat, h9.packed⟩, ?_, ?_, ?_⟩
          · intro k gk gk' hk hk' x hx
            obtain ⟨gk1, h12, _⟩ := h9.stat.get hk'
            exact h10 k gk1 gk' h12 hk' x (h6 k gk gk1 hk h12 x hx)
          · intro k gk' hk hgk' hck
            by_cases hkj : k = j
            · subst hkj
              exact h10 k _ gk' hgj hgk' e h7
            · exact h11 k gk' (hm'mem k hk hkj) hgk' hck
          · intro k gk gk' hk hk' x hx
            obtain ⟨gk1, h12, _⟩ := h9.stat.get hk'
            rcases h11b k gk1 gk' h12 hk' x hx with h13 | ⟨h13, h14⟩
            · rcases group_step_back hst hp hok.nodup hg hc hpar hnin h4 hk h12 h13 with h15 | ⟨h15, rfl⟩
              · exact .inl h15
              · exact .inr ⟨h15, hjm⟩
            · exact .inr ⟨h13, (hm'sub k h14).1⟩

theorem group_ok {A : Entity → Prop} (hA : IdxUniq A) {e : Entity}
    {m : BitVec 64} {comps : List (CompSet V)} {gs : List Group}
    (hok : SetsOK A comps) (hst : GStat gs comps.length) (hp : Packed (lists comps) gs)
    (hv : EvenPairs (groupPairs (comps, gs) m e))
    (hml : ∀ j, m.getLsbD j = true → j < gs.length) (hmo : MaskOK (lists comps) gs m e) :
    ∃ comps' gs', group (comps, gs) m e = .ok (comps', gs') ∧ Regroup A comps gs comps' gs' ∧
      (∀ (k : Nat) (gk gk' : Group), gs[k]? = some gk → gs'[k]? = some gk' → ∀ x,
        InPrefix (lists comps) gk x → InPrefix (lists comps') gk' x) ∧
      (∀ (k : Nat) (gk' : Group), m.getLsbD k = true → gs'[k]? = some gk' →
        Complete (lists comps') gk' e → InPrefix (lists comps') gk' e) ∧
      (∀ (k : Nat) (gk gk' : Group), gs[k]? = some gk → gs'[k]? = some gk' → ∀ x,
        InPrefix (lists comps') gk' x → InPrefix (lists comps) gk x ∨ (x = e ∧ m.getLsbD k = true)) :=
  groupLoop_ok hA 64 m comps gs (maskCard_le m) hok hst hp hv hml hmo

/-! ### `ungroup` -/

theorem ungroupStep_ok {A : Entity → Prop} (hA : IdxUniq A) {e : Entity} {j : Nat} {g : Group}
    {comps : List (CompSet V)} {gs : List Group}
    (hok : SetsOK A comps) (hst : GStat gs comps.length) (hp : Packed (lists comps) gs)
    (hv : EvenPairs (ungroupStepPairs e j (comps, gs))) (hg : gs[j]? = some g)
    (hup : ∀ (k : Nat) (gk : Group), j < k → gs[k]? = some gk → gk.storageStart = g.storageStart →
      ¬ InPrefix (lists comps) gk e) :
    ∃ comps' gs', ungroupStep e j (comps, gs) = .ok (comps', gs') ∧ Regroup A comps gs comps' gs' ∧
      (∀ (k : Nat) (gk gk' : Group), gs[k]? = some gk → gs'[k]? = some gk' → ∀ x, k ≠ j ∨ x ≠ e →
        (InPrefix (lists comps') gk' x ↔ InPrefix (lists comps) gk x)) ∧
      (∀ (gk' : Group), gs'[j]? = some gk' → ¬ InPrefix (lists comps') gk' e) := by
  have hbd := hst.bounds j g hg
  have hjl : j < gs.length := (List.getElem?_eq_some_iff.1 hg).1
  have keep : ¬ InPrefix (lists comps) g e →
      ∃ comps' gs', (Res.ok (comps, gs) : Res (Sets V)) = .ok (comps', gs') ∧ Regroup A comps gs comps' gs' ∧
      (∀ (k : Nat) (gk gk' : Group), gs[k]? = some gk → gs'[k]? = some gk' → ∀ x, k ≠ j ∨ x ≠ e →
        (InPrefix (lists comps') gk' x ↔ InPrefix (lists comps) gk x)) ∧
      (∀ (gk' : Group), gs'[j]? = some gk' → ¬ InPrefix (lists comps') gk' e) := by
    intro hn
    refine ⟨comps, gs, rfl, ⟨hok, .refl _, .refl _, hp⟩, ?_, ?_⟩
    · intro k gk gk' h1 h2 x _
      rw [h1] at h2; cases h2; exact Iff.rfl
    · intro gk' h1
      rw [hg] at h1; cases h1; exact hn
  unfold ungroupStepPairs at hv
  simp only [hg, compRange_ok (Nat.le_of_lt hbd.2.1) hbd.2.2] at hv
  unfold ungroupStep
  simp only [hg, Res.unchecked_some, Res.bind_ok, compRange_ok (Nat.le_of_lt hbd.2.1) hbd.2.2]
  rcases getGroupStatus_spec hA hok hbd.2.1 hbd.2.2 g.len e with ⟨hs1, s, hs2, hs3, hs4⟩ | ⟨d, hd, hall, hs1⟩
  · rw [hs1]
    simp only [Res.bind_ok, Res.pure_eq]
    exact keep (fun hin => hs4 (hin.complete hp hst hg s (by omega) hs3))
  · by_cases hdl : d < g.len
    · simp only [hs1, if_pos hdl] at hv
      rw [hs1, if_pos hdl]
      simp only [Res.bind_ok, Res.pure_eq]
      have hin := inPrefix_of_pos hst hp hg hbd.1 hbd.2.1 hd hdl
      have hc := hin.complete hp hst hg
      obtain ⟨comps1, h1, h2, h3, h4⟩ := swapRange_ok hok (a := g.storageStart) (b := g.storageEnd)
        (q := g.len - 1) (e := e) (by omega) hbd.2.2 hc (by
          intro s h1 h2
          have := hp.len_le hok hst hg h1 h2
          omega) hv
      have hgc : ungroupComponents comps g e = .ok (comps1, { g with len := g.len - 1 }) := by
        unfold ungroupComponents
        rw [if_neg (by omega)]
        unfold Entity.sparse
        rw [h1]
        rfl
      rw [hgc]
      obtain ⟨h5, h6, h7⟩ := ungroup_step hst hp hok.nodup hg hin hup h4
      refine ⟨comps1, gs.set j { g with len := g.len - 1 }, rfl, ⟨h2, h3, SameStat.set hg _, h5⟩, h6, ?_⟩
      intro gk' hgk'
      rw [Rep.set_index_get _ _ _ _ hjl, if_pos rfl] at hgk'
      cases hgk'
      exact h7
    · rw [hs1, if_neg hdl]
      simp only [Res.bind_ok, Res.pure_eq]
      refine keep ?_
      rintro ⟨i, hi, hie⟩
      have h1 := hp.prefix_pos hst hg hi hie hbd.1 hbd.2.1
      exact hdl (by rw [← nodup_pos (hok.nodup _) h1 hd]; exact hi)

/-- Precondition of the `ungroup` loop: with a group all larger groups of its family are still to be visited or do
not contain `e`. -/
def UpOK (L : Nat → List Entity) (gs : List Group) (m : BitVec 64) (e : Entity) : Prop :=
  ∀ (j k : Nat) (gj gk : Group), m.getLsbD j = true → j < k → gs[j]? = some gj → gs[k]? = some gk →
    gk.storageStart = gj.storageStart → m.getLsbD k = true ∨ ¬ InPrefix L gk e

theorem ungroupLoop_ok {A : Entity → Prop} (hA : IdxUniq A) {e : Entity} :
    ∀ (fuel : Nat) (m : BitVec 64) (comps : List (CompSet V)) (gs : List Group), maskCard m ≤ fuel →
    SetsOK A comps → GStat gs comps.length → Packed (lists comps) gs →
    EvenPairs (ungroupLoopPairs e fuel m (comps, gs)) →
    (∀ j, m.getLsbD j = true → j < gs.length) → UpOK (lists comps) gs m e →
    ∃ comps' gs', ungroupLoop e fuel m (comps, gs) = .ok (comps', gs') ∧ Regroup A comps gs comps' gs' ∧
      (∀ (k : Nat) (gk gk' : Group), gs[k]? = some gk → gs'[k]? = some gk' → ∀ x,
        m.getLsbD k = false ∨ x ≠ e → (InPrefix (lists comps') gk' x ↔ InPrefix (lists comps) gk x)) ∧
      (∀ (k : Nat) (gk' : Group), m.getLsbD k = true → gs'[k]? = some gk' →
        ¬ InPrefix (lists comps') gk' e) := by
  intro fuel
  induction fuel with
  | zero =>
    intro m comps gs hf hok hst hp hv hml hmo
    have hm : m = 0#64 := maskCard_zero hf
    subst hm
    refine ⟨comps, gs, ?_, ⟨hok, .refl _, .refl _, hp⟩, ?_, by simp⟩
    · unfold ungroupLoop
      rw [bitNextBack_none.2 rfl]
    · intro k gk gk' h1 h2 x _
      rw [h1] at h2; cases h2; exact Iff.rfl
  | succ fuel ih =>
    intro m comps gs hf hok hst hp hv hml hmo
    cases hb : bitNextBack m with
    | none =>
      have hm := bitNextBack_none.1 hb
      subst hm
      refine ⟨comps, gs, ?_, ⟨hok, .refl _, .refl _, hp⟩, ?_, by simp⟩
      · unfold ungroupLoop
        rw [hb]
      · intro k gk gk' h1 h2 x _
        rw [h1] at h2; cases h2; exact Iff.rfl
    | some r =>
      obtain ⟨j, m'⟩ := r
      obtain ⟨hj64, hjm, hhigh, hm'⟩ := bitNextBack_some hb
      have hcard := maskCard_clear hj64 hjm hm'
      have hjl := hml j hjm
      have hg := List.getElem?_eq_getElem hjl
      generalize hgd : gs[j] = g at hg
      have hm'sub : ∀ k, m'.getLsbD k = true → m.getLsbD k = true ∧ k ≠ j := by
        intro k hk
        rw [hm', Bool.and_eq_true] at hk
        exact ⟨hk.1, by simpa using hk.2⟩
      have hm'mem : ∀ k, m.getLsbD k = true → k ≠ j → m'.getLsbD k = true := by
        intro k hk hne
        rw [hm', hk]
        simp [hne]
      unfold ungroupLoopPairs at hv
      simp only [hb] at hv
      obtain ⟨comps1, gs1, h1, h2, h3, h4⟩ := ungroupStep_ok hA hok hst hp
        (fun pr hpr => hv pr (List.mem_append_left _ hpr)) hg (e := e) (by
        intro k gk hjk hgk hfam
        rcases hmo j k g gk hjm hjk hg hgk hfam with h | h
        · rw [hhigh k hjk] at h; cases h
        · exact h)
      simp only [h1] at hv
      obtain ⟨comps', gs', h5, h6, h7, h8⟩ := ih m' comps1 gs1 (by omega) h2.ok
        (by rw [h2.vals.1]; exact hst.of_same h2.stat) h2.packed
        (fun pr hpr => hv pr (List.mem_append_right _ hpr))
        (fun k hk => by rw [h2.stat.length]; exact hml k (hm'sub k hk).1) (by
          intro i k gi gk hi hik hgi hgk hfam
          obtain ⟨h5, h6⟩ := hm'sub i hi
          obtain ⟨gi0, h7, h8⟩ := h2.stat.get hgi
          obtain ⟨gk0, h9, h10⟩ := h2.stat.get hgk
          by_cases hkj : k = j
          · subst hkj
            exact .inr (h4 gk hgk)
          · rcases hmo i k gi0 gk0 h5 hik h7 h9 (by
              rw [← Group.stat_start h8, ← Group.stat_start h10]; exact hfam) with h | h
            · exact .inl (hm'mem k h hkj)
            · exact .inr (fun hc => h ((h3 k gk0 gk h9 hgk e (.inl hkj)).1 hc)))
      refine ⟨comps', gs', ?_, ⟨h6.ok, h2.vals.trans h6.vals, h2.stat.trans h6.stat, h6.packed⟩, ?_, ?_⟩
      · unfold ungroupLoop
        simp only [hb, h1, Res.bind_ok]
        exact h5
      · intro k gk gk' hk hk' x hx
        obtain ⟨gk1, h9, _⟩ := h6.stat.get hk'
        rw [h7 k gk1 gk' h9 hk' x (by
          rcases hx with hx | hx
          · left; rw [hm', hx]; rfl
          · exact .inr hx)]
        refine h3 k gk gk1 hk h9 x ?_
        rcases hx with hx | hx
        · left
          intro hc
          subst hc
          rw [hjm] at hx
          cases hx
        · exact .inr hx
      · intro k gk' hk hk'
        by_cases hkj : k = j
        · subst hkj
          obtain ⟨gk1, h9, _⟩ := h6.stat.get hk'
          rw [h7 k gk1 gk' h9 hk' e (.inl (by rw [hm']; simp))]
          exact h4 gk1 h9
        · exact h8 k gk' (hm'mem k hk hkj) hk'

theorem ungroup_ok {A : Entity → Prop} (hA : IdxUniq A) {e : Entity}
    {m : BitVec 64} {comps : List (CompSet V)} {gs : List Group}
    (hok : SetsOK A comps) (hst : GStat gs comps.length) (hp : Packed (lists comps) gs)
    (hv : EvenPairs (ungroupPairs (comps, gs) m e))
    (hml : ∀ j, m.getLsbD j = true → j < gs.length) (hmo : UpOK (lists comps) gs m e) :
    ∃ comps' gs', ungroup (comps, gs) m e = .ok (comps', gs') ∧ Regroup A comps gs comps' gs' ∧
      (∀ (k : Nat) (gk gk' : Group), gs[k]? = some gk → gs'[k]? = some gk' → ∀ x,
        m.getLsbD k = false ∨ x ≠ e → (InPrefix (lists comps') gk' x ↔ InPrefix (lists comps) gk x)) ∧
      (∀ (k : Nat) (gk' : Group), m.getLsbD k = true → gs'[k]? = some gk' →
        ¬ InPrefix (lists comps') gk' e) :=
  ungroupLoop_ok hA 64 m comps gs (maskCard_le m) hok hst hp hv hml hmo

theorem ungroupAllLoop_ok {A : Entity → Prop} (hA : IdxUniq A) {e : Entity} :
    ∀ (n : Nat) (comps : List (CompSet V)) (gs : List Group), n ≤ gs.length →
    SetsOK A comps → GStat gs comps.length → Packed (lists comps) gs →
    EvenPairs (ungroupAllLoopPairs e n (comps, gs)) →
    (∀ (k : Nat) (gk : Group), n ≤ k → gs[k]? = some gk → ¬ InPrefix (lists comps) gk e) →
    ∃ comps' gs', ungroupAllLoop e n (comps, gs) = .ok (comps', gs') ∧ Regroup A comps gs comps' gs' ∧
      (∀ (k : Nat) (gk gk' : Group), gs[k]? = some gk → gs'[k]? = some gk' → ∀ x, x ≠ e →
        (InPrefix (lists comps') gk' x ↔ InPrefix (lists comps) gk x)) ∧
      (∀ (k : Nat) (gk' : Group), gs'[k]? = some gk' → ¬ InPrefix (lists comps') gk' e) := by
  intro n
  induction n with
  | zero =>
    intro comps gs hn hok hst hp hv hup
    refine ⟨comps, gs, rfl, ⟨hok, .refl _, .refl _, hp⟩, ?_, fun k gk' h => hup k gk' (by omega) h⟩
    intro k gk gk' h1 h2 x _
    rw [h1] at h2; cases h2; exact Iff.rfl
  | succ n ih =>
    intro comps gs hn hok hst hp hv hup
    have hg := List.getElem?_eq_getElem (show n < gs.length by omega)
    generalize hgd : gs[n] = g at hg
    unfold ungroupAllLoopPairs at hv
    obtain ⟨comps1, gs1, h1, h2, h3, h4⟩ := ungroupStep_ok hA hok hst hp
      (fun pr hpr => hv pr (List.mem_append_left _ hpr)) hg (e := e)
      (fun k gk hjk hgk _ => hup k gk (by omega) hgk)
    simp only [h1] at hv
    obtain ⟨comps', gs', h5, h6, h7, h8⟩ := ih comps1 gs1 (by rw [h2.stat.length]; omega) h2.ok
      (by rw [h2.vals.1]; exact hst.of_same h2.stat) h2.packed
      (fun pr hpr => hv pr (List.mem_append_right _ hpr)) (by
        intro k gk hk hgk
        by_cases hkn : k = n
        · subst hkn; exact h4 gk hgk
        · obtain ⟨gk0, h9, _⟩ := h2.stat.get hgk
          rw [h3 k gk0 gk h9 hgk e (.inl hkn)]
          exact hup k gk0 (by omega) h9)
    refine ⟨comps', gs', ?_, ⟨h6.ok, h2.vals.trans h6.vals, h2.stat.trans h6.stat, h6.packed⟩, ?_, h8⟩
    · unfold ungroupAllLoop
      rw [h1]
      exact h5
    · intro k gk gk' hk hk' x hx
      obtain ⟨gk1, h9, _⟩ := h6.stat.get hk'
      rw [h7 k gk1 gk' h9 hk' x hx]
      exact h3 k gk gk1 hk h9 x (.inr hx)

theorem ungroupAll_ok {A : Entity → Prop} (hA : IdxUniq A) {e : Entity}
    {comps : List (CompSet V)} {gs : List Group}
    (hok : SetsOK A comps) (hst : GStat gs comps.length) (hp : Packed (lists comps) gs)
    (hv : EvenPairs (ungroupAllPairs (comps, gs) e)) :
    ∃ comps' gs', ungroupAll (comps, gs) e = .ok (comps', gs') ∧ Regroup A comps gs comps' gs' ∧
      (∀ (k : Nat) (gk gk' : Group), gs[k]? = some gk → gs'[k]? = some gk' → ∀ x, x ≠ e →
        (InPrefix (lists comps') gk' x ↔ InPrefix (lists comps) gk x)) ∧
      (∀ (k : Nat) (gk' : Group), gs'[k]? = some gk' → ¬ InPrefix (lists comps') gk' e) :=
  ungroupAllLoop_ok hA gs.length comps gs (Nat.le_refl _) hok hst hp hv (fun k gk hk hgk => by
    have := (List.getElem?_eq_some_iff.1 hgk).1
    omega)

end Sparsey
