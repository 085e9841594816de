import Verif.Model.Storage
import Verif.Proofs.CompSet
import Verif.Proofs.Mask

/-!
Invariants of the grouped part of the storage and the loops `group`, `ungroup`, `ungroup_all`.

The dense entity lists are viewed as a function `L` from storage indexes to lists.
-/

set_option autoImplicit false
set_option linter.unusedSimpArgs false

namespace Sparsey
variable {V : Type}

/-- The dense entities of the set at storage index `s`. -/
def lists (comps : List (CompSet V)) (s : Nat) : List Entity := ((comps[s]?).map (·.entities)).getD []

theorem lists_some {comps : List (CompSet V)} {s : Nat} {c : CompSet V} (h : comps[s]? = some c) :
    lists comps s = c.entities := by
  simp [lists, h]

theorem lists_none {comps : List (CompSet V)} {s : Nat} (h : comps.length ≤ s) : lists comps s = [] := by
  simp [lists, List.getElem?_eq_none h]

/-- Static structure of the groups of a storage with `n` sets. Two groups are in the same family when their
ranges have the same start. -/
structure GStat (gs : List Group) (n : Nat) : Prop where
  count : gs.length < 64
  bounds : ∀ (j : Nat) (g : Group), gs[j]? = some g →
    g.storageStart ≤ g.newStorageStart ∧ g.newStorageStart < g.storageEnd ∧ g.storageEnd ≤ n
  sep : ∀ (i j : Nat) (gi gj : Group), i < j → gs[i]? = some gi → gs[j]? = some gj →
    gi.storageStart ≠ gj.storageStart → gi.storageEnd ≤ gj.storageStart
  nest : ∀ (i j : Nat) (gi gj : Group), i < j → gs[i]? = some gi → gs[j]? = some gj →
    gi.storageStart = gj.storageStart → gi.storageEnd ≤ gj.newStorageStart
  chain : ∀ (j : Nat) (gj : Group), gs[j]? = some gj → gj.newStorageStart = gj.storageStart ∨
    ∃ (i : Nat) (gi : Group), i + 1 = j ∧ gs[i]? = some gi ∧ gi.storageStart = gj.storageStart ∧
      gi.storageEnd = gj.newStorageStart
  skip : ∀ (j k : Nat) (gj gk : Group), gs[j]? = some gj → gs[k]? = some gk →
    (gj.skipMask.getLsbD k = false ↔ j ≤ k ∧ gk.storageStart = gj.storageStart)
  arity : ∀ (j : Nat) (g : Group), gs[j]? = some g → g.storageEnd - g.storageStart < 16
  inc : ∀ (j : Nat) (g : Group), gs[j]? = some g → g.includeMask.excludeMask = 0#16 ∧
    ∀ b < 16, g.includeMask.includeMask.getLsbD b = decide (b < g.storageEnd - g.storageStart)
  exc : ∀ (j : Nat) (g : Group), gs[j]? = some g →
    (∀ b < 16, g.excludeMask.includeMask.getLsbD b = decide (b < g.newStorageStart - g.storageStart)) ∧
    ∀ b < 16, g.excludeMask.excludeMask.getLsbD b =
      decide (g.newStorageStart - g.storageStart ≤ b ∧ b < g.storageEnd - g.storageStart)

/-- The part of a group that never changes. -/
def Group.stat (g : Group) : Group := { g with len := 0 }

/-- Same groups up to their lengths. -/
def SameStat (gs gs' : List Group) : Prop := gs'.map Group.stat = gs.map Group.stat

theorem SameStat.refl (gs : List Group) : SameStat gs gs := rfl

theorem SameStat.trans {a b c : List Group} (h : SameStat a b) (h' : SameStat b c) : SameStat a c := by
  unfold SameStat at *
  rw [h', h]

theorem SameStat.symm {a b : List Group} (h : SameStat a b) : SameStat b a := Eq.symm h

theorem SameStat.length {a b : List Group} (h : SameStat a b) : b.length = a.length := by
  have := congrArg List.length h
  simpa using this

theorem SameStat.get {a b : List Group} (h : SameStat a b) {j : Nat} {g : Group} (hg : b[j]? = some g) :
    ∃ g', a[j]? = some g' ∧ g.stat = g'.stat := by
  have h1 : (b.map Group.stat)[j]? = some g.stat := by simp [hg]
  rw [h] at h1
  simp only [List.getElem?_map, Option.map_eq_some_iff] at h1
  obtain ⟨g', h2, h3⟩ := h1
  exact ⟨g', h2, h3.symm⟩

theorem SameStat.set {gs : List Group} {j : Nat} {g : Group} (hg : gs[j]? = some g) (n : Nat) :
    SameStat gs (gs.set j { g with len := n }) := by
  unfold SameStat
  rw [List.map_set]
  apply List.ext_getElem?
  intro k
  have hj : j < (gs.map Group.stat).length := by simpa using (List.getElem?_eq_some_iff.1 hg).1
  rw [Rep.set_index_get _ _ _ _ hj]
  split
  · rename_i h; subst h
    simp [hg, Group.stat]
  · rfl

theorem Group.stat_start {g g' : Group} (h : g.stat = g'.stat) : g.storageStart = g'.storageStart :=
  show g.stat.storageStart = g'.stat.storageStart by rw [h]
theorem Group.stat_newStart {g g' : Group} (h : g.stat = g'.stat) : g.newStorageStart = g'.newStorageStart :=
  show g.stat.newStorageStart = g'.stat.newStorageStart by rw [h]
theorem Group.stat_end {g g' : Group} (h : g.stat = g'.stat) : g.storageEnd = g'.storageEnd :=
  show g.stat.storageEnd = g'.stat.storageEnd by rw [h]
theorem Group.stat_skip {g g' : Group} (h : g.stat = g'.stat) : g.skipMask = g'.skipMask :=
  show g.stat.skipMask = g'.stat.skipMask by rw [h]

theorem Group.stat_inc {g g' : Group} (h : g.stat = g'.stat) : g.includeMask = g'.includeMask :=
  show g.stat.includeMask = g'.stat.includeMask by rw [h]
theorem Group.stat_exc {g g' : Group} (h : g.stat = g'.stat) : g.excludeMask = g'.excludeMask :=
  show g.stat.excludeMask = g'.stat.excludeMask by rw [h]

theorem GStat.of_same {gs gs' : List Group} {n : Nat} (h : GStat gs n) (hs : SameStat gs gs') : GStat gs' n where
  count := by rw [hs.length]; exact h.count
  bounds j g hg := by
    obtain ⟨g', h1, h2⟩ := hs.get hg
    have := h.bounds j g' h1
    rw [Group.stat_start h2, Group.stat_newStart h2, Group.stat_end h2]
    exact this
  sep i j gi gj hij hi hj := by
    obtain ⟨gi', h1, h2⟩ := hs.get hi
    obtain ⟨gj', h3, h4⟩ := hs.get hj
    rw [Group.stat_start h2, Group.stat_start h4, Group.stat_end h2]
    exact h.sep i j gi' gj' hij h1 h3
  nest i j gi gj hij hi hj := by
    obtain ⟨gi', h1, h2⟩ := hs.get hi
    obtain ⟨gj', h3, h4⟩ := hs.get hj
    rw [Group.stat_start h2, Group.stat_start h4, Group.stat_end h2, Group.stat_newStart h4]
    exact h.nest i j gi' gj' hij h1 h3
  chain j gj hj := by
    obtain ⟨gj', h3, h4⟩ := hs.get hj
    rw [Group.stat_start h4, Group.stat_newStart h4]
    rcases h.chain j gj' h3 with hc | ⟨i, gi, hij, hi, h5, h6⟩
    · exact .inl hc
    · obtain ⟨gi', h7, h8⟩ := hs.symm.get hi
      exact .inr ⟨i, gi', hij, h7, by rw [← Group.stat_start h8]; exact h5, by rw [← Group.stat_end h8]; exact h6⟩
  skip j k gj gk hj hk := by
    obtain ⟨gj', h1, h2⟩ := hs.get hj
    obtain ⟨gk', h3, h4⟩ := hs.get hk
    rw [Group.stat_start h2, Group.stat_start h4, Group.stat_skip h2]
    exact h.skip j k gj' gk' h1 h3
  arity j g hg := by
    obtain ⟨g', h1, h2⟩ := hs.get hg
    rw [Group.stat_start h2, Group.stat_end h2]
    exact h.arity j g' h1
  inc j g hg := by
    obtain ⟨g', h1, h2⟩ := hs.get hg
    rw [Group.stat_start h2, Group.stat_end h2, Group.stat_inc h2]
    exact h.inc j g' h1
  exc j g hg := by
    obtain ⟨g', h1, h2⟩ := hs.get hg
    rw [Group.stat_start h2, Group.stat_end h2, Group.stat_newStart h2, Group.stat_exc h2]
    exact h.exc j g' h1

theorem GStat.mono {gs : List Group} {n n' : Nat} (h : GStat gs n) (hn : n ≤ n') : GStat gs n' :=
  { h with bounds := fun j g hg => by have := h.bounds j g hg; omega }

/-- Ranges of different families are disjoint. -/
theorem GStat.disjoint {gs : List Group} {n : Nat} (h : GStat gs n) {i j : Nat} {gi gj : Group}
    (hi : gs[i]? = some gi) (hj : gs[j]? = some gj) (hne : gi.storageStart ≠ gj.storageStart) {s : Nat}
    (h1 : gi.storageStart ≤ s) (h2 : s < gi.storageEnd) (h3 : gj.storageStart ≤ s) (h4 : s < gj.storageEnd) :
    False := by
  rcases Nat.lt_trichotomy i j with hij | hij | hij
  · have := h.sep i j gi gj hij hi hj hne; omega
  · subst hij
    rw [hi] at hj
    cases hj
    exact hne rfl
  · have := h.sep j i gj gi hij hj hi (Ne.symm hne); omega

/-- The first `len` entities of all sets of a group agree; nested groups are prefixes of each other. -/
structure Packed (L : Nat → List Entity) (gs : List Group) : Prop where
  aligned : ∀ (j : Nat) (g : Group), gs[j]? = some g → ∀ i < g.len,
    ∃ e, ∀ s, g.storageStart ≤ s → s < g.storageEnd → (L s)[i]? = some e
  nested : ∀ (i j : Nat) (gi gj : Group), i < j → gs[i]? = some gi → gs[j]? = some gj →
    gi.storageStart = gj.storageStart → gj.len ≤ gi.len

/-- `e` is in the packed part of group `g`. -/
def InPrefix (L : Nat → List Entity) (g : Group) (e : Entity) : Prop :=
  ∃ i < g.len, (L g.storageStart)[i]? = some e

/-- `e` has all component types of group `g`. -/
def Complete (L : Nat → List Entity) (g : Group) (e : Entity) : Prop :=
  ∀ s, g.storageStart ≤ s → s < g.storageEnd → e ∈ L s

theorem Packed.prefix_pos {L : Nat → List Entity} {gs : List Group} {n : Nat} (hp : Packed L gs)
    (hs : GStat gs n) {j : Nat} {g : Group} (hg : gs[j]? = some g) {i : Nat} {e : Entity} (hi : i < g.len)
    (he : (L g.storageStart)[i]? = some e) {s : Nat} (h1 : g.storageStart ≤ s) (h2 : s < g.storageEnd) :
    (L s)[i]? = some e := by
  obtain ⟨x, hx⟩ := hp.aligned j g hg i hi
  have hb := hs.bounds j g hg
  have := hx g.storageStart (Nat.le_refl _) (by omega)
  rw [he] at this
  rw [hx s h1 h2, this]

theorem InPrefix.complete {L : Nat → List Entity} {gs : List Group} {n : Nat} (hp : Packed L gs)
    (hs : GStat gs n) {j : Nat} {g : Group} (hg : gs[j]? = some g) {e : Entity} (h : InPrefix L g e) :
    Complete L g e := by
  obtain ⟨i, hi, he⟩ := h
  intro s h1 h2
  exact List.mem_of_getElem? (hp.prefix_pos hs hg hi he h1 h2)

/-- `e` moved to position `q` in the lists `a ≤ s < b` (swapped with the entity there). -/
def Moved (L L' : Nat → List Entity) (a b q : Nat) (e : Entity) : Prop :=
  (∀ s, a ≤ s → s < b → ∃ p : Nat, (L s)[p]? = some e ∧ q < (L s).length ∧
    ∀ i : Nat, (L' s)[i]? = if i = q then some e else if i = p then (L s)[q]? else (L s)[i]?) ∧
  (∀ s, ¬ (a ≤ s ∧ s < b) → L' s = L s)

theorem nodup_pos {l : List Entity} (h : l.Nodup) {a b : Nat} {e : Entity} (ha : l[a]? = some e)
    (hb : l[b]? = some e) : a = b := by
  obtain ⟨h1, h2⟩ := List.getElem?_eq_some_iff.1 ha
  obtain ⟨h3, h4⟩ := List.getElem?_eq_some_iff.1 hb
  exact (List.Nodup.getElem_inj_iff h).1 (h2.trans h4.symm)


section Steps
variable {L L' : Nat → List Entity} {gs : List Group} {n j : Nat} {g : Group} {e : Entity}

/-- Adding `e` to the packed part of group `j`, the step of `group`. -/
theorem group_step (hs : GStat gs n) (hp : Packed L gs) (hnd : ∀ s, (L s).Nodup) (hg : gs[j]? = some g)
    (hc : Complete L g e) (hpar : ∀ (p : Nat) (gp : Group), p < j → gs[p]? = some gp →
      gp.storageStart = g.storageStart → InPrefix L gp e) (hn : ¬ InPrefix L g e)
    (hm : Moved L L' g.storageStart g.storageEnd g.len e) :
    Packed L' (gs.set j { g with len := g.len + 1 }) ∧
    (∀ (k : Nat) (gk gk' : Group), gs[k]? = some gk → (gs.set j { g with len := g.len + 1 })[k]? = some gk' →
      ∀ x, InPrefix L gk x → InPrefix L' gk' x) ∧
    InPrefix L' { g with len := g.len + 1 } e := by
  have hb := hs.bounds j g hg
  have hjl : j < gs.length := (List.getElem?_eq_some_iff.1 hg).1
  -- position of `e`: at least `g.len` everywhere in the range
  have hpos : ∀ s p, g.storageStart ≤ s → s < g.storageEnd → (L s)[p]? = some e → g.len ≤ p := by
    intro s p h1 h2 h3
    by_contra hlt
    obtain ⟨x, hx⟩ := hp.aligned j g hg p (by omega)
    have := hx s h1 h2
    rw [h3] at this
    cases this
    exact hn ⟨p, by omega, hx _ (Nat.le_refl _) (by omega)⟩
  have hget : ∀ (k : Nat) (gk' : Group), (gs.set j { g with len := g.len + 1 })[k]? = some gk' →
      (k = j ∧ gk' = { g with len := g.len + 1 }) ∨ (k ≠ j ∧ gs[k]? = some gk') := by
    intro k gk' h
    rw [Rep.set_index_get _ _ _ _ hjl] at h
    split at h
    · rename_i hk; exact .inl ⟨hk, by simpa using h.symm⟩
    · rename_i hk; exact .inr ⟨hk, h⟩
  -- other families
  have hother : ∀ (k : Nat) (gk : Group), gs[k]? = some gk → gk.storageStart ≠ g.storageStart →
      ∀ s, gk.storageStart ≤ s → s < gk.storageEnd → L' s = L s := by
    intro k gk hk hne s h1 h2
    apply hm.2
    rintro ⟨h3, h4⟩
    exact hs.disjoint hk hg hne h1 h2 h3 h4
  -- positions below `g.len`
  have hlow : ∀ s, g.storageStart ≤ s → s < g.storageEnd → ∀ i < g.len, (L' s)[i]? = (L s)[i]? := by
    intro s h1 h2 i hi
    obtain ⟨p, h3, h4, h5⟩ := hm.1 s h1 h2
    have := hpos s p h1 h2 h3
    rw [h5, if_neg (by omega), if_neg (by omega)]
  -- aligned, for each group, and prefix membership
  have key : ∀ (k : Nat) (gk : Group), k ≠ j → gs[k]? = some gk →
      (∀ i < gk.len, ∃ x, ∀ s, gk.storageStart ≤ s → s < gk.storageEnd → (L' s)[i]? = some x) ∧
      (∀ x, InPrefix L gk x → InPrefix L' gk x) ∧
      (k < j → gk.storageStart = g.storageStart → g.len + 1 ≤ gk.len) := by
    intro k gk hkj hk
    have hbk := hs.bounds k gk hk
    by_cases hfam : gk.storageStart = g.storageStart
    · rcases Nat.lt_or_ge k j with hlt | hge
      · have hnest := hs.nest k j gk g hlt hk hg hfam
        obtain ⟨d, hd, hde⟩ := hpar k gk hlt hk hfam
        have hdp := fun s h1 h2 => hp.prefix_pos hs hk hd hde (s := s) h1 h2
        have hdl : g.len ≤ d := hpos gk.storageStart d (by omega) (by omega) hde
        have hL' : ∀ s, gk.storageStart ≤ s → s < gk.storageEnd → ∀ i : Nat,
            (L' s)[i]? = if i = g.len then some e else if i = d then (L s)[g.len]? else (L s)[i]? := by
          intro s h1 h2 i
          obtain ⟨p, h3, h4, h5⟩ := hm.1 s (by omega) (by omega)
          have := nodup_pos (hnd s) h3 (hdp s h1 h2)
          subst this
          exact h5 i
        refine ⟨fun i hi => ?_, ?_, fun _ _ => by omega⟩
        · by_cases h1 : i = g.len
          · exact ⟨e, fun s h2 h3 => by rw [hL' s h2 h3, if_pos h1]⟩
          · by_cases h2 : i = d
            · obtain ⟨x, hx⟩ := hp.aligned k gk hk g.len (by omega)
              exact ⟨x, fun s h3 h4 => by rw [hL' s h3 h4, if_neg h1, if_pos h2, hx s h3 h4]⟩
            · obtain ⟨x, hx⟩ := hp.aligned k gk hk i hi
              exact ⟨x, fun s h3 h4 => by rw [hL' s h3 h4, if_neg h1, if_neg h2, hx s h3 h4]⟩
        · rintro x ⟨i, hi, hx⟩
          have hst := hL' gk.storageStart (Nat.le_refl _) (by omega)
          by_cases h1 : i = g.len
          · refine ⟨d, hd, ?_⟩
            rw [hst]
            by_cases h2 : d = g.len
            · rw [if_pos h2]
              rw [h1, ← h2, hde] at hx
              exact hx
            · rw [if_neg h2, if_pos rfl, ← h1, hx]
          · by_cases h2 : i = d
            · refine ⟨g.len, by omega, ?_⟩
              rw [hst, if_pos rfl]
              rw [h2, hde] at hx
              exact hx
            · exact ⟨i, hi, by rw [hst, if_neg h1, if_neg h2, hx]⟩
      · have hlt : j < k := by omega
        have hle := hp.nested j k g gk hlt hg hk hfam.symm
        have hnest := hs.nest j k g gk hlt hg hk hfam.symm
        have hL' : ∀ s, gk.storageStart ≤ s → s < gk.storageEnd → ∀ i < gk.len, (L' s)[i]? = (L s)[i]? := by
          intro s h1 h2 i hi
          by_cases h3 : s < g.storageEnd
          · exact hlow s (by omega) h3 i (by omega)
          · rw [hm.2 s (by omega)]
        refine ⟨fun i hi => ?_, ?_, fun h => absurd h (by omega)⟩
        · obtain ⟨x, hx⟩ := hp.aligned k gk hk i hi
          exact ⟨x, fun s h3 h4 => by rw [hL' s h3 h4 i hi, hx s h3 h4]⟩
        · rintro x ⟨i, hi, hx⟩
          exact ⟨i, hi, by rw [hL' _ (Nat.le_refl _) (by omega) i hi, hx]⟩
    · have hL' := hother k gk hk hfam
      refine ⟨fun i hi => ?_, ?_, fun _ h => absurd h hfam⟩
      · obtain ⟨x, hx⟩ := hp.aligned k gk hk i hi
        exact ⟨x, fun s h3 h4 => by rw [hL' s h3 h4, hx s h3 h4]⟩
      · rintro x ⟨i, hi, hx⟩
        exact ⟨i, hi, by rw [hL' _ (Nat.le_refl _) (by omega), hx]⟩
  have hself : ∀ s, g.storageStart ≤ s → s < g.storageEnd → (L' s)[g.len]? = some e := by
    intro s h1 h2
    obtain ⟨p, h3, h4, h5⟩ := hm.1 s h1 h2
    rw [h5, if_pos rfl]
  refine ⟨⟨fun k gk' hk' => ?_, fun i k gi gk hik hi hk hfam => ?_⟩, fun k gk gk' hk hk' x hx => ?_, ?_⟩
  · rcases hget k gk' hk' with ⟨rfl, rfl⟩ | ⟨hne, hk⟩
    · intro i hi
      simp only at hi ⊢
      by_cases h1 : i = g.len
      · exact ⟨e, fun s h2 h3 => by rw [h1]; exact hself s h2 h3⟩
      · obtain ⟨x, hx⟩ := hp.aligned k g hg i (by omega)
        exact ⟨x, fun s h2 h3 => by rw [hlow s h2 h3 i (by omega)]; exact hx s h2 h3⟩
    · exact (key k gk' hne hk).1
  · rcases hget i gi hi with ⟨rfl, rfl⟩ | ⟨hne, hi'⟩
    · rcases hget k gk hk with ⟨rfl, rfl⟩ | ⟨hne', hk'⟩
      · omega
      · have := hp.nested i k g gk hik hg hk' hfam
        simp only
        omega
    · rcases hget k gk hk with ⟨rfl, rfl⟩ | ⟨hne', hk'⟩
      · exact (key i gi hne hi').2.2 hik hfam
      · exact hp.nested i k gi gk hik hi' hk' hfam
  · rcases hget k gk' hk' with ⟨rfl, rfl⟩ | ⟨hne, hk2⟩
    · rw [hg] at hk
      cases hk
      obtain ⟨i, hi, hx⟩ := hx
      exact ⟨i, by simp only; omega, by simp only; rw [hlow _ (Nat.le_refl _) (by omega) i hi, hx]⟩
    · rw [hk] at hk2
      cases hk2
      exact (key k gk hne hk).2.1 x hx
  · exact ⟨g.len, by simp, hself g.storageStart (Nat.le_refl _) (by omega)⟩

theorem inPrefix_take {L : Nat → List Entity} {g : Group} {e : Entity} :
    InPrefix L g e ↔ e ∈ (L g.storageStart).take g.len := by
  rw [List.mem_iff_getElem?]
  constructor
  · rintro ⟨i, hi, hx⟩
    exact ⟨i, by rw [List.getElem?_take, if_pos hi, hx]⟩
  · rintro ⟨i, hx⟩
    rw [List.getElem?_take] at hx
    split at hx
    · exact ⟨i, by assumption, hx⟩
    · cases hx

/-- The step of `group` brings nothing but `e` into the packed part of group `j`. -/
theorem group_step_back (hs : GStat gs n) (hp : Packed L gs) (hnd : ∀ s, (L s).Nodup) (hg : gs[j]? = some g)
    (hc : Complete L g e) (hpar : ∀ (p : Nat) (gp : Group), p < j → gs[p]? = some gp →
      gp.storageStart = g.storageStart → InPrefix L gp e) (hn : ¬ InPrefix L g e)
    (hm : Moved L L' g.storageStart g.storageEnd g.len e) {k : Nat} {gk gk' : Group} (hk : gs[k]? = some gk)
    (hk' : (gs.set j { g with len := g.len + 1 })[k]? = some gk') {x : Entity} (hx : InPrefix L' gk' x) :
    InPrefix L gk x ∨ (x = e ∧ k = j) := by
  obtain ⟨_, h6, h7⟩ := group_step hs hp hnd hg hc hpar hn hm
  have hjl : j < gs.length := (List.getElem?_eq_some_iff.1 hg).1
  have hlen : ((L gk.storageStart).take gk.len).length = gk.len := by
    rw [List.length_take]
    refine Nat.min_eq_left (Nat.le_of_not_lt fun hlt => ?_)
    obtain ⟨y, hy⟩ := hp.aligned k gk hk (gk.len - 1) (by omega)
    have hb := hs.bounds k gk hk
    have := (List.getElem?_eq_some_iff.1 (hy gk.storageStart (Nat.le_refl _) (by omega))).1
    omega
  have hnodup : ((L gk.storageStart).take gk.len).Nodup := (hnd _).sublist (List.take_sublist _ _)
  have hfw : ∀ y ∈ (L gk.storageStart).take gk.len, y ∈ (L' gk'.storageStart).take gk'.len := fun y hy =>
    inPrefix_take.1 (h6 k gk gk' hk hk' y (inPrefix_take.2 hy))
  rw [inPrefix_take] at hx ⊢
  rw [Rep.set_index_get _ _ _ _ hjl] at hk'
  split at hk'
  · rename_i hkj
    subst hkj
    rw [hg] at hk
    cases hk
    cases hk'
    have hsub : e :: (L g.storageStart).take g.len ⊆ (L' g.storageStart).take (g.len + 1) := by
      intro y hy
      rcases List.mem_cons.1 hy with rfl | hy
      · exact inPrefix_take.1 h7
      · exact hfw y hy
    have hnd2 : (e :: (L g.storageStart).take g.len).Nodup :=
      List.nodup_cons.2 ⟨fun hmem => hn (inPrefix_take.2 hmem), hnodup⟩
    have hperm := (hnd2.subperm hsub).perm_of_length_le (by
      rw [List.length_cons, hlen, List.length_take]
      exact Nat.min_le_left _ _)
    rcases List.mem_cons.1 (hperm.mem_iff.2 hx) with rfl | hx
    · exact .inr ⟨rfl, rfl⟩
    · exact .inl hx
  · rw [hk] at hk'
    cases hk'
    have hperm := (hnodup.subperm hfw).perm_of_length_le (by
      rw [hlen, List.length_take]
      exact Nat.min_le_left _ _)
    exact .inl (hperm.mem_iff.2 hx)

/-- Taking `e` out of the packed part of group `j`, the step of `ungroup`. -/
theorem ungroup_step (hs : GStat gs n) (hp : Packed L gs) (hnd : ∀ s, (L s).Nodup) (hg : gs[j]? = some g)
    (hin : InPrefix L g e) (hup : ∀ (k : Nat) (gk : Group), j < k → gs[k]? = some gk →
      gk.storageStart = g.storageStart → ¬ InPrefix L gk e)
    (hm : Moved L L' g.storageStart g.storageEnd (g.len - 1) e) :
    Packed L' (gs.set j { g with len := g.len - 1 }) ∧
    (∀ (k : Nat) (gk gk' : Group), gs[k]? = some gk → (gs.set j { g with len := g.len - 1 })[k]? = some gk' →
      ∀ x, k ≠ j ∨ x ≠ e → (InPrefix L' gk' x ↔ InPrefix L gk x)) ∧
    ¬ InPrefix L' { g with len := g.len - 1 } e := by
  have hb := hs.bounds j g hg
  have hjl : j < gs.length := (List.getElem?_eq_some_iff.1 hg).1
  obtain ⟨d, hd, hde⟩ := hin
  have hdp := fun s h1 h2 => hp.prefix_pos hs hg hd hde (s := s) h1 h2
  have hL' : ∀ s, g.storageStart ≤ s → s < g.storageEnd → ∀ i : Nat,
      (L' s)[i]? = if i = g.len - 1 then some e else if i = d then (L s)[g.len - 1]? else (L s)[i]? := by
    intro s h1 h2 i
    obtain ⟨p, h3, h4, h5⟩ := hm.1 s (by omega) (by omega)
    have := nodup_pos (hnd s) h3 (hdp s h1 h2)
    subst this
    exact h5 i
  have hget : ∀ (k : Nat) (gk' : Group), (gs.set j { g with len := g.len - 1 })[k]? = some gk' →
      (k = j ∧ gk' = { g with len := g.len - 1 }) ∨ (k ≠ j ∧ gs[k]? = some gk') := by
    intro k gk' h
    rw [Rep.set_index_get _ _ _ _ hjl] at h
    split at h
    · rename_i hk; exact .inl ⟨hk, by simpa using h.symm⟩
    · rename_i hk; exact .inr ⟨hk, h⟩
  have hother : ∀ (k : Nat) (gk : Group), gs[k]? = some gk → gk.storageStart ≠ g.storageStart →
      ∀ s, gk.storageStart ≤ s → s < gk.storageEnd → L' s = L s := by
    intro k gk hk hne s h1 h2
    apply hm.2
    rintro ⟨h3, h4⟩
    exact hs.disjoint hk hg hne h1 h2 h3 h4
  -- the same permutation on every list of a group that contains the positions `d` and `len - 1`
  have hperm : ∀ (gk : Group), g.len ≤ gk.len → gk.storageStart = g.storageStart →
      gk.storageStart < gk.storageEnd →
      ∀ x, InPrefix L' gk x ↔ InPrefix L gk x := by
    intro gk hle hfam hlt x
    have hst := hL' g.storageStart (Nat.le_refl _) (by omega)
    unfold InPrefix
    rw [hfam]
    constructor
    · rintro ⟨i, hi, hx⟩
      rw [hst] at hx
      by_cases h1 : i = g.len - 1
      · rw [if_pos h1] at hx
        exact ⟨d, by omega, by rw [hde]; exact hx⟩
      · rw [if_neg h1] at hx
        by_cases h2 : i = d
        · rw [if_pos h2] at hx
          exact ⟨g.len - 1, by omega, hx⟩
        · rw [if_neg h2] at hx
          exact ⟨i, hi, hx⟩
    · rintro ⟨i, hi, hx⟩
      by_cases h1 : i = d
      · refine ⟨g.len - 1, by omega, ?_⟩
        rw [hst, if_pos rfl]
        rw [h1, hde] at hx
        exact hx
      · by_cases h2 : i = g.len - 1
        · refine ⟨d, by omega, ?_⟩
          rw [hst, if_neg (by omega), if_pos rfl, ← h2, hx]
        · exact ⟨i, hi, by rw [hst, if_neg h2, if_neg h1, hx]⟩
  have key : ∀ (k : Nat) (gk : Group), k ≠ j → gs[k]? = some gk →
      (∀ i < gk.len, ∃ x, ∀ s, gk.storageStart ≤ s → s < gk.storageEnd → (L' s)[i]? = some x) ∧
      (∀ x, InPrefix L' gk x ↔ InPrefix L gk x) ∧
      (j < k → gk.storageStart = g.storageStart → gk.len ≤ g.len - 1) := by
    intro k gk hkj hk
    have hbk := hs.bounds k gk hk
    by_cases hfam : gk.storageStart = g.storageStart
    · rcases Nat.lt_or_ge k j with hlt | hge
      · have hnest := hs.nest k j gk g hlt hk hg hfam
        have hle := hp.nested k j gk g hlt hk hg hfam
        refine ⟨fun i hi => ?_, hperm gk hle hfam (by omega), fun h => absurd h (by omega)⟩
        by_cases h1 : i = g.len - 1
        · exact ⟨e, fun s h2 h3 => by rw [hL' s (by omega) (by omega), if_pos h1]⟩
        · by_cases h2 : i = d
          · obtain ⟨x, hx⟩ := hp.aligned k gk hk (g.len - 1) (by omega)
            exact ⟨x, fun s h3 h4 => by
              rw [hL' s (by omega) (by omega), if_neg h1, if_pos h2, hx s h3 h4]⟩
          · obtain ⟨x, hx⟩ := hp.aligned k gk hk i hi
            exact ⟨x, fun s h3 h4 => by
              rw [hL' s (by omega) (by omega), if_neg h1, if_neg h2, hx s h3 h4]⟩
      · have hlt : j < k := by omega
        have hnot := hup k gk hlt hk hfam
        have hdk : gk.len ≤ d := by
          by_contra hc
          exact hnot ⟨d, by omega, by rw [hfam]; exact hde⟩
        have hL2 : ∀ s, gk.storageStart ≤ s → s < gk.storageEnd → ∀ i < gk.len, (L' s)[i]? = (L s)[i]? := by
          intro s h1 h2 i hi
          by_cases h3 : s < g.storageEnd
          · rw [hL' s (by omega) h3, if_neg (by omega), if_neg (by omega)]
          · rw [hm.2 s (by omega)]
        refine ⟨fun i hi => ?_, fun x => ?_, fun _ _ => by omega⟩
        · obtain ⟨x, hx⟩ := hp.aligned k gk hk i hi
          exact ⟨x, fun s h3 h4 => by rw [hL2 s h3 h4 i hi, hx s h3 h4]⟩
        · constructor
          · rintro ⟨i, hi, hx⟩
            exact ⟨i, hi, by rw [← hL2 _ (Nat.le_refl _) (by omega) i hi, hx]⟩
          · rintro ⟨i, hi, hx⟩
            exact ⟨i, hi, by rw [hL2 _ (Nat.le_refl _) (by omega) i hi, hx]⟩
    · have hL2 := hother k gk hk hfam
      refine ⟨fun i hi => ?_, fun x => ?_, fun _ h => absurd h hfam⟩
      · obtain ⟨x, hx⟩ := hp.aligned k gk hk i hi
        exact ⟨x, fun s h3 h4 => by rw [hL2 s h3 h4, hx s h3 h4]⟩
      · unfold InPrefix
        rw [hL2 _ (Nat.le_refl _) (by omega)]
  have hst := hL' g.storageStart (Nat.le_refl _) (by omega)
  refine ⟨⟨fun k gk' hk' => ?_, fun i k gi gk hik hi hk hfam => ?_⟩, fun k gk gk' hk hk' x hx => ?_, ?_⟩
  · rcases hget k gk' hk' with ⟨rfl, rfl⟩ | ⟨hne, hk⟩
    · intro i hi
      simp only at hi ⊢
      by_cases h2 : i = d
      · obtain ⟨x, hx⟩ := hp.aligned k g hg (g.len - 1) (by omega)
        exact ⟨x, fun s h3 h4 => by rw [hL' s h3 h4, if_neg (by omega), if_pos h2, hx s h3 h4]⟩
      · obtain ⟨x, hx⟩ := hp.aligned k g hg i (by omega)
        exact ⟨x, fun s h3 h4 => by rw [hL' s h3 h4, if_neg (by omega), if_neg h2, hx s h3 h4]⟩
    · exact (key k gk' hne hk).1
  · rcases hget i gi hi with ⟨rfl, rfl⟩ | ⟨hne, hi'⟩
    · rcases hget k gk hk with ⟨rfl, rfl⟩ | ⟨hne', hk'⟩
      · omega
      · exact (key k gk hne' hk').2.2 hik hfam.symm
    · rcases hget k gk hk with ⟨rfl, rfl⟩ | ⟨hne', hk'⟩
      · have := hp.nested i k gi g hik hi' hg hfam
        simp only
        omega
      · exact hp.nested i k gi gk hik hi' hk' hfam
  · rcases hget k gk' hk' with ⟨rfl, rfl⟩ | ⟨hne, hk2⟩
    · rw [hg] at hk
      cases hk
      have hxe : x ≠ e := by
        rcases hx with hx | hx
        · exact absurd rfl hx
        · exact hx
      rw [← hperm g (Nat.le_refl _) rfl (by omega) x]
      constructor
      · rintro ⟨i, hi, hy⟩
        exact ⟨i, by simp only at hi; omega, hy⟩
      · rintro ⟨i, hi, hy⟩
        refine ⟨i, ?_, hy⟩
        simp only
        by_contra hc
        have : i = g.len - 1 := by omega
        rw [hst, if_pos this] at hy
        cases hy
        exact hxe rfl
    · rw [hk] at hk2
      cases hk2
      exact (key k gk hne hk).2.1 x
  · rintro ⟨i, hi, hx⟩
    simp only at hi hx
    rw [hst, if_neg (by omega)] at hx
    by_cases h1 : i = d
    · rw [if_pos h1] at hx
      have := nodup_pos (hnd _) hx hde
      omega
    · rw [if_neg h1] at hx
      exact h1 (nodup_pos (hnd _) hx hde)

end Steps
end Sparsey
