import Verif.Proofs.Safe
import Verif.Proofs.Settled
import Verif.Proofs.StoreOps
import Verif.Model.SwapsOf

/-!
The groups when versions are forgotten. All places of the grouped part of the storage are found by the indexes of entities;
versions only decide whether an entity is looked at. So the grouped parts stay aligned by index whatever the versions are,
as long as entities are taken out of the groups correctly (C31).
-/

set_option autoImplicit false
set_option linter.unusedSimpArgs false

namespace Sparsey
variable {V : Type}

/-- A set whose versions are all 0. -/
def CompSet.blank (s : CompSet V) : CompSet V := ⟨s.sparse.erase, s.entities.map Entity.erase, s.components⟩

/-- An entity without a version. -/
def Blank (e : Entity) : Prop := e.version = 0

theorem blank_uniq : IdxUniq Blank := by
  intro x y hx hy hi
  cases x; cases y
  simp only [Blank] at hx hy hi
  subst hx; subst hy; subst hi
  rfl

@[simp] theorem Entity.erase_index (e : Entity) : e.erase.index = e.index := rfl
@[simp] theorem Entity.erase_sparse (e : Entity) : e.erase.sparse = e.sparse := rfl
theorem Entity.erase_blank (e : Entity) : Blank e.erase := rfl

theorem CompSet.IdxOk.blank {s : CompSet V} (h : s.IdxOk) : s.blank.WF :=
  ⟨IdxRep.iff_erase.1 h.rep, by simpa [CompSet.blank] using h.len⟩

theorem blank_setsOK {comps : List (CompSet V)} (h : AllSets CompSet.IdxOk comps) :
    SetsOK Blank (comps.map CompSet.blank) := by
  refine ⟨fun c hc => ?_, fun c hc e he => ?_⟩
  · obtain ⟨s, hs, rfl⟩ := List.mem_map.1 hc
    exact (h s hs).blank
  · obtain ⟨s, hs, rfl⟩ := List.mem_map.1 hc
    obtain ⟨x, hx, rfl⟩ := List.mem_map.1 he
    rfl

theorem SparseVec.erase_getSparse (sv : SparseVec) (i : Nat) : sv.erase.getSparseUnchecked i = sv.getSparseUnchecked i := by
  unfold SparseVec.getSparseUnchecked SparseVec.erase
  simp only [List.getElem?_map]
  rcases sv.slots[i]? with _ | _ | sl <;> rfl

theorem SparseVec.erase_containsSparse (sv : SparseVec) (i : Nat) : sv.erase.containsSparse i = sv.containsSparse i := by
  unfold SparseVec.containsSparse SparseVec.erase
  simp only [List.getElem?_map]
  rcases sv.slots[i]? with _ | _ | sl <;> rfl

theorem swap_blank (s : CompSet V) (a b : Nat) : s.blank.swap a b = s.swap a b >>= fun s' => .ok s'.blank := by
  unfold CompSet.swap CompSet.blank
  simp only [List.getElem?_map]
  cases ha : s.entities[a]? with
  | none => rfl
  | some ea =>
    cases hb : s.entities[b]? with
    | none => rfl
    | some eb =>
      simp only [Option.map_some, Res.unchecked_some, Res.bind_ok, Entity.erase_sparse]
      unfold SparseVec.swapNonoverlapping SparseVec.erase
      simp only [List.getElem?_map]
      cases hx : s.sparse.slots[ea.sparse]? with
      | none => rfl
      | some x =>
        cases hy : s.sparse.slots[eb.sparse]? with
        | none => rfl
        | some y =>
          simp only [Option.map_some]
          by_cases he : ea.sparse = eb.sparse
          · rw [if_pos he, if_pos he]
            rfl
          · rw [if_neg he, if_neg he]
            simp only [Res.bind_ok]
            cases hva : s.components[a]? with
            | none => rfl
            | some va =>
              cases hvb : s.components[b]? with
              | none => rfl
              | some vb =>
                simp only [Res.unchecked_some, Res.bind_ok, Res.pure_eq, List.map_set]

theorem swapTo_blank (s : CompSet V) (q i : Nat) : swapTo s.blank q i = swapTo s q i >>= fun s' => .ok s'.blank := by
  unfold swapTo
  have : s.blank.sparse.getSparseUnchecked i = s.sparse.getSparseUnchecked i := SparseVec.erase_getSparse _ _
  rw [this]
  cases s.sparse.getSparseUnchecked i with
  | ub => rfl
  | panic => rfl
  | ok d =>
    simp only [Res.bind_ok]
    split
    · exact swap_blank s d q
    · rfl

theorem swapAllTo_blank (q i : Nat) : ∀ (seg : List (CompSet V)),
    swapAllTo q i (seg.map CompSet.blank) = swapAllTo q i seg >>= fun seg' => .ok (seg'.map CompSet.blank)
  | [] => rfl
  | s :: ss => by
    rw [List.map_cons, swapAllTo, swapAllTo, swapTo_blank, swapAllTo_blank q i ss]
    cases swapTo s q i with
    | ub => rfl
    | panic => rfl
    | ok s' => cases swapAllTo q i ss <;> rfl

theorem compRange_blank (comps : List (CompSet V)) (a b : Nat) :
    compRange (comps.map CompSet.blank) a b = compRange comps a b >>= fun seg => .ok (seg.map CompSet.blank) := by
  unfold compRange
  rw [List.length_map]
  split
  · simp [List.map_drop, List.map_take]
  · rfl

theorem swapRange_blank (comps : List (CompSet V)) (a b q i : Nat) :
    swapRange (comps.map CompSet.blank) a b q i = swapRange comps a b q i >>= fun cs => .ok (cs.map CompSet.blank) := by
  unfold swapRange
  rw [compRange_blank]
  cases compRange comps a b with
  | ub => rfl
  | panic => rfl
  | ok seg =>
    simp only [Res.bind_ok]
    rw [swapAllTo_blank]
    cases swapAllTo q i seg with
    | ub => rfl
    | panic => rfl
    | ok seg' => simp [List.map_drop, List.map_take]

/-- Exchanging is always possible between places that exist. -/
theorem swapRange_safe {comps : List (CompSet V)} (h : AllSets CompSet.IdxOk comps) {a b q : Nat} {e : Entity}
    (hab : a ≤ b) (hb : b ≤ comps.length)
    (he : ∀ s, a ≤ s → s < b → e.erase ∈ lists (comps.map CompSet.blank) s)
    (hq : ∀ s, a ≤ s → s < b → q < (lists (comps.map CompSet.blank) s).length) :
    ∃ comps', swapRange comps a b q e.index = .ok comps' ∧
      Moved (lists (comps.map CompSet.blank)) (lists (comps'.map CompSet.blank)) a b q e.erase := by
  have hev : EvenPairs (swapRangePairs (comps.map CompSet.blank) a b q e.erase.index) := by
    intro p hp
    have hbl : ∀ x ∈ (comps.map CompSet.blank), ∀ y ∈ x.entities, y.version = 0 := (blank_setsOK h).sub
    unfold swapRangePairs at hp
    obtain ⟨x, hx, hp⟩ := List.mem_flatMap.1 hp
    have hx := List.mem_of_mem_drop (List.mem_of_mem_take hx)
    unfold swapToPairs at hp
    split at hp
    · split at hp
      · cases hp
      · split at hp
        · next ha hb' =>
          simp only [List.mem_singleton] at hp
          subst hp
          rw [hbl x hx _ (List.mem_of_getElem? ha), hbl x hx _ (List.mem_of_getElem? hb')]
        · cases hp
    · cases hp
  obtain ⟨comps', h1, _, _, h4⟩ := swapRange_ok (blank_setsOK h) hab (by simpa using hb) he hq hev
  rw [swapRange_blank] at h1
  have : e.erase.index = e.index := rfl
  rw [this] at h1
  obtain ⟨cs, h5, h6⟩ := Res.bind_eq_ok.1 h1
  simp only [Res.ok.injEq] at h6
  subst h6
  exact ⟨cs, h5, h4⟩

/-- The status of an entity, versions forgotten: the true one, or `incomplete` if the first set has another version. -/
theorem getGroupStatus_blank (seg : List (CompSet V)) (len : Nat) (e : Entity) :
    getGroupStatus (seg.map CompSet.blank) len e.erase = getGroupStatus seg len e ∨
      (getGroupStatus seg len e = .ok .incomplete ∧ ∃ s sl, seg.head? = some s ∧
        s.sparse.slots[e.index]? = some (some sl) ∧ sl.version ≠ e.version) := by
  unfold getGroupStatus
  cases seg with
  | nil => exact .inl rfl
  | cons s ss =>
    simp only [List.map_cons]
    have ho : (ss.map CompSet.blank).all (fun s => s.sparse.containsSparse e.erase.sparse) =
        ss.all (fun s => s.sparse.containsSparse e.sparse) := by
      rw [List.all_map]
      congr 1
      funext x
      exact SparseVec.erase_containsSparse _ _
    rw [ho]
    have hg : s.blank.sparse.get e.erase = (match s.sparse.slots[e.index]? with
        | some (some sl) => some sl.index
        | _ => none) := by
      unfold SparseVec.get CompSet.blank SparseVec.erase
      simp only [List.getElem?_map, Entity.erase_sparse]
      show (match Option.map (Option.map Slot.erase) s.sparse.slots[e.index]? with
        | none => none
        | some slot => Option.map Slot.index (Option.filter (fun sl : Slot => sl.version == e.erase.version) slot)) = _
      rcases s.sparse.slots[e.index]? with _ | _ | sl <;> simp [Slot.erase, Entity.erase]
    have hg' : s.sparse.get e = (match s.sparse.slots[e.index]? with
        | some (some sl) => if sl.version = e.version then some sl.index else none
        | _ => none) := by
      unfold SparseVec.get
      show (match s.sparse.slots[e.index]? with
        | none => none
        | some slot => Option.map Slot.index (Option.filter (fun sl : Slot => sl.version == e.version) slot)) = _
      rcases s.sparse.slots[e.index]? with _ | _ | sl
      · rfl
      · rfl
      · by_cases hv : sl.version = e.version <;> simp [hv]
    rw [hg, hg']
    rcases hsl : s.sparse.slots[e.index]? with _ | _ | sl
    · exact .inl rfl
    · exact .inl rfl
    · by_cases hv : sl.version = e.version
      · left
        simp only [if_pos hv]
      · right
        simp only [if_neg hv, true_and]
        exact ⟨s, sl, rfl, hsl, hv⟩

/-- The lists of indexes of the sets, as entities without versions. -/
abbrev ilists (comps : List (CompSet V)) : Nat → List Entity := lists (comps.map CompSet.blank)

/-- `group` keeps the grouped parts aligned by index, in every state. -/
theorem groupLoop_aligned {e : Entity} :
    ∀ (fuel : Nat) (m : BitVec 64) (comps : List (CompSet V)) (gs : List Group), maskCard m ≤ fuel →
    AllSets CompSet.IdxOk comps → GStat gs comps.length → Packed (ilists comps) gs →
    (∀ j, m.getLsbD j = true → j < gs.length) → MaskOK (ilists comps) gs m e.erase →
    ∃ comps' gs', groupLoop e fuel m (comps, gs) = .ok (comps', gs') ∧ AllSets CompSet.IdxOk comps' ∧
      comps'.length = comps.length ∧ SameStat gs gs' ∧ Packed (ilists comps') gs' := by
  intro fuel
  induction fuel with
  | zero =>
    intro m comps gs hf hok hst hp hml hmo
    have hm : m = 0#64 := maskCard_zero hf
    subst hm
    refine ⟨comps, gs, ?_, hok, rfl, .refl _, hp⟩
    unfold groupLoop
    rw [bitNext_none.2 rfl]
  | succ fuel ih =>
    intro m comps gs hf hok hst hp hml hmo
    cases hb : bitNext m with
    | none =>
      have hm := bitNext_none.1 hb
      subst hm
      refine ⟨comps, gs, ?_, hok, rfl, .refl _, hp⟩
      unfold groupLoop
      rw [hb]
    | some r =>
      obtain ⟨j, m'⟩ := r
      obtain ⟨hj64, hjm, hlow, hm'⟩ := bitNext_some hb
      have hcard := maskCard_clear hj64 hjm hm'
      have hjl := hml j hjm
      have hg := List.getElem?_eq_getElem hjl
      generalize hgd : gs[j] = g at hg
      have hbd := hst.bounds j g hg
      have hbok := blank_setsOK hok
      have hblen : (comps.map CompSet.blank).length = comps.length := by simp
      have hm'sub : ∀ k, m'.getLsbD k = true → m.getLsbD k = true ∧ k ≠ j := by
        intro k hk
        rw [hm', Bool.and_eq_true] at hk
        exact ⟨hk.1, by simpa using hk.2⟩
      have hm'mem : ∀ k, m.getLsbD k = true → k ≠ j → m'.getLsbD k = true := by
        intro k hk hne
        rw [hm', hk]
        simp [hne]
      have hpar : ∀ (p : Nat) (gp : Group), p < j → gs[p]? = some gp → gp.storageStart = g.storageStart →
          InPrefix (ilists comps) gp e.erase := by
        intro p gp hpj hgp hfam
        rcases hmo j p g gp hjm hpj hg hgp hfam with h | h
        · rw [hlow p hpj] at h; cases h
        · exact h
      have hcomp : (∀ s, g.newStorageStart ≤ s → s < g.storageEnd → e.erase ∈ ilists comps s) →
          Complete (ilists comps) g e.erase := by
        intro hnew s h1 h2
        by_cases h3 : g.newStorageStart ≤ s
        · exact hnew s h3 h2
        · rcases hst.chain j g hg with hc | ⟨i, gi, hij, hgi, h4, h5⟩
          · omega
          · exact (hpar i gi (by omega) hgi h4).complete hp hst hgi s (by omega) (by omega)
      have heq : groupLoop e (fuel + 1) m (comps, gs) =
          (match getGroupStatus ((comps.drop g.newStorageStart).take (g.storageEnd - g.newStorageStart)) g.len e with
            | .ok .incomplete => groupLoop e fuel (m' &&& g.skipMask) (comps, gs)
            | .ok .ungrouped => (groupComponents comps g e).bind fun r => groupLoop e fuel m' (r.1, gs.set j r.2)
            | .ok .grouped => groupLoop e fuel m' (comps, gs)
            | .panic => .panic
            | .ub => .ub) := by
        rw [groupLoop]
        simp only [hb, hg, Res.unchecked_some, Res.bind_ok, compRange_ok (Nat.le_of_lt hbd.2.1) hbd.2.2]
        cases getGroupStatus ((comps.drop g.newStorageStart).take (g.storageEnd - g.newStorageStart)) g.len e with
        | ok st => cases st <;> rfl
        | panic => rfl
        | ub => rfl
      rw [heq]
      have hskip : ∃ comps' gs', groupLoop e fuel (m' &&& g.skipMask) (comps, gs) = .ok (comps', gs') ∧
          AllSets CompSet.IdxOk comps' ∧ comps'.length = comps.length ∧ SameStat gs gs' ∧ Packed (ilists comps') gs' := by
        have hsk : ∀ k, (m' &&& g.skipMask).getLsbD k = true → m.getLsbD k = true ∧ k ≠ j ∧
            ∀ gk, gs[k]? = some gk → gk.storageStart ≠ g.storageStart := by
          intro k hk
          rw [BitVec.getLsbD_and, Bool.and_eq_true] at hk
          obtain ⟨h1, h2⟩ := hm'sub k hk.1
          refine ⟨h1, h2, fun gk hgk hfam => ?_⟩
          have h3 : j ≤ k := by
            by_contra hc
            rw [hlow k (by omega)] at h1
            cases h1
          have h4 := (hst.skip j k g gk hg hgk).2 ⟨h3, hfam⟩
          rw [h4] at hk
          exact absurd hk.2 (by simp)
        exact ih (m' &&& g.skipMask) comps gs
          (Nat.le_trans (maskCard_and_le _ _) (by omega)) hok hst hp
          (fun k hk => hml k (hsk k hk).1) (by
            intro k p gk gp hk hpk hgk hgp hfam
            obtain ⟨h1, h2, h3⟩ := hsk k hk
            rcases hmo k p gk gp h1 hpk hgk hgp hfam with h4 | h4
            · by_cases hpj : p = j
              · subst hpj
                rw [hg] at hgp
                cases hgp
                exact absurd hfam.symm (h3 gk hgk)
              · left
                rw [BitVec.getLsbD_and, hm'mem p h4 hpj]
                simp only [Bool.true_and]
                by_contra hc
                have := (hst.skip j p g gp hg hgp).1 (by simpa using hc)
                exact h3 gk hgk (by rw [← hfam, this.2])
            · exact .inr h4)
      rcases getGroupStatus_blank ((comps.drop g.newStorageStart).take (g.storageEnd - g.newStorageStart)) g.len e with
        hst1 | ⟨hst1, _⟩
      swap
      · rw [hst1]
        exact hskip
      rw [← hst1, List.map_take, List.map_drop]
      rcases getGroupStatus_spec blank_uniq hbok hbd.2.1 (by omega) g.len e.erase with ⟨hs1, _⟩ | ⟨d, hd, hall, hs1⟩
      · rw [hs1]
        exact hskip
      · have hc := hcomp hall
        by_cases hdl : d < g.len
        · -- grouped
          rw [hs1, if_pos hdl]
          simp only
          have hin : InPrefix (ilists comps) g e.erase := inPrefix_of_pos hst hp hg hbd.1 hbd.2.1 hd hdl
          exact ih m' comps gs (by omega) hok hst hp
            (fun k hk => hml k (hm'sub k hk).1) (by
              intro k p gk gp hk hpk hgk hgp hfam
              obtain ⟨h1, h2⟩ := hm'sub k hk
              by_cases hpj : p = j
              · subst hpj
                rw [hg] at hgp
                cases hgp
                exact .inr hin
              · rcases hmo k p gk gp h1 hpk hgk hgp hfam with h4 | h4
                · exact .inl (hm'mem p h4 hpj)
                · exact .inr h4)
        · -- ungrouped
          rw [hs1, if_neg hdl]
          simp only
          have hnin : ¬ InPrefix (ilists comps) g e.erase := by
            rintro ⟨i, hi, hie⟩
            have h1 := hp.prefix_pos hst hg hi hie hbd.1 hbd.2.1
            exact hdl (by rw [← nodup_pos (hbok.nodup _) h1 hd]; exact hi)
          obtain ⟨comps1, h1, h4⟩ := swapRange_safe hok (a := g.storageStart) (b := g.storageEnd) (q := g.len)
            (e := e) (by omega) hbd.2.2 hc (by
              intro s h1 h2
              obtain ⟨p, hpe⟩ := List.mem_iff_getElem?.1 (hc s h1 h2)
              exact Nat.lt_of_le_of_lt (pos_ge_len hbok (by rw [hblen]; exact hst) hp hg hnin h1 h2 hpe)
                (List.getElem?_eq_some_iff.1 hpe).1)
          have h2 := stable_idx.swapRange hok h1
          have h3 : comps1.length = comps.length := swapRange_length h1
          have hgc : groupComponents comps g e = .ok (comps1, { g with len := g.len + 1 }) := by
            unfold groupComponents
            unfold Entity.sparse
            rw [h1]
            rfl
          rw [hgc]
          obtain ⟨h5, h6, h7⟩ := group_step hst hp hbok.nodup hg hc hpar hnin h4
          have hss := SameStat.set hg (g.len + 1)
          have hgj : (gs.set j { g with len := g.len + 1 })[j]? = some { g with len := g.len + 1 } := by
            rw [Rep.set_index_get _ _ _ _ hjl, if_pos rfl]
          have hgk : ∀ k, k ≠ j → (gs.set j { g with len := g.len + 1 })[k]? = gs[k]? := by
            intro k hk
            rw [Rep.set_index_get _ _ _ _ hjl, if_neg hk]
          obtain ⟨comps', gs', h8, h9, h10, h11, h12⟩ := ih m' comps1 (gs.set j { g with len := g.len + 1 }) (by omega) h2
            (by rw [h3]; exact hst.of_same hss) h5
            (fun k hk => by rw [List.length_set]; exact hml k (hm'sub k hk).1) (by
              intro k p gk gp hk hpk hgk' hgp hfam
              obtain ⟨h1, h2⟩ := hm'sub k hk
              by_cases hpj : p = j
              · subst hpj
                rw [hgj] at hgp
                cases hgp
                exact .inr h7
              · rw [hgk k h2] at hgk'
                have hgp' := hgp
                rw [hgk p hpj] at hgp'
                rcases hmo k p gk gp h1 hpk hgk' hgp' hfam with h4 | h4
                · exact .inl (hm'mem p h4 hpj)
                · exact .inr (h6 p gp gp hgp' hgp e.erase h4))
          exact ⟨comps', gs', h8, h9, h10.trans h3, hss.trans h11, h12⟩

theorem groupEntities_aligned {mask : BitVec 64} : ∀ (es : List Entity) (comps : List (CompSet V)) (gs : List Group),
    AllSets CompSet.IdxOk comps → GStat gs comps.length → Packed (ilists comps) gs → FamClosed gs mask →
    ∃ comps' gs', ComponentStorage.groupEntities mask es (comps, gs) = .ok (comps', gs') ∧ AllSets CompSet.IdxOk comps' ∧
      comps'.length = comps.length ∧ SameStat gs gs' ∧ Packed (ilists comps') gs'
  | [], comps, gs, hok, _, hp, _ => ⟨comps, gs, rfl, hok, rfl, .refl _, hp⟩
  | e :: es, comps, gs, hok, hst, hp, hm => by
    obtain ⟨c1, g1, h1, h2, h3, h4, h5⟩ := groupLoop_aligned (e := e) 64 mask comps gs (maskCard_le mask) hok hst hp hm.1
      (fun j p gj gp hj _ hgj hgp hf => .inl (hm.2 j p gj gp hj hgj hgp hf))
    obtain ⟨c2, g2, i1, i2, i3, i4, i5⟩ := groupEntities_aligned es c1 g1 h2 (by rw [h3]; exact hst.of_same h4) h5 (by
      refine ⟨fun j hj => ?_, fun j p gj gp hj hgj hgp hf => ?_⟩
      · rw [h4.length]
        exact hm.1 j hj
      · obtain ⟨a, ha, ha'⟩ := h4.get hgj
        obtain ⟨b, hb, hb'⟩ := h4.get hgp
        exact hm.2 j p a b hj ha hb (by rw [← Group.stat_start ha', ← Group.stat_start hb']; exact hf))
    refine ⟨c2, g2, ?_, i2, i3.trans h3, h4.trans i4, i5⟩
    unfold ComponentStorage.groupEntities group
    rw [h1]
    exact i1

/-! ### `ungroup` -/

/-- The version a set has stored for an index. -/
def CompSet.label (s : CompSet V) (i : Nat) : Option Nat :=
  match s.sparse.slots[i]? with
  | some (some sl) => some sl.version
  | _ => none

/-- The positions read and written for the groups are among `R`. -/
def Within (R : Nat → Prop) (gs : List Group) : Prop :=
  ∀ (j : Nat) (g : Group), gs[j]? = some g → ∀ k, g.storageStart ≤ k ∨ g.newStorageStart ≤ k → k < g.storageEnd → R k

theorem Within.same {R : Nat → Prop} {gs gs' : List Group} (h : Within R gs) (hs : SameStat gs gs') : Within R gs' := by
  intro j g hg k h1 h2
  obtain ⟨g', hg', he⟩ := hs.get hg
  refine h j g' hg' k ?_ ?_
  · rw [← Group.stat_start he, ← Group.stat_newStart he]
    exact h1
  · rw [← Group.stat_end he]
    exact h2

/-- At the positions `R`, the version of `e` is the one stored for its index, if anything is. -/
def LabOk (R : Nat → Prop) (e : Entity) (comps : List (CompSet V)) : Prop :=
  ∀ (k : Nat) (s : CompSet V), R k → comps[k]? = some s → ∀ v, s.label e.index = some v → v = e.version

theorem GStat.take {gs : List Group} {n : Nat} (h : GStat gs n) (i : Nat) : GStat (gs.take i) n := by
  have hget : ∀ {j : Nat} {g : Group}, (gs.take i)[j]? = some g → gs[j]? = some g ∧ j < i := by
    intro j g hg
    rw [List.getElem?_take] at hg
    split at hg
    · rename_i hlt
      exact ⟨hg, hlt⟩
    · cases hg
  constructor
  · have := h.count
    rw [List.length_take]
    omega
  · exact fun j g hg => h.bounds j g (hget hg).1
  · exact fun a b ga gb hab ha hb => h.sep a b ga gb hab (hget ha).1 (hget hb).1
  · exact fun a b ga gb hab ha hb => h.nest a b ga gb hab (hget ha).1 (hget hb).1
  · intro j gj hg
    rcases h.chain j gj (hget hg).1 with h1 | ⟨a, ga, h1, h2, h3⟩
    · exact .inl h1
    · refine .inr ⟨a, ga, h1, ?_, h3⟩
      rw [List.getElem?_take, if_pos (by have := (hget hg).2; omega)]
      exact h2
  · exact fun j k gj gk hj hk => h.skip j k gj gk (hget hj).1 (hget hk).1
  · exact fun j g hg => h.arity j g (hget hg).1
  · exact fun j g hg => h.inc j g (hget hg).1
  · exact fun j g hg => h.exc j g (hget hg).1

theorem Packed.of_take {L : Nat → List Entity} {gs : List Group} {i j : Nat} (h : Packed L (gs.take j)) (hij : i ≤ j) :
    Packed L (gs.take i) := by
  have hget : ∀ {k : Nat} {g : Group}, (gs.take i)[k]? = some g → (gs.take j)[k]? = some g := by
    intro k g hg
    rw [List.getElem?_take] at hg ⊢
    split at hg
    · rename_i hlt
      rw [if_pos (by omega)]
      exact hg
    · cases hg
  exact ⟨fun k g hg => h.aligned k g (hget hg), fun a b ga gb hab ha hb => h.nested a b ga gb hab (hget ha) (hget hb)⟩

/-- A step of `ungroup` looks at no later group. -/
theorem ungroupStep_take {e : Entity} {j : Nat} {comps comps' : List (CompSet V)} {gs gs' : List Group}
    (h : ungroupStep e j (comps, gs.take (j + 1)) = .ok (comps', gs')) :
    ∃ gs2, ungroupStep e j (comps, gs) = .ok (comps', gs2) ∧ gs2.take (j + 1) = gs' := by
  unfold ungroupStep at h ⊢
  simp only at h ⊢
  rw [List.getElem?_take, if_pos (by omega)] at h
  obtain ⟨g, h1, h⟩ := Res.bind_eq_ok.1 h
  rw [h1]
  obtain ⟨seg, h2, h⟩ := Res.bind_eq_ok.1 h
  simp only [Res.bind_ok, h2]
  obtain ⟨st, h3, h⟩ := Res.bind_eq_ok.1 h
  simp only [Res.bind_ok, h3]
  cases st with
  | incomplete => cases h; exact ⟨gs, rfl, rfl⟩
  | ungrouped => cases h; exact ⟨gs, rfl, rfl⟩
  | grouped =>
    obtain ⟨r, h4, h⟩ := Res.bind_eq_ok.1 h
    cases h
    simp only [h4, Res.bind_ok]
    exact ⟨_, rfl, by rw [List.take_set]⟩

/-- A step of `ungroup` is the one of the blank sets, or does nothing because another version is stored for the entity
at the first new set of the group. -/
theorem ungroupStep_dich {e : Entity} {j : Nat} {comps : List (CompSet V)} {gs : List Group} {g : Group}
    (hst : GStat gs comps.length) (hg : gs[j]? = some g) :
    ungroupStep e.erase j (comps.map CompSet.blank, gs) =
      (ungroupStep e j (comps, gs) >>= fun r => .ok (r.1.map CompSet.blank, r.2)) ∨
    (ungroupStep e j (comps, gs) = .ok (comps, gs) ∧ ∃ s v, comps[g.newStorageStart]? = some s ∧
      s.label e.index = some v ∧ v ≠ e.version) := by
  have hb := hst.bounds j g hg
  unfold ungroupStep
  simp only [hg, Res.unchecked_some, Res.bind_ok]
  rw [compRange_blank, compRange_ok (Nat.le_of_lt hb.2.1) hb.2.2]
  simp only [Res.bind_ok]
  rcases getGroupStatus_blank ((comps.drop g.newStorageStart).take (g.storageEnd - g.newStorageStart)) g.len e with
    h | ⟨hinc, s, sl, hs, hsl, hne⟩
  swap
  · right
    refine ⟨by rw [hinc]; rfl, s, sl.version, ?_, by unfold CompSet.label; rw [hsl], hne⟩
    rw [List.head?_eq_getElem?, seg_get _ _ (by omega)] at hs
    exact hs
  left
  rw [h]
  cases getGroupStatus ((comps.drop g.newStorageStart).take (g.storageEnd - g.newStorageStart)) g.len e with
  | panic => rfl
  | ub => rfl
  | ok st =>
    cases st with
    | incomplete => rfl
    | ungrouped => rfl
    | grouped =>
      simp only [Res.bind_ok]
      unfold ungroupComponents
      split
      · rfl
      · rw [Entity.erase_sparse, swapRange_blank]
        cases swapRange comps g.storageStart g.storageEnd (g.len - 1) e.sparse <;> rfl

theorem PairsIn.blank {comps : List (CompSet V)} (h : AllSets CompSet.IdxOk comps) {gs : List Group}
    {l : List (Entity × Entity)} (hl : PairsIn (ilists comps) gs l) : EvenPairs l := by
  intro p hp
  obtain ⟨k, g, s, _, _, _, h1, h2⟩ := hl p hp
  have h1 := (blank_setsOK h).lists_sub h1
  have h2 := (blank_setsOK h).lists_sub h2
  rw [show p.1.version = 0 from h1, show p.2.version = 0 from h2]

/-- A step of `ungroup` is defined as long as the groups up to this one are aligned. -/
theorem ungroupStep_real {e : Entity} {j : Nat} {comps : List (CompSet V)} {gs : List Group}
    (ha : AllSets CompSet.IdxOk comps) (hst : GStat gs comps.length) (hp : Packed (ilists comps) (gs.take (j + 1)))
    (hj : j < gs.length) :
    ∃ comps' gs', ungroupStep e j (comps, gs) = .ok (comps', gs') ∧ AllSets CompSet.IdxOk comps' ∧
      GStat gs' comps'.length ∧ gs'.length = gs.length ∧ Packed (ilists comps') (gs'.take j) := by
  have hg := List.getElem?_eq_getElem hj
  rcases ungroupStep_dich (e := e) hst hg with h | ⟨h, _⟩
  swap
  · exact ⟨comps, gs, h, ha, hst, rfl, hp.of_take (by omega)⟩
  have hgt : (gs.take (j + 1))[j]? = some gs[j] := by rw [List.getElem?_take, if_pos (by omega)]; exact hg
  obtain ⟨c1, g1, h1, h2, _⟩ := ungroupStep_ok blank_uniq (e := e.erase) (blank_setsOK ha)
    (by rw [List.length_map]; exact hst.take (j + 1)) hp (PairsIn.blank ha (ungroupStepPairs_in _ _)) hgt (by
      intro k gk hk hgk
      rw [List.getElem?_take, if_neg (by omega)] at hgk
      cases hgk)
  obtain ⟨gs2, h3, h4⟩ := ungroupStep_take h1
  rw [h3] at h
  obtain ⟨⟨comps', gs'⟩, h5, h6⟩ := Res.bind_eq_ok.1 h.symm
  simp only [Res.ok.injEq, Prod.mk.injEq] at h6
  obtain ⟨rfl, rfl⟩ := h6
  have h7 := ungroupStep_shape h5
  refine ⟨comps', gs', h5, stable_idx.ungroupStep ha h5, ?_, h7.2.length, ?_⟩
  · rw [show comps'.length = comps.length from h7.1]
    exact hst.of_same h7.2
  · have h8 := h2.packed
    rw [← h4] at h8
    exact h8.of_take (by omega)

theorem ungroupLoop_real {e : Entity} : ∀ (fuel : Nat) (m : BitVec 64) (comps : List (CompSet V)) (gs : List Group) (j : Nat),
    maskCard m ≤ fuel → AllSets CompSet.IdxOk comps → GStat gs comps.length → (∀ i, m.getLsbD i = true → i < j) →
    j ≤ gs.length → Packed (ilists comps) (gs.take j) → ∃ r, ungroupLoop e fuel m (comps, gs) = .ok r := by
  intro fuel
  induction fuel with
  | zero =>
    intro m comps gs j hf _ _ _ _ _
    have hm : m = 0#64 := maskCard_zero hf
    subst hm
    refine ⟨(comps, gs), ?_⟩
    unfold ungroupLoop
    rw [bitNextBack_none.2 rfl]
  | succ fuel ih =>
    intro m comps gs j hf ha hst hm hj hp
    unfold ungroupLoop
    cases hb : bitNextBack m with
    | none => exact ⟨_, rfl⟩
    | some r =>
      obtain ⟨i, m'⟩ := r
      obtain ⟨hi64, him, hhigh, hm'⟩ := bitNextBack_some hb
      have hcard := maskCard_clear hi64 him hm'
      have hij := hm i him
      obtain ⟨comps', gs', h1, h2, h3, h4, h5⟩ := ungroupStep_real (e := e) ha hst (hp.of_take (i := i + 1) (by omega)) (by omega)
      simp only
      rw [h1]
      refine ih m' comps' gs' i (by omega) h2 h3 ?_ (by omega) h5
      intro k hk
      rw [hm', Bool.and_eq_true] at hk
      have hki : k ≠ i := by simpa using hk.2
      by_contra hc
      have := hhigh k (by omega)
      rw [hk.1] at this
      cases this

theorem ungroupAllLoop_real {e : Entity} : ∀ (n : Nat) (comps : List (CompSet V)) (gs : List Group),
    AllSets CompSet.IdxOk comps → GStat gs comps.length → n ≤ gs.length → Packed (ilists comps) (gs.take n) →
    ∃ r, ungroupAllLoop e n (comps, gs) = .ok r
  | 0, comps, gs, _, _, _, _ => ⟨_, rfl⟩
  | n + 1, comps, gs, ha, hst, hn, hp => by
    unfold ungroupAllLoop
    obtain ⟨comps', gs', h1, h2, h3, h4, h5⟩ := ungroupStep_real (e := e) ha hst hp (by omega)
    rw [h1]
    exact ungroupAllLoop_real n comps' gs' h2 h3 (by omega) h5

/-- A step of `ungroup` changes only the sets of its group. -/
theorem ungroupStep_outside {e : Entity} {i k : Nat} {comps : List (CompSet V)} {gs : List Group} {r : Sets V}
    (h : ungroupStep e i (comps, gs) = .ok r) (hk : ∀ g, gs[i]? = some g → ¬ InRange g k) : r.1[k]? = comps[k]? := by
  unfold ungroupStep at h
  simp only at h
  cases hg : gs[i]? with
  | none => rw [hg] at h; cases h
  | some g =>
    simp only [hg, Res.unchecked_some, Res.bind_ok] at h
    obtain ⟨seg, _, h⟩ := Res.bind_eq_ok.1 h
    obtain ⟨st, _, h⟩ := Res.bind_eq_ok.1 h
    cases st with
    | incomplete => cases h; rfl
    | ungrouped => cases h; rfl
    | grouped =>
      obtain ⟨r1, h1, h⟩ := Res.bind_eq_ok.1 h
      cases h
      unfold ungroupComponents at h1
      split at h1
      · cases h1
      · obtain ⟨cs, h2, h1⟩ := Res.bind_eq_ok.1 h1
        cases h1
        unfold swapRange at h2
        obtain ⟨seg, h3, h2⟩ := Res.bind_eq_ok.1 h2
        obtain ⟨seg', h4, h2⟩ := Res.bind_eq_ok.1 h2
        cases h2
        have hr : g.storageStart ≤ g.storageEnd ∧ g.storageEnd ≤ comps.length := by
          unfold compRange at h3
          by_contra hc
          rw [if_neg hc] at h3
          cases h3
        rw [compRange_ok hr.1 hr.2] at h3
        cases h3
        have hsl := swapAllTo_length _ _ h4
        rw [splice_get hr.1 hr.2 (by rw [hsl, List.length_take, List.length_drop]; omega)]
        exact if_neg (hk g hg)

theorem new_outside {gs : List Group} {n i j : Nat} {gi gj : Group} (hst : GStat gs n) (hij : i < j) (hi : gs[i]? = some gi)
    (hj : gs[j]? = some gj) : ¬ InRange gi gj.newStorageStart := by
  intro hc
  have h1 := hst.bounds j gj hj
  have hc2 := hc.2
  by_cases h : gi.storageStart = gj.storageStart
  · have := hst.nest i j gi gj hij hi hj h
    omega
  · have := hst.sep i j gi gj hij hi hj h
    omega

theorem ungroupLoop_outside {e : Entity} {k : Nat} : ∀ (fuel : Nat) (m : BitVec 64) (comps : List (CompSet V)) (gs : List Group)
    (r : Sets V), ungroupLoop e fuel m (comps, gs) = .ok r →
    (∀ i g, m.getLsbD i = true → gs[i]? = some g → ¬ InRange g k) → r.1[k]? = comps[k]? := by
  intro fuel
  induction fuel with
  | zero =>
    intro m comps gs r h _
    unfold ungroupLoop at h
    cases hb : bitNextBack m with
    | none => rw [hb] at h; cases h; rfl
    | some p => rw [hb] at h; cases h
  | succ fuel ih =>
    intro m comps gs r h hk
    unfold ungroupLoop at h
    cases hb : bitNextBack m with
    | none => rw [hb] at h; cases h; rfl
    | some p =>
      obtain ⟨i, m'⟩ := p
      obtain ⟨hi64, him, _, hm'⟩ := bitNextBack_some hb
      simp only [hb] at h
      obtain ⟨⟨c1, g1⟩, h1, h⟩ := Res.bind_eq_ok.1 h
      have h2 := ungroupStep_outside (k := k) h1 fun g hg => hk i g him hg
      rw [← h2]
      refine ih m' c1 g1 r h ?_
      intro a g ha hg
      obtain ⟨g', hg', he⟩ := (ungroupStep_shape h1).2.get hg
      rw [hm', Bool.and_eq_true] at ha
      rw [InRange.stat he]
      exact hk a g' ha.1 hg'

theorem ungroupAllLoop_outside {e : Entity} {k : Nat} : ∀ (n : Nat) (comps : List (CompSet V)) (gs : List Group)
    (r : Sets V), ungroupAllLoop e n (comps, gs) = .ok r →
    (∀ i g, i < n → gs[i]? = some g → ¬ InRange g k) → r.1[k]? = comps[k]?
  | 0, comps, gs, r, h, _ => by cases h; rfl
  | n + 1, comps, gs, r, h, hk => by
    unfold ungroupAllLoop at h
    obtain ⟨⟨c1, g1⟩, h1, h⟩ := Res.bind_eq_ok.1 h
    have h2 := ungroupStep_outside (k := k) h1 fun g hg => hk n g (by omega) hg
    rw [← h2]
    refine ungroupAllLoop_outside n c1 g1 r h ?_
    intro a g ha hg
    obtain ⟨g', hg', he⟩ := (ungroupStep_shape h1).2.get hg
    rw [InRange.stat he]
    exact hk a g' (by omega) hg'

/-- If no other version is stored for the entity in the end, none was met on the way. -/
theorem ungroupLoop_blank {R : Nat → Prop} {e : Entity} : ∀ (fuel : Nat) (m : BitVec 64) (comps : List (CompSet V))
    (gs : List Group) (r : Sets V), GStat gs comps.length → Within R gs → (∀ i, m.getLsbD i = true → i < gs.length) →
    ungroupLoop e fuel m (comps, gs) = .ok r → LabOk R e r.1 →
    ungroupLoop e.erase fuel m (comps.map CompSet.blank, gs) = .ok (r.1.map CompSet.blank, r.2) := by
  intro fuel
  induction fuel with
  | zero =>
    intro m comps gs r _ _ _ h _
    unfold ungroupLoop at h ⊢
    cases hb : bitNextBack m with
    | none => rw [hb] at h; cases h; rfl
    | some p => rw [hb] at h; cases h
  | succ fuel ih =>
    intro m comps gs r hst hR hml h hl
    unfold ungroupLoop at h ⊢
    cases hb : bitNextBack m with
    | none => rw [hb] at h; cases h; rfl
    | some p =>
      obtain ⟨j, m'⟩ := p
      obtain ⟨hj64, hjm, hhigh, hm'⟩ := bitNextBack_some hb
      have hm'sub : ∀ k, m'.getLsbD k = true → k < j ∧ m.getLsbD k = true := by
        intro k hk
        rw [hm', Bool.and_eq_true] at hk
        have hki : k ≠ j := by simpa using hk.2
        refine ⟨?_, hk.1⟩
        by_contra hc
        have := hhigh k (by omega)
        rw [hk.1] at this
        cases this
      simp only [hb] at h ⊢
      obtain ⟨⟨c1, g1⟩, h1, h⟩ := Res.bind_eq_ok.1 h
      have hsh := ungroupStep_shape h1
      have hjl := hml j hjm
      have hg := List.getElem?_eq_getElem hjl
      rcases ungroupStep_dich (e := e) hst hg with h2 | ⟨h2, s, v, h3, h4, h5⟩
      · rw [h2, h1]
        simp only [Res.bind_ok]
        refine ih m' c1 g1 r ?_ (hR.same hsh.2) (fun i hi => ?_) h hl
        · rw [show c1.length = comps.length from hsh.1]
          exact hst.of_same hsh.2
        · rw [show g1.length = gs.length from hsh.2.length]
          exact hml i (hm'sub i hi).2
      · exfalso
        rw [h2] at h1
        cases h1
        have h6 := ungroupLoop_outside (k := gs[j].newStorageStart) fuel m' comps gs r h fun i g hi hgi =>
          new_outside hst (hm'sub i hi).1 hgi hg
        have hbd := hst.bounds j _ hg
        exact h5 (hl _ s (hR j _ hg _ (.inr (Nat.le_refl _)) hbd.2.1) (by rw [h6]; exact h3) v h4)

theorem ungroupAllLoop_blank {R : Nat → Prop} {e : Entity} : ∀ (n : Nat) (comps : List (CompSet V))
    (gs : List Group) (r : Sets V), GStat gs comps.length → Within R gs → n ≤ gs.length →
    ungroupAllLoop e n (comps, gs) = .ok r → LabOk R e r.1 →
    ungroupAllLoop e.erase n (comps.map CompSet.blank, gs) = .ok (r.1.map CompSet.blank, r.2)
  | 0, comps, gs, r, _, _, _, h, _ => by cases h; rfl
  | n + 1, comps, gs, r, hst, hR, hn, h, hl => by
    unfold ungroupAllLoop at h ⊢
    obtain ⟨⟨c1, g1⟩, h1, h⟩ := Res.bind_eq_ok.1 h
    have hsh := ungroupStep_shape h1
    have hjl : n < gs.length := by omega
    have hg := List.getElem?_eq_getElem hjl
    rcases ungroupStep_dich (e := e) hst hg with h2 | ⟨h2, s, v, h3, h4, h5⟩
    · rw [h2, h1]
      simp only [Res.bind_ok]
      refine ungroupAllLoop_blank n c1 g1 r ?_ (hR.same hsh.2) ?_ h hl
      · rw [show c1.length = comps.length from hsh.1]
        exact hst.of_same hsh.2
      · rw [show g1.length = gs.length from hsh.2.length]
        omega
    · exfalso
      rw [h2] at h1
      cases h1
      have h6 := ungroupAllLoop_outside (k := gs[n].newStorageStart) n comps gs r h fun i g hi hgi =>
        new_outside hst hi hgi hg
      have hbd := hst.bounds n _ hg
      exact h5 (hl _ s (hR n _ hg _ (.inr (Nat.le_refl _)) hbd.2.1) (by rw [h6]; exact h3) v h4)

end Sparsey
