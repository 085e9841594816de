import Verif.Spec.Moves
import Verif.Proofs.Rows
import Verif.Proofs.Panics
import Verif.Proofs.LayoutLimits

/-!
Positions that change: exchanges, insertions and removals, for C67.
-/

set_option autoImplicit false
set_option linter.unusedSimpArgs false

namespace Sparsey
variable {V : Type}

/-- The row at position `p` belongs to index `x`. -/
def HoldsAt (l : List (Entity × V)) (p x : Nat) : Prop := ∃ r, l[p]? = some r ∧ r.1.index = x

theorem UniqueRows.pos {l : List (Entity × V)} (h : UniqueRows l) {p q x : Nat} (hp : HoldsAt l p x) (hq : HoldsAt l q x) :
    p = q := by
  obtain ⟨r, h1, h2⟩ := hp
  obtain ⟨r', h3, h4⟩ := hq
  have hp := (List.getElem?_eq_some_iff.1 h1).1
  exact (List.getElem?_inj (l := l.map fun p : Entity × V => p.1.index) (by simpa using hp) h).1 (by simp [h1, h3, h2, h4])

/-- The row of index `x` moves through at most `n` exchanges. -/
def Slid (x n : Nat) (l l' : List (Entity × V)) : Prop :=
  l' = l ∨ 1 ≤ n ∧ ∃ p q ps, HoldsAt l p x ∧ HoldsAt l' q x ∧ ps.length ≤ n ∧ q ∈ p :: ps ∧ ∀ i, i ∉ p :: ps → l'[i]? = l[i]?

theorem Slid.refl (x n : Nat) (l : List (Entity × V)) : Slid x n l l := .inl rfl

theorem Slid.mono {x n m : Nat} {l l' : List (Entity × V)} (h : Slid x n l l') (hnm : n ≤ m) : Slid x m l l' := by
  rcases h with h | ⟨h0, p, q, ps, h1, h2, h3, h4, h5⟩
  · exact .inl h
  · exact .inr ⟨by omega, p, q, ps, h1, h2, by omega, h4, h5⟩

theorem Slid.trans {x n m : Nat} {a b c : List (Entity × V)} (hb : UniqueRows b) (h : Slid x n a b) (h' : Slid x m b c) :
    Slid x (n + m) a c := by
  rcases h with rfl | ⟨h0, p, q, ps, h1, h2, h3, h4, h5⟩
  · exact h'.mono (by omega)
  · rcases h' with rfl | ⟨k0, p', q', ps', k1, k2, k3, k4, k5⟩
    · exact .inr ⟨by omega, p, q, ps, h1, h2, by omega, h4, h5⟩
    · obtain rfl := hb.pos h2 k1
      refine .inr ⟨by omega, p, q', ps ++ ps', h1, k2, by rw [List.length_append]; omega, ?_, fun i hi => ?_⟩
      · simp only [List.mem_cons, List.mem_append] at h4 k4 ⊢
        rcases k4 with rfl | k4
        · rcases h4 with h4 | h4
          · exact .inl h4
          · exact .inr (.inl h4)
        · exact .inr (.inr k4)
      · simp only [List.mem_cons, List.mem_append, not_or] at hi h4
        have hq : i ≠ q := by
          rintro rfl
          rcases h4 with h4 | h4
          · exact hi.1 h4
          · exact hi.2.1 h4
        rw [k5 i (by simp [hq, hi.2.2]), h5 i (by simp [hi.1, hi.2.1])]

theorem slide_mono {n m : Nat} (h : n ≤ m) : slide n ≤ slide m := by
  unfold slide
  split <;> split <;> omega

theorem Slid.differs {x n : Nat} {l l' : List (Entity × V)} (h : Slid x n l l') : DiffersAt (slide n) l l' := by
  rcases h with rfl | ⟨h0, p, q, ps, h1, h2, h3, h4, h5⟩
  · exact ⟨[], by simp, fun _ _ => rfl⟩
  · refine ⟨p :: ps, ?_, h5⟩
    rw [slide, if_neg (by omega), List.length_cons]
    omega

theorem DiffersAt.refl {α : Type} (n : Nat) (l : List α) : DiffersAt n l l := ⟨[], by simp, fun _ _ => rfl⟩

theorem DiffersAt.mono {α : Type} {n m : Nat} {l l' : List α} (h : DiffersAt n l l') (hnm : n ≤ m) : DiffersAt m l l' := by
  obtain ⟨ps, h1, h2⟩ := h
  exact ⟨ps, by omega, h2⟩

theorem DiffersAt.trans {α : Type} {n m : Nat} {a b c : List α} (h : DiffersAt n a b) (h' : DiffersAt m b c) :
    DiffersAt (n + m) a c := by
  obtain ⟨ps, h1, h2⟩ := h
  obtain ⟨qs, h3, h4⟩ := h'
  refine ⟨ps ++ qs, by rw [List.length_append]; omega, fun i hi => ?_⟩
  simp only [List.mem_append, not_or] at hi
  rw [h4 i hi.2, h2 i hi.1]

/-! ### Exchanges -/

theorem swapTo_slid {s s' : CompSet V} {q x : Nat} (h : s.IdxOk) (hr : swapTo s q x = .ok s') : Slid x 1 s.rows s'.rows := by
  unfold swapTo at hr
  obtain ⟨d, hd, hr⟩ := Res.bind_ok' hr
  have hd : ∃ e, s.entities[d]? = some e ∧ e.index = x := by
    unfold SparseVec.getSparseUnchecked at hd
    split at hd
    · rename_i sl hs
      cases hd
      exact h.rep.slot hs
    · cases hd
  split at hr
  · rename_i hne
    obtain ⟨e, he, hx⟩ := hd
    unfold CompSet.swap at hr
    obtain ⟨ea, h1, hr⟩ := Res.bind_ok' hr
    obtain ⟨eb, h2, hr⟩ := Res.bind_ok' hr
    obtain ⟨sp, _, hr⟩ := Res.bind_ok' hr
    obtain ⟨va, h3, hr⟩ := Res.bind_ok' hr
    obtain ⟨vb, h4, hr⟩ := Res.bind_ok' hr
    cases hr
    have h1 := Res.unchecked_ok h1
    rw [he] at h1
    cases h1
    have hza := zip_getElem? he (Res.unchecked_ok h3)
    have hzb := zip_getElem? (Res.unchecked_ok h2) (Res.unchecked_ok h4)
    have hrows : CompSet.rows ⟨sp, (s.entities.set d eb).set q e, (s.components.set d vb).set q va⟩ =
        (s.rows.set d (eb, vb)).set q (e, va) := by
      unfold CompSet.rows
      rw [zip_set, zip_set]
    rw [hrows]
    refine .inr ⟨Nat.le_refl _, d, q, [q], ⟨_, hza, hx⟩, ⟨(e, va), ?_, hx⟩, by simp, by simp, fun i hi => ?_⟩
    · have := (List.getElem?_eq_some_iff.1 hzb).1
      rw [List.getElem?_set_self (by simpa [CompSet.rows] using this)]
    · simp only [List.mem_cons, List.not_mem_nil, or_false, not_or] at hi
      rw [List.getElem?_set_ne (fun h => hi.2 h.symm), List.getElem?_set_ne (fun h => hi.1 h.symm)]
  · cases hr
    exact .inl rfl

theorem swapAllTo_slid {q x : Nat} : ∀ {l l' : List (CompSet V)}, AllSets CompSet.IdxOk l → swapAllTo q x l = .ok l' →
    ∀ k, Slid x 1 (rowsI l k) (rowsI l' k)
  | [], l', _, hr, k => by cases hr; exact .inl rfl
  | s :: ss, l', ha, hr, k => by
    obtain ⟨s1, h1, hr⟩ := Res.bind_ok' hr
    obtain ⟨ss1, h2, hr⟩ := Res.bind_ok' hr
    cases hr
    cases k with
    | zero => exact swapTo_slid (ha s (.head _)) h1
    | succ k => exact swapAllTo_slid (fun x hx => ha x (.tail _ hx)) h2 k

/-- One if the position is in the range. -/
def within (a b k : Nat) : Nat := if a ≤ k ∧ k < b then 1 else 0

theorem rowsI_drop (l : List (CompSet V)) (n i : Nat) : rowsI (l.drop n) i = rowsI l (n + i) := by
  simp [rowsI]

theorem rowsI_take (l : List (CompSet V)) {n i : Nat} (h : i < n) : rowsI (l.take n) i = rowsI l i := by
  simp [rowsI, h]

theorem swapRange_slid {l l' : List (CompSet V)} {a b q x : Nat} (ha : AllSets CompSet.IdxOk l)
    (hr : swapRange l a b q x = .ok l') (k : Nat) : Slid x (within a b k) (rowsI l k) (rowsI l' k) := by
  unfold swapRange at hr
  obtain ⟨seg, h1, hr⟩ := Res.bind_ok' hr
  obtain ⟨seg', h2, hr⟩ := Res.bind_ok' hr
  cases hr
  unfold compRange at h1
  split at h1
  · rename_i hab
    cases h1
    have hl := swapAllTo_length _ _ h2
    simp only [List.length_take, List.length_drop] at hl
    unfold within
    by_cases hka : k < a
    · rw [if_neg (by omega), List.append_assoc, rowsI_append_left (by rw [List.length_take]; omega), rowsI_take _ hka]
      exact .inl rfl
    · by_cases hkb : k < b
      · rw [if_pos ⟨by omega, hkb⟩, rowsI_append_left (by rw [List.length_append, List.length_take]; omega),
          rowsI_append_right (by rw [List.length_take]; omega)]
        have h3 := swapAllTo_slid (fun s hs => ha s (List.mem_of_mem_drop (List.mem_of_mem_take hs))) h2 (k - a)
        rw [rowsI_take _ (by omega), rowsI_drop, show a + (k - a) = k by omega] at h3
        rw [List.length_take, Nat.min_eq_left (by omega)]
        exact h3
      · rw [if_neg (by omega), rowsI_append_right (by rw [List.length_append, List.length_take]; omega), rowsI_drop,
          List.length_append, List.length_take]
        rw [show b + (k - (min a l.length + seg'.length)) = k by omega]
        exact .inl rfl
  · cases h1

/-! ### Groups -/

/-- The groups with the set at position `k`. -/
def countAt (gs : List Group) (k : Nat) : Nat := gs.countP fun g => decide (InRange g k)

theorem countAt_same {gs gs' : List Group} (h : SameStat gs gs') (k : Nat) : countAt gs' k = countAt gs k := by
  unfold countAt
  have h1 : ∀ l : List Group, l.countP (fun g => decide (InRange g k)) = (l.map Group.stat).countP fun g => decide (InRange g k) := by
    intro l
    rw [List.countP_map]
    rfl
  rw [h1 gs', h1 gs, h]

theorem SameStat.drop {gs gs' : List Group} (h : SameStat gs gs') (n : Nat) : SameStat (gs.drop n) (gs'.drop n) := by
  unfold SameStat at h ⊢
  rw [List.map_drop, List.map_drop, h]

theorem SameStat.take {gs gs' : List Group} (h : SameStat gs gs') (n : Nat) : SameStat (gs.take n) (gs'.take n) := by
  unfold SameStat at h ⊢
  rw [List.map_take, List.map_take, h]

theorem countAt_drop {gs : List Group} {i : Nat} {g : Group} (hg : gs[i]? = some g) (k : Nat) :
    countAt (gs.drop i) k = within g.storageStart g.storageEnd k + countAt (gs.drop (i + 1)) k := by
  obtain ⟨hi, rfl⟩ := List.getElem?_eq_some_iff.1 hg
  rw [List.drop_eq_getElem_cons hi]
  unfold countAt
  rw [List.countP_cons, Nat.add_comm]
  congr 1
  by_cases hk : InRange gs[i] k
  · rw [within, if_pos (show gs[i].storageStart ≤ k ∧ k < gs[i].storageEnd from hk), if_pos (by simpa using hk)]
  · rw [within, if_neg (show ¬ (gs[i].storageStart ≤ k ∧ k < gs[i].storageEnd) from hk), if_neg (by simpa using hk)]

theorem countAt_drop_le (gs : List Group) {i j : Nat} (h : i ≤ j) (k : Nat) : countAt (gs.drop j) k ≤ countAt (gs.drop i) k := by
  unfold countAt
  exact (List.drop_sublist_drop_left gs h).countP_le

theorem countAt_take {gs : List Group} {i : Nat} {g : Group} (hg : gs[i]? = some g) (k : Nat) :
    countAt (gs.take (i + 1)) k = countAt (gs.take i) k + within g.storageStart g.storageEnd k := by
  obtain ⟨hi, rfl⟩ := List.getElem?_eq_some_iff.1 hg
  rw [List.take_add_one, List.getElem?_eq_getElem hi]
  unfold countAt
  rw [List.countP_append, Option.toList_some, List.countP_singleton]
  congr 1
  by_cases hk : InRange gs[i] k
  · rw [within, if_pos (show gs[i].storageStart ≤ k ∧ k < gs[i].storageEnd from hk), if_pos (by simpa using hk)]
  · rw [within, if_neg (show ¬ (gs[i].storageStart ≤ k ∧ k < gs[i].storageEnd) from hk), if_neg (by simpa using hk)]

theorem countAt_take_le (gs : List Group) {i j : Nat} (h : i ≤ j) (k : Nat) : countAt (gs.take i) k ≤ countAt (gs.take j) k := by
  unfold countAt
  exact (List.take_sublist_take_left h).countP_le

/-- Among the groups of the mask, those with the set at position `k`. -/
def countOn (m : GroupMask) (ps : List (Group × Nat)) (k : Nat) : Nat :=
  ps.countP fun p => m.getLsbD p.2 && decide (InRange p.1 k)

theorem countOn_le (m : GroupMask) (gs : List Group) (k : Nat) : countOn m gs.zipIdx k ≤ countAt gs k := by
  unfold countOn countAt
  have h : gs.countP (fun g => decide (InRange g k)) = gs.zipIdx.countP fun p => decide (InRange p.1 k) := by
    conv_lhs => rw [← List.zipIdx_map_fst 0 gs, List.countP_map]
    rfl
  rw [h]
  refine List.countP_mono_left fun p _ hp => ?_
  simp only [Bool.and_eq_true] at hp
  exact hp.2

theorem countOn_same {gs gs' : List Group} (h : SameStat gs gs') (m : GroupMask) (k j : Nat) :
    countOn m (gs'.zipIdx.drop j) k = countOn m (gs.zipIdx.drop j) k := by
  unfold countOn
  have h1 : ∀ l : List (Group × Nat), l.countP (fun p => m.getLsbD p.2 && decide (InRange p.1 k)) =
      (l.map (Prod.map Group.stat id)).countP fun p => m.getLsbD p.2 && decide (InRange p.1 k) := by
    intro l
    rw [List.countP_map]
    rfl
  have h2 : ∀ l : List Group, (l.zipIdx.drop j).map (Prod.map Group.stat id) = ((l.map Group.stat).zipIdx).drop j := by
    intro l
    rw [List.map_drop, List.zipIdx_map]
  rw [h1 (gs'.zipIdx.drop j), h1 (gs.zipIdx.drop j), h2, h2, h]

theorem countOn_take_same {gs gs' : List Group} (h : SameStat gs gs') (m : GroupMask) (k j : Nat) :
    countOn m (gs'.zipIdx.take j) k = countOn m (gs.zipIdx.take j) k := by
  unfold countOn
  have h1 : ∀ l : List (Group × Nat), l.countP (fun p => m.getLsbD p.2 && decide (InRange p.1 k)) =
      (l.map (Prod.map Group.stat id)).countP fun p => m.getLsbD p.2 && decide (InRange p.1 k) := by
    intro l
    rw [List.countP_map]
    rfl
  have h2 : ∀ l : List Group, (l.zipIdx.take j).map (Prod.map Group.stat id) = ((l.map Group.stat).zipIdx).take j := by
    intro l
    rw [List.map_take, List.zipIdx_map]
  rw [h1 (gs'.zipIdx.take j), h1 (gs.zipIdx.take j), h2, h2, h]

theorem countOn_one {m : GroupMask} {i : Nat} (hm : m.getLsbD i = true) (g : Group) (k : Nat) :
    (if (m.getLsbD i && decide (InRange g k)) = true then 1 else 0) = within g.storageStart g.storageEnd k := by
  rw [hm, Bool.true_and]
  by_cases hk : InRange g k
  · rw [within, if_pos (show g.storageStart ≤ k ∧ k < g.storageEnd from hk), if_pos (by simpa using hk)]
  · rw [within, if_neg (show ¬ (g.storageStart ≤ k ∧ k < g.storageEnd) from hk), if_neg (by simpa using hk)]

theorem countOn_drop {m : GroupMask} {gs : List Group} {i : Nat} {g : Group} (hg : gs[i]? = some g) (hm : m.getLsbD i = true)
    (k : Nat) : countOn m (gs.zipIdx.drop i) k =
      within g.storageStart g.storageEnd k + countOn m (gs.zipIdx.drop (i + 1)) k := by
  obtain ⟨hi, rfl⟩ := List.getElem?_eq_some_iff.1 hg
  have hi' : i < gs.zipIdx.length := by simpa using hi
  rw [List.drop_eq_getElem_cons hi']
  unfold countOn
  rw [List.countP_cons, Nat.add_comm, List.getElem_zipIdx]
  congr 1
  have := countOn_one hm gs[i] k
  simpa using this

theorem countOn_take {m : GroupMask} {gs : List Group} {i : Nat} {g : Group} (hg : gs[i]? = some g) (hm : m.getLsbD i = true)
    (k : Nat) : countOn m (gs.zipIdx.take (i + 1)) k =
      countOn m (gs.zipIdx.take i) k + within g.storageStart g.storageEnd k := by
  obtain ⟨hi, rfl⟩ := List.getElem?_eq_some_iff.1 hg
  have hi' : i < gs.zipIdx.length := by simpa using hi
  rw [List.take_add_one, List.getElem?_eq_getElem hi', List.getElem_zipIdx]
  unfold countOn
  rw [List.countP_append, Option.toList_some, List.countP_singleton]
  congr 1
  have := countOn_one hm gs[i] k
  simpa using this

theorem countOn_drop_le (m : GroupMask) (ps : List (Group × Nat)) {i j : Nat} (h : i ≤ j) (k : Nat) :
    countOn m (ps.drop j) k ≤ countOn m (ps.drop i) k := by
  unfold countOn
  exact (List.drop_sublist_drop_left ps h).countP_le

theorem countOn_take_le (m : GroupMask) (ps : List (Group × Nat)) {i j : Nat} (h : i ≤ j) (k : Nat) :
    countOn m (ps.take i) k ≤ countOn m (ps.take j) k := by
  unfold countOn
  exact (List.take_sublist_take_left h).countP_le

theorem rowsI_unique {l : List (CompSet V)} (h : AllSets CompSet.IdxOk l) (k : Nat) : UniqueRows (rowsI l k) := by
  unfold rowsI
  cases hk : l[k]? with
  | none => simp [UniqueRows]
  | some s => exact CompSet.IdxOk.unique (h s (List.mem_of_getElem? hk))

theorem groupComponents_slid {l l' : List (CompSet V)} {g g' : Group} {e : Entity} (ha : AllSets CompSet.IdxOk l)
    (hr : groupComponents l g e = .ok (l', g')) (k : Nat) :
    Slid e.index (within g.storageStart g.storageEnd k) (rowsI l k) (rowsI l' k) ∧ g' = { g with len := g.len + 1 } := by
  unfold groupComponents at hr
  obtain ⟨l1, h1, hr⟩ := Res.bind_ok' hr
  cases hr
  exact ⟨swapRange_slid ha h1 k, rfl⟩

theorem ungroupComponents_slid {l l' : List (CompSet V)} {g g' : Group} {e : Entity} (ha : AllSets CompSet.IdxOk l)
    (hr : ungroupComponents l g e = .ok (l', g')) (k : Nat) :
    Slid e.index (within g.storageStart g.storageEnd k) (rowsI l k) (rowsI l' k) ∧ g' = { g with len := g.len - 1 } := by
  unfold ungroupComponents at hr
  split at hr
  · cases hr
  · obtain ⟨l1, h1, hr⟩ := Res.bind_ok' hr
    cases hr
    exact ⟨swapRange_slid ha h1 k, rfl⟩

theorem groupLoop_slid {e : Entity} {m0 : GroupMask} : ∀ (fuel : Nat) (m : BitVec 64) (j : Nat) (s s' : Sets V), AllSets CompSet.IdxOk s.1 →
    (∀ b, m.getLsbD b = true → j ≤ b ∧ m0.getLsbD b = true) → groupLoop e fuel m s = .ok s' →
    ∀ k, Slid e.index (countOn m0 (s.2.zipIdx.drop j) k) (rowsI s.1 k) (rowsI s'.1 k) := by
  intro fuel
  induction fuel with
  | zero =>
    intro m j s s' _ _ hr k
    obtain ⟨comps, gs⟩ := s
    unfold groupLoop at hr
    split at hr
    · cases hr; exact .inl rfl
    · cases hr
  | succ fuel ih =>
    intro m j s s' ha hm hr k
    obtain ⟨comps, gs⟩ := s
    unfold groupLoop at hr
    split at hr
    · cases hr; exact .inl rfl
    · rename_i i m' hb
      obtain ⟨_, hi, _, hm'⟩ := bitNext_some hb
      obtain ⟨hji, hi0⟩ := hm i hi
      have hlow : ∀ j < i, m.getLsbD j = false := (bitNext_some hb).2.2.1
      have hm2 : ∀ b, m'.getLsbD b = true → i + 1 ≤ b ∧ m0.getLsbD b = true := by
        intro b hb
        rw [hm'] at hb
        simp only [Bool.and_eq_true, Bool.not_eq_true', decide_eq_false_iff_not] at hb
        refine ⟨?_, (hm b hb.1).2⟩
        by_contra hlt
        have : b < i := by omega
        rw [hlow b this] at hb
        simp at hb
      obtain ⟨g, hg, hr⟩ := Res.bind_ok' hr
      obtain ⟨seg, _, hr⟩ := Res.bind_ok' hr
      obtain ⟨st, _, hr⟩ := Res.bind_ok' hr
      have hg := Res.unchecked_ok hg
      have hle : countOn m0 (gs.zipIdx.drop (i + 1)) k ≤ countOn m0 (gs.zipIdx.drop j) k := countOn_drop_le m0 _ (by omega) k
      cases st with
      | incomplete =>
        refine (ih _ (i + 1) _ _ ha (fun b hb => hm2 b ?_) hr k).mono hle
        rw [BitVec.getLsbD_and] at hb
        simp only [Bool.and_eq_true] at hb
        exact hb.1
      | ungrouped =>
        obtain ⟨⟨l1, g1⟩, h1, hr⟩ := Res.bind_ok' hr
        obtain ⟨h2, rfl⟩ := groupComponents_slid ha h1 k
        have ha' := stable_idx.groupComponents ha h1
        have h3 := ih _ (i + 1) _ _ ha' hm2 hr k
        rw [countOn_same (SameStat.set hg _)] at h3
        refine (h2.trans (rowsI_unique ha' k) h3).mono ?_
        rw [← countOn_drop hg hi0]
        exact countOn_drop_le m0 _ hji k
      | grouped => exact (ih _ (i + 1) _ _ ha hm2 hr k).mono hle

theorem ungroupStep_slid {e : Entity} {i : Nat} {s s' : Sets V} (ha : AllSets CompSet.IdxOk s.1)
    (hr : ungroupStep e i s = .ok s') (k : Nat) :
    ∃ g, s.2[i]? = some g ∧ Slid e.index (within g.storageStart g.storageEnd k) (rowsI s.1 k) (rowsI s'.1 k) := by
  obtain ⟨comps, gs⟩ := s
  unfold ungroupStep at hr
  obtain ⟨g, hg, hr⟩ := Res.bind_ok' hr
  obtain ⟨seg, _, hr⟩ := Res.bind_ok' hr
  obtain ⟨st, _, hr⟩ := Res.bind_ok' hr
  refine ⟨g, Res.unchecked_ok hg, ?_⟩
  cases st with
  | incomplete => cases hr; exact .inl rfl
  | ungrouped => cases hr; exact .inl rfl
  | grouped =>
    obtain ⟨⟨l1, g1⟩, h1, hr⟩ := Res.bind_ok' hr
    cases hr
    exact (ungroupComponents_slid ha h1 k).1

theorem ungroupLoop_slid {e : Entity} {m0 : GroupMask} : ∀ (fuel : Nat) (m : BitVec 64) (j : Nat) (s s' : Sets V), AllSets CompSet.IdxOk s.1 →
    (∀ b, m.getLsbD b = true → b < j ∧ m0.getLsbD b = true) → ungroupLoop e fuel m s = .ok s' →
    ∀ k, Slid e.index (countOn m0 (s.2.zipIdx.take j) k) (rowsI s.1 k) (rowsI s'.1 k) := by
  intro fuel
  induction fuel with
  | zero =>
    intro m j s s' _ _ hr k
    unfold ungroupLoop at hr
    split at hr
    · cases hr; exact .inl rfl
    · cases hr
  | succ fuel ih =>
    intro m j s s' ha hm hr k
    unfold ungroupLoop at hr
    split at hr
    · cases hr; exact .inl rfl
    · rename_i i m' hb
      obtain ⟨_, hi, hhigh, hm'⟩ := bitNextBack_some hb
      obtain ⟨hji, hi0⟩ := hm i hi
      have hm2 : ∀ b, m'.getLsbD b = true → b < i ∧ m0.getLsbD b = true := by
        intro b hb
        rw [hm'] at hb
        simp only [Bool.and_eq_true, Bool.not_eq_true', decide_eq_false_iff_not] at hb
        refine ⟨?_, (hm b hb.1).2⟩
        by_contra hlt
        have : i < b := by omega
        rw [hhigh b this] at hb
        simp at hb
      obtain ⟨s1, h1, hr⟩ := Res.bind_ok' hr
      obtain ⟨g, hg, h2⟩ := ungroupStep_slid ha h1 k
      have ha' := stable_idx.ungroupStep ha h1
      have h3 := ih _ i _ _ ha' hm2 hr k
      rw [countOn_take_same (ungroupStep_shape h1).2] at h3
      refine (h2.trans (rowsI_unique ha' k) h3).mono ?_
      rw [Nat.add_comm, ← countOn_take hg hi0]
      exact countOn_take_le m0 _ (by omega) k

theorem ungroupAllLoop_slid {e : Entity} : ∀ (n : Nat) (s s' : Sets V), AllSets CompSet.IdxOk s.1 →
    ungroupAllLoop e n s = .ok s' → ∀ k, Slid e.index (countAt (s.2.take n) k) (rowsI s.1 k) (rowsI s'.1 k)
  | 0, s, s', _, hr, k => by cases hr; exact .inl rfl
  | n + 1, s, s', ha, hr, k => by
    obtain ⟨s1, h1, hr⟩ := Res.bind_ok' hr
    obtain ⟨g, hg, h2⟩ := ungroupStep_slid ha h1 k
    have ha' := stable_idx.ungroupStep ha h1
    have h3 := ungroupAllLoop_slid n _ _ ha' hr k
    rw [countAt_same ((ungroupStep_shape h1).2.take _)] at h3
    refine (h2.trans (rowsI_unique ha' k) h3).mono ?_
    rw [Nat.add_comm, ← countAt_take hg]

theorem group_slid {e : Entity} {m : GroupMask} {s s' : Sets V} (ha : AllSets CompSet.IdxOk s.1) (hr : group s m e = .ok s')
    (k : Nat) : Slid e.index (countOn m s.2.zipIdx k) (rowsI s.1 k) (rowsI s'.1 k) := by
  have := groupLoop_slid (m0 := m) 64 m 0 s s' ha (fun _ hb => ⟨Nat.zero_le _, hb⟩) hr k
  simpa using this

theorem ungroup_slid {e : Entity} {m : GroupMask} {s s' : Sets V} (ha : AllSets CompSet.IdxOk s.1) (hr : ungroup s m e = .ok s')
    (k : Nat) : Slid e.index (countOn m s.2.zipIdx k) (rowsI s.1 k) (rowsI s'.1 k) := by
  refine (ungroupLoop_slid (m0 := m) 64 m 64 s s' ha (fun b hb => ⟨BitVec.lt_of_getLsbD hb, hb⟩) hr k).mono ?_
  exact (List.take_sublist 64 s.2.zipIdx).countP_le

theorem groupEntities_differs {m : GroupMask} : ∀ (es : List Entity) (s s' : Sets V), AllSets CompSet.IdxOk s.1 →
    ComponentStorage.groupEntities m es s = .ok s' →
    ∀ k, DiffersAt (es.length * slide (countOn m s.2.zipIdx k)) (rowsI s.1 k) (rowsI s'.1 k)
  | [], s, s', _, hr, k => by cases hr; exact DiffersAt.refl _ _
  | e :: es, s, s', ha, hr, k => by
    obtain ⟨s1, h1, hr⟩ := Res.bind_ok' hr
    have h2 := (group_slid ha h1 k).differs
    have h3 := groupEntities_differs es _ _ (stable_idx.groupLoop _ _ _ _ ha h1) hr k
    have h4 := countOn_same (groupLoop_shape _ _ _ _ h1).2 m k 0
    rw [List.drop_zero, List.drop_zero] at h4
    rw [h4] at h3
    refine (h2.trans h3).mono ?_
    rw [List.length_cons, Nat.succ_mul]
    omega

/-! ### One set -/

/-- A component is put: at the position of the index, if it has one. -/
def Put (x : Nat) (l l' : List (Entity × V)) : Prop :=
  ∃ p, HoldsAt l' p x ∧ (∀ q, HoldsAt l q x → q = p) ∧ ∀ i, i ≠ p → l'[i]? = l[i]?

theorem Put.trans {x : Nat} {a b c : List (Entity × V)} (h : Put x a b) (h' : Put x b c) : Put x a c := by
  obtain ⟨p, h1, h2, h3⟩ := h
  obtain ⟨p', k1, k2, k3⟩ := h'
  obtain rfl := k2 p h1
  exact ⟨p, k1, h2, fun i hi => by rw [k3 i hi, h3 i hi]⟩

theorem Put.differs {x : Nat} {l l' : List (Entity × V)} (h : Put x l l') : DiffersAt 1 l l' := by
  obtain ⟨p, _, _, h3⟩ := h
  exact ⟨[p], by simp, fun i hi => h3 i (by simpa using hi)⟩

theorem Put.slid {x n : Nat} {a b c : List (Entity × V)} (h : Put x a b) (hb : UniqueRows b) (h' : Slid x n b c) :
    DiffersAt (n + 1) a c := by
  rcases h' with rfl | ⟨_, p, q, ps, k1, _, k3, _, k5⟩
  · exact h.differs.mono (by omega)
  · obtain ⟨p', h1, _, h3⟩ := h
    obtain rfl := hb.pos h1 k1
    refine ⟨p' :: ps, by rw [List.length_cons]; omega, fun i hi => ?_⟩
    rw [k5 i hi]
    exact h3 i (by simp only [List.mem_cons, not_or] at hi; exact hi.1)

/-- A component is taken away, if there is one, and the last row fills the gap. -/
def Cut (x : Nat) (l l' : List (Entity × V)) : Prop :=
  l' = l ∨ ∃ p, HoldsAt l p x ∧ (∀ q, ¬ HoldsAt l' q x) ∧ ∀ i, i ∉ [p, l.length - 1] → l'[i]? = l[i]?

theorem Cut.trans {x : Nat} {a b c : List (Entity × V)} (h : Cut x a b) (h' : Cut x b c) : Cut x a c := by
  rcases h with rfl | ⟨p, h1, h2, h3⟩
  · exact h'
  · rcases h' with rfl | ⟨q, h4, _⟩
    · exact .inr ⟨p, h1, h2, h3⟩
    · exact absurd h4 (h2 q)

theorem Slid.cut {x n : Nat} {a b c : List (Entity × V)} (hb : UniqueRows b) (h : Slid x n a b) (h' : Cut x b c) :
    DiffersAt (n + 2) a c := by
  rcases h' with rfl | ⟨p', k1, _, k3⟩
  · refine h.differs.mono ?_
    unfold slide
    split <;> omega
  · rcases h with rfl | ⟨_, p, q, ps, h1, h2, h3, h4, h5⟩
    · exact ⟨[p', b.length - 1], by simp, k3⟩
    · obtain rfl := hb.pos h2 k1
      refine ⟨(b.length - 1) :: p :: ps, by simp only [List.length_cons]; omega, fun i hi => ?_⟩
      rw [List.mem_cons, not_or] at hi
      rw [k3 i ?_, h5 i hi.2]
      intro hm
      simp only [List.mem_cons, List.not_mem_nil, or_false] at hm
      rcases hm with rfl | rfl
      · exact hi.2 h4
      · exact hi.1 rfl

namespace CompSet

theorem insert_put {s s' : CompSet V} {e : Entity} {v : V} {old : Option V} (h : s.IdxOk)
    (hr : s.insert e v = .ok (old, s')) : Put e.index s.rows s'.rows := by
  have hu : UniqueRows s.rows := h.unique
  unfold CompSet.insert at hr
  obtain ⟨slot, hs, hr⟩ := Res.bind_ok' hr
  have hs := Res.unchecked_ok hs
  cases slot with
  | some sl =>
    obtain ⟨x, hx, hr⟩ := Res.bind_ok' hr
    obtain ⟨y, hy, hr⟩ := Res.bind_ok' hr
    cases hr
    obtain ⟨x', hx', hi⟩ := h.rep.slot ((SparseVec.allocateAt_some _ _ _ _).1 hs)
    have hx := Res.unchecked_ok hx
    rw [hx] at hx'
    cases hx'
    have hz := zip_getElem? hx (Res.unchecked_ok hy)
    have hrows : ∀ sp, CompSet.rows ⟨sp, s.entities.set sl.index e, s.components.set sl.index v⟩ = s.rows.set sl.index (e, v) := by
      intro sp
      unfold CompSet.rows
      rw [zip_set]
    rw [hrows]
    refine ⟨sl.index, ⟨(e, v), ?_, rfl⟩, fun q hq => hu.pos hq ⟨_, hz, hi⟩, fun i hi => ?_⟩
    · have := (List.getElem?_eq_some_iff.1 hz).1
      rw [List.getElem?_set_self (by simpa [CompSet.rows] using this)]
    · rw [List.getElem?_set_ne (fun h => hi h.symm)]
  | none =>
    obtain ⟨sp, _, hr⟩ := Res.bind_ok' hr
    cases hr
    have hrows : CompSet.rows ⟨sp, s.entities ++ [e], s.components ++ [v]⟩ = s.rows ++ [(e, v)] := by
      unfold CompSet.rows
      rw [List.zip_append h.len.symm]
      rfl
    rw [hrows]
    refine ⟨s.rows.length, ⟨(e, v), by simp, rfl⟩, fun q hq => ?_, fun i hi => ?_⟩
    · exfalso
      obtain ⟨r, hq, hi⟩ := hq
      have hp : r.1 ∈ s.entities := by
        rw [← rows_fst h]
        exact List.mem_map_of_mem (List.mem_of_getElem? hq)
      obtain ⟨d, hd⟩ := List.mem_iff_getElem?.1 hp
      obtain ⟨v', hv⟩ := h.rep.fwd d _ hd
      rw [hi] at hv
      have := (SparseVec.allocateAt_some s.sparse e.sparse _ _).2 hv
      rw [show e.index = e.sparse from rfl, hs] at this
      cases this
    · rcases Nat.lt_trichotomy i s.rows.length with h1 | h1 | h1
      · rw [List.getElem?_append_left h1]
      · exact absurd h1 hi
      · rw [List.getElem?_eq_none (by rw [List.length_append, List.length_singleton]; omega), List.getElem?_eq_none (by omega)]

theorem remove_cut {s s' : CompSet V} {e : Entity} {o : Option V} (h : s.IdxOk) (hr : s.remove e = .ok (o, s')) :
    Cut e.index s.rows s'.rows := by
  have hperm := remove_rows h hr
  unfold CompSet.remove at hr
  split at hr
  · cases hr
    exact .inl rfl
  · rename_i index sv hs
    right
    obtain ⟨le, hle, hr⟩ := Res.bind_ok' hr
    obtain ⟨xe, hxe, hr⟩ := Res.bind_ok' hr
    have hr : ∃ x y sp, Res.unchecked (s.components[index]?) = .ok x ∧
        Res.unchecked (s.components[s.entities.length - 1]?) = .ok y ∧ (some x, (⟨sp, (s.entities.set index le).take (s.entities.length - 1),
          (s.components.set index y).take (s.entities.length - 1)⟩ : CompSet V)) = (o, s') := by
      dsimp only at hr
      split at hr
      all_goals
        obtain ⟨sp, _, hr⟩ := Res.bind_ok' hr
        obtain ⟨x, hx, hr⟩ := Res.bind_ok' hr
        obtain ⟨y, hy, hr⟩ := Res.bind_ok' hr
        cases hr
        exact ⟨x, y, sp, hx, hy, rfl⟩
    obtain ⟨x, y, sp, hx, hy, hr⟩ := hr
    cases hr
    have hxe := Res.unchecked_ok hxe
    have hi : xe.index = e.index := by
      rcases h.rep.remove_cases e with hc | ⟨d, x', hc, hd, hi⟩
      · rw [hc] at hs; cases hs
      · rw [hc] at hs
        cases hs
        rw [hd] at hxe
        cases hxe
        exact hi
    have hz := zip_getElem? hxe (Res.unchecked_ok hx)
    have hlen : s.rows.length = s.entities.length := by
      simp [CompSet.rows, h.len]
    have hrows : CompSet.rows ⟨sp, (s.entities.set index le).take (s.entities.length - 1),
        (s.components.set index y).take (s.entities.length - 1)⟩ = (s.rows.set index (le, y)).take (s.entities.length - 1) := by
      unfold CompSet.rows
      rw [zip_take, zip_set]
    refine ⟨index, ⟨_, hz, hi⟩, fun q hq => ?_, fun i hi => ?_⟩
    · rcases hperm with ⟨h1, _⟩ | ⟨_, _, _, _, _, h1⟩
      · cases h1
      · obtain ⟨r, hq, hx⟩ := hq
        have := h1.subset (List.mem_of_getElem? hq)
        unfold others at this
        simp only [List.mem_filter, bne_iff_ne, ne_eq] at this
        exact this.2 hx
    · rw [hrows]
      simp only [List.mem_cons, List.not_mem_nil, or_false, not_or] at hi
      by_cases hl : i < s.entities.length - 1
      · rw [List.getElem?_take_of_lt hl, List.getElem?_set_ne (fun h => hi.1 h.symm)]
      · rw [List.getElem?_eq_none (by simp only [List.length_take, List.length_set]; omega), List.getElem?_eq_none (by omega)]

theorem delete_cut {s s' : CompSet V} {e : Entity} (h : s.IdxOk) (hr : s.delete e = .ok s') : Cut e.index s.rows s'.rows := by
  obtain ⟨o, s1, h1, h2, _⟩ := h.remove e
  rw [h2] at hr
  cases hr
  exact remove_cut h h1

end CompSet

/-! ### Storages -/

namespace ComponentStorage

/-- The groups a type is in. -/
def countOf (c : ComponentStorage V) (t : TypeId) : Nat :=
  match c.meta? t with
  | none => 0
  | some m => countAt c.groups m.storageIndex

theorem countOf_shape {c c' : ComponentStorage V} (h : Shape c c') (t : TypeId) : c'.countOf t = c.countOf t := by
  unfold countOf
  rw [h.meta?]
  cases c.meta? t with
  | none => rfl
  | some m => exact countAt_same h.stat _

theorem rowsAt_unique {c : ComponentStorage V} (h : AllSets CompSet.IdxOk c.components) (t : TypeId) : UniqueRows (c.rowsAt t) := by
  unfold rowsAt
  cases c.meta? t with
  | none => exact List.nodup_nil
  | some m => exact rowsI_unique h _

/-- Among the groups of the mask, those the type is in. -/
def crossed (c : ComponentStorage V) (m : GroupMask) (t : TypeId) : Nat :=
  match c.meta? t with
  | none => 0
  | some md => countOn m c.groups.zipIdx md.storageIndex

theorem crossed_le (c : ComponentStorage V) (m : GroupMask) (t : TypeId) : c.crossed m t ≤ c.countOf t := by
  unfold crossed countOf
  cases c.meta? t with
  | none => exact Nat.le_refl _
  | some md => exact countOn_le _ _ _

theorem crossed_shape {c c' : ComponentStorage V} (h : Shape c c') (m : GroupMask) (t : TypeId) :
    c'.crossed m t = c.crossed m t := by
  unfold crossed
  rw [h.meta?]
  cases c.meta? t with
  | none => rfl
  | some md =>
    have := countOn_same h.stat m md.storageIndex 0
    simpa using this

theorem withMask_slid {c c' : ComponentStorage V} {m : GroupMask} {f : Sets V → Res (Sets V)} {x : Nat}
    (hf : ∀ s s', AllSets CompSet.IdxOk s.1 → f s = .ok s' →
      ∀ k, Slid x (countOn m s.2.zipIdx k) (rowsI s.1 k) (rowsI s'.1 k))
    (ha : AllSets CompSet.IdxOk c.components) (hr : c.withMask m f = .ok c') (t : TypeId) :
    Slid x (c.crossed m t) (c.rowsAt t) (c'.rowsAt t) := by
  unfold withMask at hr
  split at hr
  · cases hr; exact .inl rfl
  · obtain ⟨⟨l, gs⟩, h1, hr⟩ := Res.bind_ok' hr
    cases hr
    have h := hf _ _ ha h1
    unfold rowsAt crossed
    show Slid x _ _ (match c.meta? t with | none => [] | some m => rowsI l m.storageIndex)
    cases c.meta? t with
    | none => exact .inl rfl
    | some m => exact h _

theorem groupEntities_moves {c : ComponentStorage V} {comps : List (CompSet V)} {gs : List Group} {m : GroupMask}
    {es : List Entity} (ha : AllSets CompSet.IdxOk c.components)
    (hr : groupEntities m es (c.components, c.groups) = .ok (comps, gs)) (t : TypeId) :
    DiffersAt (es.length * slide (c.crossed m t)) (c.rowsAt t) (rowsAt { c with components := comps, groups := gs } t) := by
  have h := groupEntities_differs es _ _ ha hr
  unfold rowsAt crossed
  show DiffersAt _ _ (match c.meta? t with | none => [] | some m => rowsI comps m.storageIndex)
  cases c.meta? t with
  | none => exact DiffersAt.refl _ _
  | some m => exact h _

theorem withMask_groupEntities {c c' : ComponentStorage V} {m : GroupMask} {es : List Entity}
    (ha : AllSets CompSet.IdxOk c.components) (hr : c.withMask m (groupEntities m es) = .ok c') (t : TypeId) :
    DiffersAt (es.length * slide (c.crossed m t)) (c.rowsAt t) (c'.rowsAt t) := by
  unfold withMask at hr
  split at hr
  · cases hr; exact DiffersAt.refl _ _
  · obtain ⟨⟨l, gs⟩, h1, hr⟩ := Res.bind_ok' hr
    cases hr
    exact groupEntities_moves ha h1 t

/-- The mask has groups of the types only. -/
def MaskOn (c : ComponentStorage V) (f : ComponentMetadata → GroupMask) (ts : List TypeId) (m : GroupMask) : Prop :=
  ∀ i, m.getLsbD i = true → ∃ x ∈ ts, ∃ md, c.meta? x = some md ∧ (f md).getLsbD i = true

theorem MaskOn.zero (c : ComponentStorage V) (f : ComponentMetadata → GroupMask) (ts : List TypeId) : MaskOn c f ts 0#64 := by
  intro i hi
  simp at hi

theorem lookupAll_maskOn {c : ComponentStorage V} {f : ComponentMetadata → GroupMask} : ∀ (ts : List TypeId) {idxs : List Nat}
    {m : GroupMask}, c.lookupAll f ts = .ok (idxs, m) → MaskOn c f ts m
  | [], idxs, m, h => by cases h; exact MaskOn.zero _ _ _
  | t :: ts, idxs, m, h => by
    rw [lookupAll] at h
    cases hm : c.meta? t with
    | none => rw [hm] at h; cases h
    | some md =>
      rw [hm] at h
      simp only at h
      obtain ⟨⟨idxs1, m1⟩, h1, h⟩ := Res.bind_ok' h
      obtain ⟨_, _, h⟩ := Res.bind_ok' h
      cases h
      intro i hi
      rw [BitVec.getLsbD_or, Bool.or_eq_true] at hi
      rcases hi with hi | hi
      · exact ⟨t, .head _, md, hm, hi⟩
      · obtain ⟨x, hx, md', k1, k2⟩ := lookupAll_maskOn ts h1 i hi
        exact ⟨x, .tail _ hx, md', k1, k2⟩

theorem insertEach_maskOn {e : Entity} : ∀ (vs : List (TypeId × V)) (m : GroupMask) (c : ComponentStorage V) {m' : GroupMask}
    {c' : ComponentStorage V}, insertEach e vs m c = .ok m' c' →
    ∀ i, m'.getLsbD i = true → m.getLsbD i = true ∨
      ∃ x ∈ vs.map (·.1), ∃ md, c.meta? x = some md ∧ md.insertMask.getLsbD i = true
  | [], m, c, m', c', h, i, hi => by cases h; exact .inl hi
  | (t, v) :: vs, m, c, m', c', h, i, hi => by
    rw [insertEach] at h
    cases hm : c.meta? t with
    | none => rw [hm] at h; cases h
    | some md =>
      rw [hm] at h
      simp only at h
      obtain ⟨s, _, h⟩ := Outcome.ofRes_eq_ok h
      obtain ⟨⟨old, s'⟩, _, h⟩ := Outcome.ofRes_eq_ok h
      rcases insertEach_maskOn vs _ _ h i hi with h1 | ⟨x, hx, md', k1, k2⟩
      · rw [BitVec.getLsbD_or, Bool.or_eq_true] at h1
        rcases h1 with h1 | h1
        · exact .inl h1
        · exact .inr ⟨t, by simp, md, hm, h1⟩
      · exact .inr ⟨x, by rw [List.map_cons]; exact .tail _ hx, md', k1, k2⟩

/-- Components may be put for the types named. -/
def MayPut (named : Prop) (x : Nat) (l l' : List (Entity × V)) : Prop := l' = l ∨ named ∧ Put x l l'

theorem MayPut.differs {x n : Nat} {a b c : List (Entity × V)} {named : Prop} [Decidable named] (h : MayPut named x a b)
    (hb : UniqueRows b) (h' : Slid x n b c) : DiffersAt (if named then n + 1 else slide n) a c := by
  rcases h with rfl | ⟨hn, h⟩
  · refine h'.differs.mono ?_
    unfold slide
    split <;> split <;> omega
  · rw [if_pos hn]
    exact h.slid hb h'

theorem insertEach_put {e : Entity} (he : e.index < u32Size) (t : TypeId) : ∀ (vs : List (TypeId × V)) (m : GroupMask)
    (c : ComponentStorage V), Static c → AllSets CompSet.IdxOk c.components →
    (insertEach e vs m c).Leaves (fun c' => MayPut (t ∈ vs.map (·.1)) e.index (c.rowsAt t) (c'.rowsAt t))
  | [], _, c, _, _ => .inl rfl
  | (t', v) :: vs, m, c, hc, ha => by
    rw [insertEach]
    cases hm : c.meta? t' with
    | none => exact .inl rfl
    | some md =>
      simp only
      refine Outcome.Leaves.ofRes (.inl rfl) fun s hs => Outcome.Leaves.ofRes (.inl rfl) fun p hi => ?_
      obtain ⟨old, s'⟩ := p
      have hs := Res.unchecked_ok hs
      have k1 := CompSet.insert_put (mem_at ha hs) hi
      have k2 := stable_idx.insert (mem_at ha hs) he hi
      have ih := insertEach_put he t vs (m ||| md.insertMask) { c with components := c.components.set md.storageIndex s' }
        (hc.of_shape (Shape.set ..)) (AllSets.set ha k2 _)
      rw [rowsAt_set hc hm] at ih
      have hfin : ∀ l, MayPut (t ∈ vs.map (·.1)) e.index (if t = t' then s'.rows else c.rowsAt t) l →
          MayPut (t ∈ ((t', v) :: vs).map (·.1)) e.index (c.rowsAt t) l := by
        intro l hl
        by_cases ht : t = t'
        · subst ht
          rw [if_pos rfl] at hl
          rw [rowsAt_get hm hs]
          refine .inr ⟨by simp, ?_⟩
          rcases hl with rfl | ⟨_, hl⟩
          · exact k1
          · exact k1.trans hl
        · rw [if_neg ht] at hl
          rcases hl with hl | ⟨h1, hl⟩
          · exact .inl hl
          · exact .inr ⟨by rw [List.map_cons]; exact .tail _ h1, hl⟩
      show (insertEach e vs (m ||| md.insertMask) { c with components := c.components.set md.storageIndex s' }).Leaves _
      revert ih
      cases insertEach e vs (m ||| md.insertMask) { c with components := c.components.set md.storageIndex s' } with
      | ub => exact fun _ => trivial
      | ok a c' => exact fun ih => hfin _ ih
      | panic c' => exact fun ih => hfin _ ih

theorem insert_moves {e : Entity} (he : e.index < u32Size) (t : TypeId) (vs : List (TypeId × V)) {c : ComponentStorage V}
    (hc : Static c) (ha : AllSets CompSet.IdxOk c.components) : (c.insert e vs).Leaves (fun c' =>
      ∃ m, MaskOn c (·.insertMask) (vs.map (·.1)) m ∧
      DiffersAt (if t ∈ vs.map (·.1) then c.crossed m t + 1 else slide (c.crossed m t)) (c.rowsAt t) (c'.rowsAt t)) := by
  unfold insert
  have h1 := insertEach_put he t vs 0#64 c hc ha
  have h2 := stable_idx.insertEach he vs 0#64 c ha
  have h3 := insertEach_shape (e := e) vs 0#64 c
  have h0 : ∀ m' c', insertEach e vs 0#64 c = .ok m' c' → MaskOn c (·.insertMask) (vs.map (·.1)) m' := by
    intro m' c' h i hi
    rcases insertEach_maskOn _ _ _ h i hi with h | h
    · simp at h
    · exact h
  have hfin : ∀ (m : GroupMask) (c1 : ComponentStorage V), MayPut (t ∈ vs.map (·.1)) e.index (c.rowsAt t) (c1.rowsAt t) →
      AllSets CompSet.IdxOk c1.components → ∀ l, Slid e.index (c.crossed m t) (c1.rowsAt t) l →
      DiffersAt (if t ∈ vs.map (·.1) then c.crossed m t + 1 else slide (c.crossed m t)) (c.rowsAt t) l :=
    fun m c1 k1 k2 l k3 => k1.differs (rowsAt_unique k2 t) k3
  revert h1 h2 h3 h0
  cases insertEach e vs 0#64 c with
  | ub => exact fun _ _ _ _ => trivial
  | panic c1 => exact fun h1 h2 _ _ => ⟨0#64, MaskOn.zero _ _ _, hfin _ c1 h1 h2 _ (.inl rfl)⟩
  | ok mask c1 =>
    intro h1 h2 h3 h0
    refine Outcome.Leaves.ofRes ⟨0#64, MaskOn.zero _ _ _, hfin _ c1 h1 h2 _ (.inl rfl)⟩ fun c2 h4 => ?_
    have h5 := withMask_slid (fun s s' hs h => group_slid hs h) h2 h4 t
    rw [crossed_shape h3] at h5
    exact ⟨mask, h0 _ _ rfl, hfin _ c1 h1 h2 _ h5⟩

theorem insertAt_put {e : Entity} (he : e.index < u32Size) (t : TypeId) : ∀ (ts : List TypeId) (vs : List V)
    (c c' : ComponentStorage V), Static c → AllSets CompSet.IdxOk c.components → (∀ x ∈ ts, (c.meta? x).isSome) →
    insertAt e ((ts.map c.idxOf).zip vs) c = .ok c' → MayPut (t ∈ ts) e.index (c.rowsAt t) (c'.rowsAt t)
  | [], _, c, c', _, _, _, hr => by cases hr; exact .inl rfl
  | t' :: ts, [], c, c', _, _, _, hr => by cases hr; exact .inl rfl
  | t' :: ts, v :: vs, c, c', hc, ha, hk, hr => by
    obtain ⟨md, hm⟩ := Option.isSome_iff_exists.1 (hk t' (.head _))
    rw [List.map_cons, List.zip_cons_cons, insertAt, c.idxOf_eq hm] at hr
    obtain ⟨s, hs, hr⟩ := Res.bind_ok' hr
    obtain ⟨⟨old, s'⟩, hi, hr⟩ := Res.bind_ok' hr
    have hs := Res.unchecked_ok hs
    have k1 := CompSet.insert_put (mem_at ha hs) hi
    have k2 := stable_idx.insert (mem_at ha hs) he hi
    have ih := insertAt_put he t ts vs { c with components := c.components.set md.storageIndex s' } c'
      (hc.of_shape (Shape.set ..)) (AllSets.set ha k2 _) (fun x hx => hk x (.tail _ hx)) hr
    rw [rowsAt_set hc hm] at ih
    by_cases ht : t = t'
    · subst ht
      rw [if_pos rfl] at ih
      rw [rowsAt_get hm hs]
      refine .inr ⟨.head _, ?_⟩
      rcases ih with ih | ⟨_, ih⟩
      · rw [ih]; exact k1
      · exact k1.trans ih
    · rw [if_neg ht] at ih
      rcases ih with ih | ⟨h1, ih⟩
      · exact .inl ih
      · exact .inr ⟨.tail _ h1, ih⟩

theorem MayPut.one {x : Nat} {l l' : List (Entity × V)} {named : Prop} [Decidable named] (h : MayPut named x l l') :
    DiffersAt (if named then 1 else 0) l l' := by
  rcases h with rfl | ⟨hn, h⟩
  · exact DiffersAt.refl _ _
  · rw [if_pos hn]
    exact h.differs

/-- Components may be taken away for the types named. -/
def MayCut (named : Prop) (x : Nat) (l l' : List (Entity × V)) : Prop := l' = l ∨ named ∧ Cut x l l'

theorem MayCut.differs {x n : Nat} {a b c : List (Entity × V)} {named : Prop} [Decidable named] (hb : UniqueRows b)
    (h : Slid x n a b) (h' : MayCut named x b c) : DiffersAt (if named then n + 2 else slide n) a c := by
  rcases h' with rfl | ⟨hn, h'⟩
  · refine h.differs.mono ?_
    unfold slide
    split <;> split <;> omega
  · rw [if_pos hn]
    exact h.cut hb h'

theorem MayCut.head {x : Nat} {t t' : TypeId} {ts : List TypeId} {c : ComponentStorage V} {s s' : CompSet V}
    {l : List (Entity × V)} (hs : t = t' → c.rowsAt t = s.rows) (k1 : Cut x s.rows s'.rows)
    (ih : MayCut (t ∈ ts) x (if t = t' then s'.rows else c.rowsAt t) l) : MayCut (t ∈ t' :: ts) x (c.rowsAt t) l := by
  by_cases ht : t = t'
  · rw [hs ht]
    rw [if_pos ht] at ih
    refine .inr ⟨by rw [ht]; exact .head _, ?_⟩
    rcases ih with ih | ⟨_, ih⟩
    · rw [ih]; exact k1
    · exact k1.trans ih
  · rw [if_neg ht] at ih
    rcases ih with ih | ⟨h1, ih⟩
    · exact .inl ih
    · exact .inr ⟨.tail _ h1, ih⟩

theorem removeEach_cut {e : Entity} (t : TypeId) : ∀ (ts : List TypeId) (c c' : ComponentStorage V) (vs : List (Option V)),
    Static c → AllSets CompSet.IdxOk c.components → (∀ x ∈ ts, (c.meta? x).isSome) →
    removeEach e (ts.map c.idxOf) c = .ok (vs, c') → MayCut (t ∈ ts) e.index (c.rowsAt t) (c'.rowsAt t)
  | [], c, c', vs, _, _, _, hr => by cases hr; exact .inl rfl
  | t' :: ts, c, c', _, hc, ha, hk, hr => by
    obtain ⟨md, hm⟩ := Option.isSome_iff_exists.1 (hk t' (.head _))
    rw [List.map_cons, removeEach, c.idxOf_eq hm] at hr
    obtain ⟨s, hs, hr⟩ := Res.bind_ok' hr
    obtain ⟨⟨v, s'⟩, hi, hr⟩ := Res.bind_ok' hr
    obtain ⟨⟨vs, c1⟩, h1, hr⟩ := Res.bind_ok' hr
    cases hr
    have hs := Res.unchecked_ok hs
    have ih := removeEach_cut t ts { c with components := c.components.set md.storageIndex s' } c' vs
      (hc.of_shape (Shape.set ..)) (AllSets.set ha (stable_idx.remove (mem_at ha hs) hi) _) (fun x hx => hk x (.tail _ hx)) h1
    rw [rowsAt_set hc hm] at ih
    exact MayCut.head (fun ht => by rw [ht]; exact rowsAt_get hm hs) (CompSet.remove_cut (mem_at ha hs) hi) ih

theorem deleteEach_cut {e : Entity} (t : TypeId) : ∀ (ts : List TypeId) (c c' : ComponentStorage V),
    Static c → AllSets CompSet.IdxOk c.components → (∀ x ∈ ts, (c.meta? x).isSome) →
    deleteEach e (ts.map c.idxOf) c = .ok c' → MayCut (t ∈ ts) e.index (c.rowsAt t) (c'.rowsAt t)
  | [], c, c', _, _, _, hr => by cases hr; exact .inl rfl
  | t' :: ts, c, c', hc, ha, hk, hr => by
    obtain ⟨md, hm⟩ := Option.isSome_iff_exists.1 (hk t' (.head _))
    rw [List.map_cons, deleteEach, c.idxOf_eq hm] at hr
    obtain ⟨s, hs, hr⟩ := Res.bind_ok' hr
    obtain ⟨s', hi, hr⟩ := Res.bind_ok' hr
    have hs := Res.unchecked_ok hs
    have ih := deleteEach_cut t ts { c with components := c.components.set md.storageIndex s' } c'
      (hc.of_shape (Shape.set ..)) (AllSets.set ha (stable_idx.delete (mem_at ha hs) hi) _) (fun x hx => hk x (.tail _ hx)) hr
    rw [rowsAt_set hc hm] at ih
    exact MayCut.head (fun ht => by rw [ht]; exact rowsAt_get hm hs) (CompSet.delete_cut (mem_at ha hs) hi) ih

theorem deleteAll_cut {e : Entity} : ∀ (l l' : List (CompSet V)), AllSets CompSet.IdxOk l → deleteAll e l = .ok l' →
    ∀ i, Cut e.index (rowsI l i) (rowsI l' i)
  | [], l', _, h, i => by cases h; exact .inl rfl
  | s :: ss, l', hl, h, i => by
    obtain ⟨s', h1, h⟩ := Res.bind_ok' h
    obtain ⟨ss', h2, h⟩ := Res.bind_ok' h
    cases h
    cases i with
    | zero => exact CompSet.delete_cut (hl s (.head _)) h1
    | succ i => exact deleteAll_cut ss ss' (fun s hs => hl s (.tail _ hs)) h2 i

theorem strip_moves {c c' : ComponentStorage V} {e : Entity} (ha : AllSets CompSet.IdxOk c.components)
    (hr : c.strip e = .ok c') (t : TypeId) : DiffersAt (c.countOf t + 2) (c.rowsAt t) (c'.rowsAt t) := by
  unfold strip at hr
  obtain ⟨⟨comps, groups⟩, h1, hr⟩ := Res.bind_ok' hr
  obtain ⟨comps', h2, hr⟩ := Res.bind_ok' hr
  cases hr
  have k1 := ungroupAllLoop_slid _ _ _ ha h1
  have k2 : AllSets CompSet.IdxOk comps := stable_idx.ungroupAllLoop _ _ _ ha h1
  unfold rowsAt countOf
  show DiffersAt _ _ (match c.meta? t with | none => [] | some m => rowsI comps' m.storageIndex)
  cases hm : c.meta? t with
  | none => exact DiffersAt.refl _ _
  | some m =>
    refine ((k1 m.storageIndex).mono ?_).cut (rowsI_unique k2 _) (deleteAll_cut _ _ k2 h2 m.storageIndex)
    exact (List.take_sublist _ c.groups).countP_le

theorem remove_moves {c c' : ComponentStorage V} {e : Entity} {ts : List TypeId} {vs : List (Option V)} (hc : Static c)
    (ha : AllSets CompSet.IdxOk c.components) (hr : c.remove e ts = .ok (vs, c')) (t : TypeId) :
    ∃ m, MaskOn c (·.deleteMask) ts m ∧
      DiffersAt (if t ∈ ts then c.crossed m t + 2 else slide (c.crossed m t)) (c.rowsAt t) (c'.rowsAt t) := by
  unfold remove at hr
  obtain ⟨⟨idxs, mask⟩, h1, hr⟩ := Res.bind_ok' hr
  obtain ⟨c1, h2, hr⟩ := Res.bind_ok' hr
  obtain ⟨rfl, hk⟩ := lookupAll_idxs ts h1
  have k1 := withMask_slid (fun s s' hs h => ungroup_slid hs h) ha h2 t
  have k3 := withMask_shape (fun s s' h => ungroupLoop_shape _ _ _ _ h) h2
  have k4 := Stable.withMask (fun s s' hs h => stable_idx.ungroupLoop _ _ _ _ hs h) ha h2
  rw [← idxOf_same k3.md] at hr
  have h3 := removeEach_cut t ts c1 c' vs (hc.of_shape k3) k4 (fun x hx => by rw [k3.meta?]; exact hk x hx) hr
  exact ⟨mask, lookupAll_maskOn ts h1, MayCut.differs (rowsAt_unique k4 t) k1 h3⟩

theorem delete_moves {c c' : ComponentStorage V} {e : Entity} {ts : List TypeId} (hc : Static c)
    (ha : AllSets CompSet.IdxOk c.components) (hr : c.delete e ts = .ok c') (t : TypeId) :
    ∃ m, MaskOn c (·.deleteMask) ts m ∧
      DiffersAt (if t ∈ ts then c.crossed m t + 2 else slide (c.crossed m t)) (c.rowsAt t) (c'.rowsAt t) := by
  unfold delete at hr
  obtain ⟨⟨idxs, mask⟩, h1, hr⟩ := Res.bind_ok' hr
  obtain ⟨c1, h2, hr⟩ := Res.bind_ok' hr
  obtain ⟨rfl, hk⟩ := lookupAll_idxs ts h1
  have k1 := withMask_slid (fun s s' hs h => ungroup_slid hs h) ha h2 t
  have k3 := withMask_shape (fun s s' h => ungroupLoop_shape _ _ _ _ h) h2
  have k4 := Stable.withMask (fun s s' hs h => stable_idx.ungroupLoop _ _ _ _ hs h) ha h2
  rw [← idxOf_same k3.md] at hr
  have h3 := deleteEach_cut t ts c1 c' (hc.of_shape k3) k4 (fun x hx => by rw [k3.meta?]; exact hk x hx) hr
  exact ⟨mask, lookupAll_maskOn ts h1, MayCut.differs (rowsAt_unique k4 t) k1 h3⟩

/-- Setting a layout is setting it without entities, and grouping them. -/
theorem setLayout_split {rank : TypeId → Nat} {c c' : ComponentStorage V} {l : GroupLayout} {es : List Entity}
    (h : c.setLayout rank l es = .ok () c') : ∃ (c3 : ComponentStorage V) (mask : GroupMask) (comps : List (CompSet V))
      (gs : List Group), c.setLayout rank l [] = .ok () c3 ∧ groupEntities mask es (c3.components, c3.groups) = .ok (comps, gs) ∧
      c' = { c3 with components := comps, groups := gs } := by
  unfold setLayout at h ⊢
  cases hx : c.extractSparseSets with
  | panic => rw [hx] at h; cases h
  | ub => rw [hx] at h; cases h
  | ok p =>
    obtain ⟨sets, c1⟩ := p
    rw [hx] at h
    simp only at h ⊢
    cases hf : addFamilies l.families (c1, sets) with
    | ub => rw [hf] at h; cases h
    | panic b => rw [hf] at h; cases h
    | ok u b =>
      obtain ⟨c2, sets2⟩ := b
      rw [hf] at h
      simp only at h ⊢
      generalize addUngrouped (sortByRank rank sets2) c2 = c3 at h ⊢
      cases hm : GroupMask.fromTo 0 c3.groups.length with
      | panic => rw [hm] at h; cases h
      | ub => rw [hm] at h; cases h
      | ok mask =>
        rw [hm] at h
        simp only at h ⊢
        cases hg : groupEntities mask es (c3.components, c3.groups) with
        | panic => rw [hg] at h; cases h
        | ub => rw [hg] at h; cases h
        | ok p =>
          obtain ⟨comps', gs'⟩ := p
          rw [hg] at h
          simp only [Outcome.ok.injEq, true_and] at h
          exact ⟨c3, mask, comps', gs', rfl, hg, h.symm⟩

theorem rowsAt_eq_setOf {c : ComponentStorage V} (hc : Static c) (t : TypeId) :
    c.rowsAt t = ((c.setOf t).getD CompSet.new).rows := by
  unfold rowsAt setOf
  cases hm : c.meta? t with
  | none => rfl
  | some m =>
    have := hc.idx t m hm
    simp only [Option.bind_some]
    unfold rowsI
    rw [List.getElem?_eq_getElem this]
    rfl

/-- Setting a layout without entities moves no row of a type that is not twice in it. -/
theorem setLayout_nil_rows {rank : TypeId → Nat} {c c' : ComponentStorage V} (hc : Static c)
    (hk : (c.metadata.map Prod.fst).Nodup) {l : GroupLayout} (hl : FamsOK l.families)
    (h : c.setLayout rank l [] = .ok () c') {t : TypeId} (ht : (layoutTypes l).count t ≤ 1) : c'.rowsAt t = c.rowsAt t := by
  have hc' : Static c' := by
    have := (setLayout_keeps rank c l []).1 hc
    rw [h] at this
    exact this
  obtain ⟨c3, mask, comps, gs, h1, hg, _, _, hset, _⟩ := setLayout_moved hc hk hl h
  cases hg
  have h1 : c' = c3 := h1
  subst h1
  rw [rowsAt_eq_setOf hc, rowsAt_eq_setOf hc', hset t ht]
  split <;> rfl

/-- Without a panic, setting a layout moves rows of a type that is not twice in it only when it groups the entities. -/
theorem setLayout_moves {rank : TypeId → Nat} {c c' : ComponentStorage V} (hc : Static c)
    (ha : AllSets CompSet.IdxOk c.components) (hk : (c.metadata.map Prod.fst).Nodup) {l : GroupLayout} (hl : FamsOK l.families)
    {es : List Entity} (h : c.setLayout rank l es = .ok () c') {t : TypeId} (ht : (layoutTypes l).count t ≤ 1) :
    DiffersAt (es.length * slide (c'.countOf t)) (c.rowsAt t) (c'.rowsAt t) := by
  obtain ⟨c3, mask, comps, gs, h1, h2, rfl⟩ := setLayout_split h
  have ha3 : AllSets CompSet.IdxOk c3.components := by
    have := stable_idx.setLayout rank l [] ha
    rw [h1] at this
    exact this
  obtain ⟨s1, s2⟩ := groupEntities_shape _ _ _ h2
  have h3 := groupEntities_moves ha3 h2 t
  rw [setLayout_nil_rows hc hk hl h1 ht] at h3
  rw [countOf_shape (c := c3) (c' := { c3 with components := comps, groups := gs }) ⟨rfl, s1, s2⟩]
  exact h3.mono (Nat.mul_le_mul_left _ (slide_mono (crossed_le _ _ _)))

/-! ### How many groups a type can be in -/

/-- No set is in more than 14 groups: a family has groups of 2 to 15 types, one inside the other, and no two families share sets. -/
def FewGroups (gs : List Group) : Prop := ∀ k, countAt gs k ≤ 14

theorem FewGroups.same {gs gs' : List Group} (h : FewGroups gs) (hs : SameStat gs gs') : FewGroups gs' := fun k => by
  rw [countAt_same hs]
  exact h k

theorem countAt_push (gs : List Group) (g : Group) (k : Nat) :
    countAt (gs ++ [g]) k = countAt gs k + within g.storageStart g.storageEnd k := by
  have := countAt_take (gs := gs ++ [g]) (i := gs.length) (g := g) (by simp) k
  rw [List.take_left, List.take_of_length_le (by simp)] at this
  exact this

theorem addComponents_few {f : GroupFamily} {a b c : Nat} : ∀ (n idx : Nat) (x : Building V),
    match addComponents f a b c idx n x with
    | .ok _ y => y.1.groups = x.1.groups ∧ y.1.components.length = x.1.components.length + n
    | .panic y => y.1.groups = x.1.groups
    | .ub => True
  | 0, _, x => ⟨rfl, rfl⟩
  | n + 1, idx, (st, sets) => by
    rw [addComponents]
    generalize (do
      let t ← Res.checked (f.components[idx]?)
      let insertMask ← GroupMask.fromTo a c
      let deleteMask ← GroupMask.fromTo b c
      let storageMask ← StorageMask.single idx
      pure (t, (⟨st.components.length, insertMask, deleteMask,
        some ⟨asU8 a, asU8 st.groups.length, storageMask⟩⟩ : ComponentMetadata)) : Res (TypeId × ComponentMetadata)) = r
    cases r with
    | ub => trivial
    | panic => rfl
    | ok p =>
      obtain ⟨t, m⟩ := p
      have ih := addComponents_few (f := f) (a := a) (b := b) (c := c) n (idx + 1)
        (⟨st.groups, insertMeta st.metadata t m, st.components ++ [(removeSet sets t).1.getD CompSet.new]⟩, (removeSet sets t).2)
      simp only [Outcome.ofRes_ok]
      revert ih
      cases addComponents f a b c (idx + 1) n (⟨st.groups, insertMeta st.metadata t m,
        st.components ++ [(removeSet sets t).1.getD CompSet.new]⟩, (removeSet sets t).2) with
      | ub => exact fun _ => trivial
      | panic y => exact fun ih => ih
      | ok u y =>
        intro ih
        refine ⟨ih.1, ?_⟩
        have := ih.2
        simp only [List.length_append, List.length_singleton] at this ⊢
        omega

/-- While a family is added: the sets before it are in at most 14 groups, those of it in fewer groups than the arity so far,
and the sets to come in none. -/
def Few (ss prev : Nat) (gs : List Group) : Prop :=
  ∀ k, (k < ss → countAt gs k ≤ 14) ∧ (ss ≤ k → countAt gs k ≤ prev - 1) ∧ (ss + prev ≤ k → countAt gs k = 0)

theorem Few.few {ss prev : Nat} {gs : List Group} (h : Few ss prev gs) (hp : prev < 16) : FewGroups gs := by
  intro k
  obtain ⟨h1, h2, _⟩ := h k
  by_cases hk : k < ss
  · exact h1 hk
  · have := h2 (by omega)
    omega

theorem Few.push {ss prev a : Nat} {gs : List Group} (h : Few ss prev gs) (hp : prev < a) (h2 : 2 ≤ a) (g : Group)
    (g1 : g.storageStart = ss) (g2 : g.storageEnd = ss + a) : Few ss a (gs ++ [g]) := by
  intro k
  obtain ⟨i1, i2, i3⟩ := h k
  rw [countAt_push, g1, g2]
  unfold within
  refine ⟨fun hk => ?_, fun hk => ?_, fun hk => ?_⟩
  · rw [if_neg (by omega)]
    exact i1 hk
  · have := i2 hk
    split <;> omega
  · rw [if_neg (by omega), i3 (by omega)]

theorem addGroups_few {f : GroupFamily} {ss gs ge : Nat} : ∀ (rest : List Nat) (prev : Nat) (x : Building V),
    x.1.components.length = ss + prev → prev < 16 → (prev :: rest).Pairwise (· < ·) → (∀ a ∈ rest, 2 ≤ a) →
    Few ss prev x.1.groups →
    match addGroups f ss gs ge prev rest x with
    | .ok _ y => Few y.1.components.length 0 y.1.groups
    | .panic y => FewGroups y.1.groups
    | .ub => True
  | [], prev, x, hl, hp, _, _, hx => by
    intro k
    refine ⟨fun _ => hx.few hp k, fun hk => ?_, fun hk => ?_⟩
    · rw [(hx k).2.2 (by omega)]
    · exact (hx k).2.2 (by omega)
  | a :: rest, prev, (c, sets), hl, hp, hpw, h2, hx => by
    have hpa : prev < a := (List.pairwise_cons.1 hpw).1 a (.head _)
    have ha2 := h2 a (.head _)
    simp only at hl hx
    rw [addGroups]
    cases hr : (do
      let skipMask ← GroupMask.skipFromTo c.groups.length ge
      let includeMask ← QueryMask.include a
      let excludeMask ← QueryMask.exclude prev a
      pure ⟨ss, ss + prev, ss + a, skipMask, includeMask, excludeMask, 0⟩ : Res Group) with
    | ub => trivial
    | panic => exact hx.few hp
    | ok g =>
      obtain ⟨m1, _, hr⟩ := Res.bind_ok' hr
      obtain ⟨m2, h16, hr⟩ := Res.bind_ok' hr
      obtain ⟨m3, _, hr⟩ := Res.bind_ok' hr
      have h16 := QueryMask.include_lt h16
      have hg : Few ss a (c.groups ++ [g]) := by
        cases hr
        exact hx.push hpa ha2 _ rfl rfl
      have h3 := addComponents_few (f := f) (a := gs) (b := c.groups.length) (c := ge) (a - prev) prev
        ({ c with groups := c.groups ++ [g] }, sets)
      simp only [Outcome.ofRes_ok]
      revert h3
      cases addComponents f gs c.groups.length ge prev (a - prev) ({ c with groups := c.groups ++ [g] }, sets) with
      | ub => exact fun _ => trivial
      | panic y =>
        intro h3
        show FewGroups y.1.groups
        rw [h3]
        exact hg.few h16
      | ok u y =>
        intro h3
        exact addGroups_few rest a y (by have := h3.2; simp only at this; omega) h16 (List.pairwise_cons.1 hpw).2
          (fun b hb => h2 b (.tail _ hb)) (by rw [h3.1]; exact hg)

theorem addFamilies_few : ∀ (fs : List GroupFamily) (x : Building V), FamsOK fs → Few x.1.components.length 0 x.1.groups →
    match addFamilies fs x with
    | .ok _ y => Few y.1.components.length 0 y.1.groups
    | .panic y => FewGroups y.1.groups
    | .ub => True
  | [], x, _, hx => hx
  | f :: fs, (c, sets), hf, hx => by
    obtain ⟨hF, _⟩ := hf f (.head _)
    have hpw : (0 :: f.arities).Pairwise (· < ·) :=
      List.pairwise_cons.2 ⟨fun a ha => by have := hF.2.1 a ha; omega, hF.1⟩
    have h1 := addGroups_few (f := f) (ss := c.components.length) (gs := c.groups.length)
      (ge := c.groups.length + f.arities.length) f.arities 0 (c, sets) rfl (by omega) hpw hF.2.1 hx
    rw [addFamilies]
    revert h1
    cases addGroups f c.components.length c.groups.length (c.groups.length + f.arities.length) 0 f.arities (c, sets) with
    | ub => exact fun _ => trivial
    | panic y => exact fun h1 => h1
    | ok u y => exact fun h1 => addFamilies_few fs y (fun f h => hf f (.tail _ h)) h1

theorem addUngrouped_groups : ∀ (l : List (TypeId × CompSet V)) (c : ComponentStorage V), (addUngrouped l c).groups = c.groups
  | [], _ => rfl
  | (t, s) :: l, c => by
    rw [addUngrouped, addUngrouped_groups l]

theorem setLayout_few (rank : TypeId → Nat) (c : ComponentStorage V) {l : GroupLayout} (hl : FamsOK l.families)
    (hc : FewGroups c.groups) (es : List Entity) : (c.setLayout rank l es).Leaves (fun c' => FewGroups c'.groups) := by
  unfold setLayout
  cases hx : c.extractSparseSets with
  | panic => exact hc
  | ub => trivial
  | ok p =>
    obtain ⟨sets, c1⟩ := p
    have hc1 : c1.groups = [] := by
      unfold extractSparseSets at hx
      obtain ⟨⟨a, b⟩, _, hx⟩ := Res.bind_ok' hx
      cases hx
      rfl
    have h1 := addFamilies_few l.families (c1, sets) hl (by
      intro k
      rw [hc1]
      simp [countAt])
    simp only
    revert h1
    cases addFamilies l.families (c1, sets) with
    | ub => exact fun _ => trivial
    | panic b => exact fun h1 => h1
    | ok u b =>
      intro h1
      obtain ⟨c2, sets2⟩ := b
      have h1 : FewGroups c2.groups := Few.few h1 (by omega)
      simp only
      rw [← addUngrouped_groups (sortByRank rank sets2) c2] at h1
      generalize addUngrouped (sortByRank rank sets2) c2 = c3 at h1 ⊢
      cases GroupMask.fromTo 0 c3.groups.length with
      | panic => exact h1
      | ub => trivial
      | ok mask =>
        simp only
        cases hg : groupEntities mask es (c3.components, c3.groups) with
        | panic => exact h1
        | ub => trivial
        | ok p => exact h1.same (groupEntities_shape _ _ _ hg).2

end ComponentStorage

theorem step_few {w w' : World V} {op : Op V} {r : Ret V} (h : step w op = some (r, w'))
    (hw : ComponentStorage.FewGroups w.components.groups) : ComponentStorage.FewGroups w'.components.groups := by
  by_cases hk : op.keepsTypes
  · exact hw.same (step_shape h hk).stat
  · cases op <;> simp only [Op.keepsTypes, not_true_eq_false] at hk
    · rename_i t
      simp only [step, Option.some.injEq, Prod.mk.injEq] at h
      rw [← h.2]
      simp only [World.register, ComponentStorage.register]
      split <;> exact hw
    · rename_i rank gs
      simp only [step] at h
      refine retOutcome_some (P := fun w => ComponentStorage.FewGroups w.components.groups) h ?_
      have := ComponentStorage.setLayout_few rank w.components (build_fams gs) hw w.entities.asSlice
      unfold World.setLayout
      generalize w.components.setLayout rank (GroupLayout.build gs).2 w.entities.asSlice = o at this ⊢
      cases o with
      | ok a c => exact this
      | panic c => exact this
      | ub => trivial

theorem reach_few {h : History V} {w : World V} (hr : Reach World.empty h w) (t : TypeId) : w.components.countOf t ≤ 14 := by
  have : ComponentStorage.FewGroups w.components.groups := by
    induction hr with
    | nil => exact fun k => by simp [World.empty, ComponentStorage.empty, countAt]
    | snoc _ hs ih => exact step_few hs ih
  unfold ComponentStorage.countOf
  cases w.components.meta? t with
  | none => exact Nat.zero_le _
  | some m => exact this _

end Sparsey
