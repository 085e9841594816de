import Verif.Proofs.AlignedWorld
import Verif.Proofs.QueryIter

/-!
The ranges of queries over groups that are aligned by index.
-/

set_option autoImplicit false
set_option linter.unusedSimpArgs false

namespace Sparsey
variable {V : Type} {w : World V}

/-- The sets of the types `R` have a common beginning of `b` indexes, and the range starts at `a`. -/
structure IndexRange (w : World V) (R : List TypeId) (a b : Nat) (pre : List Entity) : Prop where
  length : pre.length = b
  le : a ≤ b
  aligned : ∀ t ∈ R, ∃ c, w.borrow t = .ok c ∧ (c.entities.map Entity.erase).take b = pre

theorem Aligned.range_one {t : TypeId} {m : ComponentMetadata} {c : CompSet V}
    (hm : w.components.meta? t = some m) (hc : w.components.components[m.storageIndex]? = some c) :
    IndexRange w [t] 0 c.len (c.entities.map Entity.erase) where
  length := by simp [CompSet.len]
  le := Nat.zero_le _
  aligned t' ht := by
    rw [List.mem_singleton] at ht
    subst ht
    exact ⟨c, by simp [World.borrow, hm, hc], by simp [CompSet.len]⟩

/-- The common beginning of the sets of a group. -/
theorem Aligned.prefix (h : Aligned w.components) {k : Nat} {g : Group} (hg : w.components.groups[k]? = some g) :
    ∃ pre : List Entity, pre.length = g.len ∧ ∀ t m, w.components.meta? t = some m → InRange g m.storageIndex →
      ∃ c, w.borrow t = .ok c ∧ (c.entities.map Entity.erase).take g.len = pre := by
  refine ⟨(ilists w.components.components g.storageStart).take g.len, ?_, fun t m hm hin => ?_⟩
  · have hb := h.stat.gstat.bounds k g hg
    obtain ⟨s, hs⟩ : ∃ s, w.components.components[g.storageStart]? = some s :=
      ⟨_, List.getElem?_eq_getElem (by omega)⟩
    have := h.len_le hs hg (by unfold InRange; omega)
    rw [ilists_some hs]
    simp
    omega
  · obtain ⟨s, hs⟩ := h.set_at hm
    have hb := h.stat.gstat.bounds k g hg
    unfold InRange at hin
    refine ⟨s, by simp [World.borrow, hm, hs], ?_⟩
    rw [← ilists_some hs]
    apply List.ext_getElem?
    intro i
    rw [List.getElem?_take, List.getElem?_take]
    by_cases hi : i < g.len
    · obtain ⟨e, he⟩ := h.packed.aligned k g hg i hi
      rw [if_pos hi, if_pos hi, he _ (le_refl _) (by omega), he _ hin.1 hin.2]
    · rw [if_neg hi, if_neg hi]

theorem Aligned.range_include (h : Aligned w.components) {g : GroupInfo} {R : List TypeId} (hi : ManyInfo w.components g R) :
    ∃ r, w.components.includeGroupRange g = .ok r ∧ ∀ a b, r = some (a, b) → ∃ pre, IndexRange w R a b pre := by
  obtain ⟨k, gr, _, hk, hgr, _, _, _, _, _, _⟩ := hi.group h.stat
  have h1 : (1 ≤ g.groupEnd) := by omega
  have h2 : g.groupEnd - 1 = k := by omega
  refine ⟨_, by simp only [ComponentStorage.includeGroupRange, h1, decide_true, Res.assert_true, Res.bind_ok, h2, hgr,
    Res.unchecked_some, Res.pure_eq]; rfl, fun a b hab => ?_⟩
  by_cases hmask : (⟨g.storageMask, 0#16⟩ : QueryMask) = gr.includeMask
  · rw [if_pos hmask] at hab
    simp only [Option.some.injEq, Prod.mk.injEq] at hab
    obtain ⟨rfl, rfl⟩ := hab
    have hty := (hi.mask_include h.stat hk hgr).1 hmask
    obtain ⟨pre, p1, p2⟩ := h.prefix hgr
    refine ⟨pre, p1, Nat.zero_le _, fun t ht => ?_⟩
    obtain ⟨m, hm, hin⟩ := (hty t).1 ht
    exact p2 t m hm hin
  · rw [if_neg hmask] at hab
    cases hab

theorem Aligned.range_exclude (h : Aligned w.components) {g x : GroupInfo} {R X : List TypeId} (hi : ManyInfo w.components g R)
    (hx : ManyInfo w.components x X) :
    ∃ r, w.components.excludeGroupRange g x = .ok r ∧ ∀ a b, r = some (a, b) → ∃ pre, IndexRange w R a b pre := by
  unfold ComponentStorage.excludeGroupRange
  by_cases hs : g.groupStart ≠ x.groupStart
  · exact ⟨none, by rw [if_pos hs], fun a b hab => by cases hab⟩
  rw [if_neg hs]
  have hs : g.groupStart = x.groupStart := not_not.1 hs
  obtain ⟨k1, g1, _, hk1, hg1, _, _, _, _, _, _⟩ := hi.group h.stat
  obtain ⟨k2, g2, _, hk2, hg2, _, _, _, _, _, _⟩ := hx.group h.stat
  obtain ⟨k, gr, hk, hgr⟩ : ∃ (k : Nat) (gr : Group), max g.groupEnd x.groupEnd = k + 1 ∧
      w.components.groups[k]? = some gr := by
    rcases Nat.le_total x.groupEnd g.groupEnd with hle | hle
    · exact ⟨k1, g1, by omega, hg1⟩
    · exact ⟨k2, g2, by omega, hg2⟩
  have h1 : 1 ≤ max g.groupEnd x.groupEnd := by omega
  have h2 : max g.groupEnd x.groupEnd - 1 = k := by omega
  simp only [h1, decide_true, Res.assert_true, Res.bind_ok, h2, hgr, Res.unchecked_some, Res.pure_eq]
  by_cases hmask : (⟨g.storageMask, x.storageMask⟩ : QueryMask) = gr.excludeMask
  · simp only [hmask, ne_eq, not_true_eq_false, if_false]
    obtain ⟨j, gp, hj, hgp, hps, hpe, hR, hXR, hRX⟩ := hi.mask_exclude h.stat hx hs hk hgr hmask
    have h3 : 2 ≤ max g.groupEnd x.groupEnd := by omega
    have h4 : max g.groupEnd x.groupEnd - 2 = j := by omega
    simp only [h3, decide_true, Res.assert_true, Res.bind_ok, h4, hgp, Res.unchecked_some]
    refine ⟨_, rfl, fun a b hab => ?_⟩
    simp only [Option.some.injEq, Prod.mk.injEq] at hab
    obtain ⟨rfl, rfl⟩ := hab
    obtain ⟨pre, p1, p2⟩ := h.prefix hgp
    refine ⟨pre, p1, h.packed.nested j k gp gr (by omega) hgp hgr hps, fun t ht => ?_⟩
    obtain ⟨m, hm, hin⟩ := (hR t).1 ht
    exact p2 t m hm hin
  · exact ⟨none, by simp [hmask], fun a b hab => by cases hab⟩

/-- The group range of a query. -/
theorem Aligned.range (h : Aligned w.components) {g i x : Query} {q : QueryAll V} (hq : q.Of w g i x) :
    ∃ r, q.getGroupRange = .ok r ∧ ∀ a b, r = some (a, b) →
      ∃ pre, IndexRange w (required g ++ required i) a b pre := by
  have pg := present_of_views hq.get
  have pi := present_of_views hq.inc
  have px := present_of_views hq.exc
  unfold QueryAll.getGroupRange
  rw [hq.world]
  cases hgi : q.getInfo with
  | none => exact ⟨none, rfl, fun a b hab => by cases hab⟩
  | some gi =>
  cases hii : q.incInfo with
  | none => exact ⟨none, rfl, fun a b hab => by cases hab⟩
  | some ii =>
  cases hxi : q.excInfo with
  | none => exact ⟨none, rfl, fun a b hab => by cases hab⟩
  | some xi =>
  have ig : InfoOf w.components gi (required g) := by
    rw [hq.getInfo] at hgi
    have := InfoOf.query (c := w.components) g (a := .empty) (ts := []) rfl pg hgi
    simpa using this
  have iI : InfoOf w.components ii (required i) := by
    rw [hq.incInfo] at hii
    have := InfoOf.query (c := w.components) i (a := .empty) (ts := []) rfl pi hii
    simpa using this
  have ix : InfoOf w.components xi (required x) := by
    rw [hq.excInfo] at hxi
    have := InfoOf.query (c := w.components) x (a := .empty) (ts := []) rfl px hxi
    simpa using this
  simp only
  cases hadd : gi.addQuery ii with
  | none => exact ⟨none, rfl, fun a b hab => by cases hab⟩
  | some inc =>
    simp only
    have hinc := ig.add iI hadd
    have hgen : ∃ r, (match inc.groupInfo, xi.groupInfo with
        | some inc, some exc => w.components.excludeGroupRange inc exc
        | _, _ => .ok none) = .ok r ∧ ∀ a b, r = some (a, b) →
      ∃ pre, IndexRange w (required g ++ required i) a b pre := by
      cases ha : inc.groupInfo with
      | none => exact ⟨none, rfl, fun a b hab => by cases hab⟩
      | some a =>
        cases hb : xi.groupInfo with
        | none => exact ⟨none, rfl, fun a b hab => by cases hab⟩
        | some b => exact h.range_exclude (hinc.group ha) (ix.group hb)
    cases xi with
    | empty =>
      cases inc with
      | empty => exact ⟨none, rfl, fun a b hab => by cases hab⟩
      | one v =>
        obtain ⟨t, m, c, hR, hm, hc, rfl⟩ := hinc
        rw [hR]
        refine ⟨_, rfl, fun a b hab => ?_⟩
        simp only [Option.some.injEq, Prod.mk.injEq] at hab
        obtain ⟨rfl, rfl⟩ := hab
        exact ⟨_, Aligned.range_one hm hc⟩
      | many a => exact h.range_include hinc.1
    | one v => cases inc <;> exact hgen
    | many v => cases inc <;> exact hgen

/-- The rows at the positions of the range are of the same indexes. -/
theorem IndexRange.rows (hc : Sound w.components) {R : List TypeId} {a b : Nat} {pre : List Entity}
    (h : IndexRange w R a b pre) : (∀ t ∈ R, b ≤ (w.rows t).length) ∧
      ∀ p < b, ∃ ix, ∀ t ∈ R, ∃ row, (w.rows t)[p]? = some row ∧ row.1.index = ix := by
  have key : ∀ t ∈ R, ∃ c : CompSet V, w.rows t = c.entities.zip c.components ∧ c.components.length = c.entities.length ∧
      (c.entities.map Entity.erase).take b = pre := by
    intro t ht
    obtain ⟨c, h1, h2⟩ := h.aligned t ht
    refine ⟨c, by unfold World.rows; rw [h1], ?_, h2⟩
    unfold World.borrow at h1
    cases hm : w.components.meta? t with
    | none => rw [hm] at h1; cases h1
    | some m =>
      obtain ⟨s, h3, h4⟩ := hc.at_meta hm
      simp only [hm, h3, Res.unchecked_some, Res.ok.injEq] at h1
      rw [← h1]
      exact h4.len
  refine ⟨fun t ht => ?_, fun p hp => ?_⟩
  · obtain ⟨c, h1, h2, h3⟩ := key t ht
    have h4 := congrArg List.length h3
    rw [h.length] at h4
    simp at h4
    rw [h1, List.length_zip]
    omega
  · have hp' : p < pre.length := by rw [h.length]; exact hp
    refine ⟨pre[p].index, fun t ht => ?_⟩
    obtain ⟨c, h1, h2, h3⟩ := key t ht
    have h4 : ((c.entities.map Entity.erase).take b)[p]? = some pre[p] := by
      rw [h3]
      exact List.getElem?_eq_getElem hp'
    rw [List.getElem?_take, if_pos hp, List.getElem?_map] at h4
    obtain ⟨e, h5, h6⟩ := Option.map_eq_some_iff.1 h4
    have h7 : p < c.components.length := by
      rw [h2]
      exact (List.getElem?_eq_some_iff.1 h5).1
    refine ⟨(e, c.components[p]), ?_, ?_⟩
    · rw [h1, List.getElem?_zip_eq_some]
      exact ⟨h5, List.getElem?_eq_getElem h7⟩
    · rw [← h6]
      rfl

/-- The range of an iterator over a group. -/
theorem dense_range (h : Aligned w.components) {g i x : Query} {q : QueryAll V} (hq : q.Of w g i x) {d : DenseIter V}
    (hit : q.iter = .ok (.dense d)) :
    ∃ a b pre, IndexRange w (required g ++ required i) a b pre ∧ a = d.start ∧ b = d.stop := by
  obtain ⟨r, h1, h2⟩ := h.range hq
  unfold QueryAll.iter at hit
  rw [h1] at hit
  cases r with
  | none => cases hit
  | some r =>
    obtain ⟨a, b⟩ := r
    obtain ⟨pre, h3⟩ := h2 a b rfl
    rw [Res.bind_ok] at hit
    obtain ⟨es, _, hit⟩ := Res.bind_ok' hit
    cases hit
    exact ⟨a, b, pre, h3, rfl, rfl⟩

end Sparsey
