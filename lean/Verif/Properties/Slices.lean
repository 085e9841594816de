import Verif.Properties.Queries

/-!
C27, completed: exactly what the slices of a query contain, and exactly when they match the items.
-/

set_option autoImplicit false
set_option linter.unusedSimpArgs false

namespace Sparsey
variable {V : Type}

/-- What a slice contains, if `es` are the entities of the items and `first` are those that were left out: the entities of the
items, but the components of the first entities of `first ++ es`. -/
def SliceShows (T : Table V) (first es : List Entity) : Part → SlicePart V → Prop
  | .entity, .entities l => l = es
  | .ref t, .comps _ p vs => p = 0 ∧ vs.map some = ((first ++ es).take es.length).map (T.get t)
  | .refMut t, .comps _ p vs => p = 0 ∧ vs.map some = ((first ++ es).take es.length).map (T.get t)
  | .opt _, .unit => True
  | .optMut _, .unit => True
  | _, _ => False

theorem sliceAllRaw_forall {es : List Entity} {a b : Nat} {P : Part → PartView V → Prop} {Q : Part → SlicePart V → Prop}
    (key : ∀ p v part, P p v → v.sliceRaw es a b = .ok part → Q p part) :
    ∀ {g : Query} {vs : List (PartView V)} {sl : List (SlicePart V)}, List.Forall₂ P g vs →
      sliceAllRaw es a b vs = .ok sl → List.Forall₂ Q g sl
  | _, _, sl, .nil, h => by
    simp only [sliceAllRaw, Res.ok.injEq] at h
    subst h
    exact .nil
  | _, _, sl, .cons h1 h2, h => by
    simp only [sliceAllRaw] at h
    obtain ⟨x, h3, h⟩ := Res.bind_ok' h
    obtain ⟨xs, h4, h⟩ := Res.bind_ok' h
    cases h
    exact .cons (key _ _ _ h1 h3) (sliceAllRaw_forall key h2 h4)

/-- What is known of the slices and items of a query in a world that satisfies the invariant. -/
theorem InvH.slices {w : World V} {s : MapWorld V} {H : List (Entity × Nat)} (hi : InvH w s H) {g i x : Query} {q : QueryAll V} (ho : q.Of w g i x) :
    ∃ r its, q.slice = .ok r ∧ q.items = .ok its ∧ ∀ sl, r = some sl → ∃ (first es : List Entity),
      (first ++ es).Nodup ∧ (∀ e, e ∈ first ↔ required x ≠ [] ∧ s.Has (required g ++ required i ++ required x) e ∧
        ¬ s.LeftOut H (required g ++ required i ++ required x) e) ∧
      (∀ e, e ∈ es ↔ s.Has (required g ++ required i) e ∧ ¬ s.LeftOut H (required g ++ required i) e ∧
        (required x = [] ∨ (∃ t ∈ required x, s.table.get t e = none) ∨
          s.LeftOut H (required g ++ required i ++ required x) e)) ∧
      Reads q.get es its ∧ List.Forall₂ (SliceShows s.table first es) g sl ∧
      ∀ t ∈ required g ++ required i, ∀ idx c, ViewAt w.components t idx c →
        c.entities.take (first ++ es).length = first ++ es := by
  obtain ⟨r, hrs⟩ := hi.slice_ok ho
  obtain ⟨it, es, its, h1, h2, h3, h4, h5, h6⟩ := hi.items ho
  refine ⟨r, its, hrs, by rw [QueryAll.items, h1]; exact h2, ?_⟩
  rintro sl rfl
  rcases h6 with ⟨a, b, pre, _, hran, hd, rfl⟩ | ⟨_, hran, _⟩
  · have hpre : pre.take a ++ pre.drop a = pre := List.take_append_drop a pre
    have hal : ∀ t ∈ required g ++ required i, ∀ idx c, ViewAt w.components t idx c → c.entities.take b = pre := by
      intro t ht idx c hc
      obtain ⟨c', hb1, hb2⟩ := hd.aligned t ht
      rw [borrow_of_viewAt hc] at hb1
      cases hb1
      exact hb2
    refine ⟨pre.take a, pre.drop a, by rw [hpre]; exact hd.nodup, fun e => ?_, hd.mem, h4, ?_, ?_⟩
    · by_cases hx : required x = []
      · rw [hd.start (.inl hx)]
        simp [hx]
      · rw [hd.first hx e]
        simp [hx]
    · obtain ⟨es, he1, t, ht, idx, c, hc, rfl⟩ := dense_entities ho hd.nonempty
      have hsl : sliceAllRaw c.entities a b q.get = .ok sl := by
        simp only [QueryAll.slice, hran, Res.bind_ok, he1, Option.getD_some] at hrs
        rw [Res.bind_eq_ok] at hrs
        obtain ⟨xs, hrs1, hrs2⟩ := hrs
        simp only [Res.pure_eq, Res.ok.injEq, Option.some.injEq] at hrs2
        rw [hrs1, hrs2]
      have hcb := hal t ht idx c hc
      have hlen : (pre.drop a).length = b - a := by rw [List.length_drop, hd.length]
      have hmem : ∀ p ∈ g, ∀ t, p.required = some t → t ∈ required g ++ required i := fun p hp t ht =>
        List.mem_append_left _ (List.mem_filterMap.2 ⟨p, hp, ht⟩)
      have hall : List.Forall₂ (fun p v => p ∈ g ∧ IsView w.components p v) g q.get := by
        have aux : ∀ {l : Query} {vs : List (PartView V)}, List.Forall₂ (IsView w.components) l vs →
            (∀ p ∈ l, p ∈ g) → List.Forall₂ (fun p v => p ∈ g ∧ IsView w.components p v) l vs := by
          intro l vs h
          induction h with
          | nil => exact fun _ => .nil
          | cons h _ ih => exact fun hl => .cons ⟨hl _ (.head _), h⟩ (ih fun p hp => hl p (.tail _ hp))
        exact aux ho.get fun _ h => h
      have comp : ∀ t ∈ required g ++ required i, ∀ idx c, ViewAt w.components t idx c →
          (c.components.take (b - a)).map some = (pre.take (b - a)).map (s.table.get t) := by
        intro t ht idx c hc
        have hw := hi.viewAt hc
        have hp := hal t ht idx c hc
        refine List.ext_getElem? fun j => ?_
        rw [List.getElem?_map, List.getElem?_map, List.getElem?_take, List.getElem?_take]
        by_cases hj : j < b - a
        · rw [if_pos hj, if_pos hj]
          have hjp : j < pre.length := by rw [hd.length]; omega
          have hat : c.entities[j]? = some pre[j] := by
            have : (c.entities.take b)[j]? = some pre[j] := by rw [hp]; exact List.getElem?_eq_getElem hjp
            rwa [List.getElem?_take, if_pos (by omega)] at this
          obtain ⟨v, hv⟩ := hw.wf.comp_at hat
          rw [hv, List.getElem?_eq_getElem hjp, Option.map_some, Option.map_some, ← hw.val, hw.wf.val_at hat, hv]
        · rw [if_neg hj, if_neg hj]
          rfl
      refine sliceAllRaw_forall (fun p v part hp hsv => ?_) hall hsl
      obtain ⟨hpg, hpv⟩ := hp
      cases p with
      | entity =>
        cases v <;> simp only [IsView] at hpv
        simp only [PartView.sliceRaw] at hsv
        split at hsv
        · cases hsv
          show _ = _
          rw [← hcb, List.drop_take]
        · cases hsv
      | ref t0 =>
        cases v <;> simp only [IsView] at hpv
        simp only [PartView.sliceRaw] at hsv
        split at hsv
        · cases hsv
          exact ⟨rfl, by rw [hpre, hlen]; exact comp t0 (hmem _ hpg _ rfl) _ _ hpv.2⟩
        · cases hsv
      | refMut t0 =>
        cases v <;> simp only [IsView] at hpv
        simp only [PartView.sliceRaw] at hsv
        split at hsv
        · cases hsv
          exact ⟨rfl, by rw [hpre, hlen]; exact comp t0 (hmem _ hpg _ rfl) _ _ hpv.2⟩
        · cases hsv
      | opt t0 =>
        cases v <;> simp only [IsView] at hpv
        cases hsv
        trivial
      | optMut t0 =>
        cases v <;> simp only [IsView] at hpv
        cases hsv
        trivial
    · intro t ht idx c hc
      rw [hpre, hd.length]
      exact hal t ht idx c hc
  · simp [QueryAll.slice, hran] at hrs

/-- C27, exactly what the slices contain: with `es` the entities of the items and `first` the entities that have all
components of the query including the excluded ones and are in their group, the slice of `Entity` is `es`, but the slices of components belong
to the first entities of `first ++ es`. Missing: histories that are not `Fair`. -/
theorem C27_all_partial {h : History V} {w : World V} (hr : Reach World.empty h w) (hg : Fair (calls h)) {b b' : Borrows}
    {g i x : Query} {q : QueryAll V} (hq : QueryAll.new w b g i x = .ok (q, b')) :
    ∃ r its, q.slice = .ok r ∧ q.items = .ok its ∧ ∀ sl, r = some sl → ∃ (first es : List Entity),
      (first ++ es).Nodup ∧
      (∀ e, e ∈ first ↔ required x ≠ [] ∧ (mapOf (calls h)).Has (required g ++ required i ++ required x) e ∧
        ¬ (mapOf (calls h)).LeftOut (hidden (calls h)) (required g ++ required i ++ required x) e) ∧
      (∀ e, e ∈ es ↔ (mapOf (calls h)).Has (required g ++ required i) e ∧
        ¬ (mapOf (calls h)).LeftOut (hidden (calls h)) (required g ++ required i) e ∧
        (required x = [] ∨ (∃ t ∈ required x, (mapOf (calls h)).table.get t e = none) ∨
          (mapOf (calls h)).LeftOut (hidden (calls h)) (required g ++ required i ++ required x) e)) ∧
      its.map (fun it => some it.shown) = es.map (fun e => shows (mapOf (calls h)).table e g) ∧
      List.Forall₂ (SliceShows (mapOf (calls h)).table first es) g sl := by
  have hi := reach_out hr hg
  have ho := QueryAll.new_ok hq
  obtain ⟨r, its, h1, h2, h3⟩ := hi.slices ho
  refine ⟨r, its, h1, h2, fun sl hsl => ?_⟩
  obtain ⟨first, es, x1, x2, x3, x4, x5, _⟩ := h3 sl hsl
  exact ⟨first, es, x1, x2, x3, hi.reads_shown ho.get x4, x5⟩

/-- C27, exactly when it holds: the slices match the items exactly if there is no item, no component is asked for, nothing is
excluded, or no entity with all the components is in their group. Missing: histories that are not `Fair`. -/
theorem C27_exact_partial {h : History V} {w : World V} (hr : Reach World.empty h w) (hg : Fair (calls h)) {b b' : Borrows}
    {g i x : Query} {q : QueryAll V} (hq : QueryAll.new w b g i x = .ok (q, b')) :
    ∃ r its, q.slice = .ok r ∧ q.items = .ok its ∧ ∀ sl, r = some sl →
      (SlicesMatch sl its ↔ its = [] ∨ required g = [] ∨ required x = [] ∨
        ∀ e, (mapOf (calls h)).Has (required g ++ required i ++ required x) e →
          (mapOf (calls h)).LeftOut (hidden (calls h)) (required g ++ required i ++ required x) e) := by
  have hi := reach_out hr hg
  have ho := QueryAll.new_ok hq
  obtain ⟨r, its, h1, h2, h3⟩ := hi.slices ho
  refine ⟨r, its, h1, h2, fun sl hsl => ?_⟩
  obtain ⟨first, es, x1, x2, x3, x4, x5, x6⟩ := h3 sl hsl
  have hlen : es.length = its.length := x4.length_eq
  have hgv := ho.get
  constructor
  · intro hm
    by_contra hcon
    push Not at hcon
    obtain ⟨c1, c2, c3, e0, c4, c5⟩ := hcon
    have hf : first ≠ [] := List.ne_nil_of_mem ((x2 e0).2 ⟨c3, c4, c5⟩)
    obtain ⟨t, ht⟩ := List.exists_mem_of_ne_nil _ c2
    obtain ⟨p, hp, hpt⟩ := List.mem_filterMap.1 ht
    obtain ⟨k, hk⟩ := List.mem_iff_getElem?.1 hp
    have hkg := (List.getElem?_eq_some_iff.1 hk).1
    have hks : k < sl.length := by rw [← x5.length_eq]; exact hkg
    have hkq : k < q.get.length := by rw [← hgv.length_eq]; exact hkg
    have hshow := (List.forall₂_iff_get.1 x5).2 k hkg hks
    have hview := (List.forall₂_iff_get.1 hgv).2 k hkg hkq
    simp only [List.get_eq_getElem] at hshow hview
    rw [(List.getElem?_eq_some_iff.1 hk).2] at hshow hview
    have hi0 : 0 < its.length := List.length_pos_of_ne_nil c1
    have hread := (List.forall₂_iff_get.1 x4).2 0 (by omega) hi0
    simp only [List.get_eq_getElem] at hread
    obtain ⟨y, hy1, hy2⟩ := getAll_at hread k _ (List.getElem?_eq_getElem hkq)
    have key : ∀ idx (c : CompSet V) mu, ViewAt w.components t idx c → q.get[k] = .req mu idx c →
        ∀ idx' vs, sl[k] = .comps idx' 0 vs → vs.length = es.length → False := by
      intro idx c mu hc hq0 idx' vs hs0 hvl
      have hm0 := hm k sl[k] _ (List.getElem?_eq_getElem hks) (by rw [hs0]; rfl)
      have hm1 := congrArg (fun l => l[0]?) hm0
      simp only [List.getElem?_map, List.getElem?_mapIdx, List.getElem?_eq_getElem hi0, Option.map_some, hy1,
        List.getElem?_eq_getElem (show 0 < vs.length by omega), Option.some.injEq] at hm1
      have hw := hi.viewAt hc
      have hat : c.entities[first.length]? = some es[0] := by
        have h7 := x6 t (List.mem_append_left _ ht) idx c hc
        have h8 : (first ++ es)[first.length]? = some es[0] := by
          rw [List.getElem?_append_right (Nat.le_refl _), Nat.sub_self, List.getElem?_eq_getElem (by omega)]
        rw [← h7, List.getElem?_take] at h8
        split at h8
        · exact h8
        · cases h8
      have hg0 := (hw.wf.rep.get_eq_some es[0] _).2 hat
      obtain ⟨v0, hv0⟩ := hw.wf.comp_at hat
      rw [hq0] at hy2
      simp only [PartView.get, hg0, hv0, Res.unchecked_some, Res.bind_ok, Res.pure_eq, Res.ok.injEq,
        Option.some.injEq] at hy2
      rw [← hy2] at hm1
      simp only [ItemPart.ref.injEq] at hm1
      have := List.length_pos_of_ne_nil hf
      omega
    cases p <;> simp only [Part.required, Option.some.injEq, reduceCtorEq] at hpt
    all_goals
      subst hpt
      cases hq0 : q.get[k] <;> rw [hq0] at hview <;> simp only [IsView] at hview
      cases hs0 : sl[k] <;> rw [hs0] at hshow <;> simp only [SliceShows] at hshow
      obtain ⟨rfl, hvs⟩ := hshow
      refine key _ _ _ hview.2 hq0 _ _ hs0 ?_
      have := congrArg List.length hvs
      simp only [List.length_map, List.length_take, List.length_append] at this
      omega
  · rintro (rfl | hgn | hx)
    · intro k part l hk hl
      have hes : es = [] := List.length_eq_zero_iff.1 (by simpa using hlen)
      have hks := (List.getElem?_eq_some_iff.1 hk).1
      have hkg : k < g.length := by rw [x5.length_eq]; exact hks
      have hshow := (List.forall₂_iff_get.1 x5).2 k hkg hks
      simp only [List.get_eq_getElem] at hshow
      rw [(List.getElem?_eq_some_iff.1 hk).2, hes] at hshow
      cases part with
      | entities l' =>
        cases hl
        have : l' = [] := by
          revert hshow
          cases g[k] <;> simp [SliceShows]
        rw [this]
        rfl
      | comps idx p vs =>
        cases hl
        have : vs = [] := by
          revert hshow
          cases g[k] <;> simp [SliceShows]
        rw [this]
        rfl
      | unit => cases hl
    · intro k part l hk hl
      have hks := (List.getElem?_eq_some_iff.1 hk).1
      have hkg : k < g.length := by rw [x5.length_eq]; exact hks
      have hkq : k < q.get.length := by rw [← hgv.length_eq]; exact hkg
      have hshow := (List.forall₂_iff_get.1 x5).2 k hkg hks
      have hview := (List.forall₂_iff_get.1 hgv).2 k hkg hkq
      simp only [List.get_eq_getElem] at hshow hview
      rw [(List.getElem?_eq_some_iff.1 hk).2] at hshow
      have hno : (g[k]).required = none := by
        cases hp : (g[k]).required with
        | none => rfl
        | some t =>
          have : t ∈ required g := List.mem_filterMap.2 ⟨g[k], List.getElem_mem hkg, hp⟩
          rw [hgn] at this
          cases this
      cases hp : g[k] with
      | ref t => rw [hp] at hno; cases hno
      | refMut t => rw [hp] at hno; cases hno
      | opt t =>
        rw [hp] at hshow
        cases part <;> simp only [SliceShows] at hshow
        cases hl
      | optMut t =>
        rw [hp] at hshow
        cases part <;> simp only [SliceShows] at hshow
        cases hl
      | entity =>
        rw [hp] at hshow hview
        cases part <;> simp only [SliceShows] at hshow
        subst hshow
        cases hl
        cases hq0 : q.get[k] <;> rw [hq0] at hview <;> simp only [IsView] at hview
        refine List.ext_getElem? fun j => ?_
        rw [List.getElem?_map, List.getElem?_map, List.getElem?_map]
        by_cases hj : j < its.length
        · have hread := (List.forall₂_iff_get.1 x4).2 j (by omega) hj
          simp only [List.get_eq_getElem] at hread
          obtain ⟨y, hy1, hy2⟩ := getAll_at hread k _ (List.getElem?_eq_getElem hkq)
          rw [hq0] at hy2
          simp only [PartView.get, Res.ok.injEq, Option.some.injEq] at hy2
          rw [List.getElem?_eq_getElem hj, List.getElem?_eq_getElem (by omega), Option.map_some, Option.map_some,
            Option.map_some, hy1, hy2]
        · rw [List.getElem?_eq_none (by omega), List.getElem?_eq_none (by omega)]
          rfl
    · obtain ⟨r', its', y1, y2, y3⟩ := C27_partial hr hg hq hx
      rw [h1] at y1
      cases y1
      rw [h2] at y2
      cases y2
      exact (y3 sl hsl).2.1

/-- Non-vacuity: one entity is excluded, two are not; the slices have the components of the first two. -/
example : let ops : List (Op Nat) := [.setLayout anyOrder [[0, 1], [0, 1, 2]], .create [(0, 10), (1, 11), (2, 12)],
      .create [(0, 20), (1, 21)], .create [(0, 30), (1, 31)]]
    Good ops ∧ holdsAfter ops (fun _ w => slicesAre w [.entity, .ref 0, .refMut 1] [] [.ref 2] (fun sl its =>
      decide (sl = [.entities [⟨1, 1⟩, ⟨2, 1⟩], .comps 0 0 [10, 20], .comps 1 0 [11, 21]] ∧ its.length = 2))) = true := by
  decide +kernel

end Sparsey
