import Verif.Proofs.QueryRange

/-!
The iterators of queries.
-/

set_option autoImplicit false
set_option linter.unusedSimpArgs false

namespace Sparsey
variable {V : Type} {w : World V} {s : MapWorld V} {H : List (Entity × Nat)}

/-- What a dense range stands for: the required types `R` have a common beginning `pre`, of which the part from `a` on
has the matching entities. With excluded types `X`, entities lacking *some* type of `X` are in. Entities left out of the
group of `R` are not in, and those left out of the group of `R` and `X` are. -/
structure DenseRange (w : World V) (s : MapWorld V) (H : List (Entity × Nat)) (R X : List TypeId) (a b : Nat) (pre : List Entity) : Prop where
  nonempty : R ≠ []
  nodup : pre.Nodup
  length : pre.length = b
  le : a ≤ b
  aligned : ∀ t ∈ R, ∃ c, w.borrow t = .ok c ∧ c.entities.take b = pre
  mem : ∀ e, e ∈ pre.drop a ↔ s.Has R e ∧ ¬ s.LeftOut H R e ∧
    (X = [] ∨ (∃ t ∈ X, s.table.get t e = none) ∨ s.LeftOut H (R ++ X) e)
  start : X = [] ∨ (∀ e, s.Has (R ++ X) e → s.LeftOut H (R ++ X) e) → a = 0
  first : X ≠ [] → ∀ e, e ∈ pre.take a ↔ s.Has (R ++ X) e ∧ ¬ s.LeftOut H (R ++ X) e
  grouped : Grouped s.groups R X

theorem DenseRange.nested {w : World V} {s : MapWorld V} {H : List (Entity × Nat)} {R X : List TypeId} {a b : Nat}
    {pre : List Entity} (h : DenseRange w s H R X a b pre) (hX : X ≠ []) :
    ∃ A ∈ s.groups, ∃ B ∈ s.groups, SameTypes R A ∧ SameTypes (R ++ X) B := by
  rcases h.grouped with ⟨h, _⟩ | ⟨_, A, hA, B, hB, h1, ⟨h2, _⟩, h3⟩
  · exact absurd h hX
  · refine ⟨A, hA, B, hB, h1, fun t => ?_⟩
    rw [List.mem_append, h1 t]
    constructor
    · rintro (h | h)
      · exact h2 t h
      · exact (h3.1 t h).1
    · intro h
      by_cases hn : t ∈ A
      · exact .inl hn
      · exact .inr (h3.2 t h hn)

/-- The groups of the storage are those of `gl`; nothing is said about the contents of sets. -/
structure LayStat (c : ComponentStorage V) (gl : List (List TypeId)) : Prop where
  store : StoreStat c
  groups : GroupsAre c gl

theorem InvX.lay {P : Entity → Nat → Prop} (h : InvX w s P) : LayStat w.components s.groups := ⟨h.store.stat, h.groups⟩

theorem LayStat.group_types {c : ComponentStorage V} {gl : List (List TypeId)} (h : LayStat c gl) {k : Nat} {g : Group}
    (hg : c.groups[k]? = some g) :
    ∃ ts, gl[k]? = some ts ∧ ∀ t, t ∈ ts ↔ ∃ m, c.meta? t = some m ∧ InRange g m.storageIndex := by
  have hl := h.groups.1
  have hk : k < gl.length := by
    have := (List.getElem?_eq_some_iff.1 hg).1
    omega
  refine ⟨gl[k], List.getElem?_eq_getElem hk, ?_⟩
  exact h.groups.2 k g _ hg (List.getElem?_eq_getElem hk)

/-- The group of the world for a group of the map. -/
theorem LayStat.group_of_types {c : ComponentStorage V} {gl : List (List TypeId)} (h : LayStat c gl) {ts : List TypeId}
    (hts : ts ∈ gl) : ∃ (k : Nat) (g : Group), c.groups[k]? = some g ∧ gl[k]? = some ts ∧
      ∀ t, t ∈ ts ↔ ∃ m, c.meta? t = some m ∧ InRange g m.storageIndex := by
  obtain ⟨k, hkl, hkt⟩ := List.mem_iff_getElem.1 hts
  have hgl := h.groups.1
  have hk : gl[k]? = some ts := by rw [List.getElem?_eq_getElem hkl, hkt]
  have hkg : c.groups[k]? = some (c.groups[k]'(by omega)) := List.getElem?_eq_getElem (by omega)
  exact ⟨k, _, hkg, hk, h.groups.2 k _ ts hkg hk⟩

/-- The types of a group and those that the next group adds. -/
theorem LayStat.grouped_next {c : ComponentStorage V} {gl : List (List TypeId)} (h : LayStat c gl) {R X : List TypeId}
    (hne : R ≠ []) (hxne : X ≠ []) {j k : Nat} {gp gr : Group} (hj : k = j + 1) (hgp : c.groups[j]? = some gp)
    (hgr : c.groups[k]? = some gr) (hps : gp.storageStart = gr.storageStart)
    (hR : ∀ t, t ∈ R ↔ ∃ m, c.meta? t = some m ∧ InRange gp m.storageIndex)
    (hXR : ∀ t ∈ X, ∃ m, c.meta? t = some m ∧ ¬ InRange gp m.storageIndex)
    (hRX : ∀ t, t ∈ R ++ X ↔ ∃ m, c.meta? t = some m ∧ InRange gr m.storageIndex) : Grouped gl R X := by
  obtain ⟨ts, hts, hmem⟩ := h.group_types hgp
  obtain ⟨us, hus, hmem'⟩ := h.group_types hgr
  have hsame : ∀ t, t ∈ R ↔ t ∈ ts := fun t => by rw [hR, hmem]
  have hsame' : ∀ t, t ∈ R ++ X ↔ t ∈ us := fun t => by rw [hRX, hmem']
  refine .inr ⟨hxne, ?_⟩
  refine ⟨ts, List.mem_of_getElem? hts, us, List.mem_of_getElem? hus, hsame, ⟨fun t ht =>
    (hsame' t).1 (List.mem_append_left _ ((hsame t).2 ht)), fun vs hvs h5 h6 => ?_⟩,
    fun t ht => ⟨(hsame' t).1 (List.mem_append_right _ ht), ?_⟩, fun t ht hn => ?_⟩
  · obtain ⟨l, gl, hgl, hvs', hmem''⟩ := h.group_of_types hvs
    have hbp := h.store.gstat.bounds _ gp hgp
    obtain ⟨t, ht⟩ := List.exists_mem_of_ne_nil R hne
    have ht := (hsame t).1 ht
    obtain ⟨m, hm, hin⟩ := (hmem t).1 ht
    obtain ⟨m', hm', hin'⟩ := (hmem'' t).1 (h5 t ht)
    rw [hm] at hm'
    cases hm'
    have hls := h.store.gstat.same_start hgp hgl hin hin'
    rcases Nat.lt_trichotomy l j with hlt | heq | hlt
    · left
      have := h.store.gstat.nest l j gl gp hlt hgl hgp hls.symm
      refine fun t => ⟨fun ht => ?_, h5 t⟩
      obtain ⟨m, hm, hin⟩ := (hmem'' t).1 ht
      unfold InRange at hin
      exact (hmem t).2 ⟨m, hm, by omega, by omega⟩
    · subst heq
      rw [hgp] at hgl
      cases hgl
      exact .inl fun t => by rw [hmem, hmem'']
    · right
      have : gr.storageEnd ≤ gl.storageEnd := by
        rcases Nat.lt_or_eq_of_le (by omega : k ≤ l) with hlt | heq
        · have := h.store.gstat.nest k l gr gl hlt hgr hgl (by omega)
          have := h.store.gstat.bounds _ gl hgl
          omega
        · subst heq
          rw [hgr] at hgl
          cases hgl
          exact Nat.le_refl _
      refine fun t => ⟨h6 t, fun ht => ?_⟩
      obtain ⟨m, hm, hin⟩ := (hmem' t).1 ht
      unfold InRange at hin
      exact (hmem'' t).2 ⟨m, hm, by omega, by omega⟩
  · obtain ⟨m, hm, hn⟩ := hXR t ht
    rw [hmem]
    rintro ⟨m', hm', hin⟩
    rw [hm] at hm'
    cases hm'
    exact hn hin
  · rcases List.mem_append.1 ((hsame' t).2 ht) with h | h
    · exact absurd ((hsame t).1 h) hn
    · exact h

theorem InvH.range_one (h : InvH w s H) {t : TypeId} {m : ComponentMetadata} {c : CompSet V}
    (hm : w.components.meta? t = some m) (hc : w.components.components[m.storageIndex]? = some c) :
    DenseRange w s H [t] [] 0 c.len c.entities where
  nonempty := by simp
  nodup := (h.viewAt ⟨m, hm, rfl, hc⟩).wf.rep.nodup
  length := rfl
  le := Nat.zero_le _
  aligned t' ht := by
    rw [List.mem_singleton] at ht
    subst ht
    exact ⟨c, by simp [World.borrow, hm, hc], by simp [CompSet.len]⟩
  mem e := by
    rw [List.drop_zero, (h.viewAt ⟨m, hm, rfl, hc⟩).mem e]
    have hno : ¬ s.LeftOut H [t] e := by
      rintro ⟨p, _, _, g, hg, hs⟩
      exact h.two g (List.mem_of_getElem? hg) t hs
    simp [MapWorld.Has, hno]
  start _ := rfl
  first h := absurd rfl h
  grouped := .inl ⟨rfl, .inl rfl⟩

theorem InvH.range_include (h : InvH w s H) {g : GroupInfo} {R : List TypeId} (hi : ManyInfo w.components g R) :
    ∃ r, w.components.includeGroupRange g = .ok r ∧ ∀ a b, r = some (a, b) →
      ∃ pre, DenseRange w s H R [] a b pre := by
  obtain ⟨k, gr, _, hk, hgr, _, _, _, _, _, _⟩ := hi.group h.store.stat
  have hne : R ≠ [] := by
    obtain ⟨t, ht, _⟩ := hi.last
    exact List.ne_nil_of_mem ht
  have h1 : (1 ≤ g.groupEnd) := by omega
  have h2 : g.groupEnd - 1 = k := by omega
  refine ⟨_, by simp only [ComponentStorage.includeGroupRange, h1, decide_true, Res.assert_true, Res.bind_ok, h2, hgr,
    Res.unchecked_some, Res.pure_eq]; rfl, fun a b hab => ?_⟩
  by_cases hmask : (⟨g.storageMask, 0#16⟩ : QueryMask) = gr.includeMask
  · rw [if_pos hmask] at hab
    simp only [Option.some.injEq, Prod.mk.injEq] at hab
    obtain ⟨rfl, rfl⟩ := hab
    have hty := (hi.mask_include h.store.stat hk hgr).1 hmask
    obtain ⟨ts, hts, hmem⟩ := h.lay.group_types hgr
    obtain ⟨pre, p1, p2, p3, p4, _⟩ := h.group_prefix hgr hts
    have hsame : ∀ t, t ∈ R ↔ t ∈ ts := fun t => by rw [hty, hmem]
    refine ⟨pre, hne, p1, p2, Nat.zero_le _, fun t ht => ?_, fun e => ?_, fun _ => rfl, fun h => absurd rfl h,
      .inl ⟨rfl, .inr ⟨ts, List.mem_of_getElem? hts, hsame⟩⟩⟩
    · obtain ⟨c, x1, _, x3⟩ := p3 t ((hsame t).1 ht)
      exact ⟨c, x1, by rw [← p2]; exact x3⟩
    · rw [List.drop_zero, p4, ← h.leftOut_iff hts hsame]
      simp [MapWorld.Has, hsame]
  · rw [if_neg hmask] at hab
    cases hab

theorem InvH.range_exclude (h : InvH w s H) {g x : GroupInfo} {R X : List TypeId} (hi : ManyInfo w.components g R)
    (hx : ManyInfo w.components x X) :
    ∃ r, w.components.excludeGroupRange g x = .ok r ∧ ∀ a b, r = some (a, b) →
      ∃ pre, DenseRange w s H R X a b pre := by
  have hne : R ≠ [] := by
    obtain ⟨t, ht, _⟩ := hi.last
    exact List.ne_nil_of_mem ht
  have hxne : X ≠ [] := by
    obtain ⟨t, ht, _⟩ := hx.last
    exact List.ne_nil_of_mem ht
  unfold ComponentStorage.excludeGroupRange
  by_cases hs : g.groupStart ≠ x.groupStart
  · exact ⟨none, by rw [if_pos hs], fun a b hab => by cases hab⟩
  rw [if_neg hs]
  have hs : g.groupStart = x.groupStart := not_not.1 hs
  obtain ⟨k1, g1, _, hk1, hg1, _, _, _, _, _, _⟩ := hi.group h.store.stat
  obtain ⟨k2, g2, _, hk2, hg2, _, _, _, _, _, _⟩ := hx.group h.store.stat
  obtain ⟨k, gr, hk, hgr⟩ : ∃ (k : Nat) (gr : Group), max g.groupEnd x.groupEnd = k + 1 ∧
      w.components.groups[k]? = some gr := by
    rcases Nat.le_total x.groupEnd g.groupEnd with hle | hle
    · exact ⟨k1, g1, by omega, hg1⟩
    · exact ⟨k2, g2, by omega, hg2⟩
  have h1 : 1 ≤ max g.groupEnd x.groupEnd := by omega
  have h2 : max g.groupEnd x.groupEnd - 1 = k := by omega
  simp only [h1, decide_true, Res.assert_true, Res.bind_ok, h2, hgr, Res.unchecked_some, Res.pure_eq]
  by_cases hmask : (⟨g.storageMask, x.storageMask⟩ : QueryMask) = gr.excludeMask
  · simp only [hmask, ne_eq, not_true_eq_false, if_false]
    obtain ⟨j, gp, hj, hgp, hps, hpe, hR, hXR, hRX⟩ := hi.mask_exclude h.store.stat hx hs hk hgr hmask
    have h3 : 2 ≤ max g.groupEnd x.groupEnd := by omega
    have h4 : max g.groupEnd x.groupEnd - 2 = j := by omega
    simp only [h3, decide_true, Res.assert_true, Res.bind_ok, h4, hgp, Res.unchecked_some]
    refine ⟨_, rfl, fun a b hab => ?_⟩
    simp only [Option.some.injEq, Prod.mk.injEq] at hab
    obtain ⟨rfl, rfl⟩ := hab
    obtain ⟨ts, hts, hmem⟩ := h.lay.group_types hgp
    obtain ⟨us, hus, hmem'⟩ := h.lay.group_types hgr
    obtain ⟨pre, p1, p2, p3, p4, p5⟩ := h.group_prefix hgp hts
    obtain ⟨chi, c1, c2, c3, c4, c5⟩ := h.group_prefix hgr hus
    have hsame : ∀ t, t ∈ R ↔ t ∈ ts := fun t => by rw [hR, hmem]
    have hsame' : ∀ t, t ∈ R ++ X ↔ t ∈ us := fun t => by rw [hRX, hmem']
    have hsub : ∀ e, e ∈ chi → e ∈ pre := by
      intro e he
      rw [p5]
      exact h.store.shown_nested hgp hgr (by omega) hps ((c5 e).1 he)
    have hL := h.leftOut_iff (H := H) hts hsame
    have hL' := h.leftOut_iff (H := H) hus hsame'
    have hlen : chi.length ≤ pre.length := (List.subperm_of_subset c1 hsub).length_le
    have htake : pre.take chi.length = chi := by
      obtain ⟨t, ht⟩ := List.exists_mem_of_ne_nil R hne
      obtain ⟨c, x1, _, x3⟩ := p3 t ((hsame t).1 ht)
      obtain ⟨c', y1, _, y3⟩ := c3 t ((hsame' t).1 (List.mem_append_left _ ht))
      rw [x1] at y1
      cases y1
      rw [← x3, List.take_take, Nat.min_eq_left hlen, y3]
    have hdrop : ∀ e, e ∈ pre.drop chi.length ↔ e ∈ pre ∧ e ∉ chi := by
      intro e
      have hsplit : pre = chi ++ pre.drop chi.length := by
        conv_lhs => rw [← List.take_append_drop chi.length pre, htake]
      have hnd : (chi ++ pre.drop chi.length).Nodup := by rw [← hsplit]; exact p1
      rw [List.nodup_append] at hnd
      constructor
      · intro he
        exact ⟨List.mem_of_mem_drop he, fun hc => hnd.2.2 e hc e he rfl⟩
      · rintro ⟨he, hn⟩
        rw [hsplit] at he
        exact (List.mem_append.1 he).resolve_left hn
    refine ⟨pre, hne, p1, p2, by omega, fun t ht => ?_, fun e => ?_, fun h => ?_, fun _ e => ?_, ?_⟩
    · obtain ⟨c, x1, _, x3⟩ := p3 t ((hsame t).1 ht)
      exact ⟨c, x1, by rw [← p2]; exact x3⟩
    · rw [← c2, hdrop, p4, c4, hL, hL']
      constructor
      · rintro ⟨⟨e1, e0⟩, e2⟩
        refine ⟨fun t ht => e1 t ((hsame t).1 ht), e0, .inr ?_⟩
        by_contra hcon
        push Not at hcon
        refine e2 ⟨fun t ht => ?_, hcon.2⟩
        rcases List.mem_append.1 ((hsame' t).2 ht) with ht | ht
        · exact e1 t ((hsame t).1 ht)
        · exact Option.ne_none_iff_isSome.1 (hcon.1 t ht)
      · rintro ⟨e1, e0, e2⟩
        refine ⟨⟨fun t ht => e1 t ((hsame t).2 ht), e0⟩, fun e3 => ?_⟩
        rcases e2 with e2 | ⟨t, ht, hn⟩ | e2
        · exact hxne e2
        · have := e3.1 t ((hsame' t).1 (List.mem_append_right _ ht))
          rw [hn] at this
          cases this
        · exact e3.2 e2
    · have hno := h.resolve_left hxne
      rw [← c2]
      cases hc : chi with
      | nil => rfl
      | cons e l =>
        have he := (c4 e).1 (by rw [hc]; exact .head _)
        exact absurd ((hL' e).1 (hno e fun t ht => he.1 t ((hsame' t).1 ht))) he.2
    · rw [← c2, htake, c4, hL']
      exact ⟨fun he => ⟨fun t ht => he.1 t ((hsame' t).1 ht), he.2⟩, fun he => ⟨fun t ht => he.1 t ((hsame' t).2 ht), he.2⟩⟩
    · exact h.lay.grouped_next hne hxne (by omega) hgp hgr hps hR hXR hRX
  · exact ⟨none, by simp [hmask], fun a b hab => by cases hab⟩

theorem present_of_views {c : ComponentStorage V} : ∀ {q : Query} {vs : List (PartView V)},
    List.Forall₂ (IsView c) q vs → Present c (required q)
  | [], _, .nil => by simp [Present, required]
  | p :: q, _, .cons (b := v) hv hvs => by
    have ih := present_of_views hvs
    rw [required_cons]
    intro t ht
    rcases List.mem_append.1 ht with ht | ht
    · cases p <;> simp only [Part.required, Option.toList_none, Option.toList_some, List.mem_singleton,
        List.not_mem_nil] at ht
      all_goals
        subst ht
        cases v <;> simp only [IsView] at hv
        obtain ⟨_, m, hm, rfl, hs⟩ := hv
        exact ⟨m, _, hm, hs⟩
    · exact ih t ht

/-- The group range of a query is computed without panic, and is right up to the treatment of several excluded
types. -/
theorem InvH.range (h : InvH w s H) {g i x : Query} {q : QueryAll V} (hq : q.Of w g i x) :
    ∃ r, q.getGroupRange = .ok r ∧ ∀ a b, r = some (a, b) →
      ∃ pre, DenseRange w s H (required g ++ required i) (required x) a b pre := by
  have pg := present_of_views hq.get
  have pi := present_of_views hq.inc
  have px := present_of_views hq.exc
  unfold QueryAll.getGroupRange
  rw [hq.world]
  cases hgi : q.getInfo with
  | none => exact ⟨none, rfl, fun a b hab => by cases hab⟩
  | some gi =>
  cases hii : q.incInfo with
  | none => exact ⟨none, rfl, fun a b hab => by cases hab⟩
  | some ii =>
  cases hxi : q.excInfo with
  | none => exact ⟨none, rfl, fun a b hab => by cases hab⟩
  | some xi =>
  have ig : InfoOf w.components gi (required g) := by
    rw [hq.getInfo] at hgi
    have := InfoOf.query (c := w.components) g (a := .empty) (ts := []) rfl pg hgi
    simpa using this
  have iI : InfoOf w.components ii (required i) := by
    rw [hq.incInfo] at hii
    have := InfoOf.query (c := w.components) i (a := .empty) (ts := []) rfl pi hii
    simpa using this
  have ix : InfoOf w.components xi (required x) := by
    rw [hq.excInfo] at hxi
    have := InfoOf.query (c := w.components) x (a := .empty) (ts := []) rfl px hxi
    simpa using this
  simp only
  cases hadd : gi.addQuery ii with
  | none => exact ⟨none, rfl, fun a b hab => by cases hab⟩
  | some inc =>
    simp only
    have hinc := ig.add iI hadd
    have hex : ∀ {a b : GroupInfo}, inc.groupInfo = some a → xi.groupInfo = some b →
        ∃ r, w.components.excludeGroupRange a b = .ok r ∧ ∀ u v, r = some (u, v) →
          ∃ pre, DenseRange w s H (required g ++ required i) (required x) u v pre := by
      intro a b ha hb
      exact h.range_exclude (hinc.group ha) (ix.group hb)
    have hgen : ∃ r, (match inc.groupInfo, xi.groupInfo with
        | some inc, some exc => w.components.excludeGroupRange inc exc
        | _, _ => .ok none) = .ok r ∧ ∀ a b, r = some (a, b) →
      ∃ pre, DenseRange w s H (required g ++ required i) (required x) a b pre := by
      cases ha : inc.groupInfo with
      | none => exact ⟨none, rfl, fun a b hab => by cases hab⟩
      | some a =>
        cases hb : xi.groupInfo with
        | none => exact ⟨none, rfl, fun a b hab => by cases hab⟩
        | some b => exact hex ha hb
    cases xi with
    | empty =>
      have hX : required x = [] := ix
      rw [hX]
      cases inc with
      | empty => exact ⟨none, rfl, fun a b hab => by cases hab⟩
      | one v =>
        obtain ⟨t, m, c, hR, hm, hc, rfl⟩ := hinc
        rw [hR]
        refine ⟨_, rfl, fun a b hab => ?_⟩
        simp only [Option.some.injEq, Prod.mk.injEq] at hab
        obtain ⟨rfl, rfl⟩ := hab
        exact ⟨_, h.range_one hm hc⟩
      | many a => exact h.range_include hinc.1
    | one v => cases inc <;> exact hgen
    | many v => cases inc <;> exact hgen

/-! ### The entities that are iterated -/

/-- `es` are the entities of the set of one of the types. -/
def EntitiesOf (c : ComponentStorage V) (ts : List TypeId) (es : List Entity) : Prop :=
  ∃ t ∈ ts, ∃ idx cs, ViewAt c t idx cs ∧ es = cs.entities

theorem EntitiesOf.mono {c : ComponentStorage V} {ts us : List TypeId} {es : List Entity} (h : EntitiesOf c ts es)
    (hs : ∀ t ∈ ts, t ∈ us) : EntitiesOf c us es := by
  obtain ⟨t, ht, r⟩ := h
  exact ⟨t, hs t ht, r⟩

theorem part_entities {c : ComponentStorage V} {p : Part} {v : PartView V} (hv : IsView c p v) :
    (p.required = none ∧ v.entities = none) ∨
      ∃ t es, p.required = some t ∧ v.entities = some es ∧ EntitiesOf c [t] es := by
  cases p <;> cases v <;> simp only [IsView] at hv
  · exact .inl ⟨rfl, rfl⟩
  · exact .inr ⟨_, _, rfl, rfl, _, List.mem_singleton_self _, _, _, hv.2, rfl⟩
  · exact .inr ⟨_, _, rfl, rfl, _, List.mem_singleton_self _, _, _, hv.2, rfl⟩
  · exact .inl ⟨rfl, rfl⟩
  · exact .inl ⟨rfl, rfl⟩

theorem firstEntities_spec {c : ComponentStorage V} : ∀ {q : Query} {vs : List (PartView V)},
    List.Forall₂ (IsView c) q vs → (firstEntities vs = none ∧ required q = []) ∨
      ∃ es, firstEntities vs = some es ∧ EntitiesOf c (required q) es
  | [], _, .nil => .inl ⟨rfl, rfl⟩
  | p :: q, _, .cons (b := v) hv hvs => by
    rw [required_cons]
    rcases part_entities hv with ⟨h1, h2⟩ | ⟨t, es, h1, h2, h3⟩
    · simp only [firstEntities, h2, h1, Option.toList_none, List.nil_append]
      exact firstEntities_spec hvs
    · refine .inr ⟨es, by simp only [firstEntities, h2], h3.mono ?_⟩
      intro t' ht'
      rw [List.mem_singleton] at ht'
      subst ht'
      simp [h1]

theorem shortest_spec {c : ComponentStorage V} : ∀ {q : Query} {vs : List (PartView V)} (acc : Option (List Entity)),
    List.Forall₂ (IsView c) q vs → (shortest acc vs = acc ∧ (acc = none → required q = [])) ∨
      ∃ es, shortest acc vs = some es ∧ EntitiesOf c (required q) es
  | [], _, acc, .nil => .inl ⟨rfl, fun _ => rfl⟩
  | p :: q, _, acc, .cons (b := v) (l₂ := vs) hv hvs => by
    rw [required_cons]
    rcases part_entities hv with ⟨h1, h2⟩ | ⟨t, es, h1, h2, h3⟩
    · simp only [h1, Option.toList_none, List.nil_append]
      have : ∀ vs : List (PartView V), shortest acc (v :: vs) = shortest acc vs := by
        intro vs
        simp only [shortest, h2]
      rw [this]
      exact shortest_spec acc hvs
    · have hsub : ∀ t' ∈ required q, t' ∈ p.required.toList ++ required q :=
        fun t' ht' => List.mem_append_right _ ht'
      have hes : EntitiesOf c (p.required.toList ++ required q) es := by
        refine h3.mono ?_
        intro t' ht'
        rw [List.mem_singleton] at ht'
        subst ht'
        simp [h1]
      have hstep : ∀ acc' : Option (List Entity), acc' = some es ∨ acc' = acc → acc' ≠ none →
          (shortest acc' vs = acc ∧ (acc = none → p.required.toList ++ required q = [])) ∨
          ∃ es, shortest acc' vs = some es ∧ EntitiesOf c (p.required.toList ++ required q) es := by
        intro acc' ha hn
        rcases shortest_spec acc' hvs with ⟨x1, _⟩ | ⟨es', x1, x2⟩
        · rcases ha with rfl | rfl
          · exact .inr ⟨es, x1, hes⟩
          · exact .inl ⟨x1, fun h0 => absurd h0 hn⟩
        · exact .inr ⟨es', x1, x2.mono hsub⟩
      cases acc with
      | none =>
        have e1 : shortest none (v :: vs) = shortest (some es) vs := by simp only [shortest, h2]
        rw [e1]
        exact hstep (some es) (.inl rfl) (by simp)
      | some old =>
        simp only [shortest, h2]
        by_cases hl : es.length < old.length
        · rw [if_pos hl]
          exact hstep (some es) (.inl rfl) (by simp)
        · rw [if_neg hl]
          exact hstep (some old) (.inr rfl) (by simp)

theorem shortest_none {c : ComponentStorage V} {q : Query} {vs : List (PartView V)}
    (hvs : List.Forall₂ (IsView c) q vs) : (shortest none vs = none ∧ required q = []) ∨
      ∃ es, shortest none vs = some es ∧ EntitiesOf c (required q) es := by
  rcases shortest_spec none hvs with ⟨h1, h2⟩ | h
  · exact .inl ⟨h1, h2 rfl⟩
  · exact .inr h

/-- The entities of a dense iterator. -/
theorem dense_entities {g i x : Query} {q : QueryAll V} (hq : q.Of w g i x)
    (hne : required g ++ required i ≠ []) : ∃ es, (firstEntities q.get).or (shortest none q.inc) = some es ∧
      EntitiesOf w.components (required g ++ required i) es := by
  rcases firstEntities_spec hq.get with ⟨h1, h2⟩ | ⟨es, h1, h2⟩
  · rcases shortest_none hq.inc with ⟨h3, h4⟩ | ⟨es, h3, h4⟩
    · rw [h2, h4] at hne
      exact absurd rfl hne
    · exact ⟨es, by simp [h1, h3], h4.mono fun t ht => List.mem_append_right _ ht⟩
  · exact ⟨es, by simp [h1], h2.mono fun t ht => List.mem_append_left _ ht⟩

/-- The entities of a sparse iterator. -/
theorem sparse_entities {g i x : Query} {q : QueryAll V} (hq : q.Of w g i x) :
    (required g ++ required i = [] ∧ QueryAll.chooseEntities (shortest none q.get) (shortest none q.inc) = []) ∨
    EntitiesOf w.components (required g ++ required i)
      (QueryAll.chooseEntities (shortest none q.get) (shortest none q.inc)) := by
  have hl : ∀ t ∈ required g, t ∈ required g ++ required i := fun t ht => List.mem_append_left _ ht
  have hr : ∀ t ∈ required i, t ∈ required g ++ required i := fun t ht => List.mem_append_right _ ht
  rcases shortest_none hq.get with ⟨h1, h2⟩ | ⟨es, h1, h2⟩ <;>
    rcases shortest_none hq.inc with ⟨h3, h4⟩ | ⟨es', h3, h4⟩ <;> simp only [h1, h3, QueryAll.chooseEntities]
  · exact .inl ⟨by rw [h2, h4]; rfl, trivial⟩
  · exact .inr (h4.mono hr)
  · exact .inr (h2.mono hl)
  · right
    split
    · exact h2.mono hl
    · exact h4.mono hr

/-! ### Iterating -/

theorem view_of_mem {c : ComponentStorage V} {q : Query} {vs : List (PartView V)} (h : List.Forall₂ (IsView c) q vs)
    {v : PartView V} (hv : v ∈ vs) : ∃ p ∈ q, IsView c p v := by
  induction h with
  | nil => cases hv
  | cons h1 _ ih =>
    rcases List.mem_cons.1 hv with rfl | hv
    · exact ⟨_, .head _, h1⟩
    · obtain ⟨p, hp, hp'⟩ := ih hv
      exact ⟨p, .tail _ hp, hp'⟩

theorem borrow_of_viewAt {t : TypeId} {idx : Nat} {c : CompSet V} (h : ViewAt w.components t idx c) :
    w.borrow t = .ok c := by
  obtain ⟨m, hm, rfl, hc⟩ := h
  simp [World.borrow, hm, hc]

/-- A required view of an aligned query has the entity of the prefix. -/
theorem DenseRange.at {R X : List TypeId} {a b : Nat} {pre : List Entity} (hd : DenseRange w s H R X a b pre) {q : Query}
    {vs : List (PartView V)} (h : List.Forall₂ (IsView w.components) q vs) (hR : ∀ t ∈ required q, t ∈ R) {i : Nat}
    {e : Entity} (he : pre[i]? = some e) : ∀ v ∈ vs, v.At i e := by
  intro v hv
  obtain ⟨p, hp, hpv⟩ := view_of_mem h hv
  have key : ∀ t idx c, p.required = some t → ViewAt w.components t idx c → c.entities[i]? = some e := by
    intro t idx c ht hvt
    obtain ⟨c', h1, h2⟩ := hd.aligned t (hR t (List.mem_filterMap.2 ⟨p, hp, ht⟩))
    rw [borrow_of_viewAt hvt] at h1
    cases h1
    rw [← h2, List.getElem?_take] at he
    split at he
    · exact he
    · cases he
  cases p <;> cases v <;> simp only [IsView] at hpv <;> try trivial
  · exact key _ _ _ rfl hpv.2
  · exact key _ _ _ rfl hpv.2

theorem InvX.alive_of_has {P : Entity → Nat → Prop} (h : InvX w s P) {R : List TypeId} (hne : R ≠ []) {e : Entity} (he : s.Has R e) :
    e ∈ s.life.alive := by
  obtain ⟨t, ht⟩ := List.exists_mem_of_ne_nil R hne
  by_contra hn
  have := he t ht
  rw [h.get_dead hn t] at this
  cases this

/-- An item is read for each entity. -/
abbrev Reads (vs : List (PartView V)) (es : List Entity) (its : List (Item V)) : Prop :=
  List.Forall₂ (fun e it => getAll e vs = .ok (some it)) es its

theorem Faithful.reads_shown {g : Query} {vs : List (PartView V)} (hv : List.Forall₂ (Faithful s) g vs) :
    ∀ {es : List Entity} {its : List (Item V)}, Reads vs es its →
    its.map (fun it => some (Item.shown it)) = es.map fun e => shows s.table e g
  | _, _, .nil => rfl
  | _, _, .cons h1 hs => by
    obtain ⟨r, h2, h3⟩ := Faithful.all_get _ hv
    rw [h1] at h2
    cases h2
    rw [List.map_cons, List.map_cons, Faithful.reads_shown hv hs, ← h3]
    rfl

theorem DenseRange.alive {R X : List TypeId} {a b : Nat} {pre : List Entity} (hd : DenseRange w s H R X a b pre)
    (h : InvH w s H) : ∀ e ∈ pre, e ∈ s.life.alive := by
  intro e he
  obtain ⟨t, ht⟩ := List.exists_mem_of_ne_nil R hd.nonempty
  obtain ⟨c, h1, h2⟩ := hd.aligned t ht
  rw [← h2] at he
  have hreg : t ∈ s.reg := by
    by_contra hn
    rw [h.borrow_unreg hn] at h1
    cases h1
  obtain ⟨c', h3, _, h4, _⟩ := h.borrow_reg hreg
  rw [h1] at h3
  cases h3
  exact h4 e (List.mem_of_mem_take he)

theorem DenseRange.fold (h : InvH w s H) {R X : List TypeId} {a b : Nat} {pre : List Entity}
    (hd : DenseRange w s H R X a b pre) {q : Query} {it : DenseIter V}
    (hv : List.Forall₂ (IsView w.components) q it.get) (hR : ∀ t ∈ required q, t ∈ R) (hes : it.entities.take b = pre) :
    ∀ (n i : Nat), i + n = b → ∃ xs, it.foldFrom i n = .ok xs ∧ Reads it.get (pre.drop i) xs
  | 0, i, hn => by
    refine ⟨[], rfl, ?_⟩
    rw [List.drop_eq_nil_of_le (by rw [hd.length]; omega)]
    exact .nil
  | n + 1, i, hn => by
    have hi : i < pre.length := by rw [hd.length]; omega
    have he : pre[i]? = some pre[i] := List.getElem?_eq_getElem hi
    have hi' : it.entities[i]? = some pre[i] := by
      have h0 : (it.entities.take b)[i]? = some pre[i] := by rw [hes]; exact he
      rw [List.getElem?_take] at h0
      split at h0
      · exact h0
      · cases h0
    obtain ⟨r, h1, h2⟩ := Faithful.all_dense h.life.idxUniq (hd.alive h _ (List.getElem_mem hi)) (h.faithfuls hv) (hd.at hv hR he)
    obtain ⟨xs, h3, h4⟩ := hd.fold h hv hR hes n (i + 1) (by omega)
    refine ⟨r :: xs, by simp [DenseIter.foldFrom, DenseIter.item, hi', h1, h3], ?_⟩
    rw [List.drop_eq_getElem_cons hi]
    exact .cons h2 h4

theorem sparse_item (hu : IdxUniq (· ∈ s.life.alive)) {g i x : Query} {it : SparseIter V}
    (hg : List.Forall₂ (Faithful s) g it.get) (hi : List.Forall₂ (Faithful s) i it.inc)
    (hx : List.Forall₂ (Faithful s) x it.exc) {e : Entity} (he : e ∈ s.life.alive) :
    ∃ r, it.item e = .ok r ∧
      (r.isSome ↔ s.Has (required g ++ required i) e ∧ containsNone it.exc e = true) ∧
      ∀ y, r = some y → getAll e it.get = .ok (some y) := by
  unfold SparseIter.item
  rw [Faithful.none_containsRaw hu he hx, Faithful.all_containsRaw hu he hi, Faithful.all_sparse hu he hg]
  have happ : s.Has (required g ++ required i) e ↔ s.Has (required g) e ∧ s.Has (required i) e := by
    simp only [MapWorld.Has, List.mem_append]
    constructor
    · exact fun h => ⟨fun t ht => h t (.inl ht), fun t ht => h t (.inr ht)⟩
    · rintro ⟨h1, h2⟩ t (ht | ht)
      · exact h1 t ht
      · exact h2 t ht
  rw [happ]
  cases hn : containsNone it.exc e with
  | false => exact ⟨none, by simp, by simp, fun y hy => by cases hy⟩
  | true =>
    cases ha : containsAll it.inc e with
    | false =>
      refine ⟨none, by simp, ?_, fun y hy => by cases hy⟩
      have : ¬ s.Has (required i) e := by rw [← Faithful.all_contains e hi, ha]; simp
      simp [this]
    | true =>
      have h1 := (Faithful.all_contains e hi).1 ha
      obtain ⟨r, h2, h3⟩ := Faithful.all_get e hg
      refine ⟨r, by simp [h2], ?_, fun y hy => by rw [h2, hy]⟩
      have h4 := shows_isSome s.table e g
      rw [← h3, Option.isSome_map] at h4
      rw [h4]
      exact ⟨fun x => ⟨⟨x, h1⟩, rfl⟩, fun x => x.1.1⟩

theorem sparse_fold (hu : IdxUniq (· ∈ s.life.alive)) {g i x : Query} {it : SparseIter V}
    (hg : List.Forall₂ (Faithful s) g it.get) (hi : List.Forall₂ (Faithful s) i it.inc)
    (hx : List.Forall₂ (Faithful s) x it.exc) : ∀ (l : List Entity), (∀ e ∈ l, e ∈ s.life.alive) → l.Nodup →
    ∃ es xs, it.foldFrom l = .ok xs ∧ es.Sublist l ∧ Reads it.get es xs ∧
      ∀ e, e ∈ es ↔ e ∈ l ∧ s.Has (required g ++ required i) e ∧ containsNone it.exc e = true
  | [], _, _ => ⟨[], [], rfl, .slnil, .nil, by simp⟩
  | e :: l, ha, hn => by
    obtain ⟨r, h1, h2, h3⟩ := sparse_item hu hg hi hx (ha e (.head _))
    obtain ⟨es, xs, h4, h5, h6, h7⟩ := sparse_fold hu hg hi hx l (fun e he => ha e (.tail _ he)) (List.nodup_cons.1 hn).2
    cases r with
    | none =>
      refine ⟨es, xs, by simp [SparseIter.foldFrom, h1, h4], h5.cons e, h6, fun e' => ?_⟩
      rw [h7]
      constructor
      · rintro ⟨x1, x2⟩
        exact ⟨.tail _ x1, x2⟩
      · rintro ⟨x1, x2⟩
        rcases List.mem_cons.1 x1 with rfl | x1
        · have := h2.2 x2
          cases this
        · exact ⟨x1, x2⟩
    | some y =>
      refine ⟨e :: es, y :: xs, by simp [SparseIter.foldFrom, h1, h4], h5.cons_cons e, .cons (h3 y rfl) h6, fun e' => ?_⟩
      rw [List.mem_cons, List.mem_cons, h7]
      constructor
      · rintro (rfl | ⟨x1, x2⟩)
        · exact ⟨.inl rfl, h2.1 rfl⟩
        · exact ⟨.inr x1, x2⟩
      · rintro ⟨rfl | x1, x2⟩
        · exact .inl rfl
        · exact .inr ⟨x1, x2⟩

/-- The items of a query: one for each entity of a list without repetition. -/
theorem InvH.items (h : InvH w s H) {g i x : Query} {q : QueryAll V} (hq : q.Of w g i x) :
    ∃ it es xs, q.iter = .ok it ∧ it.fold = .ok xs ∧ es.Nodup ∧ Reads q.get es xs ∧
      (∀ e ∈ es, e ∈ s.life.alive) ∧
      ((∃ a b pre, it.isDense = true ∧ q.getGroupRange = .ok (some (a, b)) ∧
          DenseRange w s H (required g ++ required i) (required x) a b pre ∧ es = pre.drop a) ∨
        (it.isDense = false ∧ q.getGroupRange = .ok none ∧
          ∀ e, e ∈ es ↔ required g ++ required i ≠ [] ∧ s.Has (required g ++ required i) e ∧
            containsNone q.exc e = true)) := by
  obtain ⟨r, hr, hrange⟩ := h.range hq
  cases r with
  | some ab =>
    obtain ⟨a, b⟩ := ab
    obtain ⟨pre, hd⟩ := hrange a b rfl
    obtain ⟨es, he1, he2⟩ := dense_entities hq hd.nonempty
    obtain ⟨t, ht, idx, c, hc, rfl⟩ := he2
    obtain ⟨c', h1, h2⟩ := hd.aligned t ht
    rw [borrow_of_viewAt hc] at h1
    cases h1
    have hle := hd.le
    obtain ⟨xs, h3, h4⟩ := hd.fold h (it := ⟨a, b, c.entities, q.get⟩) hq.get
      (fun t ht => List.mem_append_left _ ht) h2 (b - a) a (by omega)
    refine ⟨.dense ⟨a, b, c.entities, q.get⟩, pre.drop a, xs, ?_, ?_, ?_, h4, ?_, ?_⟩
    · simp [QueryAll.iter, hr, he1]
    · exact h3
    · exact hd.nodup.sublist (List.drop_sublist _ _)
    · exact fun e he => hd.alive h e (List.mem_of_mem_drop he)
    · exact .inl ⟨a, b, pre, rfl, hr, hd, rfl⟩
  | none =>
    have hiter : q.iter = .ok (.sparse ⟨QueryAll.chooseEntities (shortest none q.get) (shortest none q.inc), q.exc, q.inc,
        q.get⟩) := by simp [QueryAll.iter, hr]
    rcases sparse_entities hq with ⟨h1, h2⟩ | ⟨t, ht, idx, c, hc, he⟩
    · refine ⟨_, [], [], hiter, ?_, List.nodup_nil, .nil, by simp, .inr ⟨rfl, hr, by simp [h1]⟩⟩
      rw [h2]
      rfl
    · have hs := h.viewAt hc
      obtain ⟨es, xs, h1, h2, h3, h4⟩ := sparse_fold h.life.idxUniq
        (it := ⟨QueryAll.chooseEntities (shortest none q.get) (shortest none q.inc), q.exc, q.inc, q.get⟩)
        (h.faithfuls hq.get) (h.faithfuls hq.inc) (h.faithfuls hq.exc) c.entities hs.alive hs.wf.rep.nodup
      refine ⟨_, es, xs, hiter, ?_, hs.wf.rep.nodup.sublist h2, h3, fun e he => hs.alive e (h2.subset he), .inr ⟨rfl, hr,
        fun e => ?_⟩⟩
      · rw [he] at h1 ⊢
        exact h1
      · rw [h4]
        have hne : required g ++ required i ≠ [] := List.ne_nil_of_mem ht
        constructor
        · rintro ⟨_, x1⟩
          exact ⟨hne, x1⟩
        · rintro ⟨_, x1, x2⟩
          exact ⟨(hs.mem e).2 (x1 t ht), x1, x2⟩

theorem has_append {R R' : List TypeId} {e : Entity} : s.Has (R ++ R') e ↔ s.Has R e ∧ s.Has R' e := by
  simp only [MapWorld.Has, List.mem_append]
  constructor
  · exact fun h => ⟨fun t ht => h t (.inl ht), fun t ht => h t (.inr ht)⟩
  · rintro ⟨h1, h2⟩ t (ht | ht)
    · exact h1 t ht
    · exact h2 t ht

/-- Outside the two defects, the items are those of the matching entities. -/
theorem InvH.items_match (h : InvH w s H) {g i x : Query} {q : QueryAll V} (hq : q.Of w g i x)
    (hne : required g ++ required i ≠ []) (hx : AllRequired x) (hs : SingleExclude s.groups g i x)
    (hn : s.NoneLeftOut H g i x) : ∃ it es xs, q.iter = .ok it ∧ it.fold = .ok xs ∧ es.Nodup ∧ Reads q.get es xs ∧
      ∀ e, e ∈ es ↔ s.Matches g i x e := by
  obtain ⟨it, es, xs, h1, h2, h3, h4, h5, h6⟩ := h.items hq
  refine ⟨it, es, xs, h1, h2, h3, h4, fun e => ?_⟩
  rcases h6 with ⟨a, b, pre, _, _, hd, rfl⟩ | ⟨_, _, hm⟩
  · rw [hd.mem, has_append]
    unfold MapWorld.Matches
    constructor
    · rintro ⟨⟨x1, x2⟩, _, x3⟩
      refine ⟨h.alive_of_has hne (has_append.2 ⟨x1, x2⟩), x1, x2, fun t ht => ?_⟩
      rcases x3 with x3 | ⟨t', ht', hn⟩ | x3
      · rw [x3] at ht
        cases ht
      · obtain ⟨A, hA, B, hB, hRA, hRB⟩ := hd.nested (List.ne_nil_of_mem ht)
        rw [hs A hA B hB hRA hRB t ht t' ht']
        exact hn
      · obtain ⟨A, hA, _, _, hRA, _⟩ := hd.nested (List.ne_nil_of_mem ht)
        exact absurd x3 ((hn.out e).2 ⟨A, hA, hRA⟩)
    · rintro ⟨_, x1, x2, x3⟩
      refine ⟨⟨x1, x2⟩, (hn.out e).1, ?_⟩
      cases hX : required x with
      | nil => exact .inl rfl
      | cons t l => exact .inr (.inl ⟨t, .head _, x3 t (by rw [hX]; exact .head _)⟩)
  · rw [hm, has_append, Faithful.none_contains e hx (h.faithfuls hq.exc)]
    unfold MapWorld.Matches
    constructor
    · rintro ⟨_, ⟨x1, x2⟩, x3⟩
      exact ⟨h.alive_of_has hne (has_append.2 ⟨x1, x2⟩), x1, x2, x3⟩
    · rintro ⟨_, x1, x2, x3⟩
      exact ⟨hne, ⟨x1, x2⟩, x3⟩

end Sparsey
