import Verif.Proofs.QueryIter

/-!
A query over exactly the component types of a group is dense (src/component/component_storage.rs:235-266).
-/

set_option autoImplicit false
set_option linter.unusedSimpArgs false

namespace Sparsey
variable {V : Type} {w : World V}

/-- The types of a group have the same first group. -/
theorem LayStat.linked {gl : List (List TypeId)} (h : LayStat w.components gl) {k : Nat} {gr : Group} (hk : w.components.groups[k]? = some gr) {R : List TypeId}
    (hR : ∀ t ∈ R, ∃ m, w.components.meta? t = some m ∧ InRange gr m.storageIndex) : Linked w.components R := by
  have key : ∀ t ∈ R, ∃ i j g0, InfoAt w.components t i ∧ i.groupStart = j ∧ w.components.groups[j]? = some g0 ∧
      g0.storageStart = gr.storageStart ∧ g0.newStorageStart = g0.storageStart := by
    intro t ht
    obtain ⟨m, hm, hin⟩ := hR t ht
    cases hi : m.groupInfo with
    | none => exact (h.store.mds.infoNone t m hm hi k gr hk hin).elim
    | some i =>
      obtain ⟨j, g, g0, h1, h2, h3, h4, h5, h6, h7, h8, _⟩ := h.store.mds.infoSome t m i hm hi
      have hb := h.store.gstat.bounds j g h1
      have : g.storageStart = gr.storageStart :=
        h.store.gstat.same_start h1 hk (idx := m.storageIndex) ⟨by omega, h3⟩ hin
      exact ⟨i, _, g0, ⟨m, hm, hi⟩, rfl, h6, h7.trans this, h8⟩
  cases R with
  | nil => exact ⟨0, by simp⟩
  | cons t0 R =>
    obtain ⟨i0, j0, g0, _, e2, e3, e4, e5⟩ := key t0 (.head _)
    refine ⟨j0, fun t ht => ?_⟩
    obtain ⟨i, j, g, f1, f2, f3, f4, f5⟩ := key t ht
    refine ⟨i, f1, ?_⟩
    rw [f2]
    exact h.store.gstat.first_unique f3 e3 (f4.trans e4.symm) f5 e5

/-- The information of a query whose types are linked. -/
theorem infos_linked {g i x : Query} {q : QueryAll V} (hq : q.Of w g i x)
    (hl : (required g ++ required i).length ≠ 1 → Linked w.components (required g ++ required i))
    (hlx : Linked w.components (required x)) :
    ∃ inc exc, q.getGroupRange = w.components.groupRange inc exc ∧
      InfoOf w.components inc (required g ++ required i) ∧ InfoOf w.components exc (required x) := by
  have pg := present_of_views hq.get
  have pi := present_of_views hq.inc
  have px := present_of_views hq.exc
  have lin : ∀ {us : List TypeId}, (∀ t ∈ us, t ∈ required g ++ required i) →
      us.length ≤ (required g ++ required i).length → us.length ≠ 1 → Linked w.components us := by
    intro us hs hle h1
    by_cases hlen : (required g ++ required i).length = 1
    · have : us = [] := List.length_eq_zero_iff.1 (by omega)
      rw [this]
      exact ⟨0, by simp⟩
    · exact (hl hlen).sub hs
  obtain ⟨gi, hgi⟩ := queryInfo_some (c := w.components) g (a := .empty) (ts := []) rfl pg
    (lin (fun t ht => List.mem_append_left _ (by simpa using ht)) (by simp))
  obtain ⟨ii, hii⟩ := queryInfo_some (c := w.components) i (a := .empty) (ts := []) rfl pi
    (lin (fun t ht => List.mem_append_right _ (by simpa using ht)) (by simp))
  obtain ⟨xi, hxi⟩ := queryInfo_some (c := w.components) x (a := .empty) (ts := []) rfl px
    (fun _ => hlx.sub fun t ht => by simpa using ht)
  have ig : InfoOf w.components gi (required g) := by
    simpa using InfoOf.query (c := w.components) g (a := .empty) (ts := []) rfl pg hgi
  have iI : InfoOf w.components ii (required i) := by
    simpa using InfoOf.query (c := w.components) i (a := .empty) (ts := []) rfl pi hii
  have ix : InfoOf w.components xi (required x) := by
    simpa using InfoOf.query (c := w.components) x (a := .empty) (ts := []) rfl px hxi
  obtain ⟨inc, hinc⟩ := ig.add_some iI (fun h1 h2 => hl (by
    have := List.length_pos_iff.2 h1
    have := List.length_pos_iff.2 h2
    rw [List.length_append]
    omega))
  refine ⟨inc, xi, ?_, ig.add iI hinc, ix⟩
  unfold QueryAll.getGroupRange
  rw [hq.world, hq.getInfo, hq.incInfo, hq.excInfo, hgi, hii, hxi]
  simp only [hinc]

theorem InfoOf.nil {c : ComponentStorage V} {q : QueryGroupInfo} (h : InfoOf c q []) : q = .empty := by
  cases q with
  | empty => rfl
  | one v =>
    obtain ⟨t, m, c, h1, _⟩ := h
    cases h1
  | many g =>
    exact absurd h.2 (by simp)

/-- Linked types have group information. -/
theorem InfoOf.some_group {c : ComponentStorage V} {q : QueryGroupInfo} {ts : List TypeId} (h : InfoOf c q ts)
    (hl : Linked c ts) (hne : ts ≠ []) : ∃ g, q.groupInfo = some g := by
  cases q with
  | empty => exact absurd h hne
  | one v =>
    obtain ⟨t, m, cs, rfl, hm, _, rfl⟩ := h
    obtain ⟨_, hl⟩ := hl
    obtain ⟨i, ⟨m', hm', hi⟩, _⟩ := hl t (List.mem_singleton_self _)
    rw [hm] at hm'
    cases hm'
    exact ⟨i, hi⟩
  | many g => exact ⟨g, rfl⟩

/-- The types of a group that are new to it. -/
theorem LayStat.new_type {gl : List (List TypeId)} (h : LayStat w.components gl) {k : Nat} {gr : Group}
    (hk : w.components.groups[k]? = some gr) : ∃ t m, w.components.meta? t = some m ∧
      m.storageIndex = gr.newStorageStart ∧ InRange gr m.storageIndex := by
  have hb := h.store.gstat.bounds k gr hk
  obtain ⟨t, m, hm, hi⟩ := h.store.mds.cover k gr gr.newStorageStart hk ⟨hb.1, hb.2.1⟩
  exact ⟨t, m, hm, hi, by rw [hi]; exact ⟨hb.1, hb.2.1⟩⟩

/-- A query over exactly the types of a group has the range of the group. -/
theorem LayStat.dense {gl : List (List TypeId)} (h : LayStat w.components gl) {g i x : Query} {q : QueryAll V} (hq : q.Of w g i x) {ts : List TypeId}
    (hts : ts ∈ gl) (hR : SameTypes (required g ++ required i) ts) (hx : required x = []) :
    ∃ n, q.getGroupRange = .ok (some (0, n)) := by
  obtain ⟨k, gr, hkg, hks, hmem⟩ := h.group_of_types hts
  have htypes : ∀ t, t ∈ required g ++ required i ↔
      ∃ m, w.components.meta? t = some m ∧ InRange gr m.storageIndex := fun t => (hR t).trans (hmem t)
  have hlink := h.linked hkg (fun t ht => (htypes t).1 ht)
  obtain ⟨inc, exc, hrange, iinc, iexc⟩ := infos_linked hq (fun _ => hlink) (by rw [hx]; exact ⟨0, by simp⟩)
  rw [hx] at iexc
  rw [iexc.nil] at hrange
  rw [hrange]
  obtain ⟨t0, m0, hm0, hi0, hr0⟩ := h.new_type hkg
  have ht0 : t0 ∈ required g ++ required i := (htypes t0).2 ⟨m0, hm0, hr0⟩
  cases inc with
  | empty =>
    have : required g ++ required i = [] := iinc
    rw [this] at ht0
    cases ht0
  | one v => exact ⟨v.len, rfl⟩
  | many gg =>
    have iinc : ManyInfo w.components gg (required g ++ required i) := iinc.1
    have h1 := iinc.index h.store hkg (fun t ht => (htypes t).1 ht) ⟨t0, ht0, m0, hm0, by omega⟩
    have hmask := (iinc.mask_include h.store h1 hkg).2 htypes
    refine ⟨gr.len, ?_⟩
    show w.components.includeGroupRange gg = _
    unfold ComponentStorage.includeGroupRange
    rw [h1]
    simp [Res.assert, Res.unchecked, hkg, hmask]

/-- A query over one type has the range of its set, whatever the groups are. -/
theorem range_single {g i x : Query} {q : QueryAll V} (hq : q.Of w g i x) {t : TypeId}
    (hR : required g ++ required i = [t]) (hx : required x = []) :
    ∃ idx c, ViewAt w.components t idx c ∧ q.getGroupRange = .ok (some (0, c.len)) := by
  obtain ⟨inc, exc, hrange, iinc, iexc⟩ := infos_linked hq (fun hn => absurd (by rw [hR]; rfl) hn) (by rw [hx]; exact ⟨0, by simp⟩)
  rw [hx] at iexc
  rw [hR] at iinc
  rw [iexc.nil] at hrange
  rw [hrange]
  cases inc with
  | empty => cases iinc
  | one v =>
    obtain ⟨t', m, c, h1, hm, hc, rfl⟩ := iinc
    cases h1
    exact ⟨_, c, ⟨m, hm, rfl, hc⟩, rfl⟩
  | many gg => exact absurd iinc.2 (by simp)

/-- A query over exactly the types of a group that excludes those the next group adds has the range between them. -/
theorem LayStat.dense_exclude {gl : List (List TypeId)} (h : LayStat w.components gl) {g i x : Query} {q : QueryAll V} (hq : q.Of w g i x)
    {a b : List TypeId} (ha : a ∈ gl) (hb : b ∈ gl) (hR : SameTypes (required g ++ required i) a)
    (hab : ∀ t ∈ a, t ∈ b) (hX : (∀ t ∈ required x, t ∈ b ∧ t ∉ a) ∧ ∀ t ∈ b, t ∉ a → t ∈ required x)
    (hc : ∀ c ∈ gl, (∀ t ∈ a, t ∈ c) → (∀ t ∈ c, t ∈ b) → SameTypes c a ∨ SameTypes c b)
    (hx : required x ≠ []) : ∃ m n, q.getGroupRange = .ok (some (m, n)) := by
  obtain ⟨j, gj, hgj, hja, hmemA⟩ := h.group_of_types ha
  obtain ⟨k, gk, hgk, hkb, hmemB⟩ := h.group_of_types hb
  have gs := h.store.gstat
  have bj := gs.bounds j gj hgj
  have bk := gs.bounds k gk hgk
  have hl : Linked w.components ((required g ++ required i) ++ required x) := by
    refine h.linked hgk fun t ht => (hmemB t).1 ?_
    rcases List.mem_append.1 ht with ht | ht
    · exact hab t ((hR t).1 ht)
    · exact (hX.1 t ht).1
  -- the smaller group comes first
  obtain ⟨tj, mj, hmj, hij, hrj⟩ := h.new_type hgj
  have htj : tj ∈ a := (hmemA tj).2 ⟨mj, hmj, hrj⟩
  have hss : gj.storageStart = gk.storageStart := by
    obtain ⟨m, hm, hin⟩ := (hmemB tj).1 (hab tj htj)
    rw [hmj] at hm
    cases hm
    exact gs.same_start hgj hgk hrj hin
  obtain ⟨tx, htx⟩ := List.exists_mem_of_ne_nil _ hx
  obtain ⟨mx, hmx, hrx⟩ := (hmemB tx).1 (hX.1 tx htx).1
  have hnx : ¬ InRange gj mx.storageIndex := fun hin => (hX.1 tx htx).2 ((hmemA tx).2 ⟨mx, hmx, hin⟩)
  have hlt : j < k := by
    rcases Nat.lt_trichotomy j k with hlt | heq | hlt
    · exact hlt
    · subst heq
      rw [hgj] at hgk
      cases hgk
      exact absurd hrx hnx
    · have := gs.nest k j gk gj hlt hgk hgj hss.symm
      unfold InRange at *
      omega
  have hne := gs.nest j k gj gk hlt hgj hgk hss
  -- the group before the larger one
  obtain ⟨l, gL, hlk, hgl, hls, hle⟩ := (gs.chain k gk hgk).resolve_left (by omega)
  obtain ⟨c, hcl, hmemC⟩ := h.group_types hgl
  obtain ⟨tk, mk, hmk, hik, hrk⟩ := h.new_type hgk
  have hjl : gj.storageEnd ≤ gL.storageEnd := by omega
  have hca : SameTypes c a := by
    refine (hc c (List.mem_of_getElem? hcl) (fun t ht => ?_) fun t ht => ?_).resolve_right fun hcb => ?_
    · obtain ⟨m, hm, hin⟩ := (hmemA t).1 ht
      unfold InRange at hin
      exact (hmemC t).2 ⟨m, hm, by omega, by omega⟩
    · obtain ⟨m, hm, hin⟩ := (hmemC t).1 ht
      unfold InRange at hin
      exact (hmemB t).2 ⟨m, hm, by omega, by omega⟩
    · obtain ⟨m, hm, hin⟩ := (hmemC tk).1 ((hcb tk).2 ((hmemB tk).2 ⟨mk, hmk, hrk⟩))
      rw [hmk] at hm
      cases hm
      unfold InRange at hin
      omega
  have htypes : ∀ t, t ∈ required g ++ required i ↔
      ∃ m, w.components.meta? t = some m ∧ InRange gL m.storageIndex := fun t =>
    (hR t).trans ((hca t).symm.trans (hmemC t))
  have hexc : ∀ t, t ∈ required x ↔ ∃ m, w.components.meta? t = some m ∧ InRange gk m.storageIndex ∧
      ¬ InRange gL m.storageIndex := by
    intro t
    constructor
    · intro ht
      obtain ⟨m, hm, hin⟩ := (hmemB t).1 (hX.1 t ht).1
      exact ⟨m, hm, hin, fun hn => (hX.1 t ht).2 ((hca t).1 ((hmemC t).2 ⟨m, hm, hn⟩))⟩
    · rintro ⟨m, hm, hin, hn⟩
      refine hX.2 t ((hmemB t).2 ⟨m, hm, hin⟩) fun hta => ?_
      obtain ⟨m', hm', hin'⟩ := (hmemC t).1 ((hca t).2 hta)
      rw [hm] at hm'
      cases hm'
      exact hn hin'
  obtain ⟨tl, ml, hml, hil, hrl⟩ := h.new_type hgl
  have htl : tl ∈ required g ++ required i := (htypes tl).2 ⟨ml, hml, hrl⟩
  have htk : tk ∈ required x := (hexc tk).2 ⟨mk, hmk, hrk, fun hn => by unfold InRange at hn; omega⟩
  have hl1 := hl.sub fun t (ht : t ∈ required g ++ required i) => List.mem_append_left _ ht
  have hl2 := hl.sub fun t (ht : t ∈ required x) => List.mem_append_right _ ht
  obtain ⟨inc, exc, hrange, iinc, iexc⟩ := infos_linked hq (fun _ => hl1) hl2
  obtain ⟨gi, hgi⟩ := iinc.some_group hl1 (List.ne_nil_of_mem htl)
  obtain ⟨xi, hxi⟩ := iexc.some_group hl2 hx
  have mg := iinc.group hgi
  have mx' := iexc.group hxi
  have hgend := mg.index h.store hgl (fun t ht => (htypes t).1 ht) ⟨tl, htl, ml, hml, by omega⟩
  have hxin : ∀ t ∈ required x, ∃ m, w.components.meta? t = some m ∧ InRange gk m.storageIndex := by
    intro t ht
    obtain ⟨m, hm, hin, _⟩ := (hexc t).1 ht
    exact ⟨m, hm, hin⟩
  have hxend := mx'.index h.store hgk hxin ⟨tk, htk, mk, hmk, by omega⟩
  have hstart := mg.first h.store mx' hgk (fun t ht => (hmemB t).1 (hab t ((hR t).1 ht))) hxin
  have hmask := mg.mask_exclude' h.store mx' hgl hgk hgend hxend hls hle htypes hexc
  refine ⟨gk.len, gL.len, ?_⟩
  have hxe : exc ≠ .empty := by
    rintro rfl
    cases hxi
  have : w.components.groupRange inc exc = w.components.excludeGroupRange gi xi := by
    cases exc with
    | empty => exact absurd rfl hxe
    | one v => cases inc <;> simp only [ComponentStorage.groupRange, hgi, hxi]
    | many v => cases inc <;> simp only [ComponentStorage.groupRange, hgi, hxi]
  rw [hrange, this]
  unfold ComponentStorage.excludeGroupRange
  have e1 : max gi.groupEnd xi.groupEnd = k + 1 := by omega
  have e2 : k + 1 - 2 = l := by omega
  have e3 : 2 ≤ k + 1 := by omega
  simp [hstart, e1, e2, e3, Res.assert, Res.unchecked, hgk, hgl, hmask]

/-- The range of an included group is computed without panic, and found only for the types of a group. -/
theorem LayStat.range_include {gl : List (List TypeId)} (h : LayStat w.components gl) {g : GroupInfo} {R : List TypeId}
    (hi : ManyInfo w.components g R) :
    ∃ r, w.components.includeGroupRange g = .ok r ∧ (r.isSome → Grouped gl R []) := by
  obtain ⟨k, gr, _, hk, hgr, _, _, _, _, _, _⟩ := hi.group h.store
  have h1 : (1 ≤ g.groupEnd) := by omega
  have h2 : g.groupEnd - 1 = k := by omega
  refine ⟨_, by simp only [ComponentStorage.includeGroupRange, h1, decide_true, Res.assert_true, Res.bind_ok, h2, hgr,
    Res.unchecked_some, Res.pure_eq]; rfl, fun hab => ?_⟩
  by_cases hmask : (⟨g.storageMask, 0#16⟩ : QueryMask) = gr.includeMask
  · have hty := (hi.mask_include h.store hk hgr).1 hmask
    obtain ⟨ts, hts, hmem⟩ := h.group_types hgr
    exact .inl ⟨rfl, .inr ⟨ts, List.mem_of_getElem? hts, fun t => by rw [hty, hmem]⟩⟩
  · rw [if_neg hmask] at hab
    cases hab

/-- The range between groups is computed without panic, and found only for the types of a group and of the next. -/
theorem LayStat.range_exclude {gl : List (List TypeId)} (h : LayStat w.components gl) {g x : GroupInfo}
    {R X : List TypeId} (hi : ManyInfo w.components g R) (hx : ManyInfo w.components x X) :
    ∃ r, w.components.excludeGroupRange g x = .ok r ∧ (r.isSome → Grouped gl R X) := by
  have hne : R ≠ [] := by
    obtain ⟨t, ht, _⟩ := hi.last
    exact List.ne_nil_of_mem ht
  have hxne : X ≠ [] := by
    obtain ⟨t, ht, _⟩ := hx.last
    exact List.ne_nil_of_mem ht
  unfold ComponentStorage.excludeGroupRange
  by_cases hs : g.groupStart ≠ x.groupStart
  · exact ⟨none, by rw [if_pos hs], by simp⟩
  rw [if_neg hs]
  have hs : g.groupStart = x.groupStart := not_not.1 hs
  obtain ⟨k1, g1, _, hk1, hg1, _, _, _, _, _, _⟩ := hi.group h.store
  obtain ⟨k2, g2, _, hk2, hg2, _, _, _, _, _, _⟩ := hx.group h.store
  obtain ⟨k, gr, hk, hgr⟩ : ∃ (k : Nat) (gr : Group), max g.groupEnd x.groupEnd = k + 1 ∧
      w.components.groups[k]? = some gr := by
    rcases Nat.le_total x.groupEnd g.groupEnd with hle | hle
    · exact ⟨k1, g1, by omega, hg1⟩
    · exact ⟨k2, g2, by omega, hg2⟩
  have h1 : 1 ≤ max g.groupEnd x.groupEnd := by omega
  have h2 : max g.groupEnd x.groupEnd - 1 = k := by omega
  simp only [h1, decide_true, Res.assert_true, Res.bind_ok, h2, hgr, Res.unchecked_some, Res.pure_eq]
  by_cases hmask : (⟨g.storageMask, x.storageMask⟩ : QueryMask) = gr.excludeMask
  · simp only [hmask, ne_eq, not_true_eq_false, if_false]
    obtain ⟨j, gp, hj, hgp, hps, hpe, hR, hXR, hRX⟩ := hi.mask_exclude h.store hx hs hk hgr hmask
    have h3 : 2 ≤ max g.groupEnd x.groupEnd := by omega
    have h4 : max g.groupEnd x.groupEnd - 2 = j := by omega
    simp only [h3, decide_true, Res.assert_true, Res.bind_ok, h4, hgp, Res.unchecked_some]
    exact ⟨_, rfl, fun _ => h.grouped_next hne hxne (by omega) hgp hgr hps hR hXR hRX⟩
  · exact ⟨none, by simp [hmask], by simp⟩

/-- The group range of a query is computed without panic, and found only if a set or groups can answer it. -/
theorem LayStat.range_grouped {gl : List (List TypeId)} (h : LayStat w.components gl) {g i x : Query} {q : QueryAll V}
    (hq : q.Of w g i x) :
    ∃ r, q.getGroupRange = .ok r ∧ (r.isSome → Grouped gl (required g ++ required i) (required x)) := by
  have pg := present_of_views hq.get
  have pi := present_of_views hq.inc
  have px := present_of_views hq.exc
  unfold QueryAll.getGroupRange
  rw [hq.world]
  cases hgi : q.getInfo with
  | none => exact ⟨none, rfl, by simp⟩
  | some gi =>
  cases hii : q.incInfo with
  | none => exact ⟨none, rfl, by simp⟩
  | some ii =>
  cases hxi : q.excInfo with
  | none => exact ⟨none, rfl, by simp⟩
  | some xi =>
  have ig : InfoOf w.components gi (required g) := by
    rw [hq.getInfo] at hgi
    have := InfoOf.query (c := w.components) g (a := .empty) (ts := []) rfl pg hgi
    simpa using this
  have iI : InfoOf w.components ii (required i) := by
    rw [hq.incInfo] at hii
    have := InfoOf.query (c := w.components) i (a := .empty) (ts := []) rfl pi hii
    simpa using this
  have ix : InfoOf w.components xi (required x) := by
    rw [hq.excInfo] at hxi
    have := InfoOf.query (c := w.components) x (a := .empty) (ts := []) rfl px hxi
    simpa using this
  simp only
  cases hadd : gi.addQuery ii with
  | none => exact ⟨none, rfl, by simp⟩
  | some inc =>
    simp only
    have hinc := ig.add iI hadd
    have hgen : ∃ r, (match inc.groupInfo, xi.groupInfo with
        | some inc, some exc => w.components.excludeGroupRange inc exc
        | _, _ => .ok none) = .ok r ∧ (r.isSome → Grouped gl (required g ++ required i) (required x)) := by
      cases ha : inc.groupInfo with
      | none => exact ⟨none, rfl, by simp⟩
      | some a =>
        cases hb : xi.groupInfo with
        | none => exact ⟨none, rfl, by simp⟩
        | some b => exact h.range_exclude (hinc.group ha) (ix.group hb)
    cases xi with
    | empty =>
      have hX : required x = [] := ix
      rw [hX]
      cases inc with
      | empty => exact ⟨none, rfl, by simp⟩
      | one v =>
        obtain ⟨t, m, c, hR, hm, hc, rfl⟩ := hinc
        rw [hR]
        exact ⟨_, rfl, fun _ => .inl ⟨rfl, .inl rfl⟩⟩
      | many a => exact h.range_include hinc.1
    | one v => cases inc <;> exact hgen
    | many v => cases inc <;> exact hgen

/-- A query has a group range exactly if a set or groups can answer it. -/
theorem LayStat.range_iff {gl : List (List TypeId)} (h : LayStat w.components gl) {g i x : Query} {q : QueryAll V}
    (hq : q.Of w g i x) :
    (∃ m n, q.getGroupRange = .ok (some (m, n))) ↔ Grouped gl (required g ++ required i) (required x) := by
  constructor
  · rintro ⟨m, n, he⟩
    obtain ⟨r, h1, h2⟩ := h.range_grouped hq
    rw [he] at h1
    cases h1
    exact h2 rfl
  · rintro (⟨hx, h1 | ⟨a, ha, hs⟩⟩ | ⟨hx, a, ha, b, hb, h1, ⟨h2, h4⟩, h3⟩)
    · obtain ⟨t, ht⟩ := List.length_eq_one_iff.1 h1
      obtain ⟨_, c, _, h2⟩ := range_single hq ht hx
      exact ⟨0, c.len, h2⟩
    · exact ⟨0, h.dense hq ha hs hx⟩
    · exact h.dense_exclude hq ha hb h1 h2 h3 h4 hx

end Sparsey
