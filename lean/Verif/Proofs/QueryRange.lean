import Verif.Proofs.Query

/-!
The group infos of queries and the ranges computed from them.
-/

set_option autoImplicit false
set_option linter.unusedSimpArgs false

namespace Sparsey
variable {V : Type}

/-- `i` is the group info of type `t`. -/
def InfoAt (c : ComponentStorage V) (t : TypeId) (i : GroupInfo) : Prop :=
  ∃ m, c.meta? t = some m ∧ m.groupInfo = some i

/-- `g` summarises the group infos of the types `ts`. -/
structure ManyInfo (c : ComponentStorage V) (g : GroupInfo) (ts : List TypeId) : Prop where
  each : ∀ t ∈ ts, ∃ i, InfoAt c t i ∧ i.groupStart = g.groupStart ∧ i.groupEnd ≤ g.groupEnd
  last : ∃ t ∈ ts, ∃ i, InfoAt c t i ∧ i.groupEnd = g.groupEnd
  mask : ∀ b, g.storageMask.getLsbD b = true ↔ ∃ t ∈ ts, ∃ i, InfoAt c t i ∧ i.storageMask.getLsbD b = true

theorem ManyInfo.single {c : ComponentStorage V} {t : TypeId} {i : GroupInfo} (h : InfoAt c t i) : ManyInfo c i [t] where
  each t' ht := by
    rw [List.mem_singleton] at ht
    subst ht
    exact ⟨i, h, rfl, Nat.le_refl _⟩
  last := ⟨t, List.mem_singleton_self t, i, h, rfl⟩
  mask b := by
    constructor
    · exact fun hb => ⟨t, List.mem_singleton_self t, i, h, hb⟩
    · rintro ⟨t', ht, i', hi, hb⟩
      rw [List.mem_singleton] at ht
      subst ht
      obtain ⟨m, h1, h2⟩ := h
      obtain ⟨m', h3, h4⟩ := hi
      rw [h1] at h3
      cases h3
      rw [h2] at h4
      cases h4
      exact hb

theorem ManyInfo.add {c : ComponentStorage V} {a b g : GroupInfo} {ts us : List TypeId} (ha : ManyInfo c a ts)
    (hb : ManyInfo c b us) (hg : a.addGroup b = some g) : ManyInfo c g (ts ++ us) := by
  unfold GroupInfo.addGroup at hg
  by_cases he : a.groupStart ≠ b.groupStart
  · rw [if_pos he] at hg
    cases hg
  · rw [if_neg he] at hg
    have he : a.groupStart = b.groupStart := not_not.1 he
    simp only [Option.some.injEq] at hg
    subst hg
    constructor
    · intro t ht
      rcases List.mem_append.1 ht with ht | ht
      · obtain ⟨i, h1, h2, h3⟩ := ha.each t ht
        exact ⟨i, h1, h2, le_trans h3 (Nat.le_max_left _ _)⟩
      · obtain ⟨i, h1, h2, h3⟩ := hb.each t ht
        exact ⟨i, h1, h2.trans he.symm, le_trans h3 (Nat.le_max_right _ _)⟩
    · rcases Nat.le_total b.groupEnd a.groupEnd with hle | hle
      · obtain ⟨t, ht, i, h1, h2⟩ := ha.last
        exact ⟨t, List.mem_append_left _ ht, i, h1, by simp [h2, hle]⟩
      · obtain ⟨t, ht, i, h1, h2⟩ := hb.last
        exact ⟨t, List.mem_append_right _ ht, i, h1, by simp [h2, hle]⟩
    · intro k
      simp only [BitVec.getLsbD_or, Bool.or_eq_true, ha.mask, hb.mask]
      constructor
      · rintro (⟨t, ht, h⟩ | ⟨t, ht, h⟩)
        · exact ⟨t, List.mem_append_left _ ht, h⟩
        · exact ⟨t, List.mem_append_right _ ht, h⟩
      · rintro ⟨t, ht, h⟩
        rcases List.mem_append.1 ht with ht | ht
        · exact .inl ⟨t, ht, h⟩
        · exact .inr ⟨t, ht, h⟩

/-- `q` is the group info of a query with the required types `ts`. -/
def InfoOf (c : ComponentStorage V) : QueryGroupInfo → List TypeId → Prop
  | .empty, ts => ts = []
  | .one v, ts => ∃ t m s, ts = [t] ∧ c.meta? t = some m ∧ c.components[m.storageIndex]? = some s ∧
      v = ⟨m.groupInfo, s.len⟩
  | .many g, ts => ManyInfo c g ts ∧ 2 ≤ ts.length

theorem InfoOf.group {c : ComponentStorage V} {q : QueryGroupInfo} {ts : List TypeId} {g : GroupInfo} (h : InfoOf c q ts)
    (hg : q.groupInfo = some g) : ManyInfo c g ts := by
  cases q with
  | empty => simp [QueryGroupInfo.groupInfo] at hg
  | one v =>
    obtain ⟨t, m, s, rfl, hm, hs, rfl⟩ := h
    exact .single ⟨m, hm, hg⟩
  | many g' =>
    simp only [QueryGroupInfo.groupInfo, Option.some.injEq] at hg
    subst hg
    exact h.1

theorem InfoOf.add {c : ComponentStorage V} {a b q : QueryGroupInfo} {ts us : List TypeId} (ha : InfoOf c a ts)
    (hb : InfoOf c b us) (hq : a.addQuery b = some q) : InfoOf c q (ts ++ us) := by
  have key : ∀ {ga gb g : GroupInfo}, a.groupInfo = some ga → b.groupInfo = some gb → ga.addGroup gb = some g →
      InfoOf c (.many g) (ts ++ us) := by
    intro ga gb g h1 h2 h3
    refine ⟨(ha.group h1).add (hb.group h2) h3, ?_⟩
    obtain ⟨t, ht, _⟩ := (ha.group h1).last
    obtain ⟨u, hu, _⟩ := (hb.group h2).last
    have := List.length_pos_of_mem ht
    have := List.length_pos_of_mem hu
    rw [List.length_append]
    omega
  cases b with
  | empty =>
    have : us = [] := hb
    subst this
    rw [List.append_nil]
    cases a <;> simp only [QueryGroupInfo.addQuery, Option.some.injEq] at hq <;> subst hq <;> exact ha
  | one vb =>
    cases a with
    | empty =>
      have : ts = [] := ha
      subst this
      simp only [QueryGroupInfo.addQuery, Option.some.injEq] at hq
      subst hq
      exact hb
    | one va =>
      simp only [QueryGroupInfo.addQuery, Option.bind_eq_bind, Option.bind_eq_some_iff, Option.pure_def,
        Option.some.injEq] at hq
      obtain ⟨ga, h1, gb, h2, g, h3, rfl⟩ := hq
      exact key h1 h2 h3
    | many va =>
      simp only [QueryGroupInfo.addQuery, Option.bind_eq_bind, Option.bind_eq_some_iff, Option.pure_def,
        Option.some.injEq] at hq
      obtain ⟨ga, h1, gb, h2, g, h3, rfl⟩ := hq
      exact key h1 h2 h3
  | many vb =>
    cases a with
    | empty =>
      have : ts = [] := ha
      subst this
      simp only [QueryGroupInfo.addQuery, Option.some.injEq] at hq
      subst hq
      exact hb
    | one va =>
      simp only [QueryGroupInfo.addQuery, Option.bind_eq_bind, Option.bind_eq_some_iff, Option.pure_def,
        Option.some.injEq] at hq
      obtain ⟨ga, h1, gb, h2, g, h3, rfl⟩ := hq
      exact key h1 h2 h3
    | many va =>
      simp only [QueryGroupInfo.addQuery, Option.bind_eq_bind, Option.bind_eq_some_iff, Option.pure_def,
        Option.some.injEq] at hq
      obtain ⟨ga, h1, gb, h2, g, h3, rfl⟩ := hq
      exact key h1 h2 h3

/-- Adding a view is adding a query of one part. -/
theorem addView_eq (q : QueryGroupInfo) (v : ViewGroupInfo) : q.addView v = q.addQuery (.one v) := by
  cases q with
  | empty => rfl
  | one o =>
    obtain ⟨oi, ol⟩ := o
    obtain ⟨vi, vl⟩ := v
    cases oi <;> cases vi <;> simp [QueryGroupInfo.addView, QueryGroupInfo.addQuery, QueryGroupInfo.groupInfo]
    rename_i a b
    cases a.addGroup b <;> rfl
  | many o =>
    obtain ⟨vi, vl⟩ := v
    cases vi <;> simp [QueryGroupInfo.addView, QueryGroupInfo.addQuery, QueryGroupInfo.groupInfo]
    rename_i b
    cases o.addGroup b <;> rfl

/-- The types of the parts have sets. -/
def Present (c : ComponentStorage V) (ts : List TypeId) : Prop :=
  ∀ t ∈ ts, ∃ m s, c.meta? t = some m ∧ c.components[m.storageIndex]? = some s

theorem Present.cons {c : ComponentStorage V} {p : Part} {q : Query} (h : Present c (required (p :: q))) :
    Present c (required q) ∧ ∀ t, p.required = some t → ∃ m s, c.meta? t = some m ∧
      c.components[m.storageIndex]? = some s := by
  rw [required_cons] at h
  constructor
  · exact fun t ht => h t (List.mem_append_right _ ht)
  · intro t ht
    exact h t (List.mem_append_left _ (by simp [ht]))

theorem InfoOf.query {c : ComponentStorage V} : ∀ (q : Query) {a r : QueryGroupInfo} {ts : List TypeId}, InfoOf c a ts →
    Present c (required q) → queryInfo a (q.map (partInfo c)) = some r → InfoOf c r (ts ++ required q)
  | [], a, r, ts, ha, _, hq => by
    simp only [List.map_nil, queryInfo, Option.some.injEq] at hq
    subst hq
    simpa [required] using ha
  | p :: q, a, r, ts, ha, hp, hq => by
    obtain ⟨hp1, hp2⟩ := hp.cons
    rw [required_cons]
    cases hr : p.required with
    | none =>
      have hn : partInfo c p = none := by simp [partInfo, hr]
      simp only [List.map_cons, hn, queryInfo] at hq
      simpa using InfoOf.query q ha hp1 hq
    | some t =>
      obtain ⟨m, s, hm, hs⟩ := hp2 t hr
      have hn : partInfo c p = some ⟨m.groupInfo, s.len⟩ := by simp [partInfo, hr, hm, hs]
      simp only [List.map_cons, hn, queryInfo, addView_eq] at hq
      cases hv : a.addQuery (.one ⟨m.groupInfo, s.len⟩) with
      | none => simp [hv] at hq
      | some a' =>
        simp only [hv] at hq
        have h1 : InfoOf c a' (ts ++ [t]) :=
          ha.add (b := .one ⟨m.groupInfo, s.len⟩) ⟨t, m, s, rfl, hm, hs, rfl⟩ hv
        have := InfoOf.query q h1 hp1 hq
        simpa [List.append_assoc] using this

/-! ### Which infos can be combined -/

/-- All types are in the same family. -/
def Linked (c : ComponentStorage V) (ts : List TypeId) : Prop :=
  ∃ st, ∀ t ∈ ts, ∃ i, InfoAt c t i ∧ i.groupStart = st

theorem InfoOf.add_some {c : ComponentStorage V} {a b : QueryGroupInfo} {ts us : List TypeId} (ha : InfoOf c a ts)
    (hb : InfoOf c b us) (hl : ts ≠ [] → us ≠ [] → Linked c (ts ++ us)) : ∃ q, a.addQuery b = some q := by
  have grp : ∀ {q : QueryGroupInfo} {vs : List TypeId}, InfoOf c q vs → vs ≠ [] → (∀ t ∈ vs, t ∈ ts ++ us) →
      Linked c (ts ++ us) → q ≠ .empty → ∃ g, q.groupInfo = some g := by
    intro q vs hq hne hsub hL hnq
    cases q with
    | empty => exact absurd rfl hnq
    | one v =>
      obtain ⟨t, m, s, rfl, hm, hs, rfl⟩ := hq
      obtain ⟨st, hst⟩ := hL
      obtain ⟨i, ⟨m', h1, h2⟩, _⟩ := hst t (hsub t (List.mem_singleton_self t))
      rw [hm] at h1
      cases h1
      exact ⟨i, h2⟩
    | many g => exact ⟨g, rfl⟩
  have ne : ∀ {q : QueryGroupInfo} {vs : List TypeId}, InfoOf c q vs → q ≠ .empty → vs ≠ [] := by
    intro q vs hq hnq
    cases q with
    | empty => exact absurd rfl hnq
    | one v =>
      obtain ⟨t, m, s, rfl, _⟩ := hq
      simp
    | many g =>
      obtain ⟨t, ht, _⟩ := ManyInfo.last hq.1
      exact List.ne_nil_of_mem ht
  by_cases hae : a = .empty
  · subst hae
    cases b <;> exact ⟨_, rfl⟩
  by_cases hbe : b = .empty
  · subst hbe
    cases a <;> exact ⟨_, rfl⟩
  have hts := ne ha hae
  have hus := ne hb hbe
  have hL := hl hts hus
  obtain ⟨ga, h1⟩ := grp ha hts (fun t ht => List.mem_append_left _ ht) hL hae
  obtain ⟨gb, h2⟩ := grp hb hus (fun t ht => List.mem_append_right _ ht) hL hbe
  have uniq : ∀ {t : TypeId} {i j : GroupInfo}, InfoAt c t i → InfoAt c t j → i = j := by
    rintro t i j ⟨m, x1, x2⟩ ⟨m', x3, x4⟩
    rw [x1] at x3
    cases x3
    rw [x2] at x4
    exact Option.some.inj x4
  have hst : ga.groupStart = gb.groupStart := by
    obtain ⟨st, hst⟩ := hL
    obtain ⟨t, ht, _⟩ := (ha.group h1).last
    obtain ⟨u, hu, _⟩ := (hb.group h2).last
    obtain ⟨i, hi, hi', _⟩ := (ha.group h1).each t ht
    obtain ⟨j, hj, hj', _⟩ := (hb.group h2).each u hu
    obtain ⟨i2, hi2, e1⟩ := hst t (List.mem_append_left _ ht)
    obtain ⟨j2, hj2, e2⟩ := hst u (List.mem_append_right _ hu)
    rw [uniq hi hi2] at hi'
    rw [uniq hj hj2] at hj'
    omega
  have hadd : ∃ g, ga.addGroup gb = some g := by simp [GroupInfo.addGroup, hst]
  obtain ⟨g, hg⟩ := hadd
  refine ⟨.many g, ?_⟩
  cases a <;> cases b <;> simp_all [QueryGroupInfo.addQuery]

theorem Linked.sub {c : ComponentStorage V} {ts us : List TypeId} (h : Linked c us) (hs : ∀ t ∈ ts, t ∈ us) :
    Linked c ts := by
  obtain ⟨st, h⟩ := h
  exact ⟨st, fun t ht => h t (hs t ht)⟩

theorem queryInfo_some {c : ComponentStorage V} : ∀ (q : Query) {a : QueryGroupInfo} {ts : List TypeId}, InfoOf c a ts →
    Present c (required q) → ((ts ++ required q).length ≠ 1 → Linked c (ts ++ required q)) →
    ∃ r, queryInfo a (q.map (partInfo c)) = some r
  | [], a, ts, _, _, _ => ⟨a, rfl⟩
  | p :: q, a, ts, ha, hp, hl => by
    obtain ⟨hp1, hp2⟩ := hp.cons
    rw [required_cons] at hl
    cases hr : p.required with
    | none =>
      have hn : partInfo c p = none := by simp [partInfo, hr]
      simp only [List.map_cons, hn, queryInfo]
      exact queryInfo_some q ha hp1 (by simpa [hr] using hl)
    | some t =>
      obtain ⟨m, s, hm, hs⟩ := hp2 t hr
      have hn : partInfo c p = some ⟨m.groupInfo, s.len⟩ := by simp [partInfo, hr, hm, hs]
      simp only [List.map_cons, hn, queryInfo, addView_eq]
      have h1 : InfoOf c (.one ⟨m.groupInfo, s.len⟩) [t] := ⟨t, m, s, rfl, hm, hs, rfl⟩
      obtain ⟨a', ha'⟩ := ha.add_some h1 (fun hne _ => (hl (by
        have := List.length_pos_iff.2 hne
        simp only [hr, Option.toList_some, List.length_append, List.length_singleton]
        omega)).sub (by
        intro t' ht'
        simp only [hr, Option.toList_some, List.mem_append, List.mem_singleton] at ht' ⊢
        rcases ht' with ht' | ht'
        · exact .inl ht'
        · exact .inr (.inl ht')))
      simp only [ha']
      exact queryInfo_some q (ha.add h1 ha') hp1 (by simpa [hr, List.append_assoc] using hl)

/-! ### Infos and groups -/

/-- The types of the group at a position are those whose sets are in its range. -/
theorem ManyInfo.group {c : ComponentStorage V} (hst : StoreStat c) {g : GroupInfo}
    {ts : List TypeId} (h : ManyInfo c g ts) :
    ∃ (k : Nat) (gr g0 : Group), g.groupEnd = k + 1 ∧ c.groups[k]? = some gr ∧
      c.groups[g.groupStart]? = some g0 ∧ g0.storageStart = gr.storageStart ∧ g0.newStorageStart = g0.storageStart ∧
      (∀ t ∈ ts, ∃ m, c.meta? t = some m ∧ InRange gr m.storageIndex) ∧
      (∃ t ∈ ts, ∃ m, c.meta? t = some m ∧ gr.newStorageStart ≤ m.storageIndex ∧ InRange gr m.storageIndex) ∧
      ∀ b < 16, g.storageMask.getLsbD b = true ↔
        ∃ t ∈ ts, ∃ m, c.meta? t = some m ∧ InRange gr m.storageIndex ∧ b = m.storageIndex - gr.storageStart := by
  obtain ⟨t, ht, i, ⟨m, hm, hi⟩, he⟩ := h.last
  obtain ⟨k, gr, g0, hgr, hn, hend, hk, _, hg0, hs0, hn0, _, _⟩ := hst.mds.infoSome t m i hm hi
  have hb := hst.gstat.bounds k gr hgr
  have huniq : ∀ {t : TypeId} {i j : GroupInfo}, InfoAt c t i → InfoAt c t j → i = j := by
    rintro t i j ⟨m, x1, x2⟩ ⟨m', x3, x4⟩
    rw [x1] at x3
    cases x3
    rw [x2] at x4
    exact Option.some.inj x4
  obtain ⟨i', hi', hst', _⟩ := h.each t ht
  have := huniq hi' ⟨m, hm, hi⟩
  subst this
  rw [hst'] at hg0
  -- every type is in range of the last group
  have hall : ∀ t ∈ ts, ∃ m i, c.meta? t = some m ∧ m.groupInfo = some i ∧ InRange gr m.storageIndex ∧
      ∀ b < 16, i.storageMask.getLsbD b = decide (b = m.storageIndex - gr.storageStart) := by
    intro t ht
    obtain ⟨i, ⟨m, hm, hi⟩, hs, hle⟩ := h.each t ht
    obtain ⟨j, gj, g0', hgj, hn', hend', hj, _, hg0', hs0', hn0', _, hmask⟩ := hst.mds.infoSome t m i hm hi
    have hbj := hst.gstat.bounds j gj hgj
    rw [hs, hg0] at hg0'
    cases hg0'
    have hss : gj.storageStart = gr.storageStart := by omega
    have hjk : j ≤ k := by omega
    have hee : gj.storageEnd ≤ gr.storageEnd := by
      rcases Nat.lt_or_eq_of_le hjk with hlt | heq
      · have := hst.gstat.nest j k gj gr hlt hgj hgr hss
        omega
      · subst heq
        rw [hgj] at hgr
        cases hgr
        exact Nat.le_refl _
    refine ⟨m, i, hm, hi, ⟨by omega, by omega⟩, fun b hb => ?_⟩
    rw [hmask b hb, hss]
  refine ⟨k, gr, g0, by omega, hgr, hg0, hs0, hn0, ?_, ?_, ?_⟩
  · intro t ht
    obtain ⟨m, i, h1, _, h2, _⟩ := hall t ht
    exact ⟨m, h1, h2⟩
  · exact ⟨t, ht, m, hm, hn, by omega, hend⟩
  · intro b hb
    rw [h.mask b]
    constructor
    · rintro ⟨t, ht, i, ⟨m, hm, hi⟩, hbit⟩
      obtain ⟨m', i', h1, h2, h3, h4⟩ := hall t ht
      rw [hm] at h1
      cases h1
      rw [hi] at h2
      cases h2
      rw [h4 b hb] at hbit
      exact ⟨t, ht, m, hm, h3, of_decide_eq_true hbit⟩
    · rintro ⟨t, ht, m, hm, _, hbit⟩
      obtain ⟨m', i', h1, h2, h3, h4⟩ := hall t ht
      rw [hm] at h1
      cases h1
      exact ⟨t, ht, i', ⟨m, hm, h2⟩, by rw [h4 b hb]; exact decide_eq_true hbit⟩

theorem GStat.same_start {gs : List Group} {n : Nat} (h : GStat gs n) {i j idx : Nat} {gi gj : Group}
    (hi : gs[i]? = some gi) (hj : gs[j]? = some gj) (h1 : InRange gi idx) (h2 : InRange gj idx) :
    gi.storageStart = gj.storageStart := by
  by_contra hne
  unfold InRange at h1 h2
  rcases Nat.lt_trichotomy i j with hlt | rfl | hlt
  · have := h.sep i j gi gj hlt hi hj hne
    omega
  · rw [hi] at hj
    cases hj
    exact hne rfl
  · have := h.sep j i gj gi hlt hj hi (Ne.symm hne)
    omega

/-- The first group of a family is determined by its start. -/
theorem GStat.first_unique {gs : List Group} {n : Nat} (h : GStat gs n) {i j : Nat} {gi gj : Group}
    (hi : gs[i]? = some gi) (hj : gs[j]? = some gj) (hs : gi.storageStart = gj.storageStart)
    (h1 : gi.newStorageStart = gi.storageStart) (h2 : gj.newStorageStart = gj.storageStart) : i = j := by
  have b1 := h.bounds i gi hi
  have b2 := h.bounds j gj hj
  rcases Nat.lt_trichotomy i j with hlt | heq | hgt
  · have := h.nest i j gi gj hlt hi hj hs
    omega
  · exact heq
  · have := h.nest j i gj gi hgt hj hi hs.symm
    omega

theorem bv16_ext {a b : BitVec 16} (h : ∀ i < 16, a.getLsbD i = true ↔ b.getLsbD i = true) : a = b := by
  apply BitVec.eq_of_getLsbD_eq
  intro i hi
  rw [Bool.eq_iff_iff]
  exact h i hi

/-- The mask of a group means: exactly its types. -/
theorem ManyInfo.mask_include {c : ComponentStorage V} (hst : StoreStat c) {g : GroupInfo}
    {ts : List TypeId} (h : ManyInfo c g ts) {k : Nat} {gr : Group} (hk : g.groupEnd = k + 1)
    (hgr : c.groups[k]? = some gr) :
    (⟨g.storageMask, 0#16⟩ : QueryMask) = gr.includeMask ↔
      ∀ t, t ∈ ts ↔ ∃ m, c.meta? t = some m ∧ InRange gr m.storageIndex := by
  obtain ⟨k', gr', g0, hk', hgr', _, _, _, hin, _, hmask⟩ := h.group hst
  have : k' = k := by omega
  subst this
  rw [hgr] at hgr'
  cases hgr'
  obtain ⟨hi1, hi2⟩ := hst.gstat.inc _ gr hgr
  have hb := hst.gstat.bounds _ gr hgr
  have har := hst.gstat.arity _ gr hgr
  constructor
  · intro he t
    refine ⟨hin t, ?_⟩
    rintro ⟨m, hm, hr⟩
    have hlt : m.storageIndex - gr.storageStart < gr.storageEnd - gr.storageStart := by
      obtain ⟨h1, h2⟩ := hr; omega
    have h1 := hi2 (m.storageIndex - gr.storageStart) (by omega)
    rw [← he] at h1
    simp only [hlt, decide_true] at h1
    obtain ⟨t', ht', m', hm', hr', hbit⟩ := (hmask _ (by omega)).1 h1
    have : m'.storageIndex = m.storageIndex := by
      obtain ⟨x1, x2⟩ := hr
      obtain ⟨x3, x4⟩ := hr'
      omega
    rw [← hst.mds.inj t' t m' m hm' hm this]
    exact ht'
  · intro hall
    have hm : g.storageMask = gr.includeMask.includeMask := by
      apply bv16_ext
      intro b hb16
      rw [hmask b hb16, hi2 b hb16, decide_eq_true_iff]
      constructor
      · rintro ⟨t, _, m, _, ⟨x1, x2⟩, rfl⟩
        omega
      · intro hlt
        obtain ⟨t, m, hm, hi⟩ := hst.mds.cover _ gr (gr.storageStart + b) hgr ⟨by omega, by omega⟩
        have hr : InRange gr m.storageIndex := ⟨by omega, by omega⟩
        exact ⟨t, (hall t).2 ⟨m, hm, hr⟩, m, hm, hr, by omega⟩
    rw [hm, ← hi1]

/-- The exclude mask of a group means: exactly the types of its parent against exactly the additional types. -/
theorem ManyInfo.mask_exclude {c : ComponentStorage V} (hst : StoreStat c) {g x : GroupInfo}
    {ts us : List TypeId} (hg : ManyInfo c g ts) (hx : ManyInfo c x us) (hs : g.groupStart = x.groupStart) {k : Nat}
    {gr : Group} (hk : max g.groupEnd x.groupEnd = k + 1) (hgr : c.groups[k]? = some gr)
    (he : (⟨g.storageMask, x.storageMask⟩ : QueryMask) = gr.excludeMask) :
    ∃ (j : Nat) (gp : Group), j + 1 = k ∧ c.groups[j]? = some gp ∧ gp.storageStart = gr.storageStart ∧
      gp.storageEnd = gr.newStorageStart ∧
      (∀ t, t ∈ ts ↔ ∃ m, c.meta? t = some m ∧ InRange gp m.storageIndex) ∧
      (∀ t, t ∈ us → ∃ m, c.meta? t = some m ∧ ¬ InRange gp m.storageIndex) ∧
      (∀ t, t ∈ ts ++ us ↔ ∃ m, c.meta? t = some m ∧ InRange gr m.storageIndex) := by
  obtain ⟨k1, g1, f1, hk1, hg1, hf1, hfs1, hfn1, hin1, _, hmask1⟩ := hg.group hst
  obtain ⟨k2, g2, f2, hk2, hg2, hf2, hfs2, hfn2, hin2, _, hmask2⟩ := hx.group hst
  rw [hs, hf2] at hf1
  cases hf1
  have hb := hst.gstat.bounds k gr hgr
  have har := hst.gstat.arity k gr hgr
  have hle : ∀ {j : Nat} {gj : Group}, c.groups[j]? = some gj → j ≤ k → gj.storageStart = gr.storageStart →
      gj.storageEnd ≤ gr.storageEnd := by
    intro j gj hj hjk hss
    rcases Nat.lt_or_eq_of_le hjk with hlt | heq
    · have := hst.gstat.nest j k gj gr hlt hj hgr hss
      omega
    · subst heq
      rw [hj] at hgr
      cases hgr
      exact Nat.le_refl _
  -- all three groups have the same start
  have hss : g1.storageStart = gr.storageStart ∧ g2.storageStart = gr.storageStart := by
    rcases Nat.le_total x.groupEnd g.groupEnd with hle | hle
    · have : k = k1 := by omega
      subst this
      rw [hgr] at hg1
      cases hg1
      exact ⟨rfl, by omega⟩
    · have : k = k2 := by omega
      subst this
      rw [hgr] at hg2
      cases hg2
      exact ⟨by omega, rfl⟩
  have he1 := hle hg1 (by omega) hss.1
  have he2 := hle hg2 (by omega) hss.2
  obtain ⟨hi1, hi2⟩ := hst.gstat.exc k gr hgr
  rw [← he] at hi1 hi2
  -- membership
  have memInc : ∀ t m, c.meta? t = some m →
      (t ∈ ts ↔ gr.storageStart ≤ m.storageIndex ∧ m.storageIndex < gr.newStorageStart) := by
    intro t m hm
    constructor
    · intro ht
      obtain ⟨m', hm', hr⟩ := hin1 t ht
      rw [hm] at hm'
      cases hm'
      have hb16 : m.storageIndex - gr.storageStart < 16 := by obtain ⟨x1, x2⟩ := hr; omega
      have h1 := (hmask1 _ hb16).2 ⟨t, ht, m, hm, hr, by rw [hss.1]⟩
      have h2 := hi1 _ hb16
      simp only at h2
      rw [h1] at h2
      have := of_decide_eq_true h2.symm
      obtain ⟨x1, x2⟩ := hr
      omega
    · rintro ⟨h1, h2⟩
      have hb16 : m.storageIndex - gr.storageStart < 16 := by omega
      have h3 := hi1 _ hb16
      simp only at h3
      rw [decide_eq_true (by omega : m.storageIndex - gr.storageStart < gr.newStorageStart - gr.storageStart)] at h3
      obtain ⟨t', ht', m', hm', hr', hbit⟩ := (hmask1 _ hb16).1 h3
      have : m'.storageIndex = m.storageIndex := by
        obtain ⟨x3, x4⟩ := hr'
        have := hss.1
        omega
      rw [← hst.mds.inj t' t m' m hm' hm this]
      exact ht'
  have memExc : ∀ t m, c.meta? t = some m →
      (t ∈ us ↔ gr.newStorageStart ≤ m.storageIndex ∧ m.storageIndex < gr.storageEnd) := by
    intro t m hm
    constructor
    · intro ht
      obtain ⟨m', hm', hr⟩ := hin2 t ht
      rw [hm] at hm'
      cases hm'
      have hb16 : m.storageIndex - gr.storageStart < 16 := by obtain ⟨x1, x2⟩ := hr; omega
      have h1 := (hmask2 _ hb16).2 ⟨t, ht, m, hm, hr, by rw [hss.2]⟩
      have h2 := hi2 _ hb16
      simp only at h2
      rw [h1] at h2
      have := of_decide_eq_true h2.symm
      obtain ⟨x1, x2⟩ := hr
      omega
    · rintro ⟨h1, h2⟩
      have hb16 : m.storageIndex - gr.storageStart < 16 := by omega
      have h3 := hi2 _ hb16
      simp only at h3
      rw [decide_eq_true (by omega : gr.newStorageStart - gr.storageStart ≤ m.storageIndex - gr.storageStart ∧
        m.storageIndex - gr.storageStart < gr.storageEnd - gr.storageStart)] at h3
      obtain ⟨t', ht', m', hm', hr', hbit⟩ := (hmask2 _ hb16).1 h3
      have : m'.storageIndex = m.storageIndex := by
        obtain ⟨x3, x4⟩ := hr'
        have := hss.2
        omega
      rw [← hst.mds.inj t' t m' m hm' hm this]
      exact ht'
  -- the parent
  obtain ⟨t, ht, i, ⟨m, hm, _⟩, _⟩ := hg.last
  have hnew : gr.newStorageStart ≠ gr.storageStart := by
    have := (memInc t m hm).1 ht
    omega
  obtain ⟨j, gp, hj, hgp, hps, hpe⟩ := (hst.gstat.chain k gr hgr).resolve_left hnew
  refine ⟨j, gp, hj, hgp, hps, hpe, fun t => ?_, fun t ht => ?_, fun t => ?_⟩
  · constructor
    · intro ht
      obtain ⟨m, hm, _⟩ := hin1 t ht
      have := (memInc t m hm).1 ht
      exact ⟨m, hm, by omega, by omega⟩
    · rintro ⟨m, hm, h1, h2⟩
      exact (memInc t m hm).2 ⟨by omega, by omega⟩
  · obtain ⟨m, hm, _⟩ := hin2 t ht
    have := (memExc t m hm).1 ht
    exact ⟨m, hm, fun ⟨_, _⟩ => by omega⟩
  · constructor
    · intro ht
      rcases List.mem_append.1 ht with ht | ht
      · obtain ⟨m, hm, _⟩ := hin1 t ht
        have := (memInc t m hm).1 ht
        exact ⟨m, hm, by omega, by omega⟩
      · obtain ⟨m, hm, _⟩ := hin2 t ht
        have := (memExc t m hm).1 ht
        exact ⟨m, hm, by omega, by omega⟩
    · rintro ⟨m, hm, h1, h2⟩
      by_cases hlt : m.storageIndex < gr.newStorageStart
      · exact List.mem_append_left _ ((memInc t m hm).2 ⟨h1, hlt⟩)
      · exact List.mem_append_right _ ((memExc t m hm).2 ⟨by omega, h2⟩)

/-- The number of the group of some types: the one to which all belong and to which one is new. -/
theorem ManyInfo.index {c : ComponentStorage V} (hst : StoreStat c) {g : GroupInfo}
    {ts : List TypeId} (h : ManyInfo c g ts) {k : Nat} {gr : Group} (hgr : c.groups[k]? = some gr)
    (hin : ∀ t ∈ ts, ∃ m, c.meta? t = some m ∧ InRange gr m.storageIndex)
    (hnew : ∃ t ∈ ts, ∃ m, c.meta? t = some m ∧ gr.newStorageStart ≤ m.storageIndex) : g.groupEnd = k + 1 := by
  obtain ⟨k', gr', g0, h1, h2, h3, h4, h5, h6, ⟨t1, ht1, m1, hm1, hn1, hin1⟩, h8⟩ := h.group hst
  obtain ⟨m1', hm1', hin1'⟩ := hin t1 ht1
  rw [hm1] at hm1'
  cases hm1'
  obtain ⟨t0, ht0, m0, hm0, hn0⟩ := hnew
  obtain ⟨m, hm, hin0⟩ := h6 t0 ht0
  rw [hm0] at hm
  cases hm
  have hss := hst.gstat.same_start h2 hgr hin1 hin1'
  unfold InRange at *
  rcases Nat.lt_trichotomy k' k with hlt | heq | hlt
  · have := hst.gstat.nest k' k gr' gr hlt h2 hgr hss
    omega
  · omega
  · have := hst.gstat.nest k k' gr gr' hlt hgr h2 hss.symm
    omega

/-- The first group of the family of some types. -/
theorem ManyInfo.first {c : ComponentStorage V} (hst : StoreStat c) {g x : GroupInfo}
    {ts us : List TypeId} (hg : ManyInfo c g ts) (hx : ManyInfo c x us) {k : Nat} {gr : Group} (hgr : c.groups[k]? = some gr)
    (h1 : ∀ t ∈ ts, ∃ m, c.meta? t = some m ∧ InRange gr m.storageIndex)
    (h2 : ∀ t ∈ us, ∃ m, c.meta? t = some m ∧ InRange gr m.storageIndex) : g.groupStart = x.groupStart := by
  have key : ∀ {y : GroupInfo} {vs : List TypeId}, ManyInfo c y vs →
      (∀ t ∈ vs, ∃ m, c.meta? t = some m ∧ InRange gr m.storageIndex) → ∃ g0, c.groups[y.groupStart]? = some g0 ∧
        g0.storageStart = gr.storageStart ∧ g0.newStorageStart = g0.storageStart := by
    intro y vs hy hv
    obtain ⟨k', gr', g0, _, a2, a3, a4, a5, _, ⟨t1, ht1, m1, hm1, _, hin1⟩, _⟩ := hy.group hst
    obtain ⟨m1', hm1', hin1'⟩ := hv t1 ht1
    rw [hm1] at hm1'
    cases hm1'
    exact ⟨g0, a3, a4.trans (hst.gstat.same_start a2 hgr hin1 hin1'), a5⟩
  obtain ⟨a, a1, a2, a3⟩ := key hg h1
  obtain ⟨b, b1, b2, b3⟩ := key hx h2
  exact hst.gstat.first_unique a1 b1 (a2.trans b2.symm) a3 b3

/-- The exclude mask of a group, converse. -/
theorem ManyInfo.mask_exclude' {c : ComponentStorage V} (hst : StoreStat c) {g x : GroupInfo}
    {ts us : List TypeId} (hg : ManyInfo c g ts) (hx : ManyInfo c x us) {j k : Nat} {gp gr : Group}
    (hj : c.groups[j]? = some gp) (hgr : c.groups[k]? = some gr) (hgj : g.groupEnd = j + 1) (hxk : x.groupEnd = k + 1)
    (hps : gp.storageStart = gr.storageStart) (hpe : gp.storageEnd = gr.newStorageStart)
    (h1 : ∀ t, t ∈ ts ↔ ∃ m, c.meta? t = some m ∧ InRange gp m.storageIndex)
    (h2 : ∀ t, t ∈ us ↔ ∃ m, c.meta? t = some m ∧ InRange gr m.storageIndex ∧ ¬ InRange gp m.storageIndex) :
    (⟨g.storageMask, x.storageMask⟩ : QueryMask) = gr.excludeMask := by
  obtain ⟨k1, g1, _, hk1, hg1, _, _, _, hin1, _, hmask1⟩ := hg.group hst
  obtain ⟨k2, g2, _, hk2, hg2, _, _, _, hin2, _, hmask2⟩ := hx.group hst
  have : k1 = j := by omega
  subst this
  have : k2 = k := by omega
  subst this
  rw [hj] at hg1
  cases hg1
  rw [hgr] at hg2
  cases hg2
  obtain ⟨e1, e2⟩ := hst.gstat.exc _ gr hgr
  have hb := hst.gstat.bounds _ gr hgr
  have har := hst.gstat.arity _ gr hgr
  have m1 : g.storageMask = gr.excludeMask.includeMask := by
    apply bv16_ext
    intro b hb16
    rw [hmask1 b hb16, e1 b hb16, decide_eq_true_iff]
    constructor
    · rintro ⟨t, _, m, _, ⟨x1, x2⟩, rfl⟩
      omega
    · intro hlt
      obtain ⟨t, m, hm, hi⟩ := hst.mds.cover _ gp (gp.storageStart + b) hj ⟨by omega, by omega⟩
      have hr : InRange gp m.storageIndex := ⟨by omega, by omega⟩
      exact ⟨t, (h1 t).2 ⟨m, hm, hr⟩, m, hm, hr, by omega⟩
  have m2 : x.storageMask = gr.excludeMask.excludeMask := by
    apply bv16_ext
    intro b hb16
    rw [hmask2 b hb16, e2 b hb16, decide_eq_true_iff]
    constructor
    · rintro ⟨t, ht, m, hm, ⟨x1, x2⟩, rfl⟩
      obtain ⟨m', hm', _, hn⟩ := (h2 t).1 ht
      rw [hm] at hm'
      cases hm'
      unfold InRange at hn
      omega
    · intro hlt
      obtain ⟨t, m, hm, hi⟩ := hst.mds.cover _ gr (gr.storageStart + b) hgr ⟨by omega, by omega⟩
      have hr : InRange gr m.storageIndex := ⟨by omega, by omega⟩
      have hn : ¬ InRange gp m.storageIndex := fun ⟨_, _⟩ => by omega
      exact ⟨t, (h2 t).2 ⟨m, hm, hr, hn⟩, m, hm, hr, by omega⟩
  rw [m1, m2]

end Sparsey
