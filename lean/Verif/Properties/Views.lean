import Verif.Model.View
import Verif.Proofs.Ranges
import Verif.Properties.Safety
import Verif.Properties.Writes

/-!
C45: the accessors of a view agree, in every reachable world. C46: `World::contains`, `World::for_each` and
`QueryOne::map` are the shortcuts that they claim to be. C47: iterating looks at no more entities than the smallest set
it requires has. C24 without conditions on the query, and C31 for making iterators.
-/

set_option autoImplicit false
set_option linter.unusedSimpArgs false

namespace Sparsey
variable {V : Type}

/-! ### C45 -/

theorem SparseVec.contains_eq_get (s : SparseVec) (e : Entity) : s.contains e = (s.get e).isSome := by
  unfold SparseVec.contains SparseVec.get
  cases s.slots[e.sparse]? with
  | none => rfl
  | some slot =>
    cases slot with
    | none => rfl
    | some sl =>
      simp only [Option.filter]
      by_cases hv : (sl.version == e.version) = true <;> simp [hv]

/-- What the accessors of a view of `c` return, in terms of the entities `es` and the components `vs`: two lists of the
same length in which no index occurs twice. -/
structure ViewsAs (c : CompSet V) (es : List Entity) (vs : List V) : Prop where
  entities : c.entities = es
  slice : c.asSlice = .ok vs
  aligned : es.length = vs.length
  indexes : (es.map (·.index)).Nodup
  len : c.len = es.length
  empty : c.isEmpty = true ↔ es = []
  found : ∀ e v, c.get e = .ok (some v) → c.contains e = true ∧ c.index e = .ok v ∧
    ∃ (i : Nat) (x : Entity), es[i]? = some x ∧ x.index = e.index ∧ vs[i]? = some v
  missing : ∀ e, c.get e = .ok none → c.contains e = false ∧ c.index e = .panic
  get : ∀ e, ∃ o, c.get e = .ok o

theorem CompSet.IdxOk.viewsAs {c : CompSet V} (h : c.IdxOk) : ViewsAs c c.entities c.components where
  entities := rfl
  slice := by
    unfold CompSet.asSlice
    rw [if_pos (by rw [CompSet.len, h.len]), CompSet.len, ← h.len, List.take_length]
  aligned := h.len.symm
  indexes := h.rep.nodup_index
  len := rfl
  empty := by simp [CompSet.isEmpty, CompSet.len]
  found e v hv := by
    have hv' := hv
    unfold CompSet.get at hv'
    cases hg : c.sparse.get e with
    | none => rw [hg] at hv'; cases hv'
    | some d =>
      rw [hg] at hv'
      obtain ⟨x, hx, hi⟩ := h.rep.get_at hg
      obtain ⟨u, hu, hv'⟩ := Res.bind_ok' hv'
      cases hv'
      refine ⟨?_, by simp [CompSet.index, hv, Res.checked], d, x, hx, hi, Res.unchecked_ok hu⟩
      rw [CompSet.contains, SparseVec.contains_eq_get, hg]
      rfl
  missing e he := by
    refine ⟨?_, by simp [CompSet.index, he, Res.checked]⟩
    unfold CompSet.get at he
    cases hg : c.sparse.get e with
    | none => rw [CompSet.contains, SparseVec.contains_eq_get, hg]; rfl
    | some d =>
      rw [hg] at he
      obtain ⟨u, hu, he⟩ := Res.bind_ok' he
      cases he
  get := h.get

/-- C45, in every reachable world: views of unregistered types cannot be borrowed; the accessors of a view of a registered
type agree, and `view[e]` panics exactly if `get(e)` is `None`. -/
theorem C45 {h : History V} {w : World V} (hr : Reach World.empty h w) (t : TypeId) :
    (w.isRegistered t = false → w.borrow t = .panic) ∧
    (w.isRegistered t = true → ∃ c es vs, w.borrow t = .ok c ∧ ViewsAs c es vs ∧
      ∀ e, w.viewGet t e = c.get e) := by
  have hc := (reach_sound hr).2
  constructor
  · intro ht
    simp only [World.isRegistered, ComponentStorage.isRegistered, Option.isSome_eq_false_iff, Option.isNone_iff_eq_none] at ht
    simp [World.borrow, ht]
  · intro ht
    obtain ⟨idx, s, hv, hi⟩ := World.viewAt_of_registered hc ht
    exact ⟨s, _, _, borrow_of_viewAt hv, hi.viewsAs, fun e => World.viewGet_of hv e⟩

/-- C45, in every reachable world: the assignment `view[e] = v` panics exactly if there is no component of `e`; otherwise
it changes that component and nothing else. -/
theorem C45_write {h : History V} {w : World V} (hr : Reach World.empty h w) (t : TypeId) (e : Entity) (v : V) :
    ((∃ u, w.viewGet t e = .ok (some u)) → ∃ w', w.writeIndex t e v = .ok w' ∧ OnlyWrote w w' t e v) ∧
    ((¬ ∃ u, w.viewGet t e = .ok (some u)) → w.writeIndex t e v = .panic) := by
  have hc := (reach_sound hr).2
  by_cases ht : w.isRegistered t = true
  · obtain ⟨idx, s, hv, hi⟩ := World.viewAt_of_registered hc ht
    rw [World.viewGet_of hv]
    rcases World.writeView_eq hc hv e v with ⟨hg, hw⟩ | ⟨pos, hg, hp, hw⟩
    · constructor
      · rintro ⟨u, hu⟩
        simp [CompSet.get, hg] at hu
      · intro _
        simp [World.writeIndex, hw]
    · constructor
      · intro _
        exact ⟨_, by simp [World.writeIndex, hw], World.poke_only hc hv hg hp v⟩
      · intro hn
        exact absurd ⟨s.components[pos], by simp [CompSet.get, hg, List.getElem?_eq_getElem hp]⟩ hn
  · simp only [World.isRegistered, ComponentStorage.isRegistered, Bool.not_eq_true, Option.isSome_eq_false_iff,
      Option.isNone_iff_eq_none] at ht
    refine ⟨?_, fun _ => by simp [World.writeIndex, World.writeView, ht]⟩
    rintro ⟨u, hu⟩
    simp [World.viewGet, World.borrow, ht] at hu

/-- A world with components and an entity without. -/
example : holdsAfter mixOps (fun _ w => decide (w.isRegistered 0 = true ∧ w.isRegistered 77 = false ∧
    w.viewGet 0 ⟨0, 1⟩ = .ok (some 10) ∧ w.viewGet 0 ⟨9, 1⟩ = .ok none)) = true := by
  decide

/-! ### C46 -/

theorem PartView.get_isSome {c : ComponentStorage V} (hc : Sound c) {p : Part} {v : PartView V} (hv : IsView c p v)
    (e : Entity) : ∃ r, v.get e = .ok r ∧ r.isSome = v.contains e := by
  have req : ∀ {t : TypeId} {idx : Nat} {s : CompSet V} (x : Bool), ViewAt c t idx s →
      ∃ r, (PartView.req x idx s).get e = .ok r ∧ r.isSome = (PartView.req x idx s).contains e := by
    intro t idx s x hs
    simp only [PartView.get, PartView.contains, CompSet.contains, SparseVec.contains_eq_get]
    cases hg : s.sparse.get e with
    | none => exact ⟨none, rfl, rfl⟩
    | some d =>
      obtain ⟨u, hu⟩ := (hc.view hs).read hg
      exact ⟨some (.ref idx d u), by simp [hu], rfl⟩
  have opt : ∀ {t : TypeId} {idx : Nat} {s : CompSet V} (x : Bool), ViewAt c t idx s →
      ∃ r, (PartView.opt x idx s).get e = .ok r ∧ r.isSome = (PartView.opt x idx s).contains e := by
    intro t idx s x hs
    simp only [PartView.get, PartView.contains]
    cases hg : s.sparse.get e with
    | none => exact ⟨some (.opt none), rfl, rfl⟩
    | some d =>
      obtain ⟨u, hu⟩ := (hc.view hs).read hg
      exact ⟨some (.opt (some (idx, d, u))), by simp [hu], rfl⟩
  cases p <;> cases v <;> simp only [IsView] at hv
  · exact ⟨_, rfl, rfl⟩
  · exact req _ hv.2
  · exact req _ hv.2
  · exact opt _ hv.2
  · exact opt _ hv.2

theorem getAll_isSome {c : ComponentStorage V} (hc : Sound c) (e : Entity) : ∀ {q : Query} {vs : List (PartView V)},
    List.Forall₂ (IsView c) q vs → ∃ r, getAll e vs = .ok r ∧ r.isSome = containsAll vs e
  | _, _, .nil => ⟨_, rfl, rfl⟩
  | _, _, .cons (b := v) (l₂ := vs) hv hvs => by
    obtain ⟨r, h1, h2⟩ := PartView.get_isSome hc hv e
    obtain ⟨rs, h3, h4⟩ := getAll_isSome hc e hvs
    simp only [containsAll, List.all_cons] at h4 ⊢
    rw [← h2, ← h4]
    cases r <;> cases rs <;> simp [getAll, h1, h3]

theorem containsAll_iff_reads {w : World V} (hc : Sound w.components) (e : Entity) :
    ∀ {q : Query} {vs : List (PartView V)}, List.Forall₂ (IsView w.components) q vs →
      (containsAll vs e = true ↔ ∀ t ∈ required q, ∃ v, w.viewGet t e = .ok (some v))
  | _, _, .nil => by simp [containsAll, required]
  | _, _, .cons (a := p) (b := v) (l₁ := q) (l₂ := vs) hv hvs => by
    have ih := containsAll_iff_reads hc e hvs
    have key : ∀ {t : TypeId} {idx : Nat} {s : CompSet V}, ViewAt w.components t idx s →
        (s.contains e = true ↔ ∃ v, w.viewGet t e = .ok (some v)) := by
      intro t idx s hs
      rw [World.viewGet_of hs]
      have hv := (hc.view hs).viewsAs
      constructor
      · intro hcon
        obtain ⟨o, ho⟩ := hv.get e
        cases o with
        | none => rw [(hv.missing e ho).1] at hcon; cases hcon
        | some v => exact ⟨v, ho⟩
      · rintro ⟨v, ho⟩
        exact (hv.found e v ho).1
    simp only [containsAll, List.all_cons, Bool.and_eq_true] at ih ⊢
    rw [ih, required_cons]
    cases p <;> cases v <;> simp only [IsView] at hv
    · simp [PartView.contains, Part.required]
    · simp [PartView.contains, Part.required, key hv.2]
    · simp [PartView.contains, Part.required, key hv.2]
    · simp [PartView.contains, Part.required]
    · simp [PartView.contains, Part.required]

/-- C46, in every reachable world, with no view or query alive: `world.contains::<G>(e)` panics exactly if a component
type of `G` is not registered or `G` itself conflicts (`&mut A` beside another access to `A`); otherwise it says whether
all required components of `G` can be read for `e`. It is `query_one::<G>().contains(e)`, says whether `get(e)` is
`Some`, and `map(e, f)` applies `f` to what `get(e)` returns. -/
theorem C46 {h : History V} {w : World V} (hr : Reach World.empty h w) (g : Query) (e : Entity) :
    (¬ ((∀ t ∈ accesses g, w.isRegistered t.1 = true) ∧ Compatible (accesses g)) → w.contains [] g e = .panic) ∧
    ((∀ t ∈ accesses g, w.isRegistered t.1 = true) ∧ Compatible (accesses g) →
      ∃ (b : Bool) (q : QueryOne V) (h' : Borrows) (r : Option (Item V)), w.contains [] g e = .ok b ∧
        (b = true ↔ ∀ t ∈ required g, ∃ v, w.viewGet t e = .ok (some v)) ∧
        QueryOne.new w [] g [] [] = .ok (q, h') ∧ q.contains e = b ∧ q.getItem e = .ok r ∧ r.isSome = b ∧
        ∀ {α : Type} (f : Item V → α), q.mapItem e f = .ok (r.map f)) := by
  have hc := (reach_sound hr).2
  have hn := (C30_new hr (Live.nil (w := w))).1 g [] []
  simp only [List.append_nil, List.flatMap_nil] at hn
  constructor
  · intro hp
    simp [World.contains, (hn.2 hp).2]
  · intro hp
    obtain ⟨q, h', hq⟩ := (hn.1 hp).2
    obtain ⟨h1, h2, h3⟩ := QueryOne.new_ok hq
    obtain ⟨r, h4, h5⟩ := getAll_isSome hc e h1
    cases h2' : q.inc with
    | cons => rw [h2'] at h2; cases h2
    | nil =>
      cases h3' : q.exc with
      | cons => rw [h3'] at h3; cases h3
      | nil =>
        have h6 : q.contains e = containsAll q.get e := by simp [QueryOne.contains, h2', h3', containsNone, containsAll]
        have h7 : q.getItem e = .ok r := by simp [QueryOne.getItem, h2', h3', containsNone, containsAll, h4]
        refine ⟨containsAll q.get e, q, h', r, by simp [World.contains, hq, h6], containsAll_iff_reads hc e h1, hq, h6,
          h7, h5, fun f => by simp [QueryOne.mapItem, h7]⟩

/-- C46, `for_each`: the closure is called once for each living entity that has all required components of `G`. Missing:
histories that are not `Fair`; entities left out of the group of `G` by interrupted calls (`C52_false`). -/
theorem C46_forEach_partial {h : History V} {w : World V} (hr : Reach World.empty h w) (hg : Fair (calls h)) {g : Query}
    (hne : required g ≠ []) (hp : (∀ t ∈ accesses g, w.isRegistered t.1 = true) ∧ Compatible (accesses g))
    (hl : (mapOf (calls h)).NoneLeftOut (hidden (calls h)) g [] []) :
    ∃ (es : List Entity) (its : List (Item V)), w.forEach [] g = .ok its ∧ es.Nodup ∧
      (∀ e, e ∈ es ↔ e ∈ (mapOf (calls h)).life.alive ∧ (mapOf (calls h)).Has (required g) e) ∧
      its.map (fun it => some it.shown) = es.map fun e => shows (mapOf (calls h)).table e g := by
  have hn := (C30_new hr (Live.nil (w := w))).1 g [] []
  simp only [List.append_nil, List.flatMap_nil] at hn
  obtain ⟨q, h', hq⟩ := (hn.1 hp).1
  obtain ⟨es, its, h1, h2, h3, h4⟩ := C24_partial hr hg hq (by simpa [required] using hne) (by intro p hp; cases hp)
    (by intro a _ b _ _ _ t ht; cases ht) hl
  refine ⟨es, its, by simp [World.forEach, hq, h1], h2, fun e => ?_, h4⟩
  rw [h3, MapWorld.Matches]
  simp [required, MapWorld.Has]

example : Good queryOps ∧ holdsAfter queryOps (fun _ w =>
    decide (w.contains [] [.entity, .ref 0, .opt 9] ⟨0, 1⟩ = .ok true ∧ w.contains [] [.ref 0] ⟨77, 1⟩ = .ok false ∧
      w.contains [] [.ref 0, .refMut 0] ⟨0, 1⟩ = .panic) &&
    (match w.forEach [] [.entity, .ref 0, .refMut 1] with
      | .ok its => decide (its.length = 4)
      | _ => false)) = true := by
  decide +kernel

/-! ### C47 -/

theorem shortest_le {c : ComponentStorage V} : ∀ {q : Query} {vs : List (PartView V)} (acc : Option (List Entity)),
    List.Forall₂ (IsView c) q vs → ∀ es, shortest acc vs = some es →
      (∀ a, acc = some a → es.length ≤ a.length) ∧
      ∀ t ∈ required q, ∀ idx s, ViewAt c t idx s → es.length ≤ s.entities.length
  | [], _, acc, .nil => by
    rintro es h
    refine ⟨fun a ha => ?_, by simp [required]⟩
    simp only [shortest] at h
    rw [ha] at h
    cases h
    exact Nat.le_refl _
  | p :: q, _, acc, .cons (b := v) (l₂ := vs) hv hvs => by
    intro es h
    rw [required_cons]
    rcases part_entities hv with ⟨h1, h2⟩ | ⟨t, new, h1, h2, t', ht', idx, s, hs, rfl⟩
    · have : shortest acc (v :: vs) = shortest acc vs := by cases acc <;> simp [shortest, h2]
      rw [this] at h
      simpa [h1] using shortest_le acc hvs es h
    · rw [List.mem_singleton] at ht'
      subst ht'
      have huniq : ∀ idx' s', ViewAt c t' idx' s' → s' = s := by
        rintro idx' s' ⟨m', hm', rfl, hs'⟩
        obtain ⟨m, hm, rfl, hs⟩ := hs
        rw [hm] at hm'
        cases hm'
        rw [hs] at hs'
        cases hs'
        rfl
      have fin : ∀ acc', shortest acc' vs = some es → (∀ a, acc' = some a → a.length ≤ s.entities.length ∧
          ∀ b, acc = some b → a.length ≤ b.length) → (∃ a, acc' = some a) →
          (∀ a, acc = some a → es.length ≤ a.length) ∧
          ∀ t ∈ p.required.toList ++ required q, ∀ idx s, ViewAt c t idx s → es.length ≤ s.entities.length := by
        rintro acc' h' hle ⟨a, rfl⟩
        obtain ⟨i1, i2⟩ := shortest_le _ hvs es h'
        have i1 := i1 a rfl
        obtain ⟨j1, j2⟩ := hle a rfl
        refine ⟨fun b hb => Nat.le_trans i1 (j2 b hb), fun t ht idx s' hs' => ?_⟩
        rcases List.mem_append.1 ht with ht | ht
        · rw [h1, Option.toList_some, List.mem_singleton] at ht
          subst ht
          rw [huniq _ _ hs']
          omega
        · exact i2 t ht idx s' hs'
      cases acc with
      | none =>
        simp only [shortest, h2] at h
        exact fin _ h (by intro a ha; cases ha; exact ⟨Nat.le_refl _, by simp⟩) ⟨_, rfl⟩
      | some old =>
        simp only [shortest, h2] at h
        refine fin _ h ?_ ?_
        · intro a ha
          split at ha
          · cases ha
            refine ⟨Nat.le_refl _, ?_⟩
            rintro b hb
            cases hb
            omega
          · cases ha
            refine ⟨by omega, ?_⟩
            rintro b hb
            cases hb
            exact Nat.le_refl _
        · split
          · exact ⟨_, rfl⟩
          · exact ⟨_, rfl⟩

/-- The number of entities that an iterator looks at. -/
def Iter.visits : Iter V → Nat
  | .sparse it => it.entities.length
  | .dense it => it.stop - it.start

theorem chooseEntities_le {w : World V} {g i x : Query} {q : QueryAll V} (hq : q.Of w g i x) :
    ∀ t ∈ required g ++ required i, ∀ idx s, ViewAt w.components t idx s →
      (QueryAll.chooseEntities (shortest none q.get) (shortest none q.inc)).length ≤ s.entities.length := by
  intro t ht idx s hs
  have hg := shortest_none hq.get
  have hi := shortest_none hq.inc
  cases h1 : shortest none q.get with
  | none =>
    have hg : required g = [] := by
      rcases hg with hg | ⟨es, hg, _⟩
      · exact hg.2
      · rw [h1] at hg; cases hg
    cases h2 : shortest none q.inc with
    | none => simp [QueryAll.chooseEntities]
    | some b =>
      rw [hg] at ht
      exact (shortest_le none hq.inc b h2).2 t ht idx s hs
  | some a =>
    have ha := (shortest_le none hq.get a h1).2
    cases h2 : shortest none q.inc with
    | none =>
      have hi : required i = [] := by
        rcases hi with hi | ⟨es, hi, _⟩
        · exact hi.2
        · rw [h2] at hi; cases hi
      rw [hi, List.append_nil] at ht
      exact ha t ht idx s hs
    | some b =>
      have hb := (shortest_le none hq.inc b h2).2
      simp only [QueryAll.chooseEntities]
      rcases List.mem_append.1 ht with ht | ht
      · have := ha t ht idx s hs
        split <;> omega
      · have := hb t ht idx s hs
        split <;> omega

/-- C47, in every reachable world: an iterator that does not use a group looks at no more entities than any set that its
query requires has. -/
theorem C47_sparse {h : History V} {w : World V} (_ : Reach World.empty h w) {b b' : Borrows} {g i x : Query}
    {q : QueryAll V} (hq : QueryAll.new w b g i x = .ok (q, b')) {it : Iter V} (hit : q.iter = .ok it)
    (hd : it.isDense = false) :
    ∀ t ∈ required g ++ required i, ∃ c, w.borrow t = .ok c ∧ it.visits ≤ c.len := by
  have ho := QueryAll.new_ok hq
  intro t ht
  obtain ⟨m, s, hm, hs⟩ : ∃ m s, w.components.meta? t = some m ∧ w.components.components[m.storageIndex]? = some s := by
    rcases List.mem_append.1 ht with ht | ht
    · exact present_of_views ho.get t ht
    · exact present_of_views ho.inc t ht
  have hv : ViewAt w.components t m.storageIndex s := ⟨m, hm, rfl, hs⟩
  refine ⟨s, borrow_of_viewAt hv, ?_⟩
  unfold QueryAll.iter at hit
  obtain ⟨r, _, hit⟩ := Res.bind_ok' hit
  cases r with
  | some ab =>
    obtain ⟨a, b⟩ := ab
    obtain ⟨es, _, hit⟩ := Res.bind_ok' hit
    cases hit
    cases hd
  | none =>
    cases hit
    exact chooseEntities_le ho t ht _ s hv

/-- C47: iterating a query looks at no more entities than any set that the query requires has, and if it uses a group it
looks at no others than those it yields. Missing: histories that are not `Fair`. -/
theorem C47_partial {h : History V} {w : World V} (hr : Reach World.empty h w) (hg : Fair (calls h)) {b b' : Borrows}
    {g i x : Query} {q : QueryAll V} (hq : QueryAll.new w b g i x = .ok (q, b')) :
    ∃ it its, q.iter = .ok it ∧ it.fold = .ok its ∧ (it.isDense = true → it.visits = its.length) ∧
      its.length ≤ it.visits ∧
      ∀ t ∈ required g ++ required i, ∃ c, w.borrow t = .ok c ∧ it.visits ≤ c.len := by
  have hi := reach_out hr hg
  have ho := QueryAll.new_ok hq
  obtain ⟨it, es, its, h1, h2, h3, h4, h5, h6⟩ := hi.items ho
  rcases h6 with ⟨a, b, pre, hd, hran, hdr, rfl⟩ | ⟨hd, hran, _⟩
  · have hv : it.visits = b - a := by
      unfold QueryAll.iter at h1
      rw [hran, Res.bind_ok] at h1
      obtain ⟨es, _, h1⟩ := Res.bind_ok' h1
      cases h1
      rfl
    have hl : its.length = b - a := by rw [← h4.length_eq, List.length_drop, hdr.length]
    refine ⟨it, its, h1, h2, fun _ => by rw [hv, hl], by rw [hv, hl], fun t ht => ?_⟩
    obtain ⟨c, hc1, hc2⟩ := hdr.aligned t ht
    refine ⟨c, hc1, ?_⟩
    have := congrArg List.length hc2
    rw [List.length_take, hdr.length] at this
    rw [hv, CompSet.len]
    omega
  · refine ⟨it, its, h1, h2, fun h => (by rw [hd] at h; cases h), ?_, C47_sparse hr hq h1 hd⟩
    cases it with
    | dense => cases hd
    | sparse it =>
      have hlen : ∀ (l : List Entity) (xs : List (Item V)), it.foldFrom l = .ok xs → xs.length ≤ l.length := by
        intro l
        induction l with
        | nil => intro xs hxs; cases hxs; simp
        | cons e l ih =>
          intro xs hxs
          simp only [SparseIter.foldFrom] at hxs
          obtain ⟨r, _, hxs⟩ := Res.bind_ok' hxs
          cases r with
          | none => have := ih xs hxs; simp only [List.length_cons]; omega
          | some y =>
            obtain ⟨ys, hys, hxs⟩ := Res.bind_ok' hxs
            cases hxs
            have := ih ys hys
            simp only [List.length_cons]
            omega
      exact hlen _ _ h2

/-- C47 is false in general: an iterator over a group may look beyond the end of the sets. -/
theorem C47_false : ∃ (h : History Nat) (w : World Nat) (q : QueryAll Nat) (b : Borrows) (it : Iter Nat)
    (c : CompSet Nat), Reach World.empty h w ∧ QueryAll.new w [] [.ref 0, .ref 1] [] [] = .ok (q, b) ∧
    q.iter = .ok it ∧ w.borrow 1 = .ok c ∧ c.len < it.visits := by
  obtain ⟨rs, w, hr, hf⟩ := reach_witness (ops := ([.setLayout anyOrder [[0, 1]], .create [], .destroy ⟨0, 1⟩,
      .create [(0, 10)], .create [(0, 20), (1, 30)], .delete ⟨1, 1⟩ [1]] : List (Op Nat)))
    (f := fun _ w => match QueryAll.new w [] [.ref 0, .ref 1] [] [] with
      | .ok (q, _) => (match q.iter, w.borrow 1 with
        | .ok it, .ok c => decide (c.len < it.visits)
        | _, _ => false)
      | _ => false) (by decide)
  cases hq : QueryAll.new w [] [.ref 0, .ref 1] [] [] with
  | panic => rw [hq] at hf; cases hf
  | ub => rw [hq] at hf; cases hf
  | ok p =>
    obtain ⟨q, b⟩ := p
    rw [hq] at hf
    simp only at hf
    split at hf
    · rename_i it c h1 h2
      exact ⟨_, w, q, b, it, c, hr, hq, h1, h2, of_decide_eq_true hf⟩
    · cases hf

example : Good queryOps ∧ holdsAfter queryOps (fun _ w =>
    match QueryAll.new w [] [.entity, .ref 0, .opt 9] [.ref 1] [] with
    | .ok (q, _) => (match q.iter with
      | .ok it => decide (it.visits = 4 ∧ it.isDense = true)
      | _ => false)
    | _ => false) = true := by
  decide +kernel

/-! ### C24 and C31 -/

/-- C31, C24, in every reachable world: iterators can be made from every query; a query without required component yields
nothing. -/
theorem C31_iter {h : History V} {w : World V} (hr : Reach World.empty h w) {b b' : Borrows} {g i x : Query}
    {q : QueryAll V} (hq : QueryAll.new w b g i x = .ok (q, b')) :
    (∃ it, q.iter = .ok it) ∧ (required g ++ required i = [] → q.items = .ok []) := by
  obtain ⟨it, h1, h2⟩ := (reach_range hr).iter (QueryAll.new_ok hq)
  exact ⟨⟨it, h1⟩, fun hn => by simp [QueryAll.items, h1, h2 hn]⟩

/-- The worlds of `C31_iter` may have a layout that was set half-way. -/
example : holdsAfter ([.setLayout anyOrder [[0, 1], List.range 16], .create [(0, 1)]] : List (Op Nat))
    (fun rs w => match rs with
      | [.panicked _, _] => itemsAre w [.entity, .ref 0] [.opt 1] [] (fun its => decide (its.length = 1)) &&
          itemsAre w [.entity, .ref 0] [.ref 1] [] (fun its => decide (its.length = 0)) &&
          itemsAre w [.entity, .opt 0] [] [] (fun its => decide (its.length = 0))
      | _ => false) = true := by
  decide +kernel

/-- C31 is false in general, also without recycled entities: after a `set_layout` that panicked half-way (one group of
the documented maximum arity), the masks of the components name groups that do not exist, and creating an entity reads
out of bounds. -/
theorem C31_layout_false : run World.empty
    ([.setLayout anyOrder [[0, 1], List.range 16], .create [(0, 10), (1, 20)]] : List (Op Nat)) = none := by
  decide +kernel

/-- What a query yields on a world with a map. -/
theorem InvH.yields_all {w : World V} {s : MapWorld V} {H : List (Entity × Nat)} (hi : InvH w s H) {b b' : Borrows}
    {g i x : Query} {q : QueryAll V} (hq : QueryAll.new w b g i x = .ok (q, b')) :
    ∃ (it : Iter V) (es : List Entity) (its : List (Item V)), q.iter = .ok it ∧ q.items = .ok its ∧ es.Nodup ∧
      its.map (fun it => some it.shown) = es.map (fun e => shows s.table e g) ∧
      (∀ e ∈ es, e ∈ s.life.alive) ∧
      (it.isDense = true → required g ++ required i ≠ [] ∧
        ∀ e, e ∈ es ↔ s.Has (required g ++ required i) e ∧
          ¬ s.LeftOut H (required g ++ required i) e ∧
          (required x = [] ∨ (∃ t ∈ required x, s.table.get t e = none) ∨
            s.LeftOut H (required g ++ required i ++ required x) e)) ∧
      (it.isDense = false → ∀ e, e ∈ es ↔ required g ++ required i ≠ [] ∧
        s.Has (required g ++ required i) e ∧ AllRequired x ∧
          ∀ t ∈ required x, s.table.get t e = none) := by
  have ho := QueryAll.new_ok hq
  obtain ⟨it, es, its, h1, h2, h3, h4, h5, h6⟩ := hi.items ho
  refine ⟨it, es, its, h1, by rw [QueryAll.items, h1]; exact h2, h3, hi.reads_shown ho.get h4, h5, ?_, ?_⟩
  · intro hd
    rcases h6 with ⟨a, b, pre, _, _, hdr, rfl⟩ | ⟨hn, _⟩
    · exact ⟨hdr.nonempty, hdr.mem⟩
    · rw [hd] at hn; cases hn
  · intro hd e
    rcases h6 with ⟨a, b, pre, hn, _⟩ | ⟨_, _, hm⟩
    · rw [hd] at hn; cases hn
    · rw [hm, Faithful.none_contains_all e (hi.faithfuls ho.exc)]

/-- C24, all queries: what is yielded, with the deviations. Without a group, an excluded part other than `&T` and `&mut T`
excludes everything; with a group, the entities having *some* of the excluded components are yielded as well, such parts exclude nothing, the
entities left out of the group by interrupted calls are missing, and those left out of the group of the required and the
excluded components are yielded. Missing: histories that are not `Fair`. -/
theorem C24_all_partial {h : History V} {w : World V} (hr : Reach World.empty h w) (hg : Fair (calls h)) {b b' : Borrows}
    {g i x : Query} {q : QueryAll V} (hq : QueryAll.new w b g i x = .ok (q, b')) :
    ∃ (it : Iter V) (es : List Entity) (its : List (Item V)), q.iter = .ok it ∧ q.items = .ok its ∧ es.Nodup ∧
      its.map (fun it => some it.shown) = es.map (fun e => shows (mapOf (calls h)).table e g) ∧
      (∀ e ∈ es, e ∈ (mapOf (calls h)).life.alive) ∧
      (it.isDense = true → required g ++ required i ≠ [] ∧
        ∀ e, e ∈ es ↔ (mapOf (calls h)).Has (required g ++ required i) e ∧
          ¬ (mapOf (calls h)).LeftOut (hidden (calls h)) (required g ++ required i) e ∧
          (required x = [] ∨ (∃ t ∈ required x, (mapOf (calls h)).table.get t e = none) ∨
            (mapOf (calls h)).LeftOut (hidden (calls h)) (required g ++ required i ++ required x) e)) ∧
      (it.isDense = false → ∀ e, e ∈ es ↔ required g ++ required i ≠ [] ∧
        (mapOf (calls h)).Has (required g ++ required i) e ∧ AllRequired x ∧
          ∀ t ∈ required x, (mapOf (calls h)).table.get t e = none) :=
  (reach_out hr hg).yields_all hq

/-- C24, exactly when it holds: a query that requires something and excludes only `&T` and `&mut T` yields the right
entities exactly if it is iterated without a group, or for every entity having the required components: if it has none of
the excluded ones it is in the group of the required ones, and if it is in this group and either lacks one of the excluded
components or was left out of their group, then it lacks them all. Missing: histories that are not `Fair`. -/
theorem C24_exact_partial {h : History V} {w : World V} (hr : Reach World.empty h w) (hg : Fair (calls h))
    {b b' : Borrows} {g i x : Query} {q : QueryAll V} (hq : QueryAll.new w b g i x = .ok (q, b'))
    (hne : required g ++ required i ≠ []) (hx : AllRequired x) :
    ∃ (it : Iter V) (es : List Entity) (its : List (Item V)), q.iter = .ok it ∧ q.items = .ok its ∧ es.Nodup ∧
      its.map (fun it => some it.shown) = es.map (fun e => shows (mapOf (calls h)).table e g) ∧
      ((∀ e, e ∈ es ↔ (mapOf (calls h)).Matches g i x e) ↔
        it.isDense = false ∨ ∀ e, (mapOf (calls h)).Has (required g ++ required i) e →
          ((∀ t ∈ required x, (mapOf (calls h)).table.get t e = none) →
            ¬ (mapOf (calls h)).LeftOut (hidden (calls h)) (required g ++ required i) e) ∧
          (¬ (mapOf (calls h)).LeftOut (hidden (calls h)) (required g ++ required i) e →
            (∃ t ∈ required x, (mapOf (calls h)).table.get t e = none) ∨
              (mapOf (calls h)).LeftOut (hidden (calls h)) (required g ++ required i ++ required x) e →
            ∀ t ∈ required x, (mapOf (calls h)).table.get t e = none)) := by
  have hi := reach_invL hr hg
  obtain ⟨it, es, its, h1, h2, h3, h4, h5, h6, h7⟩ := C24_all_partial hr hg hq
  refine ⟨it, es, its, h1, h2, h3, h4, ?_⟩
  have hmatch : ∀ e, (mapOf (calls h)).Matches g i x e ↔ (mapOf (calls h)).Has (required g ++ required i) e ∧
      ∀ t ∈ required x, (mapOf (calls h)).table.get t e = none := by
    intro e
    rw [has_append, MapWorld.Matches]
    constructor
    · rintro ⟨_, x1, x2, x3⟩
      exact ⟨⟨x1, x2⟩, x3⟩
    · rintro ⟨⟨x1, x2⟩, x3⟩
      exact ⟨hi.alive_of_has hne (has_append.2 ⟨x1, x2⟩), x1, x2, x3⟩
  cases hd : it.isDense with
  | false =>
    refine ⟨fun _ => .inl rfl, fun _ e => ?_⟩
    rw [h7 hd, hmatch]
    constructor
    · rintro ⟨_, x1, _, x2⟩
      exact ⟨x1, x2⟩
    · rintro ⟨x1, x2⟩
      exact ⟨hne, x1, hx, x2⟩
  | true =>
    have hmem := (h6 hd).2
    constructor
    · intro hall
      right
      intro e he
      refine ⟨fun hno => ?_, fun hin hsome => ?_⟩
      · exact ((hmem e).1 ((hall e).2 ((hmatch e).2 ⟨he, hno⟩))).2.1
      · exact ((hmatch e).1 ((hall e).1 ((hmem e).2 ⟨he, hin, .inr hsome⟩))).2
    · rintro (hf | hall)
      · cases hf
      · intro e
        rw [hmem, hmatch]
        constructor
        · rintro ⟨x1, x0, x2 | x2⟩
          · exact ⟨x1, by rw [x2]; simp⟩
          · exact ⟨x1, (hall e x1).2 x0 x2⟩
        · rintro ⟨x1, x2⟩
          refine ⟨x1, (hall e x1).1 x2, ?_⟩
          cases hX : required x with
          | nil => exact .inl rfl
          | cons t l => exact .inr (.inl ⟨t, .head _, x2 t (by rw [hX]; exact .head _)⟩)

/-- A query over the nested groups of `C24_false` for which some excluded components are present; it is iterated with
the group. -/
example : Good nestedOps ∧ holdsAfter nestedOps (fun _ w =>
    match QueryAll.new w [] [.entity, .ref 0, .ref 1] [] [.ref 2, .ref 3] with
    | .ok (q, _) => (match q.iter with
      | .ok it => it.isDense
      | _ => false)
    | _ => false) = true := by
  decide +kernel

end Sparsey
