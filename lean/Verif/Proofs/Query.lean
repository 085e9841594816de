import Verif.Proofs.Observe
import Verif.Spec.Query

/-!
Queries on a world that represents a map.
-/

set_option autoImplicit false
set_option linter.unusedSimpArgs false

namespace Sparsey
variable {V : Type}

/-! ### Views of parts -/

/-- `s` is the set of type `t` at position `idx`. -/
def ViewAt (c : ComponentStorage V) (t : TypeId) (idx : Nat) (s : CompSet V) : Prop :=
  ∃ m, c.meta? t = some m ∧ m.storageIndex = idx ∧ c.components[idx]? = some s

/-- `v` is the view of the part. -/
def IsView (c : ComponentStorage V) : Part → PartView V → Prop
  | .entity, .entity => True
  | .ref t, .req x idx s => x = false ∧ ViewAt c t idx s
  | .refMut t, .req x idx s => x = true ∧ ViewAt c t idx s
  | .opt t, .opt x idx s => x = false ∧ ViewAt c t idx s
  | .optMut t, .opt x idx s => x = true ∧ ViewAt c t idx s
  | _, _ => False

/-- The group info of a part. -/
def partInfo (c : ComponentStorage V) (p : Part) : Option ViewGroupInfo :=
  p.required.bind fun t => (c.meta? t).bind fun m =>
    (c.components[m.storageIndex]?).map fun s => ⟨m.groupInfo, s.len⟩

theorem borrowSet_ok {c : ComponentStorage V} {h h' : Borrows} {x : Bool} {t : TypeId} {idx : Nat} {s : CompSet V}
    {i : Option GroupInfo} (hb : borrowSet c h x t = .ok (idx, s, i, h')) :
    ∃ m, c.meta? t = some m ∧ m.storageIndex = idx ∧ c.components[idx]? = some s ∧ i = m.groupInfo ∧
      (if x then borrowExclusive h idx else borrowShared h idx) = .ok h' := by
  unfold borrowSet at hb
  cases hm : c.meta? t with
  | none => simp [hm] at hb
  | some m =>
    simp only [hm] at hb
    cases hs : c.components[m.storageIndex]? with
    | none => simp [hs] at hb
    | some s0 =>
      simp only [hs, Res.unchecked_some, Res.bind_ok] at hb
      cases x <;> simp only [Bool.false_eq_true, if_true, if_false] at hb ⊢
      all_goals
        rw [Res.bind_eq_ok] at hb
        obtain ⟨h1, hb1, hb2⟩ := hb
        simp only [Res.pure_eq, Res.ok.injEq, Prod.mk.injEq] at hb2
        obtain ⟨rfl, rfl, rfl, rfl⟩ := hb2
        exact ⟨m, rfl, rfl, hs, rfl, hb1⟩

theorem borrowPart_ok {c : ComponentStorage V} {h h' : Borrows} {p : Part} {v : PartView V}
    {i : Option ViewGroupInfo} (hb : borrowPart c h p = .ok (v, i, h')) :
    IsView c p v ∧ i = partInfo c p := by
  cases p with
  | entity =>
    simp only [borrowPart, Res.ok.injEq, Prod.mk.injEq] at hb
    obtain ⟨rfl, rfl, rfl⟩ := hb
    exact ⟨trivial, rfl⟩
  | ref t =>
    simp only [borrowPart] at hb
    rw [Res.bind_eq_ok] at hb
    obtain ⟨⟨idx, s, inf, h1⟩, hb1, hb2⟩ := hb
    simp only [Res.pure_eq, Res.ok.injEq, Prod.mk.injEq] at hb2
    obtain ⟨rfl, rfl, rfl⟩ := hb2
    obtain ⟨m, hm, rfl, hs, rfl, _⟩ := borrowSet_ok hb1
    exact ⟨⟨rfl, m, hm, rfl, hs⟩, by simp [partInfo, Part.required, hm, hs]⟩
  | refMut t =>
    simp only [borrowPart] at hb
    rw [Res.bind_eq_ok] at hb
    obtain ⟨⟨idx, s, inf, h1⟩, hb1, hb2⟩ := hb
    simp only [Res.pure_eq, Res.ok.injEq, Prod.mk.injEq] at hb2
    obtain ⟨rfl, rfl, rfl⟩ := hb2
    obtain ⟨m, hm, rfl, hs, rfl, _⟩ := borrowSet_ok hb1
    exact ⟨⟨rfl, m, hm, rfl, hs⟩, by simp [partInfo, Part.required, hm, hs]⟩
  | opt t =>
    simp only [borrowPart] at hb
    rw [Res.bind_eq_ok] at hb
    obtain ⟨⟨idx, s, inf, h1⟩, hb1, hb2⟩ := hb
    simp only [Res.pure_eq, Res.ok.injEq, Prod.mk.injEq] at hb2
    obtain ⟨rfl, rfl, rfl⟩ := hb2
    obtain ⟨m, hm, rfl, hs, rfl, _⟩ := borrowSet_ok hb1
    exact ⟨⟨rfl, m, hm, rfl, hs⟩, by simp [partInfo, Part.required]⟩
  | optMut t =>
    simp only [borrowPart] at hb
    rw [Res.bind_eq_ok] at hb
    obtain ⟨⟨idx, s, inf, h1⟩, hb1, hb2⟩ := hb
    simp only [Res.pure_eq, Res.ok.injEq, Prod.mk.injEq] at hb2
    obtain ⟨rfl, rfl, rfl⟩ := hb2
    obtain ⟨m, hm, rfl, hs, rfl, _⟩ := borrowSet_ok hb1
    exact ⟨⟨rfl, m, hm, rfl, hs⟩, by simp [partInfo, Part.required]⟩

theorem borrowParts_ok {c : ComponentStorage V} : ∀ {q : Query} {h h' : Borrows} {vs : List (PartView V)}
    {is : List (Option ViewGroupInfo)}, borrowParts c h q = .ok (vs, is, h') →
    List.Forall₂ (IsView c) q vs ∧ is = q.map (partInfo c)
  | [], h, h', vs, is, hb => by
    simp only [borrowParts, Res.ok.injEq, Prod.mk.injEq] at hb
    obtain ⟨rfl, rfl, rfl⟩ := hb
    exact ⟨.nil, rfl⟩
  | p :: q, h, h', vs, is, hb => by
    simp only [borrowParts] at hb
    rw [Res.bind_eq_ok] at hb
    obtain ⟨⟨v, i, h1⟩, hb1, hb2⟩ := hb
    simp only at hb2
    rw [Res.bind_eq_ok] at hb2
    obtain ⟨⟨vs', is', h2⟩, hb3, hb4⟩ := hb2
    simp only [Res.pure_eq, Res.ok.injEq, Prod.mk.injEq] at hb4
    obtain ⟨rfl, rfl, rfl⟩ := hb4
    obtain ⟨h3, rfl⟩ := borrowPart_ok hb1
    obtain ⟨h4, rfl⟩ := borrowParts_ok hb3
    exact ⟨.cons h3 h4, rfl⟩

theorem borrowQuery_ok {c : ComponentStorage V} {q : Query} {h h' : Borrows} {vs : List (PartView V)}
    {i : Option QueryGroupInfo} (hb : borrowQuery c h q = .ok (vs, i, h')) :
    List.Forall₂ (IsView c) q vs ∧ i = queryInfo .empty (q.map (partInfo c)) := by
  simp only [borrowQuery] at hb
  rw [Res.bind_eq_ok] at hb
  obtain ⟨⟨vs', is', h1⟩, hb1, hb2⟩ := hb
  simp only [Res.pure_eq, Res.ok.injEq, Prod.mk.injEq] at hb2
  obtain ⟨rfl, rfl, rfl⟩ := hb2
  obtain ⟨h3, rfl⟩ := borrowParts_ok hb1
  exact ⟨h3, rfl⟩

/-- A query on the world. -/
structure QueryAll.Of (w : World V) (g i x : Query) (q : QueryAll V) : Prop where
  world : q.world = w
  get : List.Forall₂ (IsView w.components) g q.get
  inc : List.Forall₂ (IsView w.components) i q.inc
  exc : List.Forall₂ (IsView w.components) x q.exc
  getInfo : q.getInfo = queryInfo .empty (g.map (partInfo w.components))
  incInfo : q.incInfo = queryInfo .empty (i.map (partInfo w.components))
  excInfo : q.excInfo = queryInfo .empty (x.map (partInfo w.components))

theorem QueryAll.new_ok {w : World V} {h h' : Borrows} {g i x : Query} {q : QueryAll V}
    (hn : QueryAll.new w h g i x = .ok (q, h')) : q.Of w g i x := by
  simp only [QueryAll.new] at hn
  rw [Res.bind_eq_ok] at hn
  obtain ⟨⟨gv, gi, h1⟩, hb1, hn⟩ := hn
  simp only at hn
  rw [Res.bind_eq_ok] at hn
  obtain ⟨⟨iv, ii, h2⟩, hb2, hn⟩ := hn
  simp only at hn
  rw [Res.bind_eq_ok] at hn
  obtain ⟨⟨ev, ei, h3⟩, hb3, hn⟩ := hn
  simp only [Res.pure_eq, Res.ok.injEq, Prod.mk.injEq] at hn
  obtain ⟨rfl, rfl⟩ := hn
  obtain ⟨a1, a2⟩ := borrowQuery_ok hb1
  obtain ⟨b1, b2⟩ := borrowQuery_ok hb2
  obtain ⟨c1, c2⟩ := borrowQuery_ok hb3
  exact ⟨rfl, a1, b1, c1, a2, b2, c2⟩

theorem QueryOne.new_ok {w : World V} {h h' : Borrows} {g i x : Query} {q : QueryOne V}
    (hn : QueryOne.new w h g i x = .ok (q, h')) : List.Forall₂ (IsView w.components) g q.get ∧
      List.Forall₂ (IsView w.components) i q.inc ∧ List.Forall₂ (IsView w.components) x q.exc := by
  simp only [QueryOne.new] at hn
  rw [Res.bind_eq_ok] at hn
  obtain ⟨⟨gv, gi, h1⟩, hb1, hn⟩ := hn
  simp only at hn
  rw [Res.bind_eq_ok] at hn
  obtain ⟨⟨iv, ii, h2⟩, hb2, hn⟩ := hn
  simp only at hn
  rw [Res.bind_eq_ok] at hn
  obtain ⟨⟨ev, ei, h3⟩, hb3, hn⟩ := hn
  simp only [Res.pure_eq, Res.ok.injEq, Prod.mk.injEq] at hn
  obtain ⟨rfl, rfl⟩ := hn
  exact ⟨(borrowQuery_ok hb1).1, (borrowQuery_ok hb2).1, (borrowQuery_ok hb3).1⟩

/-! ### Reading through views -/

section Read
variable {w : World V} {s : MapWorld V} {P : Entity → Nat → Prop}

/-- What the invariant says about a set. -/
structure SetOf (s : MapWorld V) (t : TypeId) (c : CompSet V) : Prop where
  reg : t ∈ s.reg
  wf : c.WF
  alive : ∀ e ∈ c.entities, e ∈ s.life.alive
  val : c.val = s.table.get t
  mem : ∀ e, e ∈ c.entities ↔ (s.table.get t e).isSome

theorem InvX.viewAt (h : InvX w s P) {t : TypeId} {idx : Nat} {c : CompSet V} (hv : ViewAt w.components t idx c) :
    SetOf s t c := by
  obtain ⟨m, hm, rfl, hc⟩ := hv
  have ht : t ∈ s.reg := (h.reg t).1 (by simp [hm])
  obtain ⟨c', hc', h1, h2, h3, h4⟩ := h.borrow_reg ht
  have : c' = c := by
    simp only [World.borrow, hm, hc, Res.unchecked_some, Res.ok.injEq] at hc'
    exact hc'.symm
  subst this
  exact ⟨ht, h1, h2, h3, h4⟩

theorem SetOf.get_eq {t : TypeId} {c : CompSet V} (hc : SetOf s t c) (e : Entity) :
    (∃ d v, c.sparse.get e = some d ∧ c.entities[d]? = some e ∧ c.components[d]? = some v ∧ s.table.get t e = some v) ∨
      (c.sparse.get e = none ∧ s.table.get t e = none ∧ e ∉ c.entities) := by
  cases hg : c.sparse.get e with
  | none =>
    have h1 := (hc.wf.rep.get_eq_none e).1 hg
    exact .inr ⟨rfl, by rw [← hc.val]; exact (hc.wf.val_eq_none e).2 h1, h1⟩
  | some d =>
    have h1 := (hc.wf.rep.get_eq_some e d).1 hg
    obtain ⟨v, hv⟩ := hc.wf.comp_at h1
    refine .inl ⟨d, v, rfl, h1, hv, ?_⟩
    rw [← hc.val, hc.wf.val_at h1, hv]

theorem SetOf.getSparse_eq {t : TypeId} {c : CompSet V} (hc : SetOf s t c) (hu : IdxUniq (· ∈ s.life.alive)) {e : Entity}
    (he : e ∈ s.life.alive) : c.sparse.getSparse e.sparse = c.sparse.get e := by
  apply Option.ext
  intro d
  rw [hc.wf.rep.getSparse_eq_some, hc.wf.rep.get_eq_some]
  constructor
  · rintro ⟨y, h1, h2⟩
    have hy : y ∈ s.life.alive := hc.alive y (List.mem_of_getElem? h1)
    rw [hu y e hy he h2] at h1
    exact h1
  · exact fun h1 => ⟨e, h1, rfl⟩

theorem SetOf.containsSparse_eq {t : TypeId} {c : CompSet V} (hc : SetOf s t c) (hu : IdxUniq (· ∈ s.life.alive))
    {e : Entity} (he : e ∈ s.life.alive) : c.sparse.containsSparse e.sparse = c.contains e := by
  rw [Bool.eq_iff_iff, hc.wf.rep.containsSparse_iff, hc.wf.contains_iff]
  constructor
  · rintro ⟨y, h1, h2⟩
    rw [← hu y e (hc.alive y h1) he h2]
    exact h1
  · exact fun h1 => ⟨e, h1, rfl⟩

/-- What the view of a part has to be for reads through it to be right: its set, if any, is that of the map. -/
def Faithful (s : MapWorld V) : Part → PartView V → Prop
  | .entity, .entity => True
  | .ref t, .req _ _ c => SetOf s t c
  | .refMut t, .req _ _ c => SetOf s t c
  | .opt t, .opt _ _ c => SetOf s t c
  | .optMut t, .opt _ _ c => SetOf s t c
  | _, _ => False

theorem InvX.faithful (h : InvX w s P) {p : Part} {v : PartView V} (hv : IsView w.components p v) : Faithful s p v := by
  cases p <;> cases v <;> simp only [IsView] at hv
  all_goals try trivial
  all_goals exact h.viewAt hv.2

theorem InvX.faithfuls (h : InvX w s P) {q : Query} {vs : List (PartView V)}
    (hv : List.Forall₂ (IsView w.components) q vs) : List.Forall₂ (Faithful s) q vs :=
  hv.imp fun _ _ => h.faithful

/-- Reading a part by entity shows what the map says. -/
theorem Faithful.get {p : Part} {v : PartView V} (hv : Faithful s p v) (e : Entity) :
    ∃ r, v.get e = .ok r ∧ r.map ItemPart.shown = p.shows s.table e := by
  cases p <;> cases v <;> simp only [Faithful] at hv
  · exact ⟨_, rfl, rfl⟩
  · rename_i t x0 idx c
    rcases hv.get_eq e with ⟨d, x, h1, _, h2, h3⟩ | ⟨h1, h2, _⟩
    · exact ⟨some (.ref idx d x), by simp [PartView.get, h1, h2], by simp [Part.shows, h3, ItemPart.shown]⟩
    · exact ⟨none, by simp [PartView.get, h1], by simp [Part.shows, h2]⟩
  · rename_i t x0 idx c
    rcases hv.get_eq e with ⟨d, x, h1, _, h2, h3⟩ | ⟨h1, h2, _⟩
    · exact ⟨some (.ref idx d x), by simp [PartView.get, h1, h2], by simp [Part.shows, h3, ItemPart.shown]⟩
    · exact ⟨none, by simp [PartView.get, h1], by simp [Part.shows, h2]⟩
  · rename_i t x0 idx c
    rcases hv.get_eq e with ⟨d, x, h1, _, h2, h3⟩ | ⟨h1, h2, _⟩
    · exact ⟨some (.opt (some (idx, d, x))), by simp [PartView.get, h1, h2], by simp [Part.shows, h3, ItemPart.shown]⟩
    · exact ⟨some (.opt none), by simp [PartView.get, h1], by simp [Part.shows, h2, ItemPart.shown]⟩
  · rename_i t x0 idx c
    rcases hv.get_eq e with ⟨d, x, h1, _, h2, h3⟩ | ⟨h1, h2, _⟩
    · exact ⟨some (.opt (some (idx, d, x))), by simp [PartView.get, h1, h2], by simp [Part.shows, h3, ItemPart.shown]⟩
    · exact ⟨some (.opt none), by simp [PartView.get, h1], by simp [Part.shows, h2, ItemPart.shown]⟩

theorem Faithful.contains {p : Part} {v : PartView V} (hv : Faithful s p v) (e : Entity) :
    v.contains e = true ↔ ∀ t, p.required = some t → (s.table.get t e).isSome := by
  cases p <;> cases v <;> simp only [Faithful] at hv
  all_goals try (simp [PartView.contains, Part.required]; done)
  all_goals
    have hc := hv
    simp only [PartView.contains, Part.required, hc.wf.contains_iff, hc.mem, Option.some.injEq, forall_eq']

theorem Faithful.containsRaw (hu : IdxUniq (· ∈ s.life.alive)) {p : Part} {v : PartView V} (hv : Faithful s p v) {e : Entity}
    (he : e ∈ s.life.alive) : v.containsRaw e.sparse = v.contains e := by
  cases p <;> cases v <;> simp only [Faithful] at hv
  all_goals try rfl
  all_goals exact hv.containsSparse_eq hu he

theorem Faithful.sparse (hu : IdxUniq (· ∈ s.life.alive)) {p : Part} {v : PartView V} (hv : Faithful s p v) {e : Entity}
    (he : e ∈ s.life.alive) : v.getSparseRaw e = v.get e := by
  cases p <;> cases v <;> simp only [Faithful] at hv
  all_goals try rfl
  all_goals
    have := hv.getSparse_eq hu he
    simp only [PartView.getSparseRaw, PartView.get, PartView.optRaw, this]
  all_goals
    rcases hv.get_eq e with ⟨d, x, h1, _, h2, h3⟩ | ⟨h1, h2, _⟩ <;> simp [h1, h2]

/-- The set of the part, if it is required, has `e` at position `i`. -/
def PartView.At (i : Nat) (e : Entity) : PartView V → Prop
  | .req _ _ c => c.entities[i]? = some e
  | _ => True

theorem Faithful.dense (hu : IdxUniq (· ∈ s.life.alive)) {p : Part} {v : PartView V} (hv : Faithful s p v) {e : Entity}
    (he : e ∈ s.life.alive) {i : Nat} (hi : v.At i e) :
    ∃ r, v.getDenseRaw i e = .ok r ∧ v.get e = .ok (some r) := by
  cases p <;> cases v <;> simp only [Faithful] at hv
  · exact ⟨_, rfl, rfl⟩
  · rename_i t x0 idx c
    have hc := hv
    obtain ⟨x, hx⟩ := hc.wf.comp_at hi
    have := (hc.wf.rep.get_eq_some e i).2 hi
    exact ⟨.ref idx i x, by simp [PartView.getDenseRaw, hx], by simp [PartView.get, this, hx]⟩
  · rename_i t x0 idx c
    have hc := hv
    obtain ⟨x, hx⟩ := hc.wf.comp_at hi
    have := (hc.wf.rep.get_eq_some e i).2 hi
    exact ⟨.ref idx i x, by simp [PartView.getDenseRaw, hx], by simp [PartView.get, this, hx]⟩
  · have := hv.getSparse_eq hu he
    simp only [PartView.getDenseRaw, PartView.get, PartView.optRaw, this]
    rcases hv.get_eq e with ⟨d, x, h1, _, h2, h3⟩ | ⟨h1, h2, _⟩ <;> simp [h1, h2]
  · have := hv.getSparse_eq hu he
    simp only [PartView.getDenseRaw, PartView.get, PartView.optRaw, this]
    rcases hv.get_eq e with ⟨d, x, h1, _, h2, h3⟩ | ⟨h1, h2, _⟩ <;> simp [h1, h2]

theorem required_cons (p : Part) (q : Query) :
    required (p :: q) = p.required.toList ++ required q := by
  cases hp : p.required <;> simp [required, hp]

/-! ### Reading whole queries -/

theorem Faithful.all_get (e : Entity) : ∀ {q : Query} {vs : List (PartView V)},
    List.Forall₂ (Faithful s) q vs →
    ∃ r, getAll e vs = .ok r ∧ r.map Item.shown = shows s.table e q
  | _, _, .nil => ⟨_, rfl, rfl⟩
  | _, _, .cons hv hvs => by
    obtain ⟨r, h1, h2⟩ := Faithful.get hv e
    obtain ⟨rs, h3, h4⟩ := Faithful.all_get e hvs
    simp only [getAll, h1, h3, Res.bind_ok, shows, ← h2, ← h4]
    cases r with
    | none => exact ⟨none, rfl, rfl⟩
    | some r =>
      cases rs with
      | none => exact ⟨none, rfl, rfl⟩
      | some rs => exact ⟨some (r :: rs), rfl, rfl⟩

/-- The item of `e` exists if `e` has the required components. -/
theorem shows_isSome (tb : Table V) (e : Entity) : ∀ (q : Query),
    (shows tb e q).isSome ↔ ∀ t ∈ required q, (tb.get t e).isSome
  | [] => by simp [shows, required]
  | p :: q => by
    have ih := shows_isSome tb e q
    rw [required_cons]
    cases p <;> simp only [shows, Part.shows, Part.required, Option.toList_some, Option.toList_none, List.nil_append,
      Option.bind_some, Option.isSome_map, ih, List.cons_append, List.mem_cons, forall_eq_or_imp]
    all_goals
      rename_i t
      cases tb.get t e <;> simp [ih]

theorem Faithful.all_contains (e : Entity) : ∀ {q : Query} {vs : List (PartView V)},
    List.Forall₂ (Faithful s) q vs → (containsAll vs e = true ↔ s.Has (required q) e)
  | _, _, .nil => by simp [containsAll, MapWorld.Has, required]
  | _, _, .cons (a := p) (l₁ := q) hv hvs => by
    have h1 := Faithful.contains hv e
    have h2 := Faithful.all_contains e hvs
    simp only [containsAll, List.all_cons, Bool.and_eq_true] at h2 ⊢
    rw [h1, h2, required_cons]
    cases p.required <;> simp [MapWorld.Has]

theorem Faithful.all_containsRaw (hu : IdxUniq (· ∈ s.life.alive)) {e : Entity} (he : e ∈ s.life.alive) : ∀ {q : Query} {vs : List (PartView V)},
    List.Forall₂ (Faithful s) q vs → containsAllRaw vs e.sparse = containsAll vs e
  | _, _, .nil => rfl
  | _, _, .cons hv hvs => by
    have h1 := Faithful.containsRaw hu hv he
    have h2 := Faithful.all_containsRaw hu he hvs
    simp only [containsAllRaw, containsAll, List.all_cons] at h2 ⊢
    rw [h1, h2]

theorem Faithful.none_containsRaw (hu : IdxUniq (· ∈ s.life.alive)) {e : Entity} (he : e ∈ s.life.alive) : ∀ {q : Query}
    {vs : List (PartView V)}, List.Forall₂ (Faithful s) q vs → containsNoneRaw vs e.sparse = containsNone vs e
  | _, _, .nil => rfl
  | _, _, .cons hv hvs => by
    have h1 := Faithful.containsRaw hu hv he
    have h2 := Faithful.none_containsRaw hu he hvs
    simp only [containsNoneRaw, containsNone, List.all_cons] at h2 ⊢
    rw [h1, h2]

theorem Faithful.none_contains (e : Entity) : ∀ {q : Query} {vs : List (PartView V)}, AllRequired q →
    List.Forall₂ (Faithful s) q vs →
    (containsNone vs e = true ↔ ∀ t ∈ required q, s.table.get t e = none)
  | [], _, _, .nil => by simp [containsNone, required]
  | p :: q, _, hr, .cons hv hvs => by
    have h1 := Faithful.contains hv e
    have h2 := Faithful.none_contains e (fun p hp => hr p (.tail _ hp)) hvs
    obtain ⟨t, ht⟩ := Option.isSome_iff_exists.1 (hr p (.head _))
    simp only [containsNone, List.all_cons, Bool.and_eq_true] at h2 ⊢
    rw [h2, required_cons, ht]
    rw [ht] at h1
    simp only [Option.some.injEq, forall_eq'] at h1
    simp only [Option.toList_some, List.cons_append, List.nil_append, List.mem_cons, forall_eq_or_imp]
    rw [Bool.not_eq_true', ← Bool.not_eq_true, h1, Option.not_isSome_iff_eq_none]

theorem Faithful.none_contains_all (e : Entity) : ∀ {q : Query} {vs : List (PartView V)}, List.Forall₂ (Faithful s) q vs →
      (containsNone vs e = true ↔ AllRequired q ∧ ∀ t ∈ required q, s.table.get t e = none)
  | _, _, .nil => by simp [containsNone, AllRequired, required]
  | _, _, .cons (a := p) (b := v) (l₁ := q) hv hvs => by
    have h1 := Faithful.contains hv e
    have h2 := Faithful.none_contains_all e hvs
    simp only [containsNone, List.all_cons, Bool.and_eq_true, Bool.not_eq_true'] at h2 ⊢
    rw [h2, ← Bool.not_eq_true, h1, required_cons]
    cases hp : p.required with
    | none => simp [AllRequired, hp]
    | some t =>
      simp only [Option.some.injEq, forall_eq', Option.toList_some, List.mem_append, List.mem_singleton, AllRequired,
        List.mem_cons, forall_eq_or_imp, hp, Option.isSome_some, true_and, Option.not_isSome_iff_eq_none, List.not_mem_nil, or_false]
      constructor
      · rintro ⟨x1, x2, x3⟩
        exact ⟨x2, x1, x3⟩
      · rintro ⟨x1, x2, x3⟩
        exact ⟨x2, x1, x3⟩

theorem Faithful.all_sparse (hu : IdxUniq (· ∈ s.life.alive)) {e : Entity} (he : e ∈ s.life.alive) : ∀ {q : Query} {vs : List (PartView V)},
    List.Forall₂ (Faithful s) q vs → getAllSparseRaw e vs = getAll e vs
  | _, _, .nil => rfl
  | _, _, .cons hv hvs => by
    simp only [getAllSparseRaw, getAll, Faithful.sparse hu hv he, Faithful.all_sparse hu he hvs]

theorem Faithful.all_dense (hu : IdxUniq (· ∈ s.life.alive)) {e : Entity} (he : e ∈ s.life.alive) {i : Nat} : ∀ {q : Query}
    {vs : List (PartView V)}, List.Forall₂ (Faithful s) q vs → (∀ v ∈ vs, v.At i e) →
    ∃ r, getAllDenseRaw i e vs = .ok r ∧ getAll e vs = .ok (some r)
  | _, _, .nil, _ => ⟨_, rfl, rfl⟩
  | _, _, .cons hv hvs, hi => by
    obtain ⟨r, h1, h2⟩ := Faithful.dense hu hv he (hi _ (.head _))
    obtain ⟨rs, h3, h4⟩ := Faithful.all_dense hu he hvs (fun v hv => hi v (.tail _ hv))
    exact ⟨r :: rs, by simp [getAllDenseRaw, h1, h3], by simp [getAll, h2, h4]⟩

end Read
end Sparsey
