import Verif.Spec.Sights
import Verif.Properties.Uses
import Verif.Properties.VisitOrder
import Verif.Properties.Labels
import Verif.Proofs.Tables

/-!
C74: what queries show, in every reachable world, in terms of the rows and labels of views.
-/

set_option autoImplicit false
set_option linter.unusedSimpArgs false

namespace Sparsey
variable {V : Type}

theorem viewAt_rows {w : World V} {t : TypeId} {idx : Nat} {s : CompSet V} (hv : ViewAt w.components t idx s) :
    w.rows t = s.rows := by
  obtain ⟨m, h1, rfl, h2⟩ := hv
  rw [rows_eq, ComponentStorage.rowsAt_get h1 h2]

theorem viewAt_sheet {w : World V} {t : TypeId} {idx : Nat} {s : CompSet V} (hv : ViewAt w.components t idx s) :
    w.sheet t = s.sheet := by
  obtain ⟨m, h1, rfl, h2⟩ := hv
  rw [sheet_eq, ComponentStorage.sheetAt, h1]
  simp [sheetI, h2]

/-- A lookup by index. -/
theorem rowOf_slot {w : World V} (hc : Sound w.components) {t : TypeId} {idx : Nat} {s : CompSet V}
    (hv : ViewAt w.components t idx s) (e : Entity) :
    (w.rowOf t e = none ∧ s.sparse.getSparse e.sparse = none ∧ s.sparse.containsSparse e.sparse = false) ∨
    ∃ i v, w.rowOf t e = some v ∧ s.sparse.getSparse e.sparse = some i ∧ s.components[i]? = some v ∧
      s.sparse.containsSparse e.sparse = true := by
  have hs := hc.view hv
  unfold World.rowOf
  rw [viewAt_rows hv]
  unfold SparseVec.getSparse SparseVec.containsSparse
  rcases CompSet.sheet_slot hs e with ⟨h1, h2⟩ | ⟨i, n, x, v, h1, h2, h3, h4, h5, h6, h7⟩
  · left
    have h3 : (s.rows.find? fun p => p.1.index == e.index) = none := by
      rw [List.find?_eq_none]
      intro y hy
      simpa using List.findIdx?_eq_none_iff.1 h1 y hy
    refine ⟨by rw [h3]; rfl, ?_, ?_⟩
    · show (match s.sparse.slots[e.index]? with | none => none | some slot => slot.map Slot.index) = none
      cases h4 : s.sparse.slots[e.index]? with
      | none => rfl
      | some o =>
        cases o with
        | none => rfl
        | some sl => exact absurd h4 (h2 sl)
    · show (match s.sparse.slots[e.index]? with | some (some _) => true | _ => false) = false
      cases h4 : s.sparse.slots[e.index]? with
      | none => rfl
      | some o =>
        cases o with
        | none => rfl
        | some sl => exact absurd h4 (h2 sl)
  · right
    refine ⟨i, v, ?_, ?_, h6, ?_⟩
    · obtain ⟨hi, hp, hlt⟩ := List.findIdx?_eq_some_iff_getElem.1 h1
      have h8 : s.rows.find? (fun p => p.1.index == e.index) = some (x, v) := by
        rw [List.find?_eq_some_iff_getElem]
        refine ⟨by simp [h5], i, hi, ?_, fun j hj => ?_⟩
        · have : s.rows[i]? = some s.rows[i] := List.getElem?_eq_getElem hi
          rw [h7] at this
          exact (Option.some.inj this).symm
        · have := hlt j hj
          show (!(s.sheet.rows[j].1.index == e.index)) = true
          simpa using this
      rw [h8]
      rfl
    · show (match s.sparse.slots[e.index]? with | none => none | some slot => slot.map Slot.index) = _
      rw [h3]
      rfl
    · show (match s.sparse.slots[e.index]? with | some (some _) => true | _ => false) = true
      rw [h3]

/-- A lookup by version. -/
theorem label_slot {w : World V} (hc : Sound w.components) {t : TypeId} {idx : Nat} {s : CompSet V}
    (hv : ViewAt w.components t idx s) (e : Entity) :
    ((w.sheet t).get e = none ∧ s.sparse.get e = none ∧ s.contains e = false) ∨
    ∃ i v, (w.sheet t).get e = some v ∧ s.sparse.get e = some i ∧ s.components[i]? = some v ∧ s.contains e = true := by
  have hs := hc.view hv
  rw [viewAt_sheet hv]
  have h1 := CompSet.sheet_get hs e
  unfold CompSet.get at h1
  cases hg : s.sparse.get e with
  | none =>
    left
    rw [hg] at h1
    refine ⟨(Res.ok.inj h1).symm, rfl, ?_⟩
    unfold CompSet.contains SparseVec.contains
    unfold SparseVec.get at hg
    cases h2 : s.sparse.slots[e.sparse]? with
    | none => rfl
    | some o =>
      cases o with
      | none => rfl
      | some sl =>
        rw [h2] at hg
        by_cases hvv : sl.version = e.version
        · simp [hvv, Option.filter] at hg
        · simp [hvv]
  | some i =>
    right
    rw [hg] at h1
    obtain ⟨v, h2, h1⟩ := Res.bind_ok' h1
    refine ⟨i, v, (Res.ok.inj h1).symm, rfl, Res.unchecked_ok h2, ?_⟩
    unfold CompSet.contains SparseVec.contains
    unfold SparseVec.get at hg
    cases h2 : s.sparse.slots[e.sparse]? with
    | none => rw [h2] at hg; cases hg
    | some o =>
      rw [h2] at hg
      cases o with
      | none => simp at hg
      | some sl =>
        by_cases hvv : sl.version = e.version
        · simp [hvv]
        · simp [hvv, Option.filter] at hg

/-- The components found by index. -/
def World.byIndex (w : World V) (e : Entity) (t : TypeId) : Option V := w.rowOf t e

/-- The components found by version. -/
def World.byLabel (w : World V) (e : Entity) (t : TypeId) : Option V := (w.sheet t).get e

theorem raw_part {w : World V} (hc : Sound w.components) (e : Entity) {p : Part} {v : PartView V}
    (hv : IsView w.components p v) :
    ∃ o, v.getSparseRaw e = .ok o ∧ o.map ItemPart.shown = p.sees (w.byIndex e) (w.byIndex e) e ∧
      v.containsRaw e.sparse = (match p.required with
        | some t => (w.byIndex e t).isSome
        | none => true) := by
  cases p <;> cases v <;> simp only [IsView] at hv
  case entity.entity => exact ⟨_, rfl, rfl, rfl⟩
  case ref.req | refMut.req =>
    rcases rowOf_slot hc hv.2 e with ⟨h1, h2, h3⟩ | ⟨i, v, h1, h2, h3, h4⟩
    · exact ⟨none, by simp [PartView.getSparseRaw, h2], by simp [Part.sees, World.byIndex, h1],
        by simp [PartView.containsRaw, Part.required, World.byIndex, h1, h3]⟩
    · exact ⟨_, by simp [PartView.getSparseRaw, h2, h3]; rfl, by simp [Part.sees, World.byIndex, h1, ItemPart.shown],
        by simp [PartView.containsRaw, Part.required, World.byIndex, h1, h4]⟩
  case opt.opt | optMut.opt =>
    rcases rowOf_slot hc hv.2 e with ⟨h1, h2, h3⟩ | ⟨i, v, h1, h2, h3, h4⟩
    · exact ⟨_, by simp [PartView.getSparseRaw, PartView.optRaw, h2]; rfl,
        by simp [Part.sees, World.byIndex, h1, ItemPart.shown], rfl⟩
    · exact ⟨_, by simp [PartView.getSparseRaw, PartView.optRaw, h2, h3]; rfl,
        by simp [Part.sees, World.byIndex, h1, ItemPart.shown], rfl⟩

theorem one_part {w : World V} (hc : Sound w.components) (e : Entity) {p : Part} {v : PartView V}
    (hv : IsView w.components p v) :
    ∃ o, v.get e = .ok o ∧ o.map ItemPart.shown = p.sees (w.byLabel e) (w.byLabel e) e ∧
      v.contains e = (match p.required with
        | some t => (w.byLabel e t).isSome
        | none => true) := by
  cases p <;> cases v <;> simp only [IsView] at hv
  case entity.entity => exact ⟨_, rfl, rfl, rfl⟩
  case ref.req | refMut.req =>
    rcases label_slot hc hv.2 e with ⟨h1, h2, h3⟩ | ⟨i, v, h1, h2, h3, h4⟩
    · exact ⟨none, by simp [PartView.get, h2], by simp [Part.sees, World.byLabel, h1],
        by simp [PartView.contains, Part.required, World.byLabel, h1, h3]⟩
    · exact ⟨_, by simp [PartView.get, h2, h3]; rfl, by simp [Part.sees, World.byLabel, h1, ItemPart.shown],
        by simp [PartView.contains, Part.required, World.byLabel, h1, h4]⟩
  case opt.opt | optMut.opt =>
    rcases label_slot hc hv.2 e with ⟨h1, h2, h3⟩ | ⟨i, v, h1, h2, h3, h4⟩
    · exact ⟨_, by simp [PartView.get, h2]; rfl, by simp [Part.sees, World.byLabel, h1, ItemPart.shown], rfl⟩
    · exact ⟨_, by simp [PartView.get, h2, h3]; rfl, by simp [Part.sees, World.byLabel, h1, ItemPart.shown], rfl⟩

theorem dense_part {w : World V} (hc : Sound w.components) (k : Nat) (e : Entity) {p : Part} {v : PartView V}
    (hv : IsView w.components p v) {y : ItemPart V} (hy : v.getDenseRaw k e = .ok y) :
    some y.shown = p.sees (fun t => ((w.rows t)[k]?).map Prod.snd) (w.byIndex e) e := by
  cases p <;> cases v <;> simp only [IsView] at hv
  case entity.entity => cases hy; rfl
  case ref.req | refMut.req =>
    have hs := hc.view hv.2
    obtain ⟨u, h1, hy⟩ := Res.bind_ok' hy
    cases hy
    have h1 := Res.unchecked_ok h1
    have hlt : k < _ := (List.getElem?_eq_some_iff.1 h1).1
    have hl := hs.len
    obtain ⟨u', h2, h3⟩ := CompSet.rows_get hs (List.getElem?_eq_getElem (hl ▸ hlt))
    rw [h1] at h2
    cases h2
    simp only [Part.sees, viewAt_rows hv.2, h3, Option.map_some]
    rfl
  case opt.opt | optMut.opt =>
    simp only [PartView.getDenseRaw, PartView.optRaw] at hy
    rcases rowOf_slot hc hv.2 e with ⟨h1, h2, h3⟩ | ⟨i, v, h1, h2, h3, h4⟩
    · rw [h2] at hy
      cases hy
      simp [Part.sees, World.byIndex, h1, ItemPart.shown]
    · rw [h2] at hy
      simp only [h3, Res.unchecked_some, Res.bind_ok] at hy
      cases hy
      simp [Part.sees, World.byIndex, h1, ItemPart.shown]

theorem raw_parts {w : World V} (hc : Sound w.components) (e : Entity) : ∀ {q : Query} {vs : List (PartView V)},
    List.Forall₂ (IsView w.components) q vs →
    (∃ o, getAllSparseRaw e vs = .ok o ∧ o.map Item.shown = sees (w.byIndex e) (w.byIndex e) e q) ∧
    containsAllRaw vs e.sparse = (required q).all (fun t => (w.byIndex e t).isSome) ∧
    containsNoneRaw vs e.sparse = q.all fun p => match p.required with
      | some t => (w.byIndex e t).isNone
      | none => false
  | [], _, .nil => ⟨⟨_, rfl, rfl⟩, rfl, rfl⟩
  | p :: q, _, .cons (b := v) (l₂ := vs) hv hvs => by
    obtain ⟨⟨o', h1, h2⟩, h3, h4⟩ := raw_parts hc e hvs
    obtain ⟨o, h5, h6, h7⟩ := raw_part hc e hv
    refine ⟨?_, ?_, ?_⟩
    · rw [getAllSparseRaw, h5, sees, ← h6, ← h2]
      cases o with
      | none => exact ⟨none, rfl, rfl⟩
      | some y =>
        simp only [Res.bind_ok, h1]
        cases o' with
        | none => exact ⟨none, rfl, rfl⟩
        | some ys => exact ⟨_, rfl, rfl⟩
    · have : containsAllRaw (v :: vs) e.sparse = (v.containsRaw e.sparse && containsAllRaw vs e.sparse) := rfl
      rw [this, h3, h7, required_cons]
      cases p.required with
      | none => rfl
      | some t => rfl
    · have : containsNoneRaw (v :: vs) e.sparse = (!v.containsRaw e.sparse && containsNoneRaw vs e.sparse) := rfl
      rw [this, h4, h7, List.all_cons]
      cases p.required with
      | none => rfl
      | some t => simp

theorem one_parts {w : World V} (hc : Sound w.components) (e : Entity) : ∀ {q : Query} {vs : List (PartView V)},
    List.Forall₂ (IsView w.components) q vs →
    (∃ o, getAll e vs = .ok o ∧ o.map Item.shown = sees (w.byLabel e) (w.byLabel e) e q) ∧
    containsAll vs e = (required q).all (fun t => (w.byLabel e t).isSome) ∧
    containsNone vs e = q.all fun p => match p.required with
      | some t => (w.byLabel e t).isNone
      | none => false
  | [], _, .nil => ⟨⟨_, rfl, rfl⟩, rfl, rfl⟩
  | p :: q, _, .cons (b := v) (l₂ := vs) hv hvs => by
    obtain ⟨⟨o', h1, h2⟩, h3, h4⟩ := one_parts hc e hvs
    obtain ⟨o, h5, h6, h7⟩ := one_part hc e hv
    refine ⟨?_, ?_, ?_⟩
    · rw [getAll, h5, sees, ← h6, ← h2]
      cases o with
      | none => exact ⟨none, rfl, rfl⟩
      | some y =>
        simp only [Res.bind_ok, h1]
        cases o' with
        | none => exact ⟨none, rfl, rfl⟩
        | some ys => exact ⟨_, rfl, rfl⟩
    · have : containsAll (v :: vs) e = (v.contains e && containsAll vs e) := rfl
      rw [this, h3, h7, required_cons]
      cases p.required with
      | none => rfl
      | some t => rfl
    · have : containsNone (v :: vs) e = (!v.contains e && containsNone vs e) := rfl
      rw [this, h4, h7, List.all_cons]
      cases p.required with
      | none => rfl
      | some t => simp

theorem dense_parts {w : World V} (hc : Sound w.components) (k : Nat) (e : Entity) : ∀ {q : Query} {vs : List (PartView V)},
    List.Forall₂ (IsView w.components) q vs → ∀ {y : Item V}, getAllDenseRaw k e vs = .ok y →
    some y.shown = sees (fun t => ((w.rows t)[k]?).map Prod.snd) (w.byIndex e) e q
  | [], _, .nil, y, hy => by cases hy; rfl
  | p :: q, _, .cons (b := v) (l₂ := vs) hv hvs, y, hy => by
    rw [getAllDenseRaw] at hy
    obtain ⟨a, h1, hy⟩ := Res.bind_ok' hy
    obtain ⟨as, h2, hy⟩ := Res.bind_ok' hy
    cases hy
    rw [sees, ← dense_part hc k e hv h1, ← dense_parts hc k e hvs h2]
    rfl

theorem SparseIter.foldFrom_shown {w : World V} (hc : Sound w.components) {g i x : Query} {it : SparseIter V}
    (hg : List.Forall₂ (IsView w.components) g it.get) (hi : List.Forall₂ (IsView w.components) i it.inc)
    (hx : List.Forall₂ (IsView w.components) x it.exc) : ∀ es : List Entity,
    ∃ its, it.foldFrom es = .ok its ∧ its.map Item.shown = es.filterMap fun e => look (w.byIndex e) g i x e
  | [] => ⟨[], rfl, rfl⟩
  | e :: es => by
    obtain ⟨its, h1, h2⟩ := foldFrom_shown hc hg hi hx es
    obtain ⟨⟨o, h3, h4⟩, _⟩ := raw_parts hc e hg
    obtain ⟨_, h5, _⟩ := raw_parts hc e hi
    obtain ⟨_, _, h6⟩ := raw_parts hc e hx
    have h7 : ∃ o', it.item e = .ok o' ∧ o'.map Item.shown = look (w.byIndex e) g i x e := by
      unfold SparseIter.item look passes
      rw [h5, h6, h3]
      cases (List.all x fun p => match p.required with
        | some t => (w.byIndex e t).isNone
        | none => false) with
      | false => exact ⟨none, rfl, by simp⟩
      | true =>
        cases (required i).all (fun t => (w.byIndex e t).isSome) with
        | false => exact ⟨none, rfl, by simp⟩
        | true => exact ⟨o, rfl, by simpa using h4⟩
    obtain ⟨o', h8, h9⟩ := h7
    rw [SparseIter.foldFrom, h8, List.filterMap_cons, ← h9]
    cases o' with
    | none => exact ⟨its, h1, h2⟩
    | some y => exact ⟨y :: its, by simp [h1], by simp [h2]⟩

theorem borrow_rows {w : World V} (hc : Sound w.components) {t : TypeId} {c : CompSet V} (hb : w.borrow t = .ok c) :
    c.entities = (w.rows t).map Prod.fst ∧ c.len = (w.rows t).length := by
  obtain ⟨m, hm, hs⟩ : ∃ m, w.components.meta? t = some m ∧ w.components.components[m.storageIndex]? = some c := by
    unfold World.borrow at hb
    cases hm : w.components.meta? t with
    | none => rw [hm] at hb; cases hb
    | some m => rw [hm] at hb; exact ⟨m, rfl, Res.unchecked_ok hb⟩
  have hv : ViewAt w.components t m.storageIndex c := ⟨m, hm, rfl, hs⟩
  have := (hc.view hv).len
  rw [viewAt_rows hv]
  unfold CompSet.rows CompSet.len
  exact ⟨(List.map_fst_zip (by omega)).symm, by rw [List.length_zip]; omega⟩

/-- **C74, iteration without a group.** In every reachable world it shows what the rows of the required types say: for each entity
of the first shortest set, in the order of its rows, the components in the rows of the same index, unless a required or included
one is missing or an excluded one is there. Versions are not looked at. -/
theorem C74 {h : History V} {w : World V} (hr : Reach World.empty h w) {b b' : Borrows} {g i x : Query} {q : QueryAll V}
    (hq : QueryAll.new w b g i x = .ok (q, b')) {it : Iter V} (hit : q.iter = .ok it) (hd : it.isDense = false) :
    ∃ (es : List Entity) (its : List (Item V)), q.items = .ok its ∧
      its.map Item.shown = es.filterMap (fun e => look (fun t => w.rowOf t e) g i x e) ∧
      ((required g ++ required i = [] ∧ es = []) ∨
        ∃ l t r, required g ++ required i = l ++ t :: r ∧ es = (w.rows t).map Prod.fst ∧
          (∀ t' ∈ l, (w.rows t).length < (w.rows t').length) ∧ ∀ t' ∈ r, (w.rows t).length ≤ (w.rows t').length) := by
  have hc := (reach_sound hr).2
  have ho := QueryAll.new_ok hq
  have hvis := C60_visits hr hq hit hd
  cases it with
  | dense d => cases hd
  | sparse it =>
    have hparts : it.get = q.get ∧ it.inc = q.inc ∧ it.exc = q.exc := by
      unfold QueryAll.iter at hit
      obtain ⟨r, _, hit⟩ := Res.bind_ok' hit
      cases r with
      | some ab =>
        obtain ⟨a, b⟩ := ab
        obtain ⟨es, _, hit⟩ := Res.bind_ok' hit
        cases hit
      | none => cases hit; exact ⟨rfl, rfl, rfl⟩
    obtain ⟨p1, p2, p3⟩ := hparts
    obtain ⟨its, h1, h2⟩ := SparseIter.foldFrom_shown hc (p1 ▸ ho.get) (p2 ▸ ho.inc) (p3 ▸ ho.exc) it.entities
    refine ⟨it.entities, its, ?_, h2, ?_⟩
    · rw [QueryAll.items, hit]
      exact h1
    · rcases hvis with h3 | ⟨c, ⟨l, t, r, h3, h4, h5, h6⟩, h7⟩
      · exact .inl h3
      · refine .inr ⟨l, t, r, h3, h7.trans (borrow_rows hc h4).1, fun t' ht' => ?_, fun t' ht' => ?_⟩
        · obtain ⟨c', h8, h9⟩ := h5 t' ht'
          rw [← (borrow_rows hc h4).2, ← (borrow_rows hc h8).2]
          exact h9
        · obtain ⟨c', h8, h9⟩ := h6 t' ht'
          rw [← (borrow_rows hc h4).2, ← (borrow_rows hc h8).2]
          exact h9

theorem sees_isSome (need may : TypeId → Option V) (e : Entity) : ∀ q : Query,
    (sees need may e q).isSome = (required q).all fun t => (need t).isSome
  | [] => rfl
  | p :: q => by
    have ih := sees_isSome need may e q
    rw [sees, required_cons]
    cases p with
    | entity => simpa [Part.sees, Part.required] using ih
    | opt t => simpa [Part.sees, Part.required] using ih
    | optMut t => simpa [Part.sees, Part.required] using ih
    | ref t => cases h : need t <;> simp [Part.sees, Part.required, h, ih]
    | refMut t => cases h : need t <;> simp [Part.sees, Part.required, h, ih]

/-- **C74, queries of one entity.** In every reachable world they go by the labels of the views. -/
theorem C74_one {h : History V} {w : World V} (hr : Reach World.empty h w) {b b' : Borrows} {g i x : Query} {q : QueryOne V}
    (hq : QueryOne.new w b g i x = .ok (q, b')) (e : Entity) :
    (∃ o, q.getItem e = .ok o ∧ o.map Item.shown = look (fun t => (w.sheet t).get e) g i x e) ∧
    q.contains e = (look (fun t => (w.sheet t).get e) g i x e).isSome := by
  have hc := (reach_sound hr).2
  obtain ⟨h1, h2, h3⟩ := QueryOne.new_ok hq
  obtain ⟨⟨o, h4, h5⟩, h4', _⟩ := one_parts hc e h1
  obtain ⟨_, h6, _⟩ := one_parts hc e h2
  obtain ⟨_, _, h7⟩ := one_parts hc e h3
  have hsome := sees_isSome (w.byLabel e) (w.byLabel e) e g
  rw [← h4'] at hsome
  show (∃ o, q.getItem e = .ok o ∧ o.map Item.shown = look (w.byLabel e) g i x e) ∧
    q.contains e = (look (w.byLabel e) g i x e).isSome
  unfold QueryOne.getItem QueryOne.contains look passes
  rw [h6, h7, h4]
  cases (List.all x fun p => match p.required with
    | some t => (w.byLabel e t).isNone
    | none => false) with
  | false => exact ⟨⟨none, rfl, by simp⟩, by simp⟩
  | true =>
    cases (required i).all (fun t => (w.byLabel e t).isSome) with
    | false => exact ⟨⟨none, rfl, by simp⟩, by simp⟩
    | true => exact ⟨⟨o, rfl, by simpa using h5⟩, by simpa using hsome.symm⟩

theorem DenseIter.foldFrom_shown {w : World V} (hc : Sound w.components) {g : Query} {it : DenseIter V}
    (hg : List.Forall₂ (IsView w.components) g it.get) : ∀ (n k : Nat) {its : List (Item V)}, it.foldFrom k n = .ok its →
    its.map (fun y => some y.shown) = (List.range' k n).map fun j => (it.entities[j]?).bind fun e =>
      sees (fun t => ((w.rows t)[j]?).map Prod.snd) (w.byIndex e) e g
  | 0, k, its, h => by cases h; rfl
  | n + 1, k, its, h => by
    rw [DenseIter.foldFrom] at h
    obtain ⟨y, h1, h⟩ := Res.bind_ok' h
    obtain ⟨ys, h2, h⟩ := Res.bind_ok' h
    cases h
    unfold DenseIter.item at h1
    obtain ⟨e, h3, h1⟩ := Res.bind_ok' h1
    rw [List.range'_succ, List.map_cons, List.map_cons, ← foldFrom_shown hc hg n (k + 1) h2, Res.unchecked_ok h3,
      Option.bind_some, dense_parts hc k e hg h1]

theorem firstEntities_eq {w : World V} : ∀ {q : Query} {vs : List (PartView V)}, List.Forall₂ (IsView w.components) q vs →
    (required q = [] ∧ firstEntities vs = none) ∨
      ∃ t ts idx s, required q = t :: ts ∧ ViewAt w.components t idx s ∧ firstEntities vs = some s.entities
  | [], _, .nil => .inl ⟨rfl, rfl⟩
  | p :: q, _, .cons (b := v) (l₂ := vs) hv hvs => by
    have ih := firstEntities_eq hvs
    rw [required_cons, firstEntities]
    cases p <;> cases v <;> simp only [IsView] at hv
    case entity.entity | opt.opt | optMut.opt => exact ih
    case ref.req | refMut.req => exact .inr ⟨_, _, _, _, rfl, hv.2, rfl⟩

theorem dense_shownBy {w : World V} (hc : Sound w.components) {g i x : Query} {q : QueryAll V} (ho : q.Of w g i x) {es : List Entity}
    (he : (firstEntities q.get).or (shortest none q.inc) = some es) : w.ShownBy g i es := by
  rcases firstEntities_eq ho.get with ⟨h1, h2⟩ | ⟨t, ts, idx, s, h1, h2, h3⟩
  · right
    refine ⟨h1, ?_⟩
    rw [h2, Option.none_or] at he
    obtain ⟨r, h3, h4, h5⟩ := shortest_eq ho.inc none
    rw [Option.map_none] at h3
    rw [h3] at he
    cases r with
    | none => cases he
    | some c =>
      cases he
      obtain ⟨_, _, h6⟩ := h5 c rfl
      rcases h6 with h6 | ⟨_, l, t, r, h6, h7, h8, h9⟩
      · cases h6
      · refine ⟨l, t, r, h6, (borrow_rows hc h7).1, fun t' ht' => ?_, fun t' ht' => ?_⟩
        · obtain ⟨c', j1, j2⟩ := h8 t' ht'
          rw [← (borrow_rows hc h7).2, ← (borrow_rows hc j1).2]
          exact j2
        · obtain ⟨c', j1, j2⟩ := h9 t' ht'
          rw [← (borrow_rows hc h7).2, ← (borrow_rows hc j1).2]
          exact j2
  · left
    rw [h3, Option.some_or] at he
    cases he
    exact ⟨t, ts, h1, (borrow_rows hc (borrow_of_viewAt h2)).1⟩

/-- **C74, iteration by positions.** In every reachable world an iteration over a group shows at each position the components at this
position of the views of the required types, whatever their entities are, and the optional components by index; the entity is
the one at this position of the view of the first required type. -/
theorem C74_group {h : History V} {w : World V} (hr : Reach World.empty h w) {b b' : Borrows} {g i x : Query} {q : QueryAll V}
    (hq : QueryAll.new w b g i x = .ok (q, b')) {d : DenseIter V} (hit : q.iter = .ok (.dense d)) {its : List (Item V)}
    (hits : q.items = .ok its) :
    ∃ es, w.ShownBy g i es ∧
      its.map (fun y => some y.shown) = (List.range' d.start (d.stop - d.start)).map fun j => (es[j]?).bind fun e =>
        sees (fun t => ((w.rows t)[j]?).map Prod.snd) (fun t => w.rowOf t e) e g := by
  have hc := (reach_sound hr).2
  have ho := QueryAll.new_ok hq
  rw [QueryAll.items, hit] at hits
  unfold QueryAll.iter at hit
  obtain ⟨r, _, hit⟩ := Res.bind_ok' hit
  cases r with
  | none => cases hit
  | some ab =>
    obtain ⟨a, b⟩ := ab
    obtain ⟨es, h1, hit⟩ := Res.bind_ok' hit
    cases hit
    exact ⟨es, dense_shownBy hc ho (Res.checked_ok h1), DenseIter.foldFrom_shown hc ho.get _ _ hits⟩

theorem slice_parts {w : World V} (hc : Sound w.components) (es : List Entity) (a b : Nat) : ∀ {q : Query} {vs : List (PartView V)},
    List.Forall₂ (IsView w.components) q vs → ∀ {xs : List (SlicePart V)}, sliceAllRaw es a b vs = .ok xs →
    xs.map SlicePart.shown = q.map (Part.seesSlice w es a b)
  | [], _, .nil, xs, h => by cases h; rfl
  | p :: q, _, .cons (b := v) (l₂ := vs) hv hvs, xs, h => by
    rw [sliceAllRaw] at h
    obtain ⟨y, h1, h⟩ := Res.bind_ok' h
    obtain ⟨ys, h2, h⟩ := Res.bind_ok' h
    cases h
    rw [List.map_cons, List.map_cons, slice_parts hc es a b hvs h2]
    congr 1
    cases p <;> cases v <;> simp only [IsView] at hv
    case entity.entity =>
      simp only [PartView.sliceRaw] at h1
      split at h1
      · cases h1; rfl
      · cases h1
    case ref.req | refMut.req =>
      simp only [PartView.sliceRaw] at h1
      split at h1
      · cases h1
        have := (hc.view hv.2).len
        simp only [SlicePart.shown, Part.seesSlice, viewAt_rows hv.2]
        rw [CompSet.rows, List.map_snd_zip (by omega)]
      · cases h1
    case opt.opt | optMut.opt => cases h1; rfl

/-- **C74, slices.** In every reachable world a slice shows the components of the views of the required types from the first one on
(finding 3), as many as the range has positions, and the entities at the positions of the range. -/
theorem C74_slice {h : History V} {w : World V} (hr : Reach World.empty h w) {b b' : Borrows} {g i x : Query} {q : QueryAll V}
    (hq : QueryAll.new w b g i x = .ok (q, b')) {xs : List (SlicePart V)} (hs : q.slice = .ok (some xs)) :
    ∃ d es, q.iter = .ok (.dense d) ∧ w.ShownBy g i es ∧
      xs.map SlicePart.shown = g.map (Part.seesSlice w es d.start d.stop) := by
  have hc := (reach_sound hr).2
  have ho := QueryAll.new_ok hq
  obtain ⟨it, hit⟩ := (C31_iter hr hq).1
  have hit' := hit
  unfold QueryAll.iter at hit
  unfold QueryAll.slice at hs
  obtain ⟨r, h0, hit⟩ := Res.bind_ok' hit
  rw [h0, Res.bind_ok] at hs
  cases r with
  | none => cases hs
  | some ab =>
    obtain ⟨a, b⟩ := ab
    obtain ⟨es, h1, hit⟩ := Res.bind_ok' hit
    cases hit
    have h1 := Res.checked_ok h1
    obtain ⟨xs', h2, hs⟩ := Res.bind_ok' hs
    cases hs
    rw [h1] at h2
    exact ⟨_, es, hit', dense_shownBy hc ho h1, slice_parts hc es a b ho.get h2⟩

/-! ### Examples -/

/-- Two entities of different versions exchange their rows in the view of 0 (finding 9); 5 is in no group. -/
def sightOps : List (Op Nat) :=
  [.setLayout anyOrder [[0, 1]], .register 5, .create [], .destroy ⟨0, 1⟩, .create [(0, 10)], .create [(0, 20), (1, 30), (5, 50)],
    .insert ⟨0, 2⟩ [(5, 51)]]

/-- Iteration goes by index and shows both entities; a query of one entity goes by labels and finds neither; with the group a range
of positions is shown. -/
example : holdsAfter sightOps (fun _ w =>
    decide ((w.rows 0) = [(⟨1, 1⟩, 20), (⟨0, 2⟩, 10)] ∧ (w.sheet 0).labels = [2, 1] ∧ w.rows 5 = [(⟨1, 1⟩, 50), (⟨0, 2⟩, 51)] ∧
      look (fun t => w.rowOf t ⟨1, 1⟩) [.entity, .ref 0, .ref 5, .opt 1] [] [] ⟨1, 1⟩ =
        some [.entity ⟨1, 1⟩, .comp 20, .comp 50, .maybe (some 30)] ∧
      look (fun t => w.rowOf t ⟨0, 2⟩) [.entity, .ref 0, .ref 5, .opt 1] [] [] ⟨0, 2⟩ =
        some [.entity ⟨0, 2⟩, .comp 10, .comp 51, .maybe none] ∧
      look (fun t => w.rowOf t ⟨0, 2⟩) [.entity, .ref 5] [.ref 0] [.ref 1] ⟨0, 2⟩ = some [.entity ⟨0, 2⟩, .comp 51] ∧
      look (fun t => w.rowOf t ⟨1, 1⟩) [.entity, .ref 5] [.ref 0] [.ref 1] ⟨1, 1⟩ = none ∧
      look (fun t => (w.sheet t).get ⟨1, 1⟩) [.entity, .ref 0, .ref 5, .opt 1] [] [] ⟨1, 1⟩ = none ∧
      look (fun t => (w.sheet t).get ⟨1, 1⟩) [.opt 0, .ref 5] [] [.ref 0] ⟨1, 1⟩ = some [.maybe none, .comp 50]) &&
    itemsAre w [.entity, .ref 0, .ref 5, .opt 1] [] [] (fun its => decide (its.map Item.shown =
      [[.entity ⟨1, 1⟩, .comp 20, .comp 50, .maybe (some 30)], [.entity ⟨0, 2⟩, .comp 10, .comp 51, .maybe none]])) &&
    itemsAre w [.entity, .refMut 0, .opt 5] [.ref 1] [] (fun its => decide (its.map Item.shown =
      [[.entity ⟨1, 1⟩, .comp 20, .maybe (some 50)]]))) = true := by decide +kernel

end Sparsey
