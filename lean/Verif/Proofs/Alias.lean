import Verif.Proofs.Borrow
import Verif.Properties.Queries

/-!
Lemmas about the places of items: which set an item part refers to, and that the items of one iteration refer to
different positions of it.
-/

set_option autoImplicit false
set_option linter.unusedSimpArgs false

namespace Sparsey
variable {V : Type}

/-- What an iteration reads an item from: an entity, and for dense iterations the position. -/
abbrev Key := Entity × Option Nat

/-- The keys are different in what the item is read from. -/
def KeyNe (k l : Key) : Prop := k.1.index ≠ l.1.index ∧ k.2.isSome = l.2.isSome ∧ (k.2.isSome → k.2 ≠ l.2)

/-- The set and position a part refers to. -/
def ItemPart.spot : ItemPart V → Option (Nat × Nat)
  | .entity _ => none
  | .ref idx d _ => some (idx, d)
  | .opt (some (idx, d, _)) => some (idx, d)
  | .opt none => none

theorem ItemPart.place_eq (m : Bool) (y : ItemPart V) : y.place m = y.spot.map fun p => ⟨p.1, p.2, m⟩ := by
  match y with
  | .entity _ => rfl
  | .ref _ _ _ => rfl
  | .opt (some _) => rfl
  | .opt none => rfl

/-- The position `d` of the set of a view belongs to the key. -/
def PartView.PosOf (k : Key) (d : Nat) : PartView V → Prop
  | .entity => False
  | .req _ _ s =>
    match k.2 with
    | some i => d = i
    | none => ∃ x, s.entities[d]? = some x ∧ x.index = k.1.index
  | .opt _ _ s => ∃ x, s.entities[d]? = some x ∧ x.index = k.1.index

/-- The part is from the set of the view. -/
def OfView (v : PartView V) (y : ItemPart V) : Prop :=
  ∀ p, y.spot = some p → ∃ x, v.held = some (p.1, x)

/-- The part is from the set of the view, at the position of the key. -/
def AtView (k : Key) (v : PartView V) (y : ItemPart V) : Prop :=
  ∀ p, y.spot = some p → (∃ x, v.held = some (p.1, x)) ∧ v.PosOf k p.2

/-- The set of a view has a place for each index. -/
def PartView.Ok : PartView V → Prop
  | .entity => True
  | .req _ _ s => s.IdxOk
  | .opt _ _ s => s.IdxOk

theorem PartView.PosOf.unique {v : PartView V} {k l : Key} {d : Nat} (hn : KeyNe k l)
    (hk : v.PosOf k d) (hl : v.PosOf l d) : False := by
  obtain ⟨ke, ki⟩ := k
  obtain ⟨le, li⟩ := l
  obtain ⟨h1, h2, h3⟩ := hn
  have hopt : ∀ (s : CompSet V), (∃ x, s.entities[d]? = some x ∧ x.index = ke.index) →
      (∃ x, s.entities[d]? = some x ∧ x.index = le.index) → False := by
    rintro s ⟨x, hx, hxi⟩ ⟨y, hy, hyi⟩
    rw [hx] at hy
    cases hy
    exact h1 (hxi.symm.trans hyi)
  cases v with
  | entity => exact hk
  | opt x idx s => exact hopt s hk hl
  | req x idx s =>
    cases ki with
    | none =>
      cases li with
      | none => exact hopt s hk hl
      | some j => simp at h2
    | some i =>
      cases li with
      | none => simp at h2
      | some j =>
        simp only [PartView.PosOf] at hk hl
        exact h3 rfl (by simp [← hk, ← hl])

theorem AtView.ofView {k : Key} {v : PartView V} {y : ItemPart V} (h : AtView k v y) : OfView v y := fun p hp => (h p hp).1

theorem IsView.held {c : ComponentStorage V} {p : Part} {v : PartView V} (h : IsView c p v) :
    v.held.map (·.2) = p.access.map (·.2) ∧ (∀ a, v.held = some a → a.2 = p.mutable) := by
  cases p <;> cases v <;> simp_all [IsView, PartView.held, Part.access, Part.mutable] <;> rintro a b rfl rfl <;> rfl

theorem mem_itemPlaces_cons {p : Part} {g : Query} {y : ItemPart V} {it : Item V} {pl : Place} :
    pl ∈ itemPlaces (p :: g) (y :: it) ↔ y.place p.mutable = some pl ∨ pl ∈ itemPlaces g it := by
  unfold itemPlaces
  simp only [List.zip_cons_cons, List.mem_filterMap, List.mem_cons, exists_eq_or_imp]

/-- The access behind a place. -/
def Place.access (p : Place) : Nat × Bool := (p.set, p.writable)

theorem OfView.place {c : ComponentStorage V} {p : Part} {v : PartView V} {y : ItemPart V} {pl : Place}
    (hv : IsView c p v) (h : OfView v y) (hp : y.place p.mutable = some pl) : v.held = some pl.access := by
  rw [ItemPart.place_eq] at hp
  obtain ⟨q, hq, rfl⟩ := Option.map_eq_some_iff.1 hp
  obtain ⟨x, hx⟩ := h q hq
  have := hv.held.2 _ hx
  simp only at this
  rw [hx, this]
  rfl

/-- The places of an item are in sets borrowed for the query. -/
theorem places_held {c : ComponentStorage V} : ∀ {g : Query} {vs : List (PartView V)} {it : Item V},
    List.Forall₂ (IsView c) g vs → List.Forall₂ OfView vs it → ∀ pl ∈ itemPlaces g it, pl.access ∈ heldBy vs
  | _, _, _, .nil, .nil, pl, h => by simp [itemPlaces] at h
  | _, _, _, .cons hv hvs, .cons hy hys, pl, h => by
    rw [heldBy_cons]
    rcases mem_itemPlaces_cons.1 h with h | h
    · rw [hy.place hv h]
      simp
    · exact List.mem_append_right _ (places_held hvs hys pl h)

theorem NoAlias.of_access {p q : Place}
    (h : p.access.1 = q.access.1 → p.access.2 = false ∧ q.access.2 = false) : NoAlias p q := fun h1 _ => h h1

theorem NoAlias.symm {p q : Place} (h : NoAlias p q) : NoAlias q p := fun h1 h2 => (h h1.symm h2.symm).symm

/-- Within an item. -/
theorem places_item {c : ComponentStorage V} : ∀ {g : Query} {vs : List (PartView V)} {it : Item V},
    List.Forall₂ (IsView c) g vs → List.Forall₂ OfView vs it → Compatible (heldBy vs) →
    (itemPlaces g it).Pairwise NoAlias
  | _, _, _, .nil, .nil, _ => by simp [itemPlaces]
  | _, _, _, .cons (a := p) (l₁ := g) hv hvs, .cons (b := y) (l₂ := it) hy hys, hc => by
    rw [heldBy_cons] at hc
    have ih := places_item hvs hys hc.of_append.2
    have he : itemPlaces (p :: g) (y :: it) = (y.place p.mutable).toList ++ itemPlaces g it := by
      unfold itemPlaces
      simp only [List.zip_cons_cons, List.filterMap_cons]
      cases y.place p.mutable <;> rfl
    rw [he, List.pairwise_append]
    refine ⟨by cases y.place p.mutable <;> simp, ih, fun a ha b hb => ?_⟩
    have h1 := hy.place hv (by simpa using ha)
    have h2 := places_held hvs hys b hb
    refine NoAlias.of_access ((List.pairwise_append.1 hc).2.2 _ ?_ _ h2)
    rw [h1]
    simp

/-- Between items. -/
theorem places_items {c : ComponentStorage V} {k l : Key} (hn : KeyNe k l) : ∀ {g : Query} {vs : List (PartView V)}
    {it it' : Item V}, List.Forall₂ (IsView c) g vs → List.Forall₂ (AtView k) vs it → List.Forall₂ (AtView l) vs it' →
    Compatible (heldBy vs) → ∀ p ∈ itemPlaces g it, ∀ q ∈ itemPlaces g it', NoAlias p q
  | _, _, _, _, .nil, .nil, .nil, _, p, hp, _, _ => by simp [itemPlaces] at hp
  | _, _, _, _, .cons hv hvs, .cons hy hys, .cons hz hzs, hc, p, hp, q, hq => by
    rw [heldBy_cons] at hc
    have hc' := (List.pairwise_append.1 hc).2.2
    have hys' := hys.imp fun _ _ h => h.ofView
    have hzs' := hzs.imp fun _ _ h => h.ofView
    rcases mem_itemPlaces_cons.1 hp with hp | hp <;> rcases mem_itemPlaces_cons.1 hq with hq | hq
    · intro _ hpos
      rw [ItemPart.place_eq] at hp hq
      obtain ⟨a, ha, rfl⟩ := Option.map_eq_some_iff.1 hp
      obtain ⟨b, hb, rfl⟩ := Option.map_eq_some_iff.1 hq
      simp only at hpos
      exact absurd ((hz b hb).2) (fun hz' => PartView.PosOf.unique hn (hpos ▸ (hy a ha).2) hz')
    · have h1 := hy.ofView.place hv hp
      exact NoAlias.of_access (hc' _ (by rw [h1]; simp) _ (places_held hvs hzs' q hq))
    · have h1 := hz.ofView.place hv hq
      exact (NoAlias.of_access (hc' _ (by rw [h1]; simp) _ (places_held hvs hys' p hp))).symm
    · exact places_items hn hvs hys hzs hc.of_append.2 p hp q hq

/-- All items of an iteration. -/
theorem places_keys {c : ComponentStorage V} {g : Query} {vs : List (PartView V)} (hv : List.Forall₂ (IsView c) g vs)
    (hc : Compatible (heldBy vs)) : ∀ {ks : List Key} {its : List (Item V)},
    List.Forall₂ (fun k it => List.Forall₂ (AtView k) vs it) ks its → ks.Pairwise KeyNe →
    (its.flatMap (itemPlaces g)).Pairwise NoAlias
  | _, _, .nil, _ => by simp
  | _, _, .cons (l₁ := ks) (l₂ := its) h hs, hn => by
    rw [List.flatMap_cons, List.pairwise_append]
    rw [List.pairwise_cons] at hn
    refine ⟨places_item hv (h.imp fun _ _ h => h.ofView) hc, places_keys hv hc hs hn.2, fun p hp q hq => ?_⟩
    obtain ⟨it, hit, hq⟩ := List.mem_flatMap.1 hq
    obtain ⟨n, hn', rfl⟩ := List.getElem_of_mem hit
    have hl := hs.length_eq
    have h3 := (List.forall₂_iff_get.1 hs).2 n (by omega) hn'
    exact places_items (hn.1 _ (List.getElem_mem (by omega))) hv h h3 hc p hp q hq

theorem places_keys_held {c : ComponentStorage V} {g : Query} {vs : List (PartView V)}
    (hv : List.Forall₂ (IsView c) g vs) {ks : List Key} {its : List (Item V)}
    (h : List.Forall₂ (fun k it => List.Forall₂ (AtView k) vs it) ks its) :
    ∀ pl ∈ its.flatMap (itemPlaces g), pl.access ∈ heldBy vs := by
  intro pl hp
  obtain ⟨it, hit, hp⟩ := List.mem_flatMap.1 hp
  obtain ⟨n, hn', rfl⟩ := List.getElem_of_mem hit
  have hl := h.length_eq
  have h3 := (List.forall₂_iff_get.1 h).2 n (by omega) hn'
  exact places_held hv (List.Forall₂.imp (fun _ _ h => h.ofView) h3) pl hp

/-! ### Where the items of iterations are read from -/

theorem PartView.get_of {e : Entity} {v : PartView V} {y : ItemPart V} (h : v.get e = .ok (some y)) : OfView v y := by
  intro p hp
  cases v with
  | entity =>
    simp only [PartView.get, Res.ok.injEq, Option.some.injEq] at h
    subst h
    cases hp
  | req x idx s =>
    simp only [PartView.get] at h
    split at h
    · simp at h
    · rw [Res.bind_eq_ok] at h
      obtain ⟨a, _, h⟩ := h
      simp only [Res.pure_eq, Res.ok.injEq, Option.some.injEq] at h
      subst h
      cases hp
      exact ⟨x, rfl⟩
  | opt x idx s =>
    simp only [PartView.get] at h
    split at h
    · simp only [Res.ok.injEq, Option.some.injEq] at h
      subst h
      cases hp
    · rw [Res.bind_eq_ok] at h
      obtain ⟨a, _, h⟩ := h
      simp only [Res.pure_eq, Res.ok.injEq, Option.some.injEq] at h
      subst h
      cases hp
      exact ⟨x, rfl⟩

theorem getAll_of {e : Entity} : ∀ {vs : List (PartView V)} {it : Item V}, getAll e vs = .ok (some it) →
    List.Forall₂ OfView vs it
  | [], it, h => by
    simp only [getAll, Res.ok.injEq, Option.some.injEq] at h
    subst h
    exact .nil
  | v :: vs, it, h => by
    simp only [getAll] at h
    obtain ⟨r, h1, h⟩ := Res.bind_ok' h
    cases r with
    | none => simp at h
    | some y =>
      obtain ⟨r, h2, h⟩ := Res.bind_ok' h
      cases r with
      | none => simp at h
      | some is =>
        simp only [Res.pure_eq, Res.ok.injEq, Option.some.injEq] at h
        subst h
        exact .cons (PartView.get_of h1) (getAll_of h2)

theorem optRaw_at {x : Bool} {idx : Nat} {s : CompSet V} (hs : s.IdxOk) {e : Entity} {y : ItemPart V} (i : Option Nat)
    (h : PartView.optRaw idx s e = .ok y) : AtView (e, i) (.opt x idx s) y := by
  intro p hp
  unfold PartView.optRaw at h
  cases hg : s.sparse.getSparse e.sparse with
  | none =>
    rw [hg] at h
    simp only [Res.ok.injEq] at h
    subst h
    cases hp
  | some d =>
    rw [hg] at h
    simp only at h
    rw [Res.bind_eq_ok] at h
    obtain ⟨a, _, h⟩ := h
    simp only [Res.pure_eq, Res.ok.injEq] at h
    subst h
    cases hp
    exact ⟨⟨x, rfl⟩, hs.rep.getSparse_iff.1 hg⟩

theorem PartView.getSparseRaw_at {v : PartView V} (hv : v.Ok) {e : Entity} {y : ItemPart V}
    (h : v.getSparseRaw e = .ok (some y)) : AtView (e, none) v y := by
  cases v with
  | entity =>
    simp only [PartView.getSparseRaw, Res.ok.injEq, Option.some.injEq] at h
    subst h
    intro p hp
    cases hp
  | req x idx s =>
    intro p hp
    simp only [PartView.getSparseRaw] at h
    cases hg : s.sparse.getSparse e.sparse with
    | none => rw [hg] at h; simp at h
    | some d =>
      rw [hg] at h
      simp only at h
      rw [Res.bind_eq_ok] at h
      obtain ⟨a, _, h⟩ := h
      simp only [Res.pure_eq, Res.ok.injEq, Option.some.injEq] at h
      subst h
      cases hp
      exact ⟨⟨x, rfl⟩, hv.rep.getSparse_iff.1 hg⟩
  | opt x idx s =>
    simp only [PartView.getSparseRaw] at h
    rw [Res.bind_eq_ok] at h
    obtain ⟨a, h1, h⟩ := h
    simp only [Res.pure_eq, Res.ok.injEq, Option.some.injEq] at h
    subst h
    exact optRaw_at hv _ h1

theorem PartView.getDenseRaw_at {v : PartView V} (hv : v.Ok) {e : Entity} {i : Nat} {y : ItemPart V}
    (h : v.getDenseRaw i e = .ok y) : AtView (e, some i) v y := by
  cases v with
  | entity =>
    simp only [PartView.getDenseRaw, Res.ok.injEq] at h
    subst h
    intro p hp
    cases hp
  | req x idx s =>
    intro p hp
    simp only [PartView.getDenseRaw] at h
    rw [Res.bind_eq_ok] at h
    obtain ⟨a, _, h⟩ := h
    simp only [Res.pure_eq, Res.ok.injEq] at h
    subst h
    cases hp
    exact ⟨⟨x, rfl⟩, rfl⟩
  | opt x idx s => exact optRaw_at hv _ h

theorem getAllSparseRaw_at {e : Entity} : ∀ {vs : List (PartView V)} {it : Item V}, (∀ v ∈ vs, v.Ok) →
    getAllSparseRaw e vs = .ok (some it) → List.Forall₂ (AtView (e, none)) vs it
  | [], it, _, h => by
    simp only [getAllSparseRaw, Res.ok.injEq, Option.some.injEq] at h
    subst h
    exact .nil
  | v :: vs, it, hv, h => by
    simp only [getAllSparseRaw] at h
    obtain ⟨r, h1, h⟩ := Res.bind_ok' h
    cases r with
    | none => simp at h
    | some y =>
      obtain ⟨r, h2, h⟩ := Res.bind_ok' h
      cases r with
      | none => simp at h
      | some is =>
        simp only [Res.pure_eq, Res.ok.injEq, Option.some.injEq] at h
        subst h
        exact .cons (PartView.getSparseRaw_at (hv v (.head _)) h1)
          (getAllSparseRaw_at (fun v h => hv v (.tail _ h)) h2)

theorem getAllDenseRaw_at {e : Entity} {i : Nat} : ∀ {vs : List (PartView V)} {it : Item V}, (∀ v ∈ vs, v.Ok) →
    getAllDenseRaw i e vs = .ok it → List.Forall₂ (AtView (e, some i)) vs it
  | [], it, _, h => by
    simp only [getAllDenseRaw, Res.ok.injEq] at h
    subst h
    exact .nil
  | v :: vs, it, hv, h => by
    simp only [getAllDenseRaw] at h
    obtain ⟨y, h1, h⟩ := Res.bind_ok' h
    obtain ⟨is, h2, h⟩ := Res.bind_ok' h
    simp only [Res.pure_eq, Res.ok.injEq] at h
    subst h
    exact .cons (PartView.getDenseRaw_at (hv v (.head _)) h1) (getAllDenseRaw_at (fun v h => hv v (.tail _ h)) h2)

/-- The views an iterator reads. -/
def Iter.views : Iter V → List (PartView V)
  | .sparse it => it.get
  | .dense it => it.get

/-- What the iterator reads its items from, in order. -/
def Iter.keys : Iter V → List Key
  | .sparse it => it.entities.map fun e => (e, none)
  | .dense it => (List.range' it.start (it.stop - it.start)).filterMap fun i => it.entities[i]?.map fun e => (e, some i)

/-- The items of one iteration. -/
def ItemsAt (vs : List (PartView V)) (ks : List Key) (its : List (Item V)) : Prop :=
  List.Forall₂ (fun k it => List.Forall₂ (AtView k) vs it) ks its

theorem SparseIter.item_at {it : SparseIter V} (hv : ∀ v ∈ it.get, v.Ok) {e : Entity} {y : Item V}
    (h : it.item e = .ok (some y)) : List.Forall₂ (AtView (e, none)) it.get y := by
  unfold SparseIter.item at h
  split at h
  · simp at h
  · split at h
    · simp at h
    · exact getAllSparseRaw_at hv h

theorem DenseIter.item_at {it : DenseIter V} (hv : ∀ v ∈ it.get, v.Ok) {i : Nat} {y : Item V}
    (h : it.item i = .ok y) : ∃ e, it.entities[i]? = some e ∧ List.Forall₂ (AtView (e, some i)) it.get y := by
  unfold DenseIter.item at h
  obtain ⟨e, h1, h2⟩ := Res.bind_ok' h
  exact ⟨e, Res.unchecked_ok h1, getAllDenseRaw_at hv h2⟩

theorem SparseIter.foldFrom_at {it : SparseIter V} (hv : ∀ v ∈ it.get, v.Ok) : ∀ {es : List Entity} {xs : List (Item V)},
    it.foldFrom es = .ok xs → ∃ ks, ks.Sublist (es.map fun e => ((e, none) : Key)) ∧ ItemsAt it.get ks xs
  | [], xs, h => by
    simp only [SparseIter.foldFrom, Res.ok.injEq] at h
    subst h
    exact ⟨[], .refl _, .nil⟩
  | e :: es, xs, h => by
    simp only [SparseIter.foldFrom] at h
    obtain ⟨r, h1, h⟩ := Res.bind_ok' h
    cases r with
    | none =>
      obtain ⟨ks, h2, h3⟩ := SparseIter.foldFrom_at hv h
      exact ⟨ks, h2.cons _, h3⟩
    | some y =>
      obtain ⟨ys, h2, h⟩ := Res.bind_ok' h
      simp only [Res.pure_eq, Res.ok.injEq] at h
      subst h
      obtain ⟨ks, h3, h4⟩ := SparseIter.foldFrom_at hv h2
      exact ⟨(e, none) :: ks, h3.cons_cons _, .cons (SparseIter.item_at hv h1) h4⟩

theorem DenseIter.foldFrom_at {it : DenseIter V} (hv : ∀ v ∈ it.get, v.Ok) : ∀ {n i : Nat} {xs : List (Item V)},
    it.foldFrom i n = .ok xs →
    ItemsAt it.get ((List.range' i n).filterMap fun i => it.entities[i]?.map fun e => ((e, some i) : Key)) xs
  | 0, i, xs, h => by
    simp only [DenseIter.foldFrom, Res.ok.injEq] at h
    subst h
    exact .nil
  | n + 1, i, xs, h => by
    simp only [DenseIter.foldFrom] at h
    obtain ⟨y, h1, h⟩ := Res.bind_ok' h
    obtain ⟨ys, h2, h⟩ := Res.bind_ok' h
    simp only [Res.pure_eq, Res.ok.injEq] at h
    subst h
    obtain ⟨e, h3, h4⟩ := DenseIter.item_at hv h1
    rw [List.range'_succ, List.filterMap_cons, h3]
    exact .cons h4 (DenseIter.foldFrom_at hv h2)

theorem Iter.fold_at {it : Iter V} (hv : ∀ v ∈ it.views, v.Ok) {xs : List (Item V)} (h : it.fold = .ok xs) :
    ∃ ks, ks.Sublist it.keys ∧ ItemsAt it.views ks xs := by
  cases it with
  | sparse it => exact SparseIter.foldFrom_at hv h
  | dense it => exact ⟨_, .refl _, DenseIter.foldFrom_at hv h⟩

theorem SparseIter.nextFrom_at {it : SparseIter V} (hv : ∀ v ∈ it.get, v.Ok) : ∀ {es es' : List Entity}
    {x : Option (Item V)}, it.nextFrom es = .ok (x, es') →
    ∃ ks, (ks ++ es'.map fun e => ((e, none) : Key)).Sublist (es.map fun e => ((e, none) : Key)) ∧
      ItemsAt it.get ks x.toList
  | [], es', x, h => by
    simp only [SparseIter.nextFrom, Res.ok.injEq, Prod.mk.injEq] at h
    obtain ⟨rfl, rfl⟩ := h
    exact ⟨[], .refl _, .nil⟩
  | e :: es, es', x, h => by
    simp only [SparseIter.nextFrom] at h
    obtain ⟨r, h1, h⟩ := Res.bind_ok' h
    cases r with
    | none =>
      obtain ⟨ks, h2, h3⟩ := SparseIter.nextFrom_at hv h
      exact ⟨ks, h2.cons _, h3⟩
    | some y =>
      simp only [Res.pure_eq, Res.ok.injEq, Prod.mk.injEq] at h
      obtain ⟨rfl, rfl⟩ := h
      exact ⟨[(e, none)], .refl _, .cons (SparseIter.item_at hv h1) .nil⟩

theorem Iter.next_at {it it' : Iter V} (hv : ∀ v ∈ it.views, v.Ok) {x : Option (Item V)} (h : it.next = .ok (x, it')) :
    it'.views = it.views ∧ ∃ ks, (ks ++ it'.keys).Sublist it.keys ∧ ItemsAt it.views ks x.toList := by
  cases it with
  | sparse it =>
    simp only [Iter.next, SparseIter.next, Res.bind_assoc'] at h
    obtain ⟨⟨y, es⟩, h1, h⟩ := Res.bind_ok' h
    simp only [Res.pure_eq, Res.bind_ok, Res.ok.injEq, Prod.mk.injEq] at h
    obtain ⟨rfl, rfl⟩ := h
    exact ⟨rfl, SparseIter.nextFrom_at hv h1⟩
  | dense it =>
    simp only [Iter.next, DenseIter.next] at h
    by_cases hlt : it.start < it.stop
    · rw [if_pos hlt, Res.bind_assoc'] at h
      obtain ⟨y, h1, h⟩ := Res.bind_ok' h
      simp only [Res.pure_eq, Res.bind_ok, Res.ok.injEq, Prod.mk.injEq] at h
      obtain ⟨rfl, rfl⟩ := h
      obtain ⟨e, h2, h3⟩ := DenseIter.item_at hv h1
      refine ⟨rfl, [(e, some it.start)], ?_, .cons h3 .nil⟩
      simp only [Iter.keys]
      have : it.stop - it.start = (it.stop - (it.start + 1)) + 1 := by omega
      rw [this, List.range'_succ, List.filterMap_cons, h2]
      exact .refl _
    · rw [if_neg hlt] at h
      simp only [Res.pure_eq, Res.bind_ok, Res.ok.injEq, Prod.mk.injEq] at h
      obtain ⟨rfl, rfl⟩ := h
      exact ⟨rfl, [], .refl _, .nil⟩

theorem Iter.nexts_at : ∀ {n : Nat} {it it' : Iter V} {xs : List (Option (Item V))}, (∀ v ∈ it.views, v.Ok) →
    it.nexts n = .ok (xs, it') → ∃ ks, ks.Sublist it.keys ∧ ItemsAt it.views ks xs.reduceOption
  | 0, it, it', xs, _, h => by
    simp only [Iter.nexts, Res.ok.injEq, Prod.mk.injEq] at h
    obtain ⟨rfl, rfl⟩ := h
    exact ⟨[], List.nil_sublist _, .nil⟩
  | n + 1, it, it', xs, hv, h => by
    simp only [Iter.nexts] at h
    obtain ⟨⟨x, it1⟩, h1, h⟩ := Res.bind_ok' h
    obtain ⟨⟨ys, it2⟩, h2, h⟩ := Res.bind_ok' h
    simp only [Res.pure_eq, Res.ok.injEq, Prod.mk.injEq] at h
    obtain ⟨rfl, rfl⟩ := h
    obtain ⟨h3, ks, h4, h5⟩ := Iter.next_at hv h1
    obtain ⟨ls, h6, h7⟩ := Iter.nexts_at (by rw [h3]; exact hv) h2
    rw [h3] at h7
    refine ⟨ks ++ ls, (List.Sublist.append (.refl _) h6).trans h4, ?_⟩
    have : (x :: ys).reduceOption = x.toList ++ ys.reduceOption := by cases x <;> simp [List.reduceOption]
    rw [this]
    exact List.rel_append h5 h7

/-- The entities of an iterator are different in index. -/
theorem keys_ne {it : Iter V}
    (h : match it with
      | .sparse it => (it.entities.map (·.index)).Nodup
      | .dense it => (it.entities.map (·.index)).Nodup) : it.keys.Pairwise KeyNe := by
  cases it with
  | sparse it =>
    simp only [Iter.keys, List.pairwise_map]
    have h1 : it.entities.Pairwise fun a b => a.index ≠ b.index := List.pairwise_map.1 h
    exact h1.imp fun hab => ⟨hab, rfl, by simp⟩
  | dense it =>
    simp only at h
    simp only [Iter.keys, List.pairwise_filterMap]
    refine (List.nodup_range' (step := 1)).imp ?_
    intro i j hij k hk l hl
    obtain ⟨e, he, rfl⟩ := Option.map_eq_some_iff.1 hk
    obtain ⟨e', he', rfl⟩ := Option.map_eq_some_iff.1 hl
    refine ⟨fun heq => hij ?_, rfl, by simpa using hij⟩
    obtain ⟨hi, rfl⟩ := List.getElem?_eq_some_iff.1 he
    obtain ⟨hj, rfl⟩ := List.getElem?_eq_some_iff.1 he'
    exact (List.Nodup.getElem_inj_iff h (hi := by simpa using hi) (hj := by simpa using hj)).1 (by simpa using heq)

theorem views_ok {c : ComponentStorage V} (hs : ∀ s ∈ c.components, s.IdxOk) : ∀ {q : Query} {vs : List (PartView V)},
    List.Forall₂ (IsView c) q vs → ∀ v ∈ vs, v.Ok
  | _, _, .nil, v, hv => by cases hv
  | _, _, .cons (a := p) h hvs, v, hv => by
    rcases List.mem_cons.1 hv with rfl | hv
    · cases p <;> cases v <;> simp only [IsView] at h
      · trivial
      all_goals
        obtain ⟨_, m, _, _, hm⟩ := h
        exact hs _ (List.mem_of_getElem? hm)
    · exact views_ok hs hvs v hv

theorem shortest_of : ∀ {vs : List (PartView V)} {acc : Option (List Entity)} {es : List Entity},
    shortest acc vs = some es → acc = some es ∨ ∃ v ∈ vs, v.entities = some es
  | [], acc, es, h => .inl h
  | v :: vs, acc, es, h => by
    simp only [shortest] at h
    cases hn : v.entities with
    | none =>
      rw [hn] at h
      rcases shortest_of h with h | ⟨v', hv', h⟩
      · exact .inl h
      · exact .inr ⟨v', .tail _ hv', h⟩
    | some new =>
      rw [hn] at h
      cases acc with
      | none =>
        rcases shortest_of h with h | ⟨v', hv', h⟩
        · exact .inr ⟨v, .head _, by rw [hn]; exact h⟩
        · exact .inr ⟨v', .tail _ hv', h⟩
      | some old =>
        rcases shortest_of h with h | ⟨v', hv', h⟩
        · split at h
          · exact .inr ⟨v, .head _, by rw [hn]; exact h⟩
          · exact .inl h
        · exact .inr ⟨v', .tail _ hv', h⟩

theorem firstEntities_of : ∀ {vs : List (PartView V)} {es : List Entity}, firstEntities vs = some es →
    ∃ v ∈ vs, v.entities = some es
  | [], es, h => by cases h
  | v :: vs, es, h => by
    simp only [firstEntities] at h
    split at h
    · rename_i es' hn
      exact ⟨v, .head _, by rw [hn]; exact h⟩
    · obtain ⟨v', hv', h⟩ := firstEntities_of h
      exact ⟨v', .tail _ hv', h⟩

theorem PartView.Ok.nodup {v : PartView V} (h : v.Ok) {es : List Entity} (he : v.entities = some es) :
    (es.map (·.index)).Nodup := by
  cases v with
  | entity => cases he
  | req x idx s =>
    simp only [PartView.entities, Option.some.injEq] at he
    subst he
    exact h.rep.nodup_index
  | opt x idx s => cases he

/-- The iterator of a query: it reads the views of the query, from entities that differ in index. -/
theorem QueryAll.iter_keys {q : QueryAll V} (hg : ∀ v ∈ q.get, v.Ok) (hi : ∀ v ∈ q.inc, v.Ok) {it : Iter V}
    (h : q.iter = .ok it) : it.views = q.get ∧ it.keys.Pairwise KeyNe := by
  unfold QueryAll.iter at h
  obtain ⟨r, _, h⟩ := Res.bind_ok' h
  have hs : ∀ {vs : List (PartView V)} {es : List Entity}, (∀ v ∈ vs, v.Ok) → shortest none vs = some es →
      (es.map (·.index)).Nodup := by
    intro vs es hv h
    rcases shortest_of h with h | ⟨v, hm, h⟩
    · cases h
    · exact (hv v hm).nodup h
  cases r with
  | some p =>
    obtain ⟨a, b⟩ := p
    obtain ⟨es, h1, h⟩ := Res.bind_ok' h
    simp only [Res.pure_eq, Res.ok.injEq] at h
    subst h
    refine ⟨rfl, keys_ne ?_⟩
    simp only
    cases hf : firstEntities q.get with
    | none =>
      rw [hf] at h1
      cases hsh : shortest none q.inc with
      | none => rw [hsh] at h1; simp [Res.checked] at h1
      | some es' =>
        rw [hsh] at h1
        simp only [Option.none_or, Res.checked, Res.ok.injEq] at h1
        subst h1
        exact hs hi hsh
    | some es' =>
      rw [hf] at h1
      simp only [Option.some_or, Res.checked, Res.ok.injEq] at h1
      subst h1
      obtain ⟨v, hm, hv⟩ := firstEntities_of hf
      exact (hg v hm).nodup hv
  | none =>
    simp only [Res.pure_eq, Res.ok.injEq] at h
    subst h
    refine ⟨rfl, keys_ne ?_⟩
    simp only [QueryAll.chooseEntities]
    cases h1 : shortest none q.get with
    | none =>
      cases h2 : shortest none q.inc with
      | none => simp
      | some es => exact hs hi h2
    | some es =>
      cases h2 : shortest none q.inc with
      | none => exact hs hg h1
      | some es' =>
        simp only
        split
        · exact hs hg h1
        · exact hs hi h2

/-! ### Slices -/

theorem SlicePart.pairwise (m : Bool) (y : SlicePart V) : (y.places m).Pairwise NoAlias := by
  cases y with
  | entities es => exact .nil
  | unit => exact .nil
  | comps idx first vs =>
    simp only [SlicePart.places, List.pairwise_map]
    refine List.nodup_range.imp fun {a b} hab _ hpos => ?_
    simp only at hpos
    omega

theorem slicePlaces_held {c : ComponentStorage V} {es : List Entity} {a b : Nat} :
    ∀ {g : Query} {vs : List (PartView V)} {sl : List (SlicePart V)}, List.Forall₂ (IsView c) g vs →
    sliceAllRaw es a b vs = .ok sl → Compatible (heldBy vs) →
    (∀ pl ∈ slicePlaces g sl, pl.access ∈ heldBy vs) ∧ (slicePlaces g sl).Pairwise NoAlias
  | _, _, sl, .nil, h, _ => by
    simp only [sliceAllRaw, Res.ok.injEq] at h
    subst h
    simp [slicePlaces]
  | _, _, sl, .cons (a := p) (b := v) (l₁ := g) (l₂ := vs) hv hvs, h, hc => by
    simp only [sliceAllRaw] at h
    obtain ⟨y, h1, h⟩ := Res.bind_ok' h
    obtain ⟨ys, h2, h⟩ := Res.bind_ok' h
    simp only [Res.pure_eq, Res.ok.injEq] at h
    subst h
    rw [heldBy_cons] at hc ⊢
    obtain ⟨ih1, ih2⟩ := slicePlaces_held hvs h2 hc.of_append.2
    have he : slicePlaces (p :: g) (y :: ys) = y.places p.mutable ++ slicePlaces g ys := by
      simp only [slicePlaces, List.zip_cons_cons, List.flatMap_cons]
    have h3 : ∀ pl ∈ y.places p.mutable, pl.access ∈ v.held.toList := by
      intro pl hpl
      cases y with
      | entities es => cases hpl
      | unit => cases hpl
      | comps idx first xs =>
        obtain ⟨j, _, rfl⟩ := List.mem_map.1 hpl
        cases v with
        | entity =>
          simp only [PartView.sliceRaw] at h1
          split at h1 <;> simp at h1
        | opt x i s => simp [PartView.sliceRaw] at h1
        | req x i s =>
          simp only [PartView.sliceRaw] at h1
          split at h1
          · simp only [Res.ok.injEq, SlicePart.comps.injEq] at h1
            obtain ⟨rfl, _, _⟩ := h1
            have := hv.held.2 _ rfl
            simp only [PartView.held, Option.toList_some, Place.access, List.mem_singleton, Prod.mk.injEq, true_and]
            exact this.symm
          · simp at h1
    rw [he]
    constructor
    · intro pl hpl
      rcases List.mem_append.1 hpl with hpl | hpl
      · exact List.mem_append_left _ (h3 pl hpl)
      · exact List.mem_append_right _ (ih1 pl hpl)
    · rw [List.pairwise_append]
      exact ⟨y.pairwise _, ih2, fun p hp q hq =>
        NoAlias.of_access ((List.pairwise_append.1 hc).2.2 _ (h3 p hp) _ (ih1 q hq))⟩

end Sparsey
