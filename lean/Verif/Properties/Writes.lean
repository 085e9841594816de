import Verif.Proofs.Places
import Verif.Properties.Aliasing

/-!
C21: writes through views, query items and positions.
-/

set_option autoImplicit false
set_option linter.unusedSimpArgs false

namespace Sparsey
variable {V : Type}

/-- Nothing changed but the component of type `t` of `e`, which is now `v`. -/
structure OnlyWrote (w w' : World V) (t : TypeId) (e : Entity) (v : V) : Prop where
  wrote : w'.viewGet t e = .ok (some v)
  reads : ∀ t' x, t' ≠ t ∨ x ≠ e → w'.viewGet t' x = w.viewGet t' x
  alive : w'.entitiesSlice = w.entitiesSlice ∧ ∀ x, w'.containsEntity x = w.containsEntity x
  registered : ∀ t', w'.isRegistered t' = w.isRegistered t'

theorem World.poke_only {w : World V} (hc : Sound w.components) {t : TypeId} {idx pos : Nat} {s : CompSet V}
    (hv : ViewAt w.components t idx s) {e : Entity} (hg : s.sparse.get e = some pos) (hp : pos < s.components.length)
    (v : V) : OnlyWrote w (w.poke idx s pos v) t e v where
  wrote := by rw [World.poke_get_same hv hp, if_pos hg]
  reads t' x hne := by
    by_cases ht : t' = t
    · subst ht
      rw [World.poke_get_same hv hp, if_neg]
      intro hx
      have hrep := (hc.sets s (by obtain ⟨m, _, _, hs⟩ := hv; exact List.mem_of_getElem? hs)).rep
      rcases hne with hne | hne
      · exact hne rfl
      · exact hne (hrep.get_inj hx hg)
    · exact World.poke_get_ne hc.static hv ht v x
  alive := ⟨rfl, fun _ => rfl⟩
  registered _ := rfl

/-- C21, views, in every reachable world: a write through `ViewMut::get_mut(e)` finds a component exactly if one is read,
changes it and nothing else; if it finds none the world is unchanged. -/
theorem C21 {h : History V} {w : World V} (hr : Reach World.empty h w) {t : TypeId} (ht : w.isRegistered t = true)
    (e : Entity) (v : V) :
    ∃ b w', step w (.write t e v) = some (.bool b, w') ∧
      (b = true ↔ ∃ u, w.viewGet t e = .ok (some u)) ∧
      (b = true → OnlyWrote w w' t e v) ∧ (b = false → w' = w) := by
  have hc := (reach_sound hr).2
  obtain ⟨idx, s, hv, hi⟩ := World.viewAt_of_registered hc ht
  rw [World.viewGet_of hv]
  rcases World.writeView_eq hc hv e v with ⟨hg, hw⟩ | ⟨pos, hg, hp, hw⟩
  · refine ⟨false, w, by simp [step, retRes, hw], ?_, by simp, fun _ => rfl⟩
    simp [CompSet.get, hg]
  · refine ⟨true, _, by simp [step, retRes, hw], ?_, fun _ => World.poke_only hc hv hg hp v, by simp⟩
    simp [CompSet.get, hg, List.getElem?_eq_getElem hp]

example : holdsAfter mixOps (fun _ w => decide (w.isRegistered 0 = true ∧ w.viewGet 0 ⟨0, 1⟩ = .ok (some 10))) = true := by
  decide

/-- C21, positions, in every reachable world: writing to a position of a component slice changes at most one read, and
makes it `v`. -/
theorem C21_once {h : History V} {w w' : World V} (hr : Reach World.empty h w) {t : TypeId} {pos : Nat} {v : V}
    (hw : step w (.writeAt t pos v) = some (.unit, w')) :
    w'.entitiesSlice = w.entitiesSlice ∧ (∀ t', w'.isRegistered t' = w.isRegistered t') ∧
    (∀ t' x, w'.viewGet t' x ≠ w.viewGet t' x → t' = t ∧ w'.viewGet t' x = .ok (some v)) ∧
    ∀ x y, w'.viewGet t x ≠ w.viewGet t x → w'.viewGet t y ≠ w.viewGet t y → x = y := by
  have hc := (reach_sound hr).2
  rcases retRes_some hw with rfl | ⟨w1, h1, h2⟩
  · exact ⟨rfl, fun _ => rfl, fun _ _ h => absurd rfl h, fun _ _ h => absurd rfl h⟩
  · simp only [Prod.mk.injEq, true_and] at h2
    subst h2
    have h1' := h1
    unfold World.writeAt at h1
    cases hm : w.components.meta? t with
    | none => rw [hm] at h1; cases h1
    | some m =>
      rw [hm] at h1
      obtain ⟨s, hs, h1⟩ := Res.bind_ok' h1
      obtain ⟨s', h2, h1⟩ := Res.bind_ok' h1
      have hs := Res.unchecked_ok hs
      have hv : ViewAt w.components t m.storageIndex s := ⟨m, hm, rfl, hs⟩
      have hp : pos < s.components.length := by
        unfold CompSet.setAt at h2
        obtain ⟨u, hu, _⟩ := Res.bind_ok' h2
        by_contra hlt
        rw [List.getElem?_eq_none (by omega)] at hu
        cases hu
      rw [World.writeAt_eq hv hp v] at h1'
      cases h1'
      have hrep := (hc.sets s (List.mem_of_getElem? hs)).rep
      have hgot : ∀ x, (w.poke m.storageIndex s pos v).viewGet t x ≠ w.viewGet t x → s.sparse.get x = some pos := by
        intro x hx
        rw [World.poke_get_same hv hp] at hx
        by_contra hg
        rw [if_neg hg] at hx
        exact hx rfl
      refine ⟨rfl, fun _ => rfl, fun t' x hx => ?_, fun x y hx hy => hrep.get_inj (hgot x hx) (hgot y hy)⟩
      by_cases ht : t' = t
      · subst ht
        refine ⟨rfl, ?_⟩
        rw [World.poke_get_same hv hp, if_pos (hgot x hx)]
      · exact absurd (World.poke_get_ne hc.static hv ht v x) hx

/-- Writes to positions of sets, also after an exchange of entities of different versions. -/
example : holdsAfter mixOps (fun _ w => decide ((step w (.writeAt 0 0 99)).map (·.1) = some .unit) &&
    decide ((step w (.writeAt 0 1 99)).map (·.1) = some .unit)) = true := by decide

/-- C21, positions: a write to the position of `e` in the view (`as_mut_slice()[pos] = v` where
`entities()[pos] = e`) is the same as the write through `get_mut(e)`. Missing: histories that are not `Fair`. -/
theorem C21_at_partial {h : History V} {w : World V} (hr : Reach World.empty h w) (hg : Fair (calls h)) {t : TypeId}
    {c : CompSet V} (hb : w.borrow t = .ok c) {pos : Nat} {e : Entity} (he : c.entities[pos]? = some e) (v : V) :
    ∃ w', step w (.writeAt t pos v) = some (.unit, w') ∧ step w (.write t e v) = some (.bool true, w') ∧
      OnlyWrote w w' t e v := by
  have hi := reach_invL hr hg
  have hc := (reach_sound hr).2
  have hv : ∃ idx, ViewAt w.components t idx c := by
    unfold World.borrow at hb
    cases hm : w.components.meta? t with
    | none => rw [hm] at hb; cases hb
    | some m =>
      rw [hm] at hb
      exact ⟨_, m, hm, rfl, Res.unchecked_ok hb⟩
  obtain ⟨idx, hv⟩ := hv
  have hset := hi.viewAt hv
  obtain ⟨u, hu⟩ := (hc.sets c (by obtain ⟨m, _, _, hs⟩ := hv; exact List.mem_of_getElem? hs)).comp_at he
  have hp := (List.getElem?_eq_some_iff.1 hu).1
  rcases hset.get_eq e with ⟨d, v', h1, h2, h3, h4⟩ | ⟨_, _, h3⟩
  · have hrep := (hc.sets c (by obtain ⟨m, _, _, hs⟩ := hv; exact List.mem_of_getElem? hs)).rep
    have hd : d = pos := hrep.pos_unique h2 he rfl
    subst hd
    refine ⟨_, by simp [step, retRes, World.writeAt_eq hv hp v], ?_, World.poke_only hc hv h1 hp v⟩
    rcases World.writeView_eq hc hv e v with ⟨hg, _⟩ | ⟨pos, hg, _, hw⟩
    · rw [hg] at h1; cases h1
    · rw [hg] at h1
      cases h1
      simp [step, retRes, hw]
  · exact absurd (List.mem_of_getElem? he) h3

example : Fair goodOps ∧ holdsAfter goodOps (fun _ w => match w.borrow 9 with
    | .ok c => decide (c.entities[2]? = some ⟨4, 1⟩)
    | _ => false) = true := by decide +kernel

/-- C21 is false for positions in general: after an exchange of entities of different versions the entity at the position
is not the one whose read changes. -/
theorem C21_at_false : ∃ (h : History Nat) (w w' : World Nat) (c : CompSet Nat), Reach World.empty h w ∧
    w.borrow 0 = .ok c ∧ c.entities[0]? = some ⟨1, 1⟩ ∧ step w (.writeAt 0 0 99) = some (.unit, w') ∧
    w'.viewGet 0 ⟨1, 1⟩ = .ok none ∧ w'.viewGet 0 ⟨1, 2⟩ = .ok (some 99) := by
  obtain ⟨rs, w, hr, hf⟩ := reach_witness (ops := mixOps)
    (f := fun _ w => match w.borrow 0, step w (.writeAt 0 0 99) with
      | .ok c, some (.unit, w') => decide (c.entities[0]? = some ⟨1, 1⟩ ∧ w'.viewGet 0 ⟨1, 1⟩ = .ok none ∧
          w'.viewGet 0 ⟨1, 2⟩ = .ok (some 99))
      | _, _ => false) (by decide)
  cases hb : w.borrow 0 with
  | panic => rw [hb] at hf; cases hf
  | ub => rw [hb] at hf; cases hf
  | ok c =>
    cases hs : step w (.writeAt 0 0 99) with
    | none => rw [hb, hs] at hf; cases hf
    | some p =>
      obtain ⟨r, w'⟩ := p
      rw [hb, hs] at hf
      cases r with
      | unit =>
        simp only [decide_eq_true_eq] at hf
        exact ⟨_, w, w', c, hr, hb, hf.1, hs, hf.2.1, hf.2.2⟩
      | _ => simp at hf

/-! ### Items of queries -/

theorem ItemPart.place_refers {m : Bool} {y : ItemPart V} {pl : Place} (h : y.place m = some pl) :
    ∃ u, y.refers = some (pl.set, pl.pos, u) ∧ pl.writable = m := by
  cases y with
  | entity e => cases h
  | ref idx d u =>
    simp only [ItemPart.place, Option.some.injEq] at h
    subst h
    exact ⟨u, rfl, rfl⟩
  | opt r =>
    rcases r with _ | ⟨idx, d, u⟩
    · cases h
    · simp only [ItemPart.place, Option.some.injEq] at h
      subst h
      exact ⟨u, rfl, rfl⟩

theorem World.writePlace_eq {w : World V} {t : TypeId} {idx pos : Nat} {s : CompSet V} (hv : ViewAt w.components t idx s)
    (hp : pos < s.components.length) (v : V) : w.writePlace idx pos v = .ok (w.poke idx s pos v) := by
  obtain ⟨m, hm, rfl, hs⟩ := hv
  simp [World.writePlace, hs, List.getElem?_eq_getElem hp, World.poke]

theorem forall₂_at {α β : Type} {R : α → β → Prop} {l : List α} {l' : List β} (h : List.Forall₂ R l l') {k : Nat} {a : α}
    (ha : l[k]? = some a) : ∃ b, l'[k]? = some b ∧ R a b := by
  obtain ⟨hlt, hk⟩ := List.getElem?_eq_some_iff.1 ha
  have hlt' : k < l'.length := h.length_eq ▸ hlt
  subst hk
  exact ⟨l'[k], List.getElem?_eq_getElem hlt', h.get hlt hlt'⟩

theorem Part.access_mutable {p : Part} {t : TypeId} {b : Bool} (h : p.access = some (t, b)) : b = p.mutable := by
  cases p <;> simp only [Part.access, Option.some.injEq, Prod.mk.injEq, reduceCtorEq] at h
  all_goals exact h.2.symm

/-- One part of an item that was read by entity, with the versions checked. -/
theorem World.write_part {w : World V} (hc : Sound w.components) {g : Query} {vs : List (PartView V)}
    (hvs : List.Forall₂ (IsView w.components) g vs) {e : Entity} {it : Item V} (hit : getAll e vs = .ok (some it)) {k : Nat}
    {p : Part} {y : ItemPart V} {pl : Place} (hp : g[k]? = some p) (hy : it[k]? = some y)
    (hpl : y.place p.mutable = some pl) (v : V) :
    ∃ t w', p.access = some (t, pl.writable) ∧ w.writePlace pl.set pl.pos v = .ok w' ∧
      step w (.write t e v) = some (.bool true, w') ∧ OnlyWrote w w' t e v := by
  obtain ⟨pv, hpv, hv⟩ := forall₂_at hvs hp
  obtain ⟨y', hy', hget⟩ := getAll_at hit k pv hpv
  rw [hy] at hy'
  cases hy'
  obtain ⟨u, hu, hwr⟩ := ItemPart.place_refers hpl
  obtain ⟨t, b, s, ht, hva, hg, hu⟩ := PartView.get_refers hv hget hu
  have hlt := (List.getElem?_eq_some_iff.1 hu).1
  refine ⟨t, _, by rw [ht, hwr, Part.access_mutable ht], World.writePlace_eq hva hlt v, ?_, World.poke_only hc hva hg hlt v⟩
  rcases World.writeView_eq hc hva e v with ⟨hg', _⟩ | ⟨pos, hg', _, hw⟩
  · rw [hg] at hg'; cases hg'
  · rw [hg] at hg'
    cases hg'
    simp [step, retRes, hw]

/-- C21, `query_one`, in every reachable world: a write through a mutable part of the item for `e` changes the component of
this type of `e` and nothing else. -/
theorem C21_one {h : History V} {w : World V} (hr : Reach World.empty h w) {b b' : Borrows} {g i x : Query}
    {q : QueryOne V} (hq : QueryOne.new w b g i x = .ok (q, b')) {e : Entity} {it : Item V}
    (hit : q.getItem e = .ok (some it)) {k : Nat} {p : Part} {y : ItemPart V} {pl : Place} (hp : g[k]? = some p)
    (hy : it[k]? = some y) (hpl : y.place p.mutable = some pl) (v : V) :
    ∃ t w', p.access = some (t, pl.writable) ∧ w.writePlace pl.set pl.pos v = .ok w' ∧ OnlyWrote w w' t e v := by
  have hc := (reach_sound hr).2
  have hvs := (QueryOne.new_ok hq).1
  have hit : getAll e q.get = .ok (some it) := by
    unfold QueryOne.getItem at hit
    split at hit
    · cases hit
    · split at hit
      · cases hit
      · exact hit
  obtain ⟨t, w', h1, h2, _, h4⟩ := World.write_part hc hvs hit hp hy hpl v
  exact ⟨t, w', h1, h2, h4⟩

/-- A write through the `&mut` part of type `0` of the item for `0v2`, in a world that is not good. -/
example : holdsAfter mixOps (fun _ w => match QueryOne.new w [] [.ref 1, .optMut 0] [] [] with
    | .ok (q, _) => (match q.getItem ⟨1, 1⟩ with
      | .ok (some it) => decide (it.map (ItemPart.place true) = [some ⟨1, 0, true⟩, none])
      | _ => false) && (match QueryOne.new w [] [.entity, .refMut 0] [] [] with
        | .ok (q, _) => (match q.getItem ⟨1, 2⟩ with
          | .ok (some it) => decide (it.map (ItemPart.place true) = [none, some ⟨0, 0, true⟩])
          | _ => false)
        | _ => false)
    | _ => false) = true := by decide +kernel

/-- C21, `query_all`: the items belong to entities, and a write through a mutable part of the item for `e` changes the
component of this type of `e` and nothing else; it is the same as the write through `get_mut(e)`.
Missing: histories that are not `Fair`. -/
theorem C21_query_partial {h : History V} {w : World V} (hr : Reach World.empty h w) (hg : Fair (calls h)) {b b' : Borrows}
    {g i x : Query} {q : QueryAll V} (hq : QueryAll.new w b g i x = .ok (q, b')) :
    ∃ (es : List Entity) (its : List (Item V)), q.items = .ok its ∧ es.Nodup ∧
      its.map (fun it => some it.shown) = (es.map fun e => shows (mapOf (calls h)).table e g) ∧
      ∀ (n k : Nat) (e : Entity) (it : Item V) (p : Part) (y : ItemPart V) (pl : Place) (v : V), es[n]? = some e →
        its[n]? = some it → g[k]? = some p → it[k]? = some y → y.place p.mutable = some pl →
        ∃ t w', p.access = some (t, pl.writable) ∧ w.writePlace pl.set pl.pos v = .ok w' ∧
          step w (.write t e v) = some (.bool true, w') ∧ OnlyWrote w w' t e v := by
  have hc := (reach_sound hr).2
  have hi := reach_out hr hg
  have ho := QueryAll.new_ok hq
  obtain ⟨it, es, its, h1, h2, h3, h4, _⟩ := hi.items ho
  refine ⟨es, its, by rw [QueryAll.items, h1]; exact h2, h3, hi.reads_shown ho.get h4, ?_⟩
  intro n k e it p y pl v hn hit hp hy hpl
  obtain ⟨it', hit', hread⟩ := forall₂_at h4 hn
  rw [hit] at hit'
  cases hit'
  exact World.write_part hc ho.get hread hp hy hpl v

/-- Dense and sparse iteration with mutable parts in a good world. -/
example : Good queryOps ∧ holdsAfter queryOps (fun _ w =>
    itemsAre w [.entity, .refMut 0, .optMut 9] [.ref 1] [] (fun its =>
      decide (its.map (·.map (ItemPart.place true)) =
        [[none, some ⟨0, 0, true⟩, none], [none, some ⟨0, 1, true⟩, none], [none, some ⟨0, 2, true⟩, some ⟨3, 0, true⟩],
          [none, some ⟨0, 3, true⟩, none]])) &&
    itemsAre w [.entity, .refMut 2] [.ref 9] [] (fun its =>
      decide (its.map (·.map (ItemPart.place true)) = [[none, some ⟨2, 2, true⟩]]))) = true := by
  decide +kernel

/-- C21 is false for `query_all` in general: the query gives an item for `1v1`, and the write through it changes what is
read for another handle, and not what is read for `1v1`. -/
theorem C21_query_false : ∃ (h : History Nat) (w w' : World Nat) (q : QueryAll Nat) (b : Borrows) (its : List (Item Nat))
    (pl : Place) (u : Nat), Reach World.empty h w ∧ QueryAll.new w [] [.entity, .refMut 0] [] [] = .ok (q, b) ∧
    q.items = .ok its ∧ [.entity ⟨1, 1⟩, .ref pl.set pl.pos u] ∈ its ∧ w.writePlace pl.set pl.pos 99 = .ok w' ∧
    w'.viewGet 0 ⟨1, 1⟩ = .ok none ∧ w.viewGet 0 ⟨1, 2⟩ = .ok (some u) ∧ w'.viewGet 0 ⟨1, 2⟩ = .ok (some 99) := by
  obtain ⟨rs, w, hr, hf⟩ := reach_witness (ops := mixOps) (f := fun _ w =>
    itemsAre w [.entity, .refMut 0] [] [] (fun its => decide ([.entity ⟨1, 1⟩, .ref 0 0 20] ∈ its)) &&
    decide (w.viewGet 0 ⟨1, 2⟩ = .ok (some 20)) && (match w.writePlace 0 0 99 with
      | .ok w' => decide (w'.viewGet 0 ⟨1, 1⟩ = .ok none ∧ w'.viewGet 0 ⟨1, 2⟩ = .ok (some 99))
      | _ => false)) (by decide)
  simp only [Bool.and_eq_true, decide_eq_true_eq] at hf
  obtain ⟨⟨h1, h2⟩, h3⟩ := hf
  obtain ⟨q, b, its, h4, h5, h6⟩ := itemsAre_iff h1
  cases hw : w.writePlace 0 0 99 with
  | panic => rw [hw] at h3; cases h3
  | ub => rw [hw] at h3; cases h3
  | ok w' =>
    rw [hw] at h3
    obtain ⟨h7, h8⟩ := of_decide_eq_true h3
    exact ⟨_, w, w', q, b, its, ⟨0, 0, true⟩, 20, hr, h4, h5, of_decide_eq_true h6, hw, h7, h2, h8⟩

/-- Every item that a fold gives was read by `get_sparse_raw` or `get_dense_raw`. -/
theorem SparseIter.foldFrom_mem {it : SparseIter V} : ∀ {es : List Entity} {xs : List (Item V)},
    it.foldFrom es = .ok xs → ∀ y ∈ xs, ∃ e, getAllSparseRaw e it.get = .ok (some y)
  | [], xs, h, y, hy => by
    cases h
    cases hy
  | e :: es, xs, h, y, hy => by
    simp only [SparseIter.foldFrom] at h
    obtain ⟨r, h1, h⟩ := Res.bind_ok' h
    cases r with
    | none => exact SparseIter.foldFrom_mem h y hy
    | some z =>
      obtain ⟨ys, h2, h⟩ := Res.bind_ok' h
      cases h
      rcases List.mem_cons.1 hy with rfl | hy
      · refine ⟨e, ?_⟩
        unfold SparseIter.item at h1
        split at h1
        · cases h1
        · split at h1
          · cases h1
          · exact h1
      · exact SparseIter.foldFrom_mem h2 y hy

theorem DenseIter.foldFrom_mem {it : DenseIter V} : ∀ {n i : Nat} {xs : List (Item V)}, it.foldFrom i n = .ok xs →
    ∀ y ∈ xs, ∃ k e, getAllDenseRaw k e it.get = .ok y
  | 0, i, xs, h, y, hy => by
    cases h
    cases hy
  | n + 1, i, xs, h, y, hy => by
    simp only [DenseIter.foldFrom] at h
    obtain ⟨z, h1, h⟩ := Res.bind_ok' h
    obtain ⟨ys, h2, h⟩ := Res.bind_ok' h
    cases h
    rcases List.mem_cons.1 hy with rfl | hy
    · obtain ⟨e, _, h1⟩ := Res.bind_ok' h1
      exact ⟨i, e, h1⟩
    · exact DenseIter.foldFrom_mem h2 y hy

theorem getAllSparseRaw_part {e : Entity} : ∀ {vs : List (PartView V)} {it : Item V}, getAllSparseRaw e vs = .ok (some it) →
    ∀ (k : Nat) (v : PartView V), vs[k]? = some v → ∃ y, it[k]? = some y ∧ v.getSparseRaw e = .ok (some y)
  | [], _, _, k, v, hk => by simp at hk
  | v :: vs, it, h, k, v', hk => by
    simp only [getAllSparseRaw] at h
    obtain ⟨r, h1, h2⟩ := Res.bind_ok' h
    cases r with
    | none => simp at h2
    | some y =>
      simp only at h2
      obtain ⟨r, h3, h4⟩ := Res.bind_ok' h2
      cases r with
      | none => simp at h4
      | some is =>
        simp only [Res.pure_eq, Res.ok.injEq, Option.some.injEq] at h4
        subst h4
        cases k with
        | zero =>
          simp only [List.getElem?_cons_zero, Option.some.injEq] at hk
          subst hk
          exact ⟨y, rfl, h1⟩
        | succ k => exact getAllSparseRaw_part h3 k v' (by simpa using hk)

theorem getAllDenseRaw_part {e : Entity} {i : Nat} : ∀ {vs : List (PartView V)} {it : Item V},
    getAllDenseRaw i e vs = .ok it →
    ∀ (k : Nat) (v : PartView V), vs[k]? = some v → ∃ y, it[k]? = some y ∧ v.getDenseRaw i e = .ok y
  | [], _, _, k, v, hk => by simp at hk
  | v :: vs, it, h, k, v', hk => by
    simp only [getAllDenseRaw] at h
    obtain ⟨y, h1, h⟩ := Res.bind_ok' h
    obtain ⟨is, h2, h⟩ := Res.bind_ok' h
    cases h
    cases k with
    | zero =>
      simp only [List.getElem?_cons_zero, Option.some.injEq] at hk
      subst hk
      exact ⟨y, rfl, h1⟩
    | succ k => exact getAllDenseRaw_part h2 k v' (by simpa using hk)

/-- In every reachable world: a write through a mutable part of any item of a query is a write to a position of the set of
that component type, so that it is one of the calls `Op`, and changes at most one component (`C21_once`). -/
theorem C21_items {h : History V} {w : World V} (_ : Reach World.empty h w) {b b' : Borrows} {g i x : Query}
    {q : QueryAll V} (hq : QueryAll.new w b g i x = .ok (q, b')) {its : List (Item V)} (hits : q.items = .ok its)
    {it : Item V} (hit : it ∈ its) {k : Nat} {p : Part} {y : ItemPart V} {pl : Place} (hp : g[k]? = some p)
    (hy : it[k]? = some y) (hpl : y.place p.mutable = some pl) (v : V) :
    ∃ t w', p.access = some (t, pl.writable) ∧ w.writePlace pl.set pl.pos v = .ok w' ∧
      step w (.writeAt t pl.pos v) = some (.unit, w') := by
  have ho := QueryAll.new_ok hq
  obtain ⟨pv, hpv, hv⟩ := forall₂_at ho.get hp
  obtain ⟨u, hu, hwr⟩ := ItemPart.place_refers hpl
  have key : ∃ t b s, p.access = some (t, b) ∧ ViewAt w.components t pl.set s ∧ s.components[pl.pos]? = some u := by
    unfold QueryAll.items at hits
    obtain ⟨iter, h1, h2⟩ := Res.bind_ok' hits
    unfold QueryAll.iter at h1
    obtain ⟨r, _, h1⟩ := Res.bind_ok' h1
    cases r with
    | some ab =>
      obtain ⟨a, b⟩ := ab
      obtain ⟨es, _, h1⟩ := Res.bind_ok' h1
      cases h1
      obtain ⟨n, e, h3⟩ := DenseIter.foldFrom_mem h2 it hit
      obtain ⟨y', hy', h4⟩ := getAllDenseRaw_part h3 k pv hpv
      rw [hy] at hy'
      cases hy'
      exact PartView.dense_refers hv h4 hu
    | none =>
      cases h1
      obtain ⟨e, h3⟩ := SparseIter.foldFrom_mem h2 it hit
      obtain ⟨y', hy', h4⟩ := getAllSparseRaw_part h3 k pv hpv
      rw [hy] at hy'
      cases hy'
      exact PartView.sparse_refers hv h4 hu
  obtain ⟨t, b, s, ht, hva, hu⟩ := key
  have hlt := (List.getElem?_eq_some_iff.1 hu).1
  exact ⟨t, _, by rw [ht, hwr, Part.access_mutable ht], World.writePlace_eq hva hlt v,
    by simp [step, retRes, World.writeAt_eq hva hlt v]⟩

/-- Places handed out in a world that is not good. -/
example : holdsAfter mixOps (fun _ w => itemsAre w [.entity, .refMut 0] [] [] (fun its =>
    decide (its.map (·.map (ItemPart.place true)) = [[none, some ⟨0, 0, true⟩], [none, some ⟨0, 1, true⟩]]))) = true := by
  decide

end Sparsey
