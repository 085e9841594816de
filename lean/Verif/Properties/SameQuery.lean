import Verif.Properties.Grouped
import Verif.Properties.VisitOrder

/-!
C63: what a query yields depends on the sets of required and excluded types only.
-/

set_option autoImplicit false
set_option linter.unusedSimpArgs false

namespace Sparsey
variable {V : Type}

/-- Two queries ask for the same: they require the same types, as getters or filters, in any order and any number of
times, and exclude the same types. (Excluding `Entity` or `Option` means nothing, finding 4.) -/
structure SameAsk (g i x g' i' x' : Query) : Prop where
  req : SameTypes (required g ++ required i) (required g' ++ required i')
  exc : SameTypes (required x) (required x')
  all : AllRequired x ∧ AllRequired x'

theorem SameTypes.sameTypes {a b c : List TypeId} (h : SameTypes a b) : SameTypes a c ↔ SameTypes b c :=
  ⟨fun h' t => (h t).symm.trans (h' t), fun h' t => (h t).trans (h' t)⟩

theorem SameTypes.nil_iff {a b : List TypeId} (h : SameTypes a b) : a = [] ↔ b = [] := by
  constructor
  · intro h0
    refine List.eq_nil_iff_forall_not_mem.2 fun t ht => ?_
    have := (h t).2 ht
    rw [h0] at this
    cases this
  · intro h0
    refine List.eq_nil_iff_forall_not_mem.2 fun t ht => ?_
    have := (h t).1 ht
    rw [h0] at this
    cases this

theorem SameTypes.has {s : MapWorld V} {a b : List TypeId} (h : SameTypes a b) (e : Entity) : s.Has a e ↔ s.Has b e :=
  ⟨fun h' t ht => h' t ((h t).2 ht), fun h' t ht => h' t ((h t).1 ht)⟩

theorem SameTypes.leftOut {s : MapWorld V} {hid : List (Entity × Nat)} {a b : List TypeId} (h : SameTypes a b)
    (e : Entity) : s.LeftOut hid a e ↔ s.LeftOut hid b e := by
  unfold MapWorld.LeftOut
  simp only [h.sameTypes]

theorem SameTypes.append {a b c d : List TypeId} (h : SameTypes a b) (h' : SameTypes c d) : SameTypes (a ++ c) (b ++ d) := by
  intro t
  rw [List.mem_append, List.mem_append, h t, h' t]

theorem Grouped.same {groups : List (List TypeId)} {R R' X X' : List TypeId} (hR : SameTypes R R') (hX : SameTypes X X')
    (h : Grouped groups R X) : Grouped groups R' X' ∨ X = [] ∧ ¬ ∃ a ∈ groups, SameTypes R a := by
  rcases h with ⟨h1, h2⟩ | ⟨h1, a, ha, b, hb, h2, h3, h4, h5⟩
  · by_cases h3 : ∃ a ∈ groups, SameTypes R a
    · obtain ⟨a, ha, h4⟩ := h3
      exact .inl (.inl ⟨hX.nil_iff.1 h1, .inr ⟨a, ha, hR.sameTypes.1 h4⟩⟩)
    · exact .inr ⟨h1, h3⟩
  · exact .inl (.inr ⟨fun h0 => h1 (hX.nil_iff.2 h0), a, ha, b, hb, hR.sameTypes.1 h2, h3,
      fun t ht => h4 t ((hX t).2 ht), fun t ht hta => (hX t).1 (h5 t ht hta)⟩)

theorem MapWorld.Yields.same {s : MapWorld V} {hid : List (Entity × Nat)} {g i x g' i' x' : Query}
    (h : SameAsk g i x g' i' x') {e : Entity} (hy : s.Yields hid g i x e) : s.Yields hid g' i' x' e := by
  obtain ⟨h1, h2, h3, h4⟩ := hy
  have hlo : ∀ {ts : List TypeId}, (¬ ∃ a ∈ s.groups, SameTypes ts a) → ¬ s.LeftOut hid ts e := by
    rintro ts hn ⟨p, _, _, a, ha, h5⟩
    exact hn ⟨a, List.mem_of_getElem? (Option.mem_def.1 ha), h5⟩
  refine ⟨fun h0 => h1 (h.req.nil_iff.2 h0), (h.req.has e).1 h2, fun hG => ?_, fun hG => ?_⟩
  · by_cases hG' : Grouped s.groups (required g ++ required i) (required x)
    · obtain ⟨h5, h6⟩ := h3 hG'
      refine ⟨fun h7 => h5 ((h.req.leftOut e).2 h7), ?_⟩
      rcases h6 with h6 | ⟨t, ht, h6⟩ | h6
      · exact .inl (h.exc.nil_iff.1 h6)
      · exact .inr (.inl ⟨t, (h.exc t).1 ht, h6⟩)
      · exact .inr (.inr (((h.req.append h.exc).leftOut e).1 h6))
    · have := hG.same (fun t => (h.req t).symm) (fun t => (h.exc t).symm)
      rcases this with this | ⟨h5, h6⟩
      · exact absurd this hG'
      · exact ⟨hlo h6, .inl h5⟩
  · by_cases hG' : Grouped s.groups (required g ++ required i) (required x)
    · rcases hG'.same h.req h.exc with h5 | ⟨h5, h6⟩
      · exact absurd h5 hG
      · refine ⟨h.all.2, fun t ht => ?_⟩
        rw [h.exc.nil_iff.1 h5] at ht
        cases ht
    · obtain ⟨h5, h6⟩ := h4 hG'
      exact ⟨h.all.2, fun t ht => h6 t ((h.exc t).2 ht)⟩

theorem SameAsk.symm {g i x g' i' x' : Query} (h : SameAsk g i x g' i' x') : SameAsk g' i' x' g i x :=
  ⟨fun t => (h.req t).symm, fun t => (h.exc t).symm, h.all.symm⟩

/-- Sublists of a list without repetitions that have the same elements are equal. -/
theorem sublist_eq {α : Type} : ∀ {l a b : List α}, l.Nodup → a.Sublist l → b.Sublist l → (∀ x, x ∈ a ↔ x ∈ b) → a = b
  | [], a, b, _, ha, hb, _ => by rw [List.sublist_nil.1 ha, List.sublist_nil.1 hb]
  | y :: l, a, b, hn, ha, hb, h => by
    rw [List.nodup_cons] at hn
    cases ha with
    | cons _ ha =>
      cases hb with
      | cons _ hb => exact sublist_eq hn.2 ha hb h
      | cons_cons _ hb => exact absurd (ha.subset ((h y).2 (by simp))) hn.1
    | cons_cons _ ha =>
      cases hb with
      | cons _ hb => exact absurd (hb.subset ((h y).1 (by simp))) hn.1
      | @cons_cons b _ _ hb =>
        rename_i a
        congr 1
        refine sublist_eq hn.2 ha hb fun x => ?_
        have hx := h x
        simp only [List.mem_cons] at hx
        constructor
        · intro hxa
          rcases hx.1 (.inr hxa) with rfl | h'
          · exact absurd (ha.subset hxa) hn.1
          · exact h'
        · intro hxb
          rcases hx.2 (.inr hxb) with rfl | h'
          · exact absurd (hb.subset hxb) hn.1
          · exact h'

/-- What a query yields, and where the entities of an iteration with a group are. -/
theorem yields_places {h : History V} {w : World V} (hr : Reach World.empty h w) (hg : Fair (calls h)) {b b' : Borrows}
    {g i x : Query} {q : QueryAll V} (hq : QueryAll.new w b g i x = .ok (q, b')) :
    ∃ (it : Iter V) (es : List Entity) (its : List (Item V)), q.iter = .ok it ∧ q.items = .ok its ∧ es.Nodup ∧
      its.map (fun it => some it.shown) = es.map (fun e => shows (mapOf (calls h)).table e g) ∧
      (∀ e, e ∈ es ↔ (mapOf (calls h)).Yields (hidden (calls h)) g i x e) ∧
      (it.isDense = true → required g ++ required i ≠ [] ∧ ∀ t ∈ required g ++ required i,
        ∃ c, w.borrow t = .ok c ∧ c.entities.Nodup ∧ es.Sublist c.entities) := by
  have hi := reach_out hr hg
  have ho := QueryAll.new_ok hq
  obtain ⟨it, es, its, h1, h2, h3, h4, h5, h6⟩ := hi.items ho
  obtain ⟨⟨it', h8, h9⟩, _⟩ := C53_partial hr hg.settled hq
  rw [h1] at h8
  cases h8
  refine ⟨it, es, its, h1, by rw [QueryAll.items, h1]; exact h2, h3, hi.reads_shown ho.get h4, ?_, ?_⟩
  · intro e
    unfold MapWorld.Yields
    rcases h6 with ⟨a, b, pre, hd, _, hdr, rfl⟩ | ⟨hd, _, hm⟩
    · have hG := h9.1 hd
      rw [hdr.mem]
      constructor
      · rintro ⟨e1, e2⟩
        exact ⟨hdr.nonempty, e1, fun _ => e2, fun hn => absurd hG hn⟩
      · rintro ⟨_, e1, e2, _⟩
        exact ⟨e1, e2 hG⟩
    · have hG : ¬ Grouped _ _ _ := fun hc => by
        rw [h9.2 hc] at hd
        cases hd
      rw [hm, Faithful.none_contains_all e (hi.faithfuls ho.exc)]
      constructor
      · rintro ⟨e1, e2, e3, e4⟩
        exact ⟨e1, e2, fun hc => absurd hc hG, fun _ => ⟨e3, e4⟩⟩
      · rintro ⟨e1, e2, _, e3⟩
        exact ⟨e1, e2, e3 hG⟩
  · intro hd
    rcases h6 with ⟨a, b, pre, _, _, hdr, rfl⟩ | ⟨hn, _⟩
    · refine ⟨hdr.nonempty, fun t ht => ?_⟩
      obtain ⟨c, hc1, hc2⟩ := hdr.aligned t ht
      obtain ⟨m, s, hm, hs⟩ : ∃ m s, w.components.meta? t = some m ∧
          w.components.components[m.storageIndex]? = some s := by
        rcases List.mem_append.1 ht with ht | ht
        · exact present_of_views ho.get t ht
        · exact present_of_views ho.inc t ht
      have hv : ViewAt w.components t m.storageIndex s := ⟨m, hm, rfl, hs⟩
      have := borrow_of_viewAt hv
      rw [hc1] at this
      cases this
      exact ⟨c, hc1, (hi.viewAt hv).wf.rep.nodup, by
        rw [← hc2]
        exact (List.drop_sublist _ _).trans (List.take_sublist _ _)⟩
    · rw [hd] at hn
      cases hn

/-- **C63 (partial)** Queries that ask for the same yield the same entities; if both use a group, in the same order.
Missing: histories that are not `Fair`. -/
theorem C63_partial {h : History V} {w : World V} (hr : Reach World.empty h w) (hg : Fair (calls h)) {b b' c c' : Borrows}
    {g i x g' i' x' : Query} {q q' : QueryAll V} (hq : QueryAll.new w b g i x = .ok (q, b'))
    (hq' : QueryAll.new w c g' i' x' = .ok (q', c')) (hsame : SameAsk g i x g' i' x') :
    ∃ (it it' : Iter V) (es es' : List Entity) (its its' : List (Item V)), q.iter = .ok it ∧ q'.iter = .ok it' ∧
      q.items = .ok its ∧ q'.items = .ok its' ∧
      its.map (fun it => some it.shown) = es.map (fun e => shows (mapOf (calls h)).table e g) ∧
      its'.map (fun it => some it.shown) = es'.map (fun e => shows (mapOf (calls h)).table e g') ∧
      es.Perm es' ∧ (it.isDense = true → it'.isDense = true → es = es') := by
  obtain ⟨it, es, its, h1, h2, h3, h4, h5, h6⟩ := yields_places hr hg hq
  obtain ⟨it', es', its', k1, k2, k3, k4, k5, k6⟩ := yields_places hr hg hq'
  have hmem : ∀ e, e ∈ es ↔ e ∈ es' := fun e => by
    rw [h5, k5]
    exact ⟨fun hy => hy.same hsame, fun hy => hy.same hsame.symm⟩
  refine ⟨it, it', es, es', its, its', h1, k1, h2, k2, h4, k4, (List.perm_ext_iff_of_nodup h3 k3).2 hmem, fun hd hd' => ?_⟩
  obtain ⟨hne, h6⟩ := h6 hd
  obtain ⟨_, k6⟩ := k6 hd'
  obtain ⟨t, ht⟩ := List.exists_mem_of_ne_nil _ hne
  obtain ⟨s, f1, f2, f3⟩ := h6 t ht
  obtain ⟨s', g1, g2, g3⟩ := k6 t ((hsame.req t).1 ht)
  rw [f1] at g1
  cases g1
  exact sublist_eq f2 f3 g3 hmem

/-- **C63 (partial)** Whether a group is used depends on the types only. Missing: layouts that are not `Settled`. (A query
that requires one type once goes through its set as if it were a group.) -/
theorem C63_grouped_partial {h : History V} {w : World V} (hr : Reach World.empty h w) (hl : Settled (calls h))
    {b b' c c' : Borrows} {g i x g' i' x' : Query} {q q' : QueryAll V} (hq : QueryAll.new w b g i x = .ok (q, b'))
    (hq' : QueryAll.new w c g' i' x' = .ok (q', c')) (hreq : SameTypes (required g ++ required i) (required g' ++ required i'))
    (hexc : SameTypes (required x) (required x'))
    (hone : (required g ++ required i).length = 1 ↔ (required g' ++ required i').length = 1) :
    ∃ it it', q.iter = .ok it ∧ q'.iter = .ok it' ∧ it'.isDense = it.isDense := by
  obtain ⟨⟨it, h1, h2⟩, _⟩ := C53_partial hr hl hq
  obtain ⟨⟨it', k1, k2⟩, _⟩ := C53_partial hr hl hq'
  refine ⟨it, it', h1, k1, ?_⟩
  have key : ∀ {R R' X X' : List TypeId} {groups : List (List TypeId)}, SameTypes R R' → SameTypes X X' →
      (R.length = 1 ↔ R'.length = 1) → Grouped groups R X → Grouped groups R' X' := by
    intro R R' X X' groups hR hX h1 hG
    rcases hG.same hR hX with h | ⟨h2, h3⟩
    · exact h
    · rcases hG with ⟨_, h4 | h4⟩ | ⟨h4, _⟩
      · exact .inl ⟨hX.nil_iff.1 h2, .inl (h1.1 h4)⟩
      · exact absurd h4 h3
      · exact absurd h2 h4
  have hiff : it'.isDense = true ↔ it.isDense = true := by
    rw [h2, k2]
    exact ⟨key (fun t => (hreq t).symm) (fun t => (hexc t).symm) hone.symm, key hreq hexc hone⟩
  exact Bool.eq_iff_iff.2 hiff

/-- The queries of C63 on the world of C60: without a group they yield the same entities in another order. -/
example : Fair visitOps ∧ holdsAfter visitOps (fun _ w =>
    itemsAre w [.entity, .ref 0] [.ref 1] [] (fun its => decide (its.map Item.shown =
      [[.entity ⟨2, 1⟩, .comp 12], [.entity ⟨3, 1⟩, .comp 13], [.entity ⟨1, 1⟩, .comp 11], [.entity ⟨0, 1⟩, .comp 15]])) &&
    itemsAre w [.entity, .ref 1] [.ref 0] [] (fun its => decide (its.map Item.shown =
      [[.entity ⟨0, 1⟩, .comp 20], [.entity ⟨1, 1⟩, .comp 21], [.entity ⟨3, 1⟩, .comp 23], [.entity ⟨2, 1⟩, .comp 22]])))
      = true := by
  decide +kernel

example : SameAsk [.entity, .ref 0] [.ref 1] [] [.refMut 1, .entity] [.ref 0, .ref 1] [] ∧
    SameAsk [.ref 0] [] [.ref 2, .ref 3] [.ref 0] [] [.ref 3, .ref 2, .ref 3] := by
  refine ⟨⟨fun t => ?_, fun t => Iff.rfl, by decide, by decide⟩, ⟨fun t => Iff.rfl, fun t => ?_, by decide, by decide⟩⟩
  · simp [required, Part.required]
    exact ⟨fun h => h.elim (fun h => .inr (.inl h.symm)) .inl, fun h => h.elim .inr (fun h => h.elim (fun h => .inl h.symm) .inr)⟩
  · simp [required, Part.required]
    tauto

/-- With a group the order is the same, too. -/
example : holdsAfter (V := Nat) [.setLayout anyOrder [[0, 1]], .create [(0, 1), (1, 2)], .create [(1, 3)], .create [(1, 4), (0, 5)]]
    (fun _ w => itemsAre w [.entity, .ref 0] [.ref 1] [] (fun its => decide (its.map Item.shown =
      [[.entity ⟨0, 1⟩, .comp 1], [.entity ⟨2, 1⟩, .comp 5]])) &&
    itemsAre w [.ref 1, .refMut 0, .entity] [] [] (fun its => decide (its.map Item.shown =
      [[.comp 2, .comp 1, .entity ⟨0, 1⟩], [.comp 4, .comp 5, .entity ⟨2, 1⟩]]))) = true := by
  decide +kernel

end Sparsey
