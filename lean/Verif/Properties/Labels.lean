import Verif.Proofs.Labels
import Verif.Properties.Rows

/-!
C68: what each call does to the rows of a view and to the versions under which they are found, in every reachable world. This
describes lookups without any condition on the history, the misses of finding 9 included.
-/

set_option autoImplicit false
set_option linter.unusedSimpArgs false

namespace Sparsey
variable {V : Type}

theorem sheet_eq (w : World V) (t : TypeId) : w.sheet t = w.components.sheetAt t := by
  unfold World.sheet World.borrow ComponentStorage.sheetAt
  cases w.components.meta? t with
  | none => rfl
  | some m =>
    simp only
    unfold sheetI
    cases w.components.components[m.storageIndex]? <;> rfl

theorem extendEach_sheet (t : TypeId) (ts : List TypeId) : ∀ (items : List (List V)) (w : World V), EntOk w.entities →
    Static w.components → AllSets CompSet.IdxOk w.components.components → (∀ x ∈ ts, (w.components.meta? x).isSome) →
    (World.extendEach (ts.map w.components.idxOf) items w).Leaves (fun w' => w'.components.sheetAt t =
      ((((w.entities.createUpTo items.length).zip items).flatMap fun p =>
        (partFor t (ts.zip p.2)).map fun v => (p.1, v))).foldl Sheet.put (w.components.sheetAt t) ∧
      AllSets CompSet.IdxOk w'.components.components)
  | [], w, _, _, ha, _ => ⟨rfl, ha⟩
  | vs :: items, w, he, hc, ha, hk => by
    rw [World.extendEach, List.length_cons, EntityStorage.createUpTo]
    rcases he.create with h1 | ⟨e, es, h1, h2, h3⟩
    · rw [h1]
      exact ⟨rfl, ha⟩
    · rw [h1]
      simp only [Outcome.ofRes_ok, List.zip_cons_cons, List.flatMap_cons]
      cases hi : w.components.insertAt e ((ts.map w.components.idxOf).zip vs) with
      | ub => trivial
      | panic => exact absurd hi (ComponentStorage.insertAt_ne_panic _ _)
      | ok c =>
        simp only [Outcome.ofRes_ok]
        obtain ⟨i1, i2⟩ := ComponentStorage.insertAt_sheet h2 t ts vs w.components c hc ha hk hi
        have ih := extendEach_sheet t ts items ⟨es, c⟩ h3 (hc.of_shape i2) (stable_idx.insertAt h2 _ ha hi)
          (fun x hx => by rw [i2.meta?]; exact hk x hx)
        rw [ComponentStorage.idxOf_same (c := w.components) (c' := c) i2.md] at ih
        rw [List.foldl_append, ← i1]
        exact ih

theorem extend_sheet {w : World V} (he : EntOk w.entities) (hc : Sound w.components) (t : TypeId) (ts : List TypeId)
    (it : Items V) : (w.extend ts it).Leaves (fun w' =>
      ((w.puts t (.extend ts it)).foldl Sheet.put (w.components.sheetAt t)).Shuffled (w'.components.sheetAt t)) := by
  unfold World.extend
  simp only [World.puts]
  by_cases hk : ∀ x ∈ ts, (w.components.meta? x).isSome
  · rw [if_pos (all_registered.2 hk), upcoming_eq _ w w.entities rfl he he]
    cases hl : w.components.lookupAll (·.insertMask) ts with
    | panic =>
      obtain ⟨x, h1, h2⟩ := (lookupAll_refuses hc _ ts).1 hl
      have := hk x h1
      unfold ComponentStorage.isRegistered at h2
      rw [h2] at this
      cases this
    | ub => trivial
    | ok p =>
      obtain ⟨idxs, mask⟩ := p
      obtain ⟨rfl, _⟩ := lookupAll_idxs ts hl
      simp only [Outcome.ofRes_ok]
      have h1 := extendEach_sheet t ts it.items w he hc.static hc.sets hk
      revert h1
      cases World.extendEach (ts.map w.components.idxOf) it.items w with
      | ub => exact fun _ => trivial
      | panic w1 =>
        intro h1
        show Sheet.Shuffled _ (w1.components.sheetAt t)
        rw [h1.1]
        exact Sheet.Shuffled.refl _
      | ok u w1 =>
        intro h1
        have h0 : Sheet.Shuffled ((((w.entities.createUpTo it.items.length).zip it.items).flatMap fun p =>
            (partFor t (ts.zip p.2)).map fun v => (p.1, v)).foldl Sheet.put (w.components.sheetAt t))
            (w1.components.sheetAt t) := by
          rw [h1.1]
          exact Sheet.Shuffled.refl _
        simp only [Outcome.bind_ok]
        split
        · exact h0
        · split
          · trivial
          · refine Outcome.Leaves.ofRes h0 fun c2 h2 => ?_
            obtain ⟨k1, k2⟩ := withMask_labelled (fun s s' ha h => groupEntities_labelled _ _ _ ha h) h1.2 h2
            exact h0.trans (ComponentStorage.sheetAt_labelled k1 k2 t)
  · have hp : w.components.lookupAll (·.insertMask) ts = .panic := by
      apply lookupAll_panic
      by_contra hn
      refine hk fun x hx => ?_
      cases hm : w.components.meta? x with
      | none => exact absurd ⟨x, hx, hm⟩ hn
      | some m => rfl
    rw [if_neg (fun h => hk (all_registered.1 h)), hp]
    exact Sheet.Shuffled.refl _

theorem insertSet_sheet {w : World V} {e : Entity} (he : e.index < u32Size) (hc : Sound w.components) (t : TypeId)
    (vs : List (TypeId × V)) : (w.insertSet e vs).Leaves (fun w' => Sheet.Shuffled
      (((partFor t (vs.takeWhile fun p => w.isRegistered p.1)).map fun v => (e, v)).foldl Sheet.put (w.components.sheetAt t))
      (w'.components.sheetAt t)) := by
  have h := ComponentStorage.insert_sheet he t vs hc.static hc.sets
  unfold World.insertSet
  revert h
  cases w.components.insert e vs with
  | ub => exact fun _ => trivial
  | ok u c => exact fun h => h
  | panic c => exact fun h => h

theorem create_sheet {w : World V} (he : EntOk w.entities) (hc : Sound w.components) (t : TypeId) (vs : List (TypeId × V)) :
    (w.create vs).Leaves (fun w' =>
      ((w.puts t (.create vs)).foldl Sheet.put (w.components.sheetAt t)).Shuffled (w'.components.sheetAt t)) := by
  unfold World.create
  simp only [World.puts]
  rw [upcoming_eq _ w w.entities rfl he he]
  simp only [EntityStorage.createUpTo]
  rcases he.create with h1 | ⟨e, es, h1, h2, h3⟩
  · rw [h1]
    exact Sheet.Shuffled.refl _
  · rw [h1]
    simp only [Outcome.ofRes_ok, List.flatMap_cons, List.flatMap_nil, List.append_nil]
    exact Outcome.Leaves.bind (insertSet_sheet (w := { w with entities := es }) h2 hc t vs) fun _ w1 k => k

theorem insert_sheet {w : World V} (he : EntOk w.entities) (hc : Sound w.components) (t : TypeId) (e : Entity)
    (vs : List (TypeId × V)) : (w.insert e vs).Leaves (fun w' =>
      ((w.puts t (.insert e vs)).foldl Sheet.put (w.components.sheetAt t)).Shuffled (w'.components.sheetAt t)) := by
  unfold World.insert
  simp only [World.puts]
  have hy : w.containsEntity e = w.entities.contains e := rfl
  by_cases hx : w.entities.contains e = true
  · rw [if_pos (hy.trans hx), hx]
    have he' : e.index < u32Size := he.small_of_contains hx
    exact Outcome.Leaves.bind (insertSet_sheet he' hc t vs) fun _ w1 k => k
  · rw [if_neg (fun h => hx (hy.symm.trans h)), if_pos (by simpa using hx)]
    exact Sheet.Shuffled.refl _

theorem step_relabels {w w' : World V} {op : Op V} {r : Ret V} (he : EntOk w.entities) (hc : Sound w.components)
    (hk : (w.components.metadata.map Prod.fst).Nodup) (hs : step w op = some (r, w')) (t : TypeId) :
    w.Relabels t op r (w'.sheet t) := by
  rw [sheet_eq]
  cases op with
  | create vs =>
    simp only [World.Relabels, sheet_eq]
    have h := create_sheet he hc t vs
    simp only [step] at hs
    exact retOutcome_some hs h
  | insert e vs =>
    simp only [World.Relabels, sheet_eq]
    have h := insert_sheet he hc t e vs
    simp only [step] at hs
    exact retOutcome_some hs h
  | extend ts it =>
    simp only [World.Relabels, sheet_eq]
    have h := extend_sheet he hc t ts it
    simp only [step] at hs
    exact retOutcome_some hs h
  | remove e ts =>
    simp only [World.Relabels, sheet_eq]
    simp only [step] at hs
    rcases retRes_split hs with ⟨⟨vs, w1⟩, h1, h2⟩ | ⟨h1, h2⟩
    · cases h2
      unfold World.remove at h1
      obtain ⟨⟨vs', c⟩, h3, h1⟩ := Res.bind_ok' h1
      cases h1
      exact ComponentStorage.remove_sheet hc.static hc.sets h3 t
    · cases h2
      rfl
  | delete e ts =>
    simp only [World.Relabels, sheet_eq]
    simp only [step] at hs
    rcases retRes_split hs with ⟨w1, h1, h2⟩ | ⟨h1, h2⟩
    · cases h2
      unfold World.delete at h1
      obtain ⟨c, h3, h1⟩ := Res.bind_ok' h1
      cases h1
      exact ComponentStorage.delete_sheet hc.static hc.sets h3 t
    · cases h2
      rfl
  | destroy e =>
    simp only [World.Relabels, sheet_eq]
    simp only [step] at hs
    rcases retRes_split hs with ⟨⟨b, w1⟩, h1, h2⟩ | ⟨h1, h2⟩
    · cases h2
      unfold World.destroy at h1
      obtain ⟨⟨b', es⟩, h3, h1⟩ := Res.bind_ok' h1
      cases b' with
      | false =>
        cases h1
        rfl
      | true =>
        obtain ⟨c, h4, h1⟩ := Res.bind_ok' h1
        cases h1
        exact ComponentStorage.strip_sheet hc.sets h4 t
    · cases h2
      rfl
  | clear =>
    simp only [World.Relabels, sheet_eq]
    simp only [step] at hs
    rcases retRes_split hs with ⟨w1, h1, h2⟩ | ⟨h1, h2⟩
    · cases h2
      unfold World.clear at h1
      obtain ⟨es, h3, h1⟩ := Res.bind_ok' h1
      cases h1
      exact ComponentStorage.clear_sheet _ t
    · obtain ⟨x, hx⟩ := clear_safe he
      rw [hx] at h1
      cases h1
  | reset =>
    simp only [World.Relabels, sheet_eq]
    simp only [step] at hs
    cases hs
    exact ComponentStorage.clear_sheet _ t
  | write t' e v =>
    simp only [World.Relabels, sheet_eq]
    simp only [step] at hs
    cases hm : w.components.meta? t' with
    | none =>
      have h0 : w.writeView t' e v = .panic := by
        unfold World.writeView
        rw [hm]
      rw [h0] at hs
      cases hs
      by_cases ht : t' = t
      · subst ht
        rw [if_pos rfl]
        refine ⟨by rw [ComponentStorage.sheetAt_none hm]; rfl, fun hr => ?_⟩
        have hr : (w.components.meta? t').isSome = true := hr
        rw [hm] at hr
        cases hr
      · rw [if_neg ht]
    | some m =>
      obtain ⟨s, hs'⟩ : ∃ s, w.components.components[m.storageIndex]? = some s :=
        ⟨_, List.getElem?_eq_getElem (hc.static.idx t' m hm)⟩
      obtain ⟨b, s', h4, _⟩ := (hc.sets s (List.mem_of_getElem? hs')).setMut e v
      have h0 : w.writeView t' e v =
          .ok (b, { w with components := { w.components with components := w.components.components.set m.storageIndex s' } }) := by
        unfold World.writeView
        rw [hm]
        simp [hs', h4]
      rw [h0] at hs
      cases hs
      obtain ⟨k1, k2⟩ := CompSet.setMut_sheet (hc.sets s (List.mem_of_getElem? hs')) h4
      simp only
      rw [ComponentStorage.sheetAt_set hc.static hm]
      by_cases ht : t' = t
      · subst ht
        rw [if_pos rfl, if_pos rfl, ComponentStorage.sheetAt_get hm hs']
        exact ⟨k2, fun _ => by rw [k1]⟩
      · rw [if_neg ht, if_neg (Ne.symm ht)]
  | writeAt t' pos v =>
    simp only [World.Relabels, sheet_eq]
    simp only [step] at hs
    cases hm : w.components.meta? t' with
    | none =>
      have h0 : w.writeAt t' pos v = .panic := by
        unfold World.writeAt
        rw [hm]
      rw [h0] at hs
      cases hs
      by_cases ht : t' = t
      · subst ht
        rw [if_pos rfl, ComponentStorage.sheetAt_none hm]
        simp [Sheet.empty]
      · rw [if_neg ht]
    | some m =>
      obtain ⟨s, hs'⟩ : ∃ s, w.components.components[m.storageIndex]? = some s :=
        ⟨_, List.getElem?_eq_getElem (hc.static.idx t' m hm)⟩
      cases h4 : s.setAt pos v with
      | ub =>
        unfold CompSet.setAt at h4
        cases hx : s.components[pos]? <;> rw [hx] at h4 <;> cases h4
      | panic =>
        have h0 : w.writeAt t' pos v = .panic := by
          unfold World.writeAt
          rw [hm]
          simp [hs', h4]
        rw [h0] at hs
        cases hs
        by_cases ht : t' = t
        · subst ht
          rw [if_pos rfl, ComponentStorage.sheetAt_get hm hs']
          have h5 : s.components.length ≤ pos := by
            unfold CompSet.setAt at h4
            cases hx : s.components[pos]? with
            | none => exact List.getElem?_eq_none_iff.1 hx
            | some y => rw [hx] at h4; cases h4
          show s.sheet = ⟨s.rows.modify pos _, s.sheet.labels⟩
          rw [show s.rows.modify pos (fun p => (p.1, v)) = s.rows from List.modify_eq_self (by
            simp only [CompSet.rows, List.length_zip]
            omega)]
          rfl
        · rw [if_neg ht]
      | ok s' =>
        have h0 : w.writeAt t' pos v =
            .ok { w with components := { w.components with components := w.components.components.set m.storageIndex s' } } := by
          unfold World.writeAt
          rw [hm]
          simp [hs', h4]
        rw [h0] at hs
        cases hs
        simp only
        rw [ComponentStorage.sheetAt_set hc.static hm]
        by_cases ht : t' = t
        · subst ht
          rw [if_pos rfl, if_pos rfl, ComponentStorage.sheetAt_get hm hs']
          exact CompSet.setAt_sheet h4
        · rw [if_neg ht, if_neg (Ne.symm ht)]
  | register t' =>
    simp only [World.Relabels, sheet_eq]
    simp only [step] at hs
    cases hs
    exact ComponentStorage.register_sheet hc.static t' t
  | createAtomic =>
    simp only [World.Relabels, sheet_eq]
    simp only [step] at hs
    rcases retRes_split hs with ⟨⟨e, w1⟩, h1, h2⟩ | ⟨h1, h2⟩
    · cases h2
      unfold World.createAtomic at h1
      obtain ⟨⟨e', es⟩, h3, h1⟩ := Res.bind_ok' h1
      cases h1
      rfl
    · cases h2
      rfl
  | maintain =>
    simp only [World.Relabels, sheet_eq]
    simp only [step] at hs
    rcases retRes_split hs with ⟨w1, h1, h2⟩ | ⟨h1, h2⟩
    · cases h2
      unfold World.maintain at h1
      obtain ⟨es, h3, h1⟩ := Res.bind_ok' h1
      cases h1
      rfl
    · cases h2
      rfl
  | setLayout rank gs =>
    simp only [World.Relabels, sheet_eq]
    simp only [step] at hs
    unfold World.setLayout at hs
    have h := ComponentStorage.setLayout_sheet rank hc.static hc.sets hk (GroupLayout.build gs).2 w.entities.asSlice t
    cases hx : w.components.setLayout rank (GroupLayout.build gs).2 w.entities.asSlice with
    | ub => rw [hx] at hs; cases hs
    | panic c =>
      rw [hx] at hs h
      cases hs
      exact h
    | ok u c =>
      rw [hx] at hs
      cases hs
      exact ComponentStorage.setLayout_sheet_ok hc.static hc.sets hk (build_fams gs) hx t

/-- C68: what each call makes of the rows of a view and of their labels, in every reachable world and however the call ends. -/
theorem C68 {h : History V} {w w' : World V} {op : Op V} {r : Ret V} (hr : Reach World.empty h w)
    (hs : step w op = some (r, w')) (t : TypeId) : w.Relabels t op r (w'.sheet t) := by
  obtain ⟨he, hc⟩ := reach_sound hr
  exact step_relabels he hc (reach_keys hr) hs t

/-- C68, the rows and labels decide what is found: a view has one label for each row, no two rows of an index, and the lookup of
an entity gives the row of its index if the label is its version. -/
theorem C68_found {h : History V} {w : World V} (hr : Reach World.empty h w) (t : TypeId) :
    (w.sheet t).rows = w.rows t ∧ (w.sheet t).labels.length = (w.rows t).length ∧
    ((w.rows t).map fun p => p.1.index).Nodup ∧
    (w.isRegistered t → ∀ e, w.viewGet t e = .ok ((w.sheet t).get e)) := by
  obtain ⟨he, hc⟩ := reach_sound hr
  have h1 : (w.sheet t).rows = w.rows t := by rw [sheet_eq, rows_eq, ComponentStorage.sheetAt_rows]
  refine ⟨h1, ?_, C65_unique hr t, fun hreg e => ?_⟩
  · rw [← h1, sheet_eq]
    exact ComponentStorage.sheetAt_length hc.sets t
  · obtain ⟨m, hm⟩ := Option.isSome_iff_exists.1 (show (w.components.meta? t).isSome = true from hreg)
    obtain ⟨s, hs⟩ : ∃ s, w.components.components[m.storageIndex]? = some s :=
      ⟨_, List.getElem?_eq_getElem (hc.static.idx t m hm)⟩
    have hb : w.borrow t = .ok s := by
      unfold World.borrow
      rw [hm]
      simp [hs]
    unfold World.viewGet
    rw [hb, sheet_eq, ComponentStorage.sheetAt_get hm hs]
    exact CompSet.sheet_get (hc.sets s (List.mem_of_getElem? hs)) e

theorem Sheet.pos_of {s : Sheet V} (hu : (s.rows.map fun p => p.1.index).Nodup) {i : Nat} {p : Entity × V}
    (hp : s.rows[i]? = some p) : s.pos p.1 = some i := by
  unfold Sheet.pos
  rw [List.findIdx?_eq_some_iff_getElem]
  obtain ⟨hi, hx⟩ := List.getElem?_eq_some_iff.1 hp
  refine ⟨hi, by simp [hx], fun j hj hjx => ?_⟩
  have h1 : (s.rows.map fun p => p.1.index)[j]? = (s.rows.map fun p => p.1.index)[i]? := by
    rw [List.getElem?_map, List.getElem?_map, hp, List.getElem?_eq_getElem (by omega)]
    simpa using hjx
  have := (List.getElem?_inj (by simpa using (by omega : j < s.rows.length)) hu).1 h1
  omega

theorem finds_iff {s : Sheet V} (hu : (s.rows.map fun p => p.1.index).Nodup) (hl : s.labels.length = s.rows.length) :
    (∀ p ∈ s.rows, s.get p.1 = some p.2) ↔ s.labels = s.rows.map fun p => p.1.version := by
  have hget : ∀ (i : Nat) (p : Entity × V), s.rows[i]? = some p →
      (s.get p.1 = some p.2 ↔ s.labels[i]? = some p.1.version) := by
    intro i p hp
    unfold Sheet.get
    rw [Sheet.pos_of hu hp]
    simp only [hp, Option.map_some]
    split <;> simp_all
  constructor
  · intro h
    apply List.ext_getElem?
    intro i
    rw [List.getElem?_map]
    cases hp : s.rows[i]? with
    | none =>
      rw [List.getElem?_eq_none_iff] at hp
      simpa [List.getElem?_eq_none_iff, hl] using hp
    | some p => exact (hget i p hp).1 (h p (List.mem_of_getElem? hp))
  · intro h p hp
    obtain ⟨i, hi⟩ := List.getElem?_of_mem hp
    rw [hget i p hi, h, List.getElem?_map, hi]
    rfl

/-- C68, the lookup of every entity of the view finds its row exactly if every label is the version of the entity of its row. -/
theorem C68_all {h : History V} {w : World V} (hr : Reach World.empty h w) (t : TypeId) :
    w.FindsAll t ↔ (w.sheet t).labels = (w.rows t).map fun p => p.1.version := by
  obtain ⟨h1, h2, h3, h4⟩ := C68_found hr t
  by_cases hreg : w.isRegistered t = true
  · have := finds_iff (s := w.sheet t) (by rw [h1]; exact h3) (by rw [h1]; exact h2)
    rw [h1] at this
    rw [← this]
    unfold World.FindsAll
    simp only [h4 hreg, Res.ok.injEq]
  · have h5 : w.rows t = [] := by
      rw [rows_eq]
      exact ComponentStorage.rowsAt_none (by
        have : ¬ (w.components.meta? t).isSome = true := hreg
        simpa using this)
    unfold World.FindsAll
    rw [h5]
    rw [h5] at h2
    simpa using h2

theorem puts_none {w : World V} {op : Op V} {t : TypeId} (ht : ¬ op.names t) : w.puts t op = [] := by
  have hw : ∀ vs : List (TypeId × V), t ∉ vs.map (·.1) → partFor t (vs.takeWhile fun p => w.isRegistered p.1) = [] :=
    fun vs hv => partFor_none fun hx => hv (List.map_subset _ (List.takeWhile_sublist _).subset hx)
  cases op <;> simp only [Op.names] at ht
  case create vs => simp [World.puts, hw vs ht, flatMap_nothing]
  case insert e vs => simp [World.puts, hw vs ht]
  case extend ts it =>
    have hz : ∀ vs : List V, partFor t (ts.zip vs) = [] := fun vs => partFor_none fun hx => by
      obtain ⟨p, hp, rfl⟩ := List.mem_map.1 hx
      exact ht (List.of_mem_zip hp).1
    simp [World.puts, hz, flatMap_nothing]
  all_goals first | rfl | exact absurd trivial ht

/-- C68, other types: a call that does not name a type may move the rows of its view, and leaves the labels in place; so does a
`set_layout` that returns, unless the type is twice in the layout. -/
theorem C68_frame {h : History V} {w w' : World V} {op : Op V} {r : Ret V} (hr : Reach World.empty h w)
    (hs : step w op = some (r, w')) {t : TypeId} (ht : op.Moves t r) : (w.sheet t).Shuffled (w'.sheet t) := by
  have h := C68 hr hs t
  rcases ht with ht | ⟨rank, gs, rfl, rfl, hc⟩
  · have hp := puts_none (w := w) ht
    cases op <;> simp only [World.Relabels, hp, List.foldl_nil] at h <;> simp only [Op.names] at ht
    case create => exact h
    case insert => exact h
    case extend => exact h
    case remove e ts =>
      split at h
      · obtain ⟨s1, h1, h2, _⟩ := h
        rw [if_neg ht] at h2
        rw [h2]
        exact h1
      · rw [h]; exact Sheet.Shuffled.refl _
    case delete e ts =>
      split at h
      · obtain ⟨s1, h1, h2⟩ := h
        rw [if_neg ht] at h2
        rw [h2]
        exact h1
      · rw [h]; exact Sheet.Shuffled.refl _
    case write => rw [if_neg ht] at h; rw [h]; exact Sheet.Shuffled.refl _
    case writeAt => rw [if_neg ht] at h; rw [h]; exact Sheet.Shuffled.refl _
    case register => rw [h]; exact Sheet.Shuffled.refl _
    case createAtomic => rw [h]; exact Sheet.Shuffled.refl _
    case maintain => rw [h]; exact Sheet.Shuffled.refl _
    all_goals exact absurd trivial ht
  · simp only [World.Relabels, if_pos hc] at h
    exact h

/-- C68, exactly when regrouping loses a row: if the view found all its rows before, it does so after exactly if the versions of
its entities, in the order of the view, are the same. -/
theorem C68_exact {h : History V} {w w' : World V} {op : Op V} {r : Ret V} (hr : Reach World.empty h w)
    (hs : step w op = some (r, w')) {t : TypeId} (ht : op.Moves t r) (hf : w.FindsAll t) :
    w'.FindsAll t ↔ ((w'.rows t).map fun p => p.1.version) = (w.rows t).map fun p => p.1.version := by
  rw [C68_all (hr.snoc hs) t, (C68_frame hr hs ht).2, (C68_all hr t).1 hf]
  exact eq_comm

/-- C68, versions that are all the same are not mixed up. -/
theorem C68_even {h : History V} {w w' : World V} {op : Op V} {r : Ret V} (hr : Reach World.empty h w)
    (hs : step w op = some (r, w')) {t : TypeId} (ht : op.Moves t r) (hf : w.FindsAll t) {n : Nat}
    (hn : ∀ p ∈ w.rows t, p.1.version = n) : w'.FindsAll t := by
  rw [C68_exact hr hs ht hf]
  have hp : (w'.rows t).Perm (w.rows t) := by
    have := (C68_frame hr hs ht).1
    rwa [(C68_found hr t).1, (C68_found (hr.snoc hs) t).1] at this
  have h1 : ((w.rows t).map fun p => p.1.version) = List.replicate (w.rows t).length n := by
    rw [List.eq_replicate_iff]
    refine ⟨by simp, fun b hb => ?_⟩
    obtain ⟨p, hp, rfl⟩ := List.mem_map.1 hb
    exact hn p hp
  have h2 := hp.map fun p => p.1.version
  rw [h1] at h2 ⊢
  exact List.perm_replicate.1 h2

/-- C68, after components are put: the view finds all its rows exactly if the versions of its entities are the labels that it had
before, followed by the versions of the new rows. -/
theorem C68_put {h : History V} {w w' : World V} {op : Op V} {r : Ret V} (hr : Reach World.empty h w)
    (hs : step w op = some (r, w')) {t : TypeId} (ho : op.puts) :
    w'.FindsAll t ↔ ((w'.rows t).map fun p => p.1.version) = ((w.puts t op).foldl Sheet.put (w.sheet t)).labels := by
  rw [C68_all (hr.snoc hs) t]
  have h := C68 hr hs t
  cases op <;> simp only [Op.puts] at ho <;> simp only [World.Relabels] at h
  all_goals rw [h.2]; exact eq_comm

/-- Types 0 and 1 form a group; the first row of type 1 belongs to a recycled index. -/
def labelOps : List (Op Nat) :=
  [.setLayout anyOrder [[0, 1]], .create [], .destroy ⟨0, 1⟩, .create [(1, 10)], .create [(1, 20)]]

/-- All rows are found; then a call that does not name type 1 exchanges the rows and not the labels, so that none is found, except
under versions that their entities do not have. -/
example : holdsAfter labelOps (fun _ w => decide (
      w.sheet 1 = ⟨[(⟨0, 2⟩, 10), (⟨1, 1⟩, 20)], [2, 1]⟩ ∧
      w.viewGet 1 ⟨0, 2⟩ = .ok (some 10) ∧ w.viewGet 1 ⟨1, 1⟩ = .ok (some 20))) = true ∧
    holdsAfter (labelOps ++ [.insert ⟨1, 1⟩ [(0, 30)]]) (fun _ w => decide (
      w.sheet 1 = ⟨[(⟨1, 1⟩, 20), (⟨0, 2⟩, 10)], [2, 1]⟩ ∧
      w.viewGet 1 ⟨0, 2⟩ = .ok none ∧ w.viewGet 1 ⟨1, 1⟩ = .ok none ∧
      w.viewGet 1 ⟨0, 1⟩ = .ok (some 10) ∧ w.viewGet 1 ⟨1, 2⟩ = .ok (some 20))) = true := by decide

/-- Another exchange brings the rows back to their labels. -/
example : holdsAfter (labelOps ++ [.insert ⟨1, 1⟩ [(0, 30)], .insert ⟨0, 2⟩ [(0, 40)], .delete ⟨1, 1⟩ [0]]) (fun _ w => decide (
      w.sheet 1 = ⟨[(⟨0, 2⟩, 10), (⟨1, 1⟩, 20)], [2, 1]⟩)) = true := by decide

/-- A removal gives the row that fills the gap its own version; the other row is still lost. -/
example : holdsAfter (labelOps ++ [.insert ⟨1, 1⟩ [(0, 30)], .create [(1, 50)], .insert ⟨2, 1⟩ [(0, 60)]])
      (fun _ w => decide (w.sheet 1 = ⟨[(⟨1, 1⟩, 20), (⟨2, 1⟩, 50), (⟨0, 2⟩, 10)], [2, 1, 1]⟩)) = true ∧
    holdsAfter (labelOps ++ [.insert ⟨1, 1⟩ [(0, 30)], .create [(1, 50)], .insert ⟨2, 1⟩ [(0, 60)], .delete ⟨2, 1⟩ [1]])
      (fun _ w => decide (w.sheet 1 = ⟨[(⟨1, 1⟩, 20), (⟨0, 2⟩, 10)], [2, 2]⟩)) = true := by decide

/-- The hypotheses of `C68_exact` for type 1: the view finds all, and the next call does not name the type. -/
example : ∃ rs w, Reach World.empty (labelOps.zip rs) w ∧ w.FindsAll 1 ∧
    (Op.insert ⟨1, 1⟩ [(0, 30)] : Op Nat).Moves 1 .unit := by
  obtain ⟨rs, w, h1, h2⟩ := reach_witness (V := Nat) (ops := labelOps) (f := fun (_ : List (Ret Nat)) w =>
    decide (∀ p ∈ w.rows 1, w.viewGet 1 p.1 = .ok (some p.2))) (by decide)
  refine ⟨rs, w, h1, ?_, .inl (by simp [Op.names])⟩
  have h3 : ∀ p ∈ w.rows 1, w.viewGet 1 p.1 = .ok (some p.2) := of_decide_eq_true h2
  exact h3

/-- A `set_layout` that keeps type 1. -/
example : (Op.setLayout anyOrder [[0, 1], [2, 3]] : Op Nat).Moves 1 .unit :=
  .inr ⟨_, _, rfl, rfl, by decide⟩

end Sparsey
