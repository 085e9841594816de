import Verif.Proofs.Rows
import Verif.Properties.Panics

/-!
C65: what each call does to the rows of a view, in every reachable world. Grouping moves rows but never parts a component from
its entity; a call touches the rows of the indexes it names and of the types it names only.
-/

set_option autoImplicit false
set_option linter.unusedSimpArgs false

namespace Sparsey
variable {V : Type}

theorem rows_eq (w : World V) (t : TypeId) : w.rows t = w.components.rowsAt t := by
  unfold World.rows World.borrow ComponentStorage.rowsAt
  cases w.components.meta? t with
  | none => rfl
  | some m =>
    simp only
    unfold rowsI
    cases w.components.components[m.storageIndex]? <;> rfl

/-- The entities of the next calls depend on the allocator only. -/
theorem upcoming_eq : ∀ (n : Nat) (w : World V) (s : EntityStorage), w.entities.allocator = s.allocator →
    EntOk w.entities → EntOk s → w.upcoming n = s.createUpTo n
  | 0, w, s, _, _, _ => rfl
  | n + 1, w, s, ha, hw, hs => by
    rcases hs.create with h1 | ⟨e, s', h1, h2, h3⟩
    · have h4 : ∀ n, w.upcoming n = [] := by
        have h4 : w.createAtomic = .panic := by
          unfold World.createAtomic
          rw [createAtomic_eq, ha]
          obtain ⟨o, a, h5, h5', _⟩ := hs.allocate
          unfold EntityStorage.create at h1
          rw [h5] at h1 ⊢
          cases o with
          | none => rfl
          | some e =>
            exfalso
            obtain ⟨o', es, h6, _⟩ := EntitySparseSet.idx_insert hs.rep e (h5' e rfl)
            simp [h6] at h1
        have h5 : step w .createAtomic = some (.panicked [], w) := by simp [step, h4, retRes]
        have h6 : ∀ n, run w (List.replicate n .createAtomic) = some (List.replicate n (.panicked []), w) := by
          intro n
          induction n with
          | zero => rfl
          | succ n ih => rw [List.replicate_succ, run, h5]; simp only [ih]; rfl
        intro n
        unfold World.upcoming
        rw [h6]
        simp only
        rw [List.filterMap_eq_nil_iff]
        intro r hr
        rw [(List.mem_replicate.1 hr).2]
      rw [h4, EntityStorage.createUpTo, h1]
    · obtain ⟨o, a, h5, h5', _, h8⟩ := hs.allocate
      have h6 : o = some e ∧ s'.allocator = a := by
        unfold EntityStorage.create at h1
        rw [h5] at h1
        cases o with
        | none => simp at h1
        | some x =>
          obtain ⟨o', es, h6, _⟩ := EntitySparseSet.idx_insert hs.rep x (h5' x rfl)
          simp [h6] at h1
          exact ⟨by rw [h1.1], by rw [← h1.2]⟩
      obtain ⟨rfl, h6⟩ := h6
      have h4 : w.createAtomic = .ok (e, ⟨{ w.entities with allocator := a }, w.components⟩) := by
        unfold World.createAtomic
        rw [createAtomic_eq, ha, h5]
        rfl
      have h7 : step w .createAtomic = some (.entity e, ⟨{ w.entities with allocator := a }, w.components⟩) := by
        simp [step, h4, retRes]
      have hw' : EntOk { w.entities with allocator := a } := h8 w.entities.entities hw.rep
      have ih := upcoming_eq n ⟨{ w.entities with allocator := a }, w.components⟩ s' h6.symm hw' h3
      obtain ⟨_, rs, w', j2⟩ := dry_iff n ⟨{ w.entities with allocator := a }, w.components⟩ s' h6.symm hw' h3
      have h9 : run w (List.replicate (n + 1) .createAtomic) = some (.entity e :: rs, w') := by
        rw [List.replicate_succ, run, h7]
        simp only [j2]
      rw [EntityStorage.createUpTo, h1]
      simp only
      rw [← ih]
      unfold World.upcoming
      rw [h9, j2]
      rfl

theorem extendEach_rows (t : TypeId) (ts : List TypeId) : ∀ (items : List (List V)) (w : World V), EntOk w.entities →
    Static w.components → AllSets CompSet.IdxOk w.components.components → (∀ x ∈ ts, (w.components.meta? x).isSome) →
    (World.extendEach (ts.map w.components.idxOf) items w).Leaves (fun w' => (w'.components.rowsAt t).Perm
      (putRows (w.components.rowsAt t) (((w.entities.createUpTo items.length).zip items).flatMap fun p =>
        (partFor t (ts.zip p.2)).map fun v => (p.1, v))))
  | [], w, _, _, _, _ => List.Perm.refl _
  | vs :: items, w, he, hc, ha, hk => by
    rw [World.extendEach, List.length_cons, EntityStorage.createUpTo]
    rcases he.create with h1 | ⟨e, es, h1, h2, h3⟩
    · rw [h1]
      exact List.Perm.refl _
    · rw [h1]
      simp only [Outcome.ofRes_ok, List.zip_cons_cons, List.flatMap_cons]
      cases hi : w.components.insertAt e ((ts.map w.components.idxOf).zip vs) with
      | ub => trivial
      | panic => exact absurd hi (ComponentStorage.insertAt_ne_panic _ _)
      | ok c =>
        simp only [Outcome.ofRes_ok]
        obtain ⟨i1, i2⟩ := ComponentStorage.insertAt_rows h2 t ts vs w.components c hc ha hk hi
        have ih := extendEach_rows t ts items ⟨es, c⟩ h3 (hc.of_shape i2) (stable_idx.insertAt h2 _ ha hi)
          (fun x hx => by rw [i2.meta?]; exact hk x hx)
        rw [ComponentStorage.idxOf_same (c := w.components) (c' := c) i2.md] at ih
        have hfin := putRows_perm (((es.createUpTo items.length).zip items).flatMap fun p =>
          (partFor t (ts.zip p.2)).map fun v => (p.1, v)) i1
        rw [← putRows_append] at hfin
        revert ih
        cases World.extendEach (ts.map w.components.idxOf) items ⟨es, c⟩ with
        | ub => exact fun _ => trivial
        | ok u w' => exact fun ih => List.Perm.trans ih hfin
        | panic w' => exact fun ih => List.Perm.trans ih hfin

theorem all_registered {w : World V} {ts : List TypeId} :
    ts.all w.isRegistered = true ↔ ∀ x ∈ ts, (w.components.meta? x).isSome := by
  rw [List.all_eq_true]
  rfl

theorem extend_rows {w : World V} (he : EntOk w.entities) (hc : Sound w.components) (t : TypeId) (ts : List TypeId)
    (it : Items V) : (w.extend ts it).Leaves (fun w' => (w'.components.rowsAt t).Perm
      (putRows (w.components.rowsAt t) (w.puts t (.extend ts it)))) := by
  unfold World.extend
  simp only [World.puts]
  by_cases hk : ∀ x ∈ ts, (w.components.meta? x).isSome
  · rw [if_pos (all_registered.2 hk), upcoming_eq _ w w.entities rfl he he]
    cases hl : w.components.lookupAll (·.insertMask) ts with
    | panic =>
      obtain ⟨x, h1, h2⟩ := (lookupAll_refuses hc _ ts).1 hl
      have := hk x h1
      unfold ComponentStorage.isRegistered at h2
      rw [h2] at this
      cases this
    | ub => trivial
    | ok p =>
      obtain ⟨idxs, mask⟩ := p
      obtain ⟨rfl, _⟩ := lookupAll_idxs ts hl
      simp only [Outcome.ofRes_ok]
      refine Outcome.Leaves.bind (extendEach_rows t ts it.items w he hc.static hc.sets hk) fun _ w1 h1 => ?_
      split
      · exact h1
      · split
        · trivial
        · refine Outcome.Leaves.ofRes h1 fun c2 h2 => ?_
          obtain ⟨k1, k2⟩ := withMask_shuffles (fun s s' h => groupEntities_shuffles _ _ _ h) h2
          exact (ComponentStorage.rowsAt_shuffles k1 k2 t).trans h1
  · have hp : w.components.lookupAll (·.insertMask) ts = .panic := by
      apply lookupAll_panic
      by_contra hn
      refine hk fun x hx => ?_
      cases hm : w.components.meta? x with
      | none => exact absurd ⟨x, hx, hm⟩ hn
      | some m => rfl
    rw [if_neg (fun h => hk (all_registered.1 h)), hp]
    exact List.Perm.refl _

theorem insertSet_rows {w : World V} {e : Entity} (he : e.index < u32Size) (hc : Sound w.components) (t : TypeId)
    (vs : List (TypeId × V)) : (w.insertSet e vs).Leaves (fun w' => (w'.components.rowsAt t).Perm
      (putRows (w.components.rowsAt t) ((partFor t (vs.takeWhile fun p => w.isRegistered p.1)).map fun v => (e, v)))) := by
  have h := ComponentStorage.insert_rows he t vs hc.static hc.sets
  unfold World.insertSet
  revert h
  cases w.components.insert e vs with
  | ub => exact fun _ => trivial
  | ok u c => exact fun h => h
  | panic c => exact fun h => h

theorem create_rows {w : World V} (he : EntOk w.entities) (hc : Sound w.components) (t : TypeId) (vs : List (TypeId × V)) :
    (w.create vs).Leaves (fun w' => (w'.components.rowsAt t).Perm
      (putRows (w.components.rowsAt t) (w.puts t (.create vs)))) := by
  unfold World.create
  simp only [World.puts]
  rw [upcoming_eq _ w w.entities rfl he he]
  simp only [EntityStorage.createUpTo]
  rcases he.create with h1 | ⟨e, es, h1, h2, h3⟩
  · rw [h1]
    exact List.Perm.refl _
  · rw [h1]
    simp only [Outcome.ofRes_ok, List.flatMap_cons, List.flatMap_nil, List.append_nil]
    exact Outcome.Leaves.bind (insertSet_rows (w := { w with entities := es }) h2 hc t vs) fun _ w1 k => k

theorem insert_rows {w : World V} (he : EntOk w.entities) (hc : Sound w.components) (t : TypeId) (e : Entity)
    (vs : List (TypeId × V)) : (w.insert e vs).Leaves (fun w' => (w'.components.rowsAt t).Perm
      (putRows (w.components.rowsAt t) (w.puts t (.insert e vs)))) := by
  unfold World.insert
  simp only [World.puts]
  have hy : w.containsEntity e = w.entities.contains e := rfl
  by_cases hx : w.entities.contains e = true
  · rw [if_pos (hy.trans hx), hx]
    have he' : e.index < u32Size := he.small_of_contains hx
    exact Outcome.Leaves.bind (insertSet_rows he' hc t vs) fun _ w1 k => k
  · rw [if_neg (fun h => hx (hy.symm.trans h)), if_pos (by simpa using hx)]
    exact List.Perm.refl _

theorem setMut_borrow {w : World V} {t' : TypeId} {m : ComponentMetadata} {s s' : CompSet V} (hc : Sound w.components)
    (hm : w.components.meta? t' = some m) (hs : w.components.components[m.storageIndex]? = some s) (t : TypeId) :
    w.components.rowsAt t' = s.rows ∧
    ({ w.components with components := w.components.components.set m.storageIndex s' } : ComponentStorage V).rowsAt t =
      if t = t' then s'.rows else w.components.rowsAt t :=
  ⟨ComponentStorage.rowsAt_get hm hs, ComponentStorage.rowsAt_set hc.static hm s'⟩

theorem retRes_split {α : Type} {w w' : World V} {r : Res α} {f : α → Ret V × World V} {x : Ret V}
    (h : retRes w r f = some (x, w')) : (∃ a, r = .ok a ∧ f a = (x, w')) ∨ (r = .panic ∧ (Ret.panicked [], w) = (x, w')) := by
  cases r with
  | ok a => exact .inl ⟨a, rfl, by simpa [retRes] using h⟩
  | panic => exact .inr ⟨rfl, by simpa [retRes] using h⟩
  | ub => cases h

theorem step_turns {w w' : World V} {op : Op V} {r : Ret V} (he : EntOk w.entities) (hc : Sound w.components)
    (hk : (w.components.metadata.map Prod.fst).Nodup) (hs : step w op = some (r, w')) (t : TypeId) :
    w.Turns t op r (w'.rows t) := by
  rw [rows_eq]
  cases op with
  | create vs =>
    simp only [World.Turns, rows_eq]
    have h := create_rows he hc t vs
    simp only [step] at hs
    exact retOutcome_some hs h
  | insert e vs =>
    simp only [World.Turns, rows_eq]
    have h := insert_rows he hc t e vs
    simp only [step] at hs
    exact retOutcome_some hs h
  | extend ts it =>
    simp only [World.Turns, rows_eq]
    have h := extend_rows he hc t ts it
    simp only [step] at hs
    exact retOutcome_some hs h
  | remove e ts =>
    simp only [World.Turns, rows_eq]
    simp only [step] at hs
    rcases retRes_split hs with ⟨⟨vs, w1⟩, h1, h2⟩ | ⟨h1, h2⟩
    · cases h2
      unfold World.remove at h1
      obtain ⟨⟨vs', c⟩, h3, h1⟩ := Res.bind_ok' h1
      cases h1
      exact ComponentStorage.remove_rows hc.static hc.sets h3 t
    · cases h2
      rfl
  | delete e ts =>
    simp only [World.Turns, rows_eq]
    simp only [step] at hs
    rcases retRes_split hs with ⟨w1, h1, h2⟩ | ⟨h1, h2⟩
    · cases h2
      unfold World.delete at h1
      obtain ⟨c, h3, h1⟩ := Res.bind_ok' h1
      cases h1
      rcases ComponentStorage.delete_rows hc.static hc.sets h3 t with h | ⟨ha, hb⟩
      · exact .inl h
      · exact .inr ⟨ha, rfl, hb⟩
    · cases h2
      exact .inl (List.Perm.refl _)
  | destroy e =>
    simp only [World.Turns, rows_eq]
    simp only [step] at hs
    rcases retRes_split hs with ⟨⟨b, w1⟩, h1, h2⟩ | ⟨h1, h2⟩
    · cases h2
      unfold World.destroy at h1
      obtain ⟨⟨b', es⟩, h3, h1⟩ := Res.bind_ok' h1
      cases b' with
      | false =>
        cases h1
        exact .inl (List.Perm.refl _)
      | true =>
        obtain ⟨c, h4, h1⟩ := Res.bind_ok' h1
        cases h1
        rcases ComponentStorage.strip_rows hc.sets h4 t with h | h
        · exact .inl h
        · exact .inr ⟨rfl, h⟩
    · cases h2
      exact .inl (List.Perm.refl _)
  | clear =>
    simp only [World.Turns, rows_eq]
    simp only [step] at hs
    rcases retRes_split hs with ⟨w1, h1, h2⟩ | ⟨h1, h2⟩
    · cases h2
      unfold World.clear at h1
      obtain ⟨es, h3, h1⟩ := Res.bind_ok' h1
      cases h1
      exact ⟨rfl, ComponentStorage.clear_rows _ t⟩
    · obtain ⟨x, hx⟩ := clear_safe he
      rw [hx] at h1
      cases h1
  | reset =>
    simp only [World.Turns, rows_eq]
    simp only [step] at hs
    cases hs
    exact ⟨rfl, ComponentStorage.clear_rows _ t⟩
  | write t' e v =>
    simp only [World.Turns, rows_eq]
    simp only [step] at hs
    rcases retRes_split hs with ⟨⟨b, w1⟩, h1, h2⟩ | ⟨h1, h2⟩
    · cases h2
      unfold World.writeView at h1
      cases hm : w.components.meta? t' with
      | none => rw [hm] at h1; cases h1
      | some m =>
        rw [hm] at h1
        dsimp only at h1
        obtain ⟨s, h3, h1⟩ := Res.bind_ok' h1
        obtain ⟨⟨b', s'⟩, h4, h1⟩ := Res.bind_ok' h1
        cases h1
        have h3 := Res.unchecked_ok h3
        obtain ⟨k1, k2⟩ := setMut_borrow (s' := s') hc hm h3 t
        rw [k2]
        rcases CompSet.setMut_rows (hc.sets s (List.mem_of_getElem? h3)) h4 with ⟨rfl, rfl⟩ | ⟨rfl, k3⟩
        · rw [if_neg (by simp [Ret.wrote])]
          split
          · rename_i ht; rw [ht, k1]
          · rfl
        · by_cases ht : t = t'
          · subst ht
            rw [if_pos ⟨rfl, rfl⟩, if_pos rfl, k1]
            exact k3
          · rw [if_neg (fun h => ht h.1.symm), if_neg ht]
    · cases h2
      rw [if_neg (by simp [Ret.wrote])]
  | writeAt t' pos v =>
    simp only [World.Turns, rows_eq]
    simp only [step] at hs
    rcases retRes_split hs with ⟨w1, h1, h2⟩ | ⟨h1, h2⟩
    · cases h2
      unfold World.writeAt at h1
      cases hm : w.components.meta? t' with
      | none => rw [hm] at h1; cases h1
      | some m =>
        rw [hm] at h1
        dsimp only at h1
        obtain ⟨s, h3, h1⟩ := Res.bind_ok' h1
        obtain ⟨s', h4, h1⟩ := Res.bind_ok' h1
        cases h1
        have h3 := Res.unchecked_ok h3
        obtain ⟨k1, k2⟩ := setMut_borrow (s' := s') hc hm h3 t
        rw [k2]
        by_cases ht : t = t'
        · subst ht
          rw [if_pos ⟨rfl, rfl⟩, if_pos rfl, k1]
          exact CompSet.setAt_rows (hc.sets s (List.mem_of_getElem? h3)) h4
        · rw [if_neg (fun h => ht h.1.symm), if_neg ht]
    · cases h2
      rw [if_neg (by simp [Ret.wrote])]
  | register t' =>
    simp only [World.Turns, rows_eq]
    simp only [step] at hs
    cases hs
    exact ComponentStorage.register_rows hc.static t' t
  | createAtomic =>
    simp only [World.Turns, rows_eq]
    simp only [step] at hs
    rcases retRes_split hs with ⟨⟨e, w1⟩, h1, h2⟩ | ⟨h1, h2⟩
    · cases h2
      unfold World.createAtomic at h1
      obtain ⟨⟨e', es⟩, h3, h1⟩ := Res.bind_ok' h1
      cases h1
      rfl
    · cases h2
      rfl
  | maintain =>
    simp only [World.Turns, rows_eq]
    simp only [step] at hs
    rcases retRes_split hs with ⟨w1, h1, h2⟩ | ⟨h1, h2⟩
    · cases h2
      unfold World.maintain at h1
      obtain ⟨es, h3, h1⟩ := Res.bind_ok' h1
      cases h1
      rfl
    · cases h2
      rfl
  | setLayout rank gs =>
    simp only [World.Turns, rows_eq]
    simp only [step] at hs
    unfold World.setLayout at hs
    have h := ComponentStorage.setLayout_rows rank hc.static hk (GroupLayout.build gs).2 w.entities.asSlice t
    cases hx : w.components.setLayout rank (GroupLayout.build gs).2 w.entities.asSlice with
    | ub => rw [hx] at hs; cases hs
    | panic c =>
      rw [hx] at hs h
      cases hs
      exact h
    | ok u c =>
      rw [hx] at hs
      cases hs
      exact ComponentStorage.setLayout_rows_ok hc.static hk (build_fams gs) hx t

/-- C65: what each call makes of the rows of a view, in every reachable world and however the call ends. -/
theorem C65 {h : History V} {w w' : World V} {op : Op V} {r : Ret V} (hr : Reach World.empty h w)
    (hs : step w op = some (r, w')) (t : TypeId) : w.Turns t op r (w'.rows t) := by
  obtain ⟨he, hc⟩ := reach_sound hr
  exact step_turns he hc (reach_keys hr) hs t

theorem reach_unique {h : History V} {w : World V} (hr : Reach World.empty h w) (t : TypeId) : UniqueRows (w.rows t) := by
  rw [rows_eq]
  unfold ComponentStorage.rowsAt
  cases hm : w.components.meta? t with
  | none => exact List.nodup_nil
  | some m =>
    simp only
    unfold rowsI
    cases hs : w.components.components[m.storageIndex]? with
    | none => exact List.nodup_nil
    | some s => exact ((reach_idx hr).2 s (List.mem_of_getElem? hs)).unique

/-- C65, no two rows of a view belong to the same index. -/
theorem C65_unique {h : History V} {w : World V} (hr : Reach World.empty h w) (t : TypeId) :
    ((w.rows t).map fun p => p.1.index).Nodup := reach_unique hr t

theorem mem_putRows : ∀ {ps l : List (Entity × V)} {p : Entity × V}, p ∈ putRows l ps → p ∈ l ∨ p ∈ ps
  | [], _, _, h => .inl h
  | q :: ps, l, p, h => by
    rcases mem_putRows (ps := ps) (l := putRow l q) h with h | h
    · rcases List.mem_cons.1 h with rfl | h
      · exact .inr (.head _)
      · exact .inl (List.mem_of_mem_filter h)
    · exact .inr (.tail _ h)

theorem mem_others {e : Entity} {l : List (Entity × V)} {p : Entity × V} (h : p ∈ others e l) : p ∈ l :=
  List.mem_of_mem_filter h

/-- Every row after a call was there before, or was put by it, or was written. -/
theorem turns_mem {w : World V} {t : TypeId} {op : Op V} {r : Ret V} {l : List (Entity × V)} (h : w.Turns t op r l)
    {e : Entity} {v : V} (hm : (e, v) ∈ l) :
    (e, v) ∈ w.rows t ∨ (e, v) ∈ w.puts t op ∨ ∃ old, (e, old) ∈ w.rows t ∧ op.writes t e v := by
  have hset : ∀ (x : Entity) (old v' : V) (i : Nat), (w.rows t)[i]? = some (x, old) → (e, v) ∈ (w.rows t).set i (x, v') →
      (e, v) ∈ w.rows t ∨ e = x ∧ v = v' ∧ (x, old) ∈ w.rows t := by
    intro x old v' i hi hm
    rcases List.mem_or_eq_of_mem_set hm with h | h
    · exact .inl h
    · cases h
      exact .inr ⟨rfl, rfl, List.mem_of_getElem? hi⟩
  cases op <;> simp only [World.Turns] at h
  case create => exact (mem_putRows (h.mem_iff.1 hm)).imp_right .inl
  case insert => exact (mem_putRows (h.mem_iff.1 hm)).imp_right .inl
  case extend => exact (mem_putRows (h.mem_iff.1 hm)).imp_right .inl
  case remove e' ts =>
    split at h
    · split at h
      · exact .inl (h.mem_iff.1 hm)
      · exact .inl (mem_others (h.2.mem_iff.1 hm))
      · exact h.elim
    · exact .inl (h ▸ hm)
  case delete =>
    rcases h with h | ⟨_, _, h⟩
    · exact .inl (h.mem_iff.1 hm)
    · exact .inl (mem_others (h.mem_iff.1 hm))
  case destroy =>
    rcases h with h | ⟨_, h⟩
    · exact .inl (h.mem_iff.1 hm)
    · exact .inl (mem_others (h.mem_iff.1 hm))
  case clear => rw [h.2] at hm; cases hm
  case reset => rw [h.2] at hm; cases hm
  case write t' e' v' =>
    split at h
    · rename_i ht
      obtain ⟨x, old, i, h1, h2, rfl⟩ := h
      rcases hset x old v' i h1 hm with h3 | ⟨rfl, rfl, h3⟩
      · exact .inl h3
      · exact .inr (.inr ⟨old, h3, ht.1, h2.symm, rfl⟩)
    · exact .inl (h ▸ hm)
  case writeAt t' pos v' =>
    split at h
    · rename_i ht
      obtain ⟨x, old, h1, rfl⟩ := h
      rcases hset x old v' pos h1 hm with h3 | ⟨rfl, rfl, h3⟩
      · exact .inl h3
      · exact .inr (.inr ⟨old, h3, ht.1, rfl⟩)
    · exact .inl (h ▸ hm)
  case setLayout =>
    split at h
    · split at h
      · exact .inl (h.mem_iff.1 hm)
      · cases h.mem_iff.1 hm
    · rcases h with h | rfl
      · exact .inl (h.mem_iff.1 hm)
      · cases hm
  all_goals exact .inl (h ▸ hm)

/-- C65, where rows come from: the entity of a row got a component of this type from an earlier call, and the value is the one
of that call or was written later, through the entity's index or a position. -/
theorem C65_source {h : History V} {w : World V} (hr : Reach World.empty h w) {t : TypeId} {e : Entity} {v : V}
    (hm : (e, v) ∈ w.rows t) : ∃ (h₁ h₂ : History V) (w₁ : World V) (op : Op V) (r : Ret V) (v₀ : V),
      h = h₁ ++ (op, r) :: h₂ ∧ Reach World.empty h₁ w₁ ∧ (e, v₀) ∈ w₁.puts t op ∧
      (v = v₀ ∨ ∃ op' ∈ calls h₂, op'.writes t e v) := by
  induction hr generalizing v with
  | nil => cases hm
  | @snoc h w w' op r hr hs ih =>
    rcases turns_mem (C65 hr hs t) hm with h1 | h1 | ⟨old, h1, h2⟩
    · obtain ⟨h₁, h₂, w₁, op₁, r₁, v₀, rfl, k1, k2, k3⟩ := ih h1
      refine ⟨h₁, h₂ ++ [(op, r)], w₁, op₁, r₁, v₀, by simp, k1, k2, k3.imp_right ?_⟩
      rintro ⟨op', k4, k5⟩
      exact ⟨op', by simp only [calls_append, List.mem_append]; exact .inl k4, k5⟩
    · exact ⟨h, [], w, op, r, v, rfl, hr, h1, .inl rfl⟩
    · obtain ⟨h₁, h₂, w₁, op₁, r₁, v₀, rfl, k1, k2, k3⟩ := ih h1
      exact ⟨h₁, h₂ ++ [(op, r)], w₁, op₁, r₁, v₀, by simp, k1, k2, .inr ⟨op, by simp [calls], h2⟩⟩

theorem partFor_none {α : Type} {t : TypeId} {vs : List (TypeId × α)} (h : t ∉ vs.map (·.1)) : partFor t vs = [] := by
  unfold partFor
  rw [List.map_eq_nil_iff, List.filter_eq_nil_iff]
  intro p hp hx
  exact h (List.mem_map.2 ⟨p, hp, by simpa using hx⟩)

theorem flatMap_nothing {α β : Type} (l : List α) : (l.flatMap fun _ => ([] : List β)) = [] := by
  induction l <;> simp_all

/-- C65, other types: a call that does not name a type leaves the rows of its view, up to their order. -/
theorem C65_frame {h : History V} {w w' : World V} {op : Op V} {r : Ret V} (hr : Reach World.empty h w)
    (hs : step w op = some (r, w')) {t : TypeId} (ht : ¬ op.names t) : (w'.rows t).Perm (w.rows t) := by
  have h := C65 hr hs t
  have hw : ∀ vs : List (TypeId × V), t ∉ vs.map (·.1) → partFor t (vs.takeWhile fun p => w.isRegistered p.1) = [] :=
    fun vs hv => partFor_none fun hx => hv (List.map_subset _ (List.takeWhile_sublist _).subset hx)
  cases op <;> simp only [World.Turns] at h <;> simp only [Op.names] at ht
  case create vs => simpa [World.puts, hw vs ht, putRows, flatMap_nothing] using h
  case insert e vs => simpa [World.puts, hw vs ht, putRows] using h
  case extend ts it =>
    have hz : ∀ vs : List V, partFor t (ts.zip vs) = [] := fun vs => partFor_none fun hx => by
      obtain ⟨p, hp, rfl⟩ := List.mem_map.1 hx
      exact ht (List.of_mem_zip hp).1
    simpa [World.puts, hz, putRows, flatMap_nothing] using h
  case remove e ts =>
    split at h
    · rename_i vs
      have hz : partFor t (ts.zip vs) = [] := partFor_none fun hx => by
        obtain ⟨p, hp, rfl⟩ := List.mem_map.1 hx
        exact ht (List.of_mem_zip hp).1
      rw [hz] at h
      exact h
    · rw [h]
  case delete e ts => exact h.elim id fun h => absurd h.1 ht
  case write => rw [if_neg (fun hx => ht hx.1)] at h; rw [h]
  case writeAt => rw [if_neg (fun hx => ht hx.1)] at h; rw [h]
  case register => rw [h]
  case createAtomic => rw [h]
  case maintain => rw [h]
  all_goals exact absurd trivial ht

/-- A history in which grouping exchanges rows and slot versions (finding 9): it is not `Fair`, C65 still applies. -/
def rowOps : List (Op Nat) :=
  [.setLayout anyOrder [[0, 1]], .create [], .destroy ⟨0, 1⟩, .create [(0, 10)], .create [(0, 20), (1, 30)], .delete ⟨1, 1⟩ [1]]

example : holdsAfter rowOps (fun _ w => decide (w.rows 0 = [(⟨1, 1⟩, 20), (⟨0, 2⟩, 10)] ∧ w.rows 1 = [])) = true := by decide

/-- An `insert` that is interrupted by an unregistered type has replaced one row. -/
example : holdsAfter (rowOps ++ [.insert ⟨1, 1⟩ [(0, 7), (9, 1), (1, 5)]]) (fun rs w =>
    decide (rs.getLast? = some (.panicked []) ∧ w.rows 0 = [(⟨1, 1⟩, 7), (⟨0, 2⟩, 10)] ∧ w.rows 1 = [])) = true ∧
    holdsAfter rowOps (fun _ w => decide (w.puts 0 (.insert ⟨1, 1⟩ [(0, 7), (9, 1), (1, 5)]) = [(⟨1, 1⟩, 7)] ∧
      w.puts 1 (.insert ⟨1, 1⟩ [(0, 7), (9, 1), (1, 5)]) = [] ∧
      w.puts 0 (.extend [0] ⟨[[1], [3]], false⟩) = [(⟨2, 1⟩, 1), (⟨3, 1⟩, 3)])) = true := by decide

/-- Calls that do not name type 1. -/
example : ¬ (Op.insert ⟨1, 1⟩ [(0, 7)] : Op Nat).names 1 ∧ ¬ (Op.extend [0] ⟨[[1], [3]], false⟩ : Op Nat).names 1 := by
  simp [Op.names]

end Sparsey
