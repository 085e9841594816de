import Verif.Properties.Labels
import Verif.Proofs.OneTypeEven

/-!
Rows that are found under their own entities follow the map (C70): the final step of a call may have exchanged anything, as long
as every row has the label of its entity again when the call is over.
-/

set_option autoImplicit false
set_option linter.unusedSimpArgs false

namespace Sparsey
variable {V : Type}

/-- The rows are those of a map that has only entities of `A`. -/
structure RowsFor (A : Entity → Prop) (l : List (Entity × V)) (f : Entity → Option V) : Prop where
  uniq : UniqueRows l
  only : ∀ p ∈ l, A p.1
  iff : ∀ e v, (e, v) ∈ l ↔ f e = some v

theorem RowsFor.perm {A : Entity → Prop} {l l' : List (Entity × V)} {f : Entity → Option V} (h : RowsFor A l f)
    (hp : l'.Perm l) : RowsFor A l' f where
  uniq := (hp.map _).nodup_iff.2 h.uniq
  only p hx := h.only p (hp.mem_iff.1 hx)
  iff e v := by rw [hp.mem_iff]; exact h.iff e v

theorem RowsFor.mono {A B : Entity → Prop} {l : List (Entity × V)} {f : Entity → Option V} (h : RowsFor A l f)
    (hab : ∀ x, A x → B x) : RowsFor B l f := ⟨h.uniq, fun p hp => hab _ (h.only p hp), h.iff⟩

/-- One entry of a map is replaced. -/
def upd (f : Entity → Option V) (p : Entity × V) : Entity → Option V := fun x => if x = p.1 then some p.2 else f x

theorem RowsFor.put {A : Entity → Prop} (hA : IdxUniq A) {l : List (Entity × V)} {f : Entity → Option V} (h : RowsFor A l f)
    {p : Entity × V} (hp : A p.1) : RowsFor A (putRow l p) (upd f p) where
  uniq := by
    unfold UniqueRows putRow others
    rw [List.map_cons, List.nodup_cons]
    refine ⟨fun hx => ?_, List.Nodup.sublist (List.filter_sublist.map _) h.uniq⟩
    obtain ⟨q, hq, hi⟩ := List.mem_map.1 hx
    rw [List.mem_filter] at hq
    simp [hi] at hq
  only q hq := by
    rcases List.mem_cons.1 hq with rfl | hq
    · exact hp
    · exact h.only q (mem_others hq)
  iff e v := by
    unfold putRow upd
    rw [List.mem_cons]
    by_cases he : e = p.1
    · subst he
      rw [if_pos rfl]
      constructor
      · rintro (hx | hx)
        · rw [← hx]
        · simp [others] at hx
      · intro hx
        simp only [Option.some.injEq] at hx
        left
        rw [← hx]
    · rw [if_neg he, ← h.iff]
      constructor
      · rintro (hx | hx)
        · exact absurd (by rw [← hx]) he
        · exact mem_others hx
      · intro hx
        right
        unfold others
        rw [List.mem_filter]
        refine ⟨hx, ?_⟩
        simp only [bne_iff_ne, ne_eq]
        exact fun hi => he (hA _ _ (h.only _ hx) hp hi)

theorem RowsFor.puts {A : Entity → Prop} (hA : IdxUniq A) : ∀ (ps : List (Entity × V)) {l : List (Entity × V)}
    {f : Entity → Option V}, RowsFor A l f → (∀ p ∈ ps, A p.1) → RowsFor A (putRows l ps) (ps.foldl upd f)
  | [], _, _, h, _ => h
  | p :: ps, _, _, h, hp => RowsFor.puts hA ps (h.put hA (hp p (.head _))) fun q hq => hp q (.tail _ hq)

/-- Taking the row of an entity of `A` away. -/
theorem RowsFor.others {A : Entity → Prop} (hA : IdxUniq A) {l : List (Entity × V)} {f : Entity → Option V} (h : RowsFor A l f)
    {e : Entity} (he : A e) : RowsFor (fun x => A x ∧ x ≠ e) (others e l) (fun x => if x = e then none else f x) where
  uniq := List.Nodup.sublist (List.filter_sublist.map _) h.uniq
  only p hp := by
    refine ⟨h.only p (mem_others hp), fun hx => ?_⟩
    unfold Sparsey.others at hp
    rw [List.mem_filter] at hp
    simp [hx] at hp
  iff x v := by
    unfold Sparsey.others
    rw [List.mem_filter]
    by_cases hx : x = e
    · subst hx
      simp
    · rw [if_neg hx, ← h.iff]
      constructor
      · exact fun h => h.1
      · intro hm
        refine ⟨hm, ?_⟩
        simp only [bne_iff_ne, ne_eq]
        exact fun hi => hx (hA _ _ (h.only _ hm) he hi)

theorem Content.setAll_fold (t : TypeId) (e : Entity) : ∀ (vs : List (TypeId × V)) (F : Content V),
    F.setAll e vs t = ((partFor t vs).map fun v => (e, v)).foldl upd (F t)
  | [], _ => rfl
  | (t', v) :: vs, F => by
    rw [Content.setAll, Content.setAll_fold t e vs]
    by_cases ht : t' = t
    · subst ht
      have h1 : partFor t' ((t', v) :: vs) = v :: partFor t' vs := by simp [partFor]
      rw [h1, List.map_cons, List.foldl_cons]
      congr 1
      funext x
      simp [Content.set, upd]
    · have h1 : partFor t ((t', v) :: vs) = partFor t vs := by simp [partFor, ht]
      rw [h1]
      congr 1
      funext x
      simp [Content.set, Ne.symm ht]

theorem Table.setItems_fold (t : TypeId) (ts : List TypeId) : ∀ (l : List (Entity × List V)) (tb : Table V),
    (tb.setItems ts l).get t =
      (l.flatMap fun p => (partFor t (ts.zip p.2)).map fun v => (p.1, v)).foldl upd (tb.get t)
  | [], _ => rfl
  | (e, vs) :: l, tb => by
    rw [Table.setItems, Table.setItems_fold t ts l, List.flatMap_cons, List.foldl_append, Table.get_setAll,
      Content.setAll_fold]

/-! ### Sets and rows -/

theorem borrow_setOf {w : World V} {t : TypeId} {s : CompSet V} (h : w.components.setOf t = some s) : w.borrow t = .ok s := by
  unfold ComponentStorage.setOf at h
  cases hm : w.components.meta? t with
  | none => rw [hm] at h; cases h
  | some m =>
    rw [hm] at h
    simp only [Option.bind_some] at h
    simp [World.borrow, hm, h]

/-- A set whose rows are all found is well formed. -/
theorem CompSet.IdxOk.wf_of_found {s : CompSet V} (h : s.IdxOk) (hf : ∀ p ∈ s.rows, s.get p.1 = .ok (some p.2)) : s.WF := by
  have hfwd : ∀ (d : Nat) (e : Entity), s.entities[d]? = some e → s.sparse.slots[e.index]? = some (some ⟨d, e.version⟩) := by
    intro d e he
    obtain ⟨n, hn⟩ := h.rep.fwd d e he
    obtain ⟨v, _, hr⟩ := CompSet.rows_get h he
    have h1 := hf _ (List.mem_of_getElem? hr)
    have hn' : s.sparse.slots[e.sparse]? = some (some ⟨d, n⟩) := hn
    unfold CompSet.get SparseVec.get at h1
    simp only [hn'] at h1
    by_cases hv : n = e.version
    · rw [hn, hv]
    · simp [Option.filter, hv] at h1
  refine ⟨⟨hfwd, fun i d v hs => ?_, h.rep.small⟩, h.len⟩
  obtain ⟨e, he, rfl⟩ := h.rep.bwd i d v hs
  have := hfwd d e he
  rw [hs] at this
  simp only [Option.some.injEq, Slot.mk.injEq, true_and] at this
  rw [he, this]

theorem holds_of_rows {A : Entity → Prop} {h : History V} {w : World V} (hr : Reach World.empty h w) {t : TypeId}
    {f : Entity → Option V} (hf : w.FindsAll t) (hl : RowsFor A (w.rows t) f) : HoldsOf A w.components t f := by
  intro s hs
  have hb := borrow_setOf hs
  have hrows : w.rows t = s.rows := by rw [rows_eq, ComponentStorage.rowsAt_setOf hs]
  have hmem : s ∈ w.components.components := by
    unfold ComponentStorage.setOf at hs
    cases hm : w.components.meta? t with
    | none => rw [hm] at hs; cases hs
    | some m => rw [hm] at hs; exact List.mem_of_getElem? hs
  have hi : s.IdxOk := (reach_sound hr).2.sets s hmem
  have hw : s.WF := hi.wf_of_found fun p hp => by
    have := hf p (by rw [hrows]; exact hp)
    unfold World.viewGet at this
    rwa [hb] at this
  rw [hrows] at hl
  refine ⟨hw, fun x hx => ?_, fun x => ?_⟩
  · rw [← CompSet.rows_fst hi] at hx
    obtain ⟨p, hp, rfl⟩ := List.mem_map.1 hx
    exact hl.only p hp
  · refine Option.ext fun v => ?_
    rw [hw.val_eq_some, ← hl.iff]
    constructor
    · rintro ⟨d, h1, h2⟩
      exact List.mem_of_getElem? (zip_getElem? h1 h2)
    · intro hm
      obtain ⟨d, hd⟩ := List.getElem?_of_mem hm
      exact ⟨d, List.getElem?_zip_eq_some.1 hd⟩

theorem rows_of_holds {A : Entity → Prop} {h : History V} {w : World V} (hr : Reach World.empty h w) {t : TypeId}
    {f : Entity → Option V} (hh : HoldsOf A w.components t f) (hn : w.components.meta? t = none → ∀ e, f e = none) :
    RowsFor A (w.rows t) f := by
  cases hm : w.components.meta? t with
  | none =>
    rw [rows_eq, ComponentStorage.rowsAt_none hm]
    exact ⟨List.nodup_nil, by simp, fun e v => by simp [hn hm]⟩
  | some m =>
    obtain ⟨s, hs⟩ : ∃ s, w.components.components[m.storageIndex]? = some s :=
      ⟨_, List.getElem?_eq_getElem ((reach_sound hr).2.static.idx t m hm)⟩
    have hs' : w.components.setOf t = some s := by rw [setOf_meta hm]; exact hs
    obtain ⟨h1, h2, h3⟩ := hh s hs'
    have hi : s.IdxOk := (reach_sound hr).2.sets s (List.mem_of_getElem? hs)
    refine ⟨reach_unique hr t, ?_, ?_⟩ <;> rw [rows_eq, ComponentStorage.rowsAt_setOf hs']
    · intro p hp
      refine h2 _ ?_
      rw [← CompSet.rows_fst hi]
      exact List.mem_map_of_mem hp
    · intro e v
      rw [← h3, h1.val_eq_some]
      constructor
      · intro hmm
        obtain ⟨d, hd⟩ := List.getElem?_of_mem hmm
        exact ⟨d, List.getElem?_zip_eq_some.1 hd⟩
      · rintro ⟨d, i1, i2⟩
        exact List.mem_of_getElem? (zip_getElem? i1 i2)

/-- Rows change places. -/
theorem Sheet.Shuffled.rows {s s' : Sheet V} (h : s.Shuffled s') : s'.rows.Perm s.rows := h.1

theorem swapRemove_perm {α : Type} {l : List α} {i : Nat} {x last : α} (hx : l[i]? = some x) (hl : l.getLast? = some last) :
    (x :: (l.set i last).dropLast).Perm l := by
  have h1 := perm_set hx last
  have hne : l.set i last ≠ [] := by
    intro hc
    have := congrArg List.length hc
    rw [List.length_set] at this
    have h2 := (List.getElem?_eq_some_iff.1 hx).1
    simp at this
    simp [this] at h2
  have hlast : (l.set i last).getLast hne = last := by
    rw [List.getLast_eq_getElem, List.getElem_set]
    split
    · rfl
    · rw [List.getLast?_eq_getElem?] at hl
      obtain ⟨h2, h3⟩ := List.getElem?_eq_some_iff.1 hl
      simpa using h3
  have h2 : (l.set i last).Perm (last :: (l.set i last).dropLast) := by
    conv_lhs => rw [← List.dropLast_concat_getLast hne, hlast]
    exact List.perm_append_comm
  exact ((List.Perm.swap _ _ _).trans ((h2.cons x).symm.trans h1)).cons_inv

/-- Taking an entity away that is the only one with its index: if all rows are found afterwards, it is gone. -/
theorem take_found {A : Entity → Prop} (hA : IdxUniq A) {e : Entity} (he : A e) {s1 : Sheet V} {f : Entity → Option V}
    (h : RowsFor A s1.rows f)
    (hf : (s1.take e).labels = (s1.take e).rows.map fun p => p.1.version) :
    (s1.take e).rows.Perm (others e s1.rows) ∧ s1.get e = f e := by
  unfold Sheet.take at hf ⊢
  unfold Sheet.get
  cases hp : s1.pos e with
  | none =>
    have hn : ∀ p ∈ s1.rows, p.1.index ≠ e.index := by
      unfold Sheet.pos at hp
      rw [List.findIdx?_eq_none_iff] at hp
      intro p hx
      simpa using hp p hx
    refine ⟨by rw [others_none hn], ?_⟩
    dsimp only
    cases hfe : f e with
    | none => rfl
    | some v => exact absurd rfl (hn _ ((h.iff e v).2 hfe))
  | some i =>
    rw [hp] at hf
    dsimp only at hf ⊢
    obtain ⟨hi, hx, -⟩ := List.findIdx?_eq_some_iff_getElem.1 hp
    have hrow : s1.rows[i]? = some s1.rows[i] := List.getElem?_eq_getElem hi
    have hxe : s1.rows[i].1 = e := hA _ _ (h.only _ (List.getElem_mem hi)) he (by simpa using hx)
    have hlab : s1.labels[i]? = some e.version := by
      by_contra hc
      rw [if_neg hc] at hf
      rw [hf, List.getElem?_map, hrow] at hc
      simp [hxe] at hc
    rw [if_pos hlab]
    constructor
    · obtain ⟨last, hlast⟩ : ∃ last, s1.rows.getLast? = some last := by
        cases hg : s1.rows.getLast? with
        | none => rw [List.getLast?_eq_none_iff] at hg; rw [hg] at hi; simp at hi
        | some x => exact ⟨x, rfl⟩
      rw [hlast]
      dsimp only
      have hrow' : s1.rows[i]? = some (e, s1.rows[i].2) := by rw [hrow, ← hxe]
      have h2 := others_split h.uniq (List.mem_of_getElem? hrow') rfl
      have h1 : ((e, s1.rows[i].2) :: (s1.rows.set i last).dropLast).Perm s1.rows := swapRemove_perm hrow' hlast
      exact (h1.trans h2).cons_inv
    · rw [if_pos hlab, hrow, Option.map_some]
      refine ((h.iff e _).1 ?_).symm
      have : s1.rows[i] = (e, s1.rows[i].2) := by rw [← hxe]
      rw [← this]
      exact List.getElem_mem hi

/-! ### Answers -/

theorem exists_fresh (l : List TypeId) : ∃ t, t ∉ l := by
  have : ∃ n : Nat, ∀ x ∈ l, x < n := by
    induction l with
    | nil => exact ⟨0, by simp⟩
    | cons a l ih =>
      obtain ⟨n, hn⟩ := ih
      refine ⟨max n (a + 1), fun x hx => ?_⟩
      rcases List.mem_cons.1 hx with rfl | hx
      · exact Nat.lt_of_lt_of_le (Nat.lt_succ_self _) (Nat.le_max_right _ _)
      · exact Nat.lt_of_lt_of_le (hn x hx) (Nat.le_max_left _ _)
  obtain ⟨n, hn⟩ := this
  exact ⟨n, fun h => Nat.lt_irrefl _ (hn n h)⟩

/-- Answers do not depend on any components, other than those that are given back. -/
theorem answer_any {h : History V} {t : TypeId} {w w' : World V} {s : MapWorld V} {op : Op V} {r : Ret V}
    (hr : Reach World.empty h w) (hs : step w op = some (r, w')) (hreg : SameReg w s) (hv : LoneVals t w s)
    (hsp : op.SparesAt t r) (hm : op = .maintain → s.life.freshKilled = false) :
    ∃ t₀, SameFor t₀ op r (s.answer op) := by
  obtain ⟨he, hso⟩ := reach_sound hr
  by_cases hl : ∃ rank gs, op = .setLayout rank gs
  · obtain ⟨rank, gs, rfl⟩ := hl
    obtain ⟨_, rfl⟩ := hsp
    exact ⟨t, rfl⟩
  · obtain ⟨t₀, ht⟩ := exists_fresh (w.components.metadata.map Prod.fst ++
      match op with
      | .writeAt t' _ _ => [t']
      | _ => [])
    have hmn : w.components.meta? t₀ = none := by
      unfold ComponentStorage.meta?
      rw [List.lookup_eq_none_iff]
      intro p hp
      have : t₀ ≠ p.1 := fun hc => ht (List.mem_append_left _ (List.mem_map.2 ⟨p, hp, hc.symm⟩))
      simpa using this
    have hsp' : op.Spares t₀ r := by
      cases op <;> try trivial
      · exact absurd ⟨_, _, rfl⟩ hl
      · exact fun hc => ht (List.mem_append_right _ (by simp [hc]))
    have hsw := swapsOf_apart hso.static (reach_bounds hr) (reach_keys hr) (t := t₀)
      (fun m hm => by rw [hmn] at hm; cases hm) hs hsp'
    refine ⟨t₀, (step_lone (reach_bounds hr) (reach_keys hr) he hso hreg (t := t₀) ⟨hv.life, hv.absent, ?_⟩ hs hsp'.at
      (by rw [hsw]; simp [EvenPairs]) hm).1⟩
    intro x hx
    simp [ComponentStorage.setOf, hmn] at hx

end Sparsey
