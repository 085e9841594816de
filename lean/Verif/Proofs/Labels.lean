import Verif.Spec.Labels
import Verif.Proofs.Moves

/-!
Rows and labels of views (C68): exchanges leave labels in place.
-/

set_option autoImplicit false
set_option linter.unusedSimpArgs false

namespace Sparsey
variable {V : Type}

/-! ### One set -/

/-- The version in a slot. -/
def SparseVec.label (sv : SparseVec) (i : Nat) : Nat :=
  match sv.slots[i]? with
  | some (some sl) => sl.version
  | _ => 0

/-- The rows of a set and the versions in their slots. -/
def CompSet.sheet (s : CompSet V) : Sheet V := ⟨s.rows, s.entities.map fun e => s.sparse.label e.index⟩

/-- The label at a position is the version in the slot that points to the position. -/
theorem labels_iff {sv : SparseVec} {ents : List Entity} (h : IdxRep sv ents) (i n : Nat) :
    (ents.map fun e => sv.label e.index)[i]? = some n ↔ ∃ j : Nat, sv.slots[j]? = some (some ⟨i, n⟩) := by
  rw [List.getElem?_map, Option.map_eq_some_iff]
  constructor
  · rintro ⟨e, he, rfl⟩
    obtain ⟨v, hv⟩ := h.fwd i e he
    exact ⟨e.index, by rw [hv, SparseVec.label, hv]⟩
  · rintro ⟨j, hj⟩
    obtain ⟨e, he, rfl⟩ := h.bwd _ _ _ hj
    exact ⟨e, he, by rw [SparseVec.label, hj]⟩

theorem labels_eq {sv sv' : SparseVec} {ents ents' : List Entity} (h : IdxRep sv ents) (h' : IdxRep sv' ents')
    (hs : ∀ i n : Nat, (∃ j : Nat, sv'.slots[j]? = some (some ⟨i, n⟩)) ↔ ∃ j : Nat, sv.slots[j]? = some (some ⟨i, n⟩)) :
    (ents'.map fun e => sv'.label e.index) = ents.map fun e => sv.label e.index := by
  refine List.ext_getElem? fun i => Option.ext fun n => ?_
  rw [labels_iff h', labels_iff h, hs]

namespace CompSet

theorem rows_get {s : CompSet V} (h : s.IdxOk) {i : Nat} {e : Entity} (he : s.entities[i]? = some e) :
    ∃ v, s.components[i]? = some v ∧ s.rows[i]? = some (e, v) := by
  obtain ⟨v, hv⟩ := h.comp_at he
  exact ⟨v, hv, zip_getElem? he hv⟩

theorem sheet_pos {s : CompSet V} (h : s.IdxOk) {e x : Entity} {i : Nat} (hx : s.entities[i]? = some x)
    (hi : x.index = e.index) : s.sheet.pos e = some i := by
  obtain ⟨v, hv, hr⟩ := rows_get h hx
  unfold Sheet.pos
  obtain ⟨h1, h2⟩ := List.getElem?_eq_some_iff.1 hr
  rw [List.findIdx?_eq_some_iff_getElem]
  refine ⟨h1, ?_, fun j hj hp => ?_⟩
  · show (s.rows[i].1.index == e.index) = true
    rw [h2]
    simpa using hi
  · have hj' : j < s.rows.length := Nat.lt_trans hj h1
    have hje : s.entities[j]? = some s.rows[j].1 := by
      have := congrArg (·[j]?) (rows_fst h)
      simp only [List.getElem?_map, List.getElem?_eq_getElem hj', Option.map_some] at this
      exact this.symm
    have := h.rep.pos_unique hje hx (by rw [hi]; exact eq_of_beq hp)
    omega

theorem sheet_none {s : CompSet V} (h : s.IdxOk) {e : Entity} (hn : ∀ x ∈ s.entities, x.index ≠ e.index) :
    s.sheet.pos e = none := by
  unfold Sheet.pos
  rw [List.findIdx?_eq_none_iff]
  intro p hp
  have := List.mem_map_of_mem (f := Prod.fst) hp
  rw [show s.sheet.rows = s.rows from rfl, rows_fst h] at this
  simpa using hn _ this

theorem sheet_label {s : CompSet V} (h : s.IdxOk) {i n : Nat} :
    s.sheet.labels[i]? = some n ↔ ∃ j : Nat, s.sparse.slots[j]? = some (some ⟨i, n⟩) := labels_iff h.rep i n

/-- The slot of an index, in terms of rows and labels. -/
theorem sheet_slot {s : CompSet V} (h : s.IdxOk) (e : Entity) :
    (s.sheet.pos e = none ∧ ∀ sl, s.sparse.slots[e.index]? ≠ some (some sl)) ∨
    ∃ i n x v, s.sheet.pos e = some i ∧ s.sheet.labels[i]? = some n ∧ s.sparse.slots[e.index]? = some (some ⟨i, n⟩) ∧
      s.entities[i]? = some x ∧ x.index = e.index ∧ s.components[i]? = some v ∧ s.rows[i]? = some (x, v) := by
  by_cases hs : ∃ sl, s.sparse.slots[e.index]? = some (some sl)
  · obtain ⟨⟨i, n⟩, hs⟩ := hs
    obtain ⟨x, hx, hi⟩ := h.rep.slot hs
    obtain ⟨v, hv, hr⟩ := rows_get h hx
    exact .inr ⟨i, n, x, v, sheet_pos h hx hi, (sheet_label h).2 ⟨_, hs⟩, hs, hx, hi, hv, hr⟩
  · refine .inl ⟨sheet_none h fun x hx hi => ?_, fun sl hsl => hs ⟨sl, hsl⟩⟩
    obtain ⟨d, hd⟩ := List.mem_iff_getElem?.1 hx
    obtain ⟨v, hv⟩ := h.rep.fwd d x hd
    rw [hi] at hv
    exact hs ⟨_, hv⟩

theorem sheet_get {s : CompSet V} (h : s.IdxOk) (e : Entity) : s.get e = .ok (s.sheet.get e) := by
  unfold CompSet.get Sheet.get SparseVec.get
  rcases sheet_slot h e with ⟨h1, h2⟩ | ⟨i, n, x, v, h1, h2, h3, h4, h5, h6, h7⟩
  · rw [h1]
    have : s.sparse.slots[e.sparse]? = none ∨ s.sparse.slots[e.sparse]? = some none := by
      cases hs : s.sparse.slots[e.sparse]? with
      | none => exact .inl rfl
      | some o =>
        cases o with
        | none => exact .inr rfl
        | some sl => exact absurd hs (h2 sl)
    rcases this with h | h <;> simp [h]
  · rw [h1]
    have h3 : s.sparse.slots[e.sparse]? = some (some ⟨i, n⟩) := h3
    have h7 : s.sheet.rows[i]? = some (x, v) := h7
    simp only [h3, h2, Option.some.injEq]
    by_cases hn : n = e.version
    · simp [hn, h6, h7, Option.filter]
    · simp [hn, Option.filter]

theorem insert_sheet {s s' : CompSet V} {e : Entity} {v : V} {old : Option V} (h : s.IdxOk) (he : e.index < u32Size)
    (hr : s.insert e v = .ok (old, s')) : s'.sheet = s.sheet.put (e, v) := by
  have h' := stable_idx.insert h he hr
  unfold CompSet.insert at hr
  obtain ⟨slot, hs, hr⟩ := Res.bind_ok' hr
  have hs := Res.unchecked_ok hs
  cases slot with
  | some sl =>
    obtain ⟨x, hx, hr⟩ := Res.bind_ok' hr
    obtain ⟨y, hy, hr⟩ := Res.bind_ok' hr
    cases hr
    obtain ⟨x', hx', hi⟩ := h.rep.slot ((SparseVec.allocateAt_some _ _ _ _).1 hs)
    unfold Sheet.put
    rw [show (e, v).1 = e from rfl, sheet_pos h hx' hi]
    simp only
    unfold sheet
    congr 1
    · unfold rows
      rw [zip_set]
    · exact labels_eq h.rep h'.rep fun i n => by simp only [SparseVec.allocateAt_some]
  | none =>
    obtain ⟨sp, hsp, hr⟩ := Res.bind_ok' hr
    cases hr
    have hno : ∀ sl, s.sparse.slots[e.index]? ≠ some (some sl) := by
      intro sl hsl
      have := (SparseVec.allocateAt_some s.sparse e.sparse _ _).2 hsl
      rw [show e.index = e.sparse from rfl, hs] at this
      cases this
    rcases sheet_slot h e with ⟨h1, _⟩ | ⟨i, n, x, v, _, _, h3, _⟩
    · unfold Sheet.put
      rw [show (e, v).1 = e from rfl, h1]
      simp only
      unfold sheet
      congr 1
      · unfold rows
        rw [List.zip_append h.len.symm]
        rfl
      · unfold SparseVec.setUnchecked at hsp
        split at hsp
        · rename_i hlt
          cases hsp
          have hlen : asU32 s.entities.length = s.entities.length := by
            refine ((h.rep.alloc e.sparse).push (e := e) ?_ hlt he).2
            intro x hx hi
            obtain ⟨d, hd⟩ := List.mem_iff_getElem?.1 hx
            obtain ⟨w, hw⟩ := h.rep.fwd d x hd
            rw [hi] at hw
            exact hno _ hw
          rw [hlen] at h' ⊢
          refine List.ext_getElem? fun i => Option.ext fun n => ?_
          rw [labels_iff h'.rep]
          have hl : (s.entities.map fun e => s.sparse.label e.index).length = s.entities.length := List.length_map _
          constructor
          · rintro ⟨j, hj⟩
            rw [List.getElem?_set] at hj
            split at hj
            · simp only [Option.some.injEq, Slot.mk.injEq] at hj
              obtain ⟨rfl, rfl⟩ := hj
              rw [List.getElem?_append_right (by rw [hl]), hl]
              simp
            · have h2 := (labels_iff h.rep i n).2 ⟨j, (SparseVec.allocateAt_some _ _ _ _).1 hj⟩
              have := (List.getElem?_eq_some_iff.1 h2).1
              rw [List.getElem?_append_left this, h2]
          · intro hi
            rcases Nat.lt_or_ge i s.entities.length with h2 | h2
            · rw [List.getElem?_append_left (by rw [hl]; exact h2), labels_iff h.rep] at hi
              obtain ⟨j, hj⟩ := hi
              refine ⟨j, ?_⟩
              rw [List.getElem?_set_ne]
              · exact (SparseVec.allocateAt_some _ _ _ _).2 hj
              · rintro rfl
                exact hno _ hj
            · rw [List.getElem?_append_right (by rw [hl]; exact h2), hl] at hi
              have h3 := (List.getElem?_eq_some_iff.1 hi).1
              simp only [List.length_singleton] at h3
              have h4 : i = s.entities.length := by omega
              subst h4
              simp only [Nat.sub_self, List.getElem?_cons_zero, Option.some.injEq] at hi
              subst hi
              exact ⟨e.sparse, List.getElem?_set_self hlt⟩
        · cases hsp
    · exact absurd h3 (hno _)

theorem take_sheet {s : CompSet V} (h : s.IdxOk) (e : Entity) :
    ∃ s', s.remove e = .ok (s.sheet.get e, s') ∧ s.delete e = .ok s' ∧ s'.sheet = s.sheet.take e := by
  rcases sheet_slot h e with ⟨h1, h2⟩ | ⟨i, n, x, v, h1, h2, h3, h4, h5, h6, h7⟩
  · have hr : s.sparse.remove e = (none, s.sparse) := by
      rcases h.rep.remove_cases e with hr | ⟨d, x, _, hd, hi⟩
      · exact hr
      · obtain ⟨v, hv⟩ := h.rep.fwd d x hd
        rw [hi] at hv
        exact absurd hv (h2 _)
    refine ⟨s, ?_, by simp [CompSet.delete, hr], by simp [Sheet.take, h1]⟩
    simp [CompSet.remove, hr, Sheet.get, h1]
  · have h3' : s.sparse.slots[e.sparse]? = some (some ⟨i, n⟩) := h3
    by_cases hn : n = e.version
    · subst hn
      have hr : s.sparse.remove e = (some i, ⟨s.sparse.slots.set e.index none⟩) := by
        unfold SparseVec.remove
        rw [h3']
        simp [Entity.sparse]
      have hdl : i < s.entities.length := (List.getElem?_eq_some_iff.1 h4).1
      obtain ⟨last, hlast⟩ : ∃ y, s.entities[s.entities.length - 1]? = some y :=
        ⟨_, List.getElem?_eq_getElem (by omega)⟩
      obtain ⟨v', hv', hl'⟩ := rows_get h hlast
      have hls := h.rep.slot_lt hlast
      have hrep := h.rep.removeAt h4 hlast
      rw [h5] at hrep
      have hlen : s.rows.length = s.entities.length := by simp [CompSet.rows, h.len]
      have hgl : s.sheet.rows.getLast? = some (last, v') := by
        rw [List.getLast?_eq_getElem?]
        show s.rows[s.rows.length - 1]? = _
        rw [hlen, hl']
      have hget : s.sheet.get e = some v := by
        have h7 : s.sheet.rows[i]? = some (x, v) := h7
        simp [Sheet.get, h1, h2, h7]
      have htake : s.sheet.take e = ⟨(s.rows.set i (last, v')).dropLast, (s.sheet.labels.set i last.version).dropLast⟩ := by
        simp only [Sheet.take, h1, h2, if_true, hgl]
        rfl
      refine ⟨⟨⟨if i < s.entities.length - 1 then (s.sparse.slots.set e.index none).set last.index (some ⟨i, last.version⟩)
          else s.sparse.slots.set e.index none⟩, (s.entities.set i last).take (s.entities.length - 1),
          (s.components.set i v').take (s.entities.length - 1)⟩, ?_, ?_, ?_⟩
      · by_cases hlt : i < s.entities.length - 1
        · simp [CompSet.remove, hr, hlast, h4, hlt, SparseVec.setUnchecked, Entity.sparse, hls, h6, hv', hget]
        · simp [CompSet.remove, hr, hlast, h4, hlt, SparseVec.setUnchecked, Entity.sparse, hls, h6, hv', hget]
      · by_cases hlt : i < s.entities.length - 1
        · simp [CompSet.delete, hr, hlast, h4, hlt, SparseVec.setUnchecked, Entity.sparse, hls, h6, hv']
        · simp [CompSet.delete, hr, hlast, h4, hlt, SparseVec.setUnchecked, Entity.sparse, hls, h6, hv']
      · rw [htake]
        unfold sheet
        congr 1
        · unfold rows
          rw [zip_take, zip_set, List.dropLast_eq_take, List.length_set]
          congr 1
          rw [← hlen]
          rfl
        · have hll : s.sheet.labels.length = s.entities.length := List.length_map _
          rw [List.dropLast_eq_take, List.length_set]
          show _ = (s.sheet.labels.set i last.version).take (s.sheet.labels.length - 1)
          rw [hll]
          refine List.ext_getElem? fun k => Option.ext fun m => ?_
          have hlk : ∀ n : Nat, s.sheet.labels[k]? = some n ↔ ∃ j : Nat, s.sparse.slots[j]? = some (some ⟨k, n⟩) := fun n =>
            labels_iff h.rep k n
          rw [labels_iff hrep]
          obtain ⟨vl, hvl⟩ := h.rep.fwd _ _ hlast
          have hel := h.rep.slot_lt h4
          rw [h5] at hel
          by_cases hk : k < s.entities.length - 1
          · rw [List.getElem?_take_of_lt hk]
            by_cases hlt : i < s.entities.length - 1
            · simp only [hlt, if_true]
              by_cases hki : k = i
              · subst hki
                rw [List.getElem?_set_self (by rw [hll]; exact hdl), Option.some.injEq]
                constructor
                · rintro ⟨j, hj⟩
                  by_cases j1 : j = last.index
                  · subst j1
                    rw [List.getElem?_set_self (by rwa [List.length_set])] at hj
                    simp only [Option.some.injEq, Slot.mk.injEq, true_and] at hj
                    exact hj
                  · rw [List.getElem?_set_ne (Ne.symm j1)] at hj
                    by_cases j2 : j = e.index
                    · subst j2
                      rw [List.getElem?_set_self hel] at hj
                      cases hj
                    · rw [List.getElem?_set_ne (Ne.symm j2)] at hj
                      obtain ⟨y, hy, hyi⟩ := h.rep.bwd _ _ _ hj
                      rw [h4] at hy
                      cases hy
                      exact absurd (hyi.symm.trans h5) j2
                · rintro rfl
                  exact ⟨last.index, List.getElem?_set_self (by rwa [List.length_set])⟩
              · rw [List.getElem?_set_ne (Ne.symm hki), hlk]
                constructor
                · rintro ⟨j, hj⟩
                  by_cases j1 : j = last.index
                  · subst j1
                    rw [List.getElem?_set_self (by rwa [List.length_set])] at hj
                    simp only [Option.some.injEq, Slot.mk.injEq] at hj
                    exact absurd hj.1.symm hki
                  · rw [List.getElem?_set_ne (Ne.symm j1)] at hj
                    by_cases j2 : j = e.index
                    · subst j2
                      rw [List.getElem?_set_self hel] at hj
                      cases hj
                    · rw [List.getElem?_set_ne (Ne.symm j2)] at hj
                      exact ⟨j, hj⟩
                · rintro ⟨j, hj⟩
                  refine ⟨j, ?_⟩
                  rw [List.getElem?_set_ne, List.getElem?_set_ne]
                  · exact hj
                  · rintro rfl
                    rw [h3] at hj
                    simp only [Option.some.injEq, Slot.mk.injEq] at hj
                    exact hki hj.1.symm
                  · rintro rfl
                    rw [hvl] at hj
                    simp only [Option.some.injEq, Slot.mk.injEq] at hj
                    omega
            · simp only [hlt, if_false]
              rw [List.getElem?_set_ne (by omega), hlk]
              constructor
              · rintro ⟨j, hj⟩
                by_cases j2 : j = e.index
                · subst j2
                  rw [List.getElem?_set_self hel] at hj
                  cases hj
                · rw [List.getElem?_set_ne (Ne.symm j2)] at hj
                  exact ⟨j, hj⟩
              · rintro ⟨j, hj⟩
                refine ⟨j, ?_⟩
                rw [List.getElem?_set_ne]
                · exact hj
                · rintro rfl
                  rw [h3] at hj
                  simp only [Option.some.injEq, Slot.mk.injEq] at hj
                  omega
          · rw [List.getElem?_eq_none (l := (s.sheet.labels.set i last.version).take (s.entities.length - 1))
              (by rw [List.length_take]; omega)]
            constructor
            · rintro ⟨j, hj⟩
              obtain ⟨y, hy, _⟩ := hrep.bwd _ _ _ hj
              have := (List.getElem?_eq_some_iff.1 hy).1
              rw [List.length_take] at this
              omega
            · rintro ⟨⟩
    · have hr : s.sparse.remove e = (none, s.sparse) := by
        unfold SparseVec.remove
        rw [h3']
        simp [hn]
      refine ⟨s, ?_, by simp [CompSet.delete, hr], ?_⟩
      · simp [CompSet.remove, hr, Sheet.get, h1, h2, hn]
      · simp [Sheet.take, h1, h2, hn]

theorem remove_sheet {s s' : CompSet V} {e : Entity} {o : Option V} (h : s.IdxOk) (hr : s.remove e = .ok (o, s')) :
    o = s.sheet.get e ∧ s'.sheet = s.sheet.take e := by
  obtain ⟨s1, h1, _, h2⟩ := take_sheet h e
  rw [h1] at hr
  cases hr
  exact ⟨rfl, h2⟩

theorem delete_sheet {s s' : CompSet V} {e : Entity} (h : s.IdxOk) (hr : s.delete e = .ok s') :
    s'.sheet = s.sheet.take e := by
  obtain ⟨s1, _, h1, h2⟩ := take_sheet h e
  rw [h1] at hr
  cases hr
  exact h2

theorem swap_sheet {s s' : CompSet V} {a b : Nat} (h : s.IdxOk) (hr : s.swap a b = .ok s') :
    s.sheet.Shuffled s'.sheet := by
  refine ⟨swap_rows hr, ?_⟩
  have h' := h.swap hr
  unfold CompSet.swap at hr
  obtain ⟨ea, ha, hr⟩ := Res.bind_ok' hr
  obtain ⟨eb, hb, hr⟩ := Res.bind_ok' hr
  obtain ⟨sp, hsp, hr⟩ := Res.bind_ok' hr
  obtain ⟨va, hva, hr⟩ := Res.bind_ok' hr
  obtain ⟨vb, hvb, hr⟩ := Res.bind_ok' hr
  cases hr
  refine labels_eq h.rep h'.rep fun i n => ?_
  unfold SparseVec.swapNonoverlapping at hsp
  split at hsp
  · rename_i x y hx hy
    split at hsp
    · cases hsp
    · rename_i hne
      cases hsp
      have l1 := (List.getElem?_eq_some_iff.1 hx).1
      have l2 := (List.getElem?_eq_some_iff.1 hy).1
      constructor
      · rintro ⟨j, hj⟩
        rw [List.getElem?_set] at hj
        split at hj
        · rw [if_pos (by rwa [List.length_set])] at hj
          exact ⟨_, by rw [hx]; exact hj⟩
        · rw [List.getElem?_set] at hj
          split at hj
          · exact ⟨_, by rw [hy]; exact hj⟩
          · exact ⟨j, hj⟩
      · rintro ⟨j, hj⟩
        by_cases h1 : j = ea.sparse
        · subst h1
          rw [hx] at hj
          exact ⟨eb.sparse, by rw [List.getElem?_set_self (by rwa [List.length_set])]; exact hj⟩
        · by_cases h2 : j = eb.sparse
          · subst h2
            rw [hy] at hj
            refine ⟨ea.sparse, ?_⟩
            rw [List.getElem?_set_ne (fun h => hne h.symm), List.getElem?_set_self l1]
            exact hj
          · exact ⟨j, by rw [List.getElem?_set_ne (Ne.symm h2), List.getElem?_set_ne (Ne.symm h1)]; exact hj⟩
  · cases hsp

theorem zip_set_snd {α β : Type} (b : β) : ∀ (l : List α) (m : List β) (i : Nat),
    l.zip (m.set i b) = (l.zip m).modify i fun p => (p.1, b)
  | [], m, i => by simp
  | x :: l, [], i => by simp
  | x :: l, y :: m, 0 => by simp
  | x :: l, y :: m, i + 1 => by simp [zip_set_snd b l m i]

theorem setMut_sheet {s s' : CompSet V} {e : Entity} {v : V} {b : Bool} (h : s.IdxOk) (hr : s.setMut e v = .ok (b, s')) :
    b = (s.sheet.get e).isSome ∧ s'.sheet = s.sheet.write e v := by
  unfold CompSet.setMut SparseVec.get at hr
  unfold Sheet.get Sheet.write
  rcases sheet_slot h e with ⟨h1, h2⟩ | ⟨i, n, x, y, h1, h2, h3, h4, h5, h6, h7⟩
  · rw [h1]
    have : s.sparse.slots[e.sparse]? = none ∨ s.sparse.slots[e.sparse]? = some none := by
      cases hs : s.sparse.slots[e.sparse]? with
      | none => exact .inl rfl
      | some o =>
        cases o with
        | none => exact .inr rfl
        | some sl => exact absurd hs (h2 sl)
    rcases this with h | h <;> (simp [h] at hr; simp [hr])
  · rw [h1]
    have h3 : s.sparse.slots[e.sparse]? = some (some ⟨i, n⟩) := h3
    have h7 : s.sheet.rows[i]? = some (x, y) := h7
    simp only [h2, Option.some.injEq]
    by_cases hn : n = e.version
    · simp [h3, hn, h6, Option.filter] at hr
      obtain ⟨rfl, rfl⟩ := hr
      simp only [hn, if_true, h7, Option.map_some, Option.isSome_some, true_and]
      unfold sheet
      congr 1
      exact zip_set_snd v _ _ _
    · simp [h3, hn, Option.filter] at hr
      obtain ⟨rfl, rfl⟩ := hr
      simp [hn]

theorem setAt_sheet {s s' : CompSet V} {i : Nat} {v : V} (hr : s.setAt i v = .ok s') :
    s'.sheet = ⟨s.sheet.rows.modify i fun p => (p.1, v), s.sheet.labels⟩ := by
  unfold CompSet.setAt at hr
  obtain ⟨_, _, hr⟩ := Res.bind_ok' hr
  cases hr
  unfold sheet
  congr 1
  exact zip_set_snd v _ _ _


/-- A second removal finds nothing. -/
theorem take_twice {s s' : CompSet V} {e : Entity} {o : Option V} (h : s.IdxOk) (hr : s.remove e = .ok (o, s')) :
    s'.sheet.take e = s'.sheet ∧ s'.sheet.get e = none := by
  obtain ⟨h1, h2⟩ := remove_sheet h hr
  have h' := stable_idx.remove h hr
  rcases remove_rows h hr with ⟨rfl, rfl⟩ | ⟨x, v, rfl, _, _, h3⟩
  · exact ⟨h2.symm, h1.symm⟩
  · have hn : s'.sheet.pos e = none := by
      refine sheet_none h' fun y hy hye => ?_
      obtain ⟨i, hi⟩ := List.getElem?_of_mem hy
      obtain ⟨v, _, hv⟩ := rows_get h' hi
      have := h3.mem_iff.1 (List.mem_of_getElem? hv)
      unfold others at this
      rw [List.mem_filter] at this
      simp [hye] at this
    exact ⟨by unfold Sheet.take; rw [hn], by unfold Sheet.get; rw [hn]⟩

end CompSet

/-! ### Grouping leaves the labels in place -/

theorem Sheet.Shuffled.refl (s : Sheet V) : s.Shuffled s := ⟨List.Perm.refl _, rfl⟩

theorem Sheet.Shuffled.trans {a b c : Sheet V} (h : a.Shuffled b) (h' : b.Shuffled c) : a.Shuffled c :=
  ⟨h'.1.trans h.1, h'.2.trans h.2⟩

/-- The rows and labels of the set at a position. -/
def sheetI (l : List (CompSet V)) (i : Nat) : Sheet V :=
  match l[i]? with
  | some s => s.sheet
  | none => .empty

/-- Only the order of the rows differs, the labels are in place. -/
def Labelled (a b : List (CompSet V)) : Prop := ∀ i, (sheetI a i).Shuffled (sheetI b i)

theorem Labelled.refl (a : List (CompSet V)) : Labelled a a := fun _ => Sheet.Shuffled.refl _

theorem Labelled.trans {a b c : List (CompSet V)} (h : Labelled a b) (h' : Labelled b c) : Labelled a c :=
  fun i => (h i).trans (h' i)

theorem swapTo_labelled {s s' : CompSet V} {q x : Nat} (h : s.IdxOk) (hr : swapTo s q x = .ok s') :
    s.sheet.Shuffled s'.sheet := by
  unfold swapTo at hr
  obtain ⟨d, _, hr⟩ := Res.bind_ok' hr
  by_cases hd : d ≠ q
  · rw [if_pos hd] at hr
    exact CompSet.swap_sheet h hr
  · rw [if_neg hd] at hr
    cases hr
    exact Sheet.Shuffled.refl _

theorem swapAllTo_labelled {q x : Nat} : ∀ {l l' : List (CompSet V)}, AllSets CompSet.IdxOk l → swapAllTo q x l = .ok l' →
    Labelled l l'
  | [], l', _, hr => by cases hr; exact Labelled.refl _
  | s :: ss, l', ha, hr => by
    obtain ⟨s1, h1, hr⟩ := Res.bind_ok' hr
    obtain ⟨ss1, h2, hr⟩ := Res.bind_ok' hr
    cases hr
    intro i
    cases i with
    | zero => exact swapTo_labelled (ha s (.head _)) h1
    | succ i => exact swapAllTo_labelled (fun x hx => ha x (.tail _ hx)) h2 i

theorem sheetI_append_left {a b : List (CompSet V)} {i : Nat} (h : i < a.length) : sheetI (a ++ b) i = sheetI a i := by
  unfold sheetI
  rw [List.getElem?_append_left h]

theorem sheetI_append_right {a b : List (CompSet V)} {i : Nat} (h : a.length ≤ i) :
    sheetI (a ++ b) i = sheetI b (i - a.length) := by
  unfold sheetI
  rw [List.getElem?_append_right h]

theorem swapRange_labelled {l l' : List (CompSet V)} {a b q x : Nat} (ha : AllSets CompSet.IdxOk l)
    (hr : swapRange l a b q x = .ok l') : Labelled l l' := by
  unfold swapRange at hr
  obtain ⟨seg, h1, hr⟩ := Res.bind_ok' hr
  obtain ⟨seg', h2, hr⟩ := Res.bind_ok' hr
  cases hr
  unfold compRange at h1
  split at h1
  · rename_i hab
    cases h1
    have h3 := swapAllTo_labelled (fun s hs => ha s (List.mem_of_mem_drop (List.mem_of_mem_take hs))) h2
    have h4 := swapAllTo_length _ _ h2
    have hsplit : l = l.take a ++ (l.drop a).take (b - a) ++ l.drop b := by
      rw [List.append_assoc]
      have h5 : (l.drop a).take (b - a) ++ l.drop b = l.drop a := by
        have h6 := List.take_append_drop (b - a) (l.drop a)
        rwa [List.drop_drop, show a + (b - a) = b by omega] at h6
      rw [h5, List.take_append_drop]
    intro i
    rw [show sheetI l i = sheetI (l.take a ++ (l.drop a).take (b - a) ++ l.drop b) i by rw [← hsplit]]
    rw [List.append_assoc, List.append_assoc]
    by_cases hi : i < (l.take a).length
    · rw [sheetI_append_left hi, sheetI_append_left hi]
      exact Sheet.Shuffled.refl _
    · have hi' : (l.take a).length ≤ i := by omega
      rw [sheetI_append_right hi', sheetI_append_right hi']
      by_cases hj : i - (l.take a).length < seg'.length
      · rw [sheetI_append_left (a := seg') hj, sheetI_append_left (a := (l.drop a).take (b - a)) (by omega)]
        exact h3 _
      · rw [sheetI_append_right (a := seg') (by omega), sheetI_append_right (a := (l.drop a).take (b - a)) (by omega), h4]
        exact Sheet.Shuffled.refl _
  · cases h1

theorem groupComponents_labelled {l l' : List (CompSet V)} {g g' : Group} {e : Entity} (ha : AllSets CompSet.IdxOk l)
    (hr : groupComponents l g e = .ok (l', g')) : Labelled l l' := by
  unfold groupComponents at hr
  obtain ⟨l1, h1, hr⟩ := Res.bind_ok' hr
  cases hr
  exact swapRange_labelled ha h1

theorem ungroupComponents_labelled {l l' : List (CompSet V)} {g g' : Group} {e : Entity} (ha : AllSets CompSet.IdxOk l)
    (hr : ungroupComponents l g e = .ok (l', g')) : Labelled l l' := by
  unfold ungroupComponents at hr
  split at hr
  · cases hr
  · obtain ⟨l1, h1, hr⟩ := Res.bind_ok' hr
    cases hr
    exact swapRange_labelled ha h1

theorem groupLoop_labelled {e : Entity} : ∀ (fuel : Nat) (m : BitVec 64) (s s' : Sets V), AllSets CompSet.IdxOk s.1 →
    groupLoop e fuel m s = .ok s' → Labelled s.1 s'.1 := by
  intro fuel
  induction fuel with
  | zero =>
    intro m s s' ha hr
    obtain ⟨comps, gs⟩ := s
    unfold groupLoop at hr
    split at hr
    · cases hr; exact Labelled.refl _
    · cases hr
  | succ fuel ih =>
    intro m s s' ha hr
    obtain ⟨comps, gs⟩ := s
    unfold groupLoop at hr
    split at hr
    · cases hr; exact Labelled.refl _
    · obtain ⟨g, _, hr⟩ := Res.bind_ok' hr
      obtain ⟨seg, _, hr⟩ := Res.bind_ok' hr
      obtain ⟨st, _, hr⟩ := Res.bind_ok' hr
      cases st with
      | incomplete => exact ih _ _ _ ha hr
      | ungrouped =>
        obtain ⟨⟨l1, g1⟩, h1, hr⟩ := Res.bind_ok' hr
        exact (groupComponents_labelled ha h1).trans (ih _ _ _ (stable_idx.groupComponents ha h1) hr)
      | grouped => exact ih _ _ _ ha hr

theorem ungroupStep_labelled {e : Entity} {i : Nat} {s s' : Sets V} (ha : AllSets CompSet.IdxOk s.1)
    (hr : ungroupStep e i s = .ok s') : Labelled s.1 s'.1 := by
  obtain ⟨comps, gs⟩ := s
  unfold ungroupStep at hr
  obtain ⟨g, _, hr⟩ := Res.bind_ok' hr
  obtain ⟨seg, _, hr⟩ := Res.bind_ok' hr
  obtain ⟨st, _, hr⟩ := Res.bind_ok' hr
  cases st with
  | incomplete => cases hr; exact Labelled.refl _
  | ungrouped => cases hr; exact Labelled.refl _
  | grouped =>
    obtain ⟨⟨l1, g1⟩, h1, hr⟩ := Res.bind_ok' hr
    cases hr
    exact ungroupComponents_labelled ha h1

theorem ungroupLoop_labelled {e : Entity} : ∀ (fuel : Nat) (m : BitVec 64) (s s' : Sets V), AllSets CompSet.IdxOk s.1 →
    ungroupLoop e fuel m s = .ok s' → Labelled s.1 s'.1 := by
  intro fuel
  induction fuel with
  | zero =>
    intro m s s' ha hr
    unfold ungroupLoop at hr
    split at hr
    · cases hr; exact Labelled.refl _
    · cases hr
  | succ fuel ih =>
    intro m s s' ha hr
    unfold ungroupLoop at hr
    split at hr
    · cases hr; exact Labelled.refl _
    · obtain ⟨s1, h1, hr⟩ := Res.bind_ok' hr
      exact (ungroupStep_labelled ha h1).trans (ih _ _ _ (stable_idx.ungroupStep ha h1) hr)

theorem ungroupAllLoop_labelled {e : Entity} : ∀ (n : Nat) (s s' : Sets V), AllSets CompSet.IdxOk s.1 →
    ungroupAllLoop e n s = .ok s' → Labelled s.1 s'.1
  | 0, s, s', _, hr => by cases hr; exact Labelled.refl _
  | n + 1, s, s', ha, hr => by
    obtain ⟨s1, h1, hr⟩ := Res.bind_ok' hr
    exact (ungroupStep_labelled ha h1).trans (ungroupAllLoop_labelled n _ _ (stable_idx.ungroupStep ha h1) hr)

theorem groupEntities_labelled {m : GroupMask} : ∀ (es : List Entity) (s s' : Sets V), AllSets CompSet.IdxOk s.1 →
    ComponentStorage.groupEntities m es s = .ok s' → Labelled s.1 s'.1
  | [], s, s', _, hr => by cases hr; exact Labelled.refl _
  | e :: es, s, s', ha, hr => by
    obtain ⟨s1, h1, hr⟩ := Res.bind_ok' hr
    exact (groupLoop_labelled _ _ _ _ ha h1).trans
      (groupEntities_labelled es _ _ (stable_idx.groupLoop _ _ _ _ ha h1) hr)

theorem withMask_labelled {c c' : ComponentStorage V} {m : GroupMask} {f : Sets V → Res (Sets V)}
    (hf : ∀ s s', AllSets CompSet.IdxOk s.1 → f s = .ok s' → Labelled s.1 s'.1) (ha : AllSets CompSet.IdxOk c.components)
    (hr : c.withMask m f = .ok c') : Labelled c.components c'.components ∧ c'.metadata = c.metadata := by
  unfold ComponentStorage.withMask at hr
  split at hr
  · cases hr; exact ⟨Labelled.refl _, rfl⟩
  · obtain ⟨⟨l, gs⟩, h1, hr⟩ := Res.bind_ok' hr
    cases hr
    exact ⟨hf _ _ ha h1, rfl⟩

namespace ComponentStorage

/-- The rows and labels of the set of a type. -/
def sheetAt (c : ComponentStorage V) (t : TypeId) : Sheet V :=
  match c.meta? t with
  | none => .empty
  | some m => sheetI c.components m.storageIndex

theorem sheetAt_labelled {c c' : ComponentStorage V} (h : Labelled c.components c'.components) (hm : c'.metadata = c.metadata)
    (t : TypeId) : (c.sheetAt t).Shuffled (c'.sheetAt t) := by
  unfold sheetAt meta?
  rw [hm]
  cases c.metadata.lookup t with
  | none => exact Sheet.Shuffled.refl _
  | some m => exact h _

theorem sheetAt_set {c : ComponentStorage V} (hc : Static c) {t u : TypeId} {m : ComponentMetadata} (hm : c.meta? t = some m)
    (s' : CompSet V) : sheetAt { c with components := c.components.set m.storageIndex s' } u =
      if u = t then s'.sheet else c.sheetAt u := by
  have hlt := hc.idx t m hm
  unfold sheetAt
  show (match c.meta? u with
    | none => Sheet.empty
    | some m' => sheetI (c.components.set m.storageIndex s') m'.storageIndex) = _
  by_cases hu : u = t
  · subst hu
    rw [hm, if_pos rfl]
    dsimp only
    unfold sheetI
    rw [List.getElem?_set_self hlt]
  · rw [if_neg hu]
    cases hm' : c.meta? u with
    | none => rfl
    | some m' =>
      have hne : m.storageIndex ≠ m'.storageIndex := fun h => hu (hc.inj u t m' m hm' hm h.symm)
      dsimp only
      unfold sheetI
      rw [List.getElem?_set_ne hne]

theorem sheetAt_get {c : ComponentStorage V} {t : TypeId} {m : ComponentMetadata} {s : CompSet V} (hm : c.meta? t = some m)
    (hs : c.components[m.storageIndex]? = some s) : c.sheetAt t = s.sheet := by
  unfold sheetAt sheetI
  rw [hm]
  dsimp only
  rw [hs]

theorem sheetAt_none {c : ComponentStorage V} {t : TypeId} (h : c.meta? t = none) : c.sheetAt t = .empty := by
  unfold sheetAt
  rw [h]

theorem sheetAt_setOf {c : ComponentStorage V} {t : TypeId} {s : CompSet V} (h : c.setOf t = some s) :
    c.sheetAt t = s.sheet := by
  unfold setOf at h
  cases hm : c.meta? t with
  | none => rw [hm] at h; cases h
  | some m =>
    rw [hm] at h
    exact sheetAt_get hm h

theorem insertEach_sheet {e : Entity} (he : e.index < u32Size) (t : TypeId) : ∀ (vs : List (TypeId × V)) (m : GroupMask)
    (c : ComponentStorage V), Static c → AllSets CompSet.IdxOk c.components →
    (insertEach e vs m c).Leaves (fun c' => c'.sheetAt t =
      ((partFor t (vs.takeWhile fun p => c.isRegistered p.1)).map fun v => (e, v)).foldl Sheet.put (c.sheetAt t) ∧
      AllSets CompSet.IdxOk c'.components)
  | [], _, c, _, ha => ⟨rfl, ha⟩
  | (t', v) :: vs, m, c, hc, ha => by
    rw [insertEach]
    cases hm : c.meta? t' with
    | none =>
      simp only [List.takeWhile_cons, isRegistered, hm, Option.isSome_none, Bool.false_eq_true, if_false]
      exact ⟨rfl, ha⟩
    | some md =>
      simp only [List.takeWhile_cons, isRegistered, hm, Option.isSome_some, if_true]
      cases hs : c.components[md.storageIndex]? with
      | none => trivial
      | some s =>
        simp only [Res.unchecked_some, Outcome.ofRes_ok]
        cases hi : s.insert e v with
        | panic => exact absurd hi (insert_ne_panic _ _ _)
        | ub => trivial
        | ok p =>
          obtain ⟨old, s'⟩ := p
          simp only [Outcome.ofRes_ok]
          have k1 := CompSet.insert_sheet (mem_at ha hs) he hi
          have k2 := stable_idx.insert (mem_at ha hs) he hi
          have ih := insertEach_sheet he t vs (m ||| md.insertMask) { c with components := c.components.set md.storageIndex s' }
            (hc.of_shape (Shape.set ..)) (AllSets.set ha k2 _)
          have hreg : ∀ x, isRegistered { c with components := c.components.set md.storageIndex s' } x = (c.meta? x).isSome :=
            fun _ => rfl
          simp only [hreg] at ih
          rw [sheetAt_set hc hm] at ih
          have hfin : ((partFor t (vs.takeWhile fun p => (c.meta? p.1).isSome)).map fun v => (e, v)).foldl Sheet.put
              (if t = t' then s'.sheet else c.sheetAt t) =
              ((partFor t ((t', v) :: vs.takeWhile fun p => (c.meta? p.1).isSome)).map fun v => (e, v)).foldl Sheet.put
              (c.sheetAt t) := by
            by_cases ht : t = t'
            · subst ht
              rw [if_pos rfl]
              have : partFor t ((t, v) :: vs.takeWhile fun p => (c.meta? p.1).isSome) =
                  v :: partFor t (vs.takeWhile fun p => (c.meta? p.1).isSome) := by simp [partFor]
              rw [this, List.map_cons, List.foldl_cons, sheetAt_get hm hs, k1]
            · rw [if_neg ht]
              have : partFor t ((t', v) :: vs.takeWhile fun p => (c.meta? p.1).isSome) =
                  partFor t (vs.takeWhile fun p => (c.meta? p.1).isSome) := by simp [partFor, Ne.symm ht]
              rw [this]
          rw [hfin] at ih
          exact ih

theorem insert_sheet {e : Entity} (he : e.index < u32Size) (t : TypeId) (vs : List (TypeId × V)) {c : ComponentStorage V}
    (hc : Static c) (ha : AllSets CompSet.IdxOk c.components) : (c.insert e vs).Leaves (fun c' => Sheet.Shuffled
      (((partFor t (vs.takeWhile fun p => c.isRegistered p.1)).map fun v => (e, v)).foldl Sheet.put (c.sheetAt t))
      (c'.sheetAt t)) := by
  unfold insert
  have h1 := insertEach_sheet he t vs 0 c hc ha
  revert h1
  cases insertEach e vs 0 c with
  | ub => exact fun _ => trivial
  | panic c1 =>
    intro h1
    show Sheet.Shuffled _ (c1.sheetAt t)
    rw [h1.1]
    exact Sheet.Shuffled.refl _
  | ok mask c1 =>
    intro h1
    refine Outcome.Leaves.ofRes (by rw [h1.1]; exact Sheet.Shuffled.refl _) fun c2 h2 => ?_
    obtain ⟨k1, k2⟩ := withMask_labelled (fun s s' ha h => groupLoop_labelled _ _ _ _ ha h) h1.2 h2
    rw [← h1.1]
    exact sheetAt_labelled k1 k2 t

theorem insertAt_sheet {e : Entity} (he : e.index < u32Size) (t : TypeId) : ∀ (ts : List TypeId) (vs : List V)
    (c c' : ComponentStorage V), Static c → AllSets CompSet.IdxOk c.components → (∀ x ∈ ts, (c.meta? x).isSome) →
    insertAt e ((ts.map c.idxOf).zip vs) c = .ok c' →
      c'.sheetAt t = ((partFor t (ts.zip vs)).map fun v => (e, v)).foldl Sheet.put (c.sheetAt t) ∧ Shape c c'
  | [], _, c, c', _, _, _, hr => by cases hr; exact ⟨rfl, Shape.refl _⟩
  | t' :: ts, [], c, c', _, _, _, hr => by cases hr; exact ⟨rfl, Shape.refl _⟩
  | t' :: ts, v :: vs, c, c', hc, ha, hk, hr => by
    obtain ⟨md, hm⟩ := Option.isSome_iff_exists.1 (hk t' (.head _))
    rw [List.map_cons, List.zip_cons_cons, insertAt, c.idxOf_eq hm] at hr
    obtain ⟨s, hs, hr⟩ := Res.bind_ok' hr
    obtain ⟨⟨old, s'⟩, hi, hr⟩ := Res.bind_ok' hr
    have hs := Res.unchecked_ok hs
    have k1 := CompSet.insert_sheet (mem_at ha hs) he hi
    have k2 := stable_idx.insert (mem_at ha hs) he hi
    obtain ⟨i1, i2⟩ := insertAt_sheet he t ts vs { c with components := c.components.set md.storageIndex s' } c'
      (hc.of_shape (Shape.set ..)) (AllSets.set ha k2 _) (fun x hx => hk x (.tail _ hx)) hr
    refine ⟨i1.trans ?_, (Shape.set ..).trans i2⟩
    rw [sheetAt_set hc hm]
    by_cases ht : t = t'
    · subst ht
      rw [if_pos rfl]
      have : partFor t ((t :: ts).zip (v :: vs)) = v :: partFor t (ts.zip vs) := by simp [partFor]
      rw [this, List.map_cons, List.foldl_cons, sheetAt_get hm hs, k1]
    · rw [if_neg ht]
      have : partFor t ((t' :: ts).zip (v :: vs)) = partFor t (ts.zip vs) := by simp [partFor, Ne.symm ht]
      rw [this]

/-- What taking the component of `t` does, with the answers for `t`. -/
def TakesAll (t : TypeId) (e : Entity) (ts : List TypeId) (vs : List (Option V)) (s s' : Sheet V) : Prop :=
  s' = (if t ∈ ts then s.take e else s) ∧ partFor t (ts.zip vs) = s.given e (ts.count t)

theorem removeEach_sheet {e : Entity} (t : TypeId) : ∀ (ts : List TypeId) (c c' : ComponentStorage V) (vs : List (Option V)),
    Static c → AllSets CompSet.IdxOk c.components → (∀ x ∈ ts, (c.meta? x).isSome) →
    removeEach e (ts.map c.idxOf) c = .ok (vs, c') → TakesAll t e ts vs (c.sheetAt t) (c'.sheetAt t)
  | [], c, c', vs, _, _, _, hr => by cases hr; exact ⟨rfl, rfl⟩
  | t' :: ts, c, c', _, hc, ha, hk, hr => by
    obtain ⟨md, hm⟩ := Option.isSome_iff_exists.1 (hk t' (.head _))
    rw [List.map_cons, removeEach, c.idxOf_eq hm] at hr
    obtain ⟨s, hs, hr⟩ := Res.bind_ok' hr
    obtain ⟨⟨v, s'⟩, hi, hr⟩ := Res.bind_ok' hr
    obtain ⟨⟨vs, c1⟩, h1, hr⟩ := Res.bind_ok' hr
    cases hr
    have hs := Res.unchecked_ok hs
    have k2 := stable_idx.remove (mem_at ha hs) hi
    have ih := removeEach_sheet t ts { c with components := c.components.set md.storageIndex s' } c' vs
      (hc.of_shape (Shape.set ..)) (AllSets.set ha k2 _) (fun x hx => hk x (.tail _ hx)) h1
    rw [sheetAt_set hc hm] at ih
    by_cases ht : t = t'
    · subst ht
      rw [if_pos rfl] at ih
      rw [sheetAt_get hm hs]
      have hp : partFor t ((t :: ts).zip (v :: vs)) = v :: partFor t (ts.zip vs) := by simp [partFor]
      obtain ⟨q1, q2⟩ := CompSet.remove_sheet (mem_at ha hs) hi
      obtain ⟨q3, q4⟩ := CompSet.take_twice (mem_at ha hs) hi
      obtain ⟨i1, i2⟩ := ih
      refine ⟨?_, ?_⟩
      · rw [i1, if_pos (List.mem_cons_self), q3, ← q2, ite_self]
      · rw [hp, i2, List.count_cons_self, q1]
        show _ = s.sheet.get e :: List.replicate (ts.count t) none
        cases ts.count t with
        | zero => rfl
        | succ n => simp only [Sheet.given, q4, List.replicate_succ]
    · rw [if_neg ht] at ih
      have hp : partFor t ((t' :: ts).zip (v :: vs)) = partFor t (ts.zip vs) := by simp [partFor, Ne.symm ht]
      unfold TakesAll at ih ⊢
      rw [hp, List.count_cons_of_ne (Ne.symm ht)]
      refine ⟨ih.1.trans ?_, ih.2⟩
      simp [ht]

theorem deleteEach_sheet {e : Entity} (t : TypeId) : ∀ (ts : List TypeId) (c c' : ComponentStorage V),
    Static c → AllSets CompSet.IdxOk c.components → (∀ x ∈ ts, (c.meta? x).isSome) →
    deleteEach e (ts.map c.idxOf) c = .ok c' → c'.sheetAt t = if t ∈ ts then (c.sheetAt t).take e else c.sheetAt t
  | [], c, c', _, _, _, hr => by cases hr; rfl
  | t' :: ts, c, c', hc, ha, hk, hr => by
    obtain ⟨md, hm⟩ := Option.isSome_iff_exists.1 (hk t' (.head _))
    rw [List.map_cons, deleteEach, c.idxOf_eq hm] at hr
    obtain ⟨s, hs, hr⟩ := Res.bind_ok' hr
    obtain ⟨s', hi, hr⟩ := Res.bind_ok' hr
    have hs := Res.unchecked_ok hs
    have k2 := stable_idx.delete (mem_at ha hs) hi
    have ih := deleteEach_sheet t ts { c with components := c.components.set md.storageIndex s' } c'
      (hc.of_shape (Shape.set ..)) (AllSets.set ha k2 _) (fun x hx => hk x (.tail _ hx)) hr
    rw [sheetAt_set hc hm] at ih
    rw [ih]
    by_cases ht : t = t'
    · subst ht
      rw [if_pos rfl, sheetAt_get hm hs, if_pos (List.mem_cons_self)]
      obtain ⟨s2, q1, q2, q3⟩ := CompSet.take_sheet (mem_at ha hs) e
      rw [hi] at q2
      cases q2
      rw [(CompSet.take_twice (mem_at ha hs) q1).1, ite_self, q3]
    · rw [if_neg ht]
      simp [ht]

theorem deleteAll_sheet {e : Entity} : ∀ (l l' : List (CompSet V)), AllSets CompSet.IdxOk l → deleteAll e l = .ok l' →
    ∀ i, sheetI l' i = (sheetI l i).take e
  | [], l', _, h, i => by cases h; rfl
  | s :: ss, l', hl, h, i => by
    obtain ⟨s', h1, h⟩ := Res.bind_ok' h
    obtain ⟨ss', h2, h⟩ := Res.bind_ok' h
    cases h
    cases i with
    | zero => exact CompSet.delete_sheet (hl s (.head _)) h1
    | succ i => exact deleteAll_sheet ss ss' (fun s hs => hl s (.tail _ hs)) h2 i

theorem strip_sheet {c c' : ComponentStorage V} {e : Entity} (ha : AllSets CompSet.IdxOk c.components)
    (hr : c.strip e = .ok c') (t : TypeId) : ∃ s1, (c.sheetAt t).Shuffled s1 ∧ c'.sheetAt t = s1.take e := by
  unfold strip at hr
  obtain ⟨⟨comps, groups⟩, h1, hr⟩ := Res.bind_ok' hr
  obtain ⟨comps', h2, hr⟩ := Res.bind_ok' hr
  cases hr
  have k1 : Labelled c.components comps := ungroupAllLoop_labelled _ _ _ ha h1
  have k2 : AllSets CompSet.IdxOk comps := stable_idx.ungroupAllLoop _ _ _ ha h1
  refine ⟨sheetAt { c with components := comps } t,
    sheetAt_labelled (c' := { c with components := comps }) k1 rfl t, ?_⟩
  unfold sheetAt
  show (match c.meta? t with | none => Sheet.empty | some m => sheetI comps' m.storageIndex) =
    Sheet.take (match c.meta? t with | none => Sheet.empty | some m => sheetI comps m.storageIndex) e
  cases hm : c.meta? t with
  | none => rfl
  | some m => exact deleteAll_sheet _ _ k2 h2 _

theorem remove_sheet {c c' : ComponentStorage V} {e : Entity} {ts : List TypeId} {vs : List (Option V)} (hc : Static c)
    (ha : AllSets CompSet.IdxOk c.components) (hr : c.remove e ts = .ok (vs, c')) (t : TypeId) :
    ∃ s1, (c.sheetAt t).Shuffled s1 ∧ TakesAll t e ts vs s1 (c'.sheetAt t) := by
  unfold remove at hr
  obtain ⟨⟨idxs, mask⟩, h1, hr⟩ := Res.bind_ok' hr
  obtain ⟨c1, h2, hr⟩ := Res.bind_ok' hr
  obtain ⟨rfl, hk⟩ := lookupAll_idxs ts h1
  obtain ⟨k1, k2⟩ := withMask_labelled (fun s s' ha h => ungroupLoop_labelled _ _ _ _ ha h) ha h2
  have k3 := withMask_shape (fun s s' h => ungroupLoop_shape _ _ _ _ h) h2
  have k4 := Stable.withMask (fun s s' hs h => stable_idx.ungroupLoop _ _ _ _ hs h) ha h2
  rw [← idxOf_same k3.md] at hr
  exact ⟨_, sheetAt_labelled k1 k2 t,
    removeEach_sheet t ts c1 c' vs (hc.of_shape k3) k4 (fun x hx => by rw [k3.meta?]; exact hk x hx) hr⟩

theorem delete_sheet {c c' : ComponentStorage V} {e : Entity} {ts : List TypeId} (hc : Static c)
    (ha : AllSets CompSet.IdxOk c.components) (hr : c.delete e ts = .ok c') (t : TypeId) :
    ∃ s1, (c.sheetAt t).Shuffled s1 ∧ c'.sheetAt t = if t ∈ ts then s1.take e else s1 := by
  unfold delete at hr
  obtain ⟨⟨idxs, mask⟩, h1, hr⟩ := Res.bind_ok' hr
  obtain ⟨c1, h2, hr⟩ := Res.bind_ok' hr
  obtain ⟨rfl, hk⟩ := lookupAll_idxs ts h1
  obtain ⟨k1, k2⟩ := withMask_labelled (fun s s' ha h => ungroupLoop_labelled _ _ _ _ ha h) ha h2
  have k3 := withMask_shape (fun s s' h => ungroupLoop_shape _ _ _ _ h) h2
  have k4 := Stable.withMask (fun s s' hs h => stable_idx.ungroupLoop _ _ _ _ hs h) ha h2
  rw [← idxOf_same k3.md] at hr
  exact ⟨_, sheetAt_labelled k1 k2 t,
    deleteEach_sheet t ts c1 c' (hc.of_shape k3) k4 (fun x hx => by rw [k3.meta?]; exact hk x hx) hr⟩

theorem sheet_nil {s : CompSet V} (h : s.entities = []) : s.sheet = .empty := by
  unfold CompSet.sheet CompSet.rows
  rw [h]
  rfl

theorem clear_sheet (c : ComponentStorage V) (t : TypeId) : c.clear.sheetAt t = .empty := by
  unfold sheetAt
  show (match c.meta? t with | none => .empty | some m => sheetI (c.components.map CompSet.clear) m.storageIndex) = Sheet.empty
  cases c.meta? t with
  | none => rfl
  | some m =>
    simp only
    unfold sheetI
    rw [List.getElem?_map]
    cases c.components[m.storageIndex]? <;> rfl

theorem register_sheet {c : ComponentStorage V} (hc : Static c) (t' t : TypeId) :
    (c.register t').2.sheetAt t = c.sheetAt t := by
  unfold register
  cases hm : c.meta? t' with
  | some m => rfl
  | none =>
    simp only
    unfold sheetAt
    simp only [meta?, insertMeta_lookup]
    by_cases ht : t = t'
    · subst ht
      have : c.metadata.lookup t = none := hm
      rw [if_pos rfl, this]
      simp only
      unfold sheetI
      rw [List.getElem?_append_right (Nat.le_refl _)]
      simp [CompSet.sheet, CompSet.rows, CompSet.new, Sheet.empty]
    · rw [if_neg ht]
      cases hx : c.metadata.lookup t with
      | none => rfl
      | some m =>
        simp only
        exact sheetI_append_left (hc.idx t m hx)

/-! ### Setting a layout -/

/-- The rows and labels of a set that waits. -/
def waitingSheet (sets : List (TypeId × CompSet V)) (t : TypeId) : Sheet V :=
  match sets.lookup t with
  | some s => s.sheet
  | none => .empty

/-- The rows and labels of `t` wait, are placed, or are lost. -/
structure HalfwaySheet (R : Sheet V) (t : TypeId) (b : Building V) : Prop where
  stat : Static b.1
  keys : (b.2.map Prod.fst).Nodup
  where_ : (b.1.meta? t = none ∧ waitingSheet b.2 t = R) ∨
    (b.2.lookup t = none ∧ (b.1.sheetAt t = R ∨ b.1.sheetAt t = .empty))

theorem sheetAt_push {c : ComponentStorage V} (hc : Static c) (t t' : TypeId) (m : ComponentMetadata)
    (hm : m.storageIndex = c.components.length) (s : CompSet V) (gs : List Group) :
    sheetAt ⟨gs, insertMeta c.metadata t' m, c.components ++ [s]⟩ t = if t = t' then s.sheet else c.sheetAt t := by
  unfold sheetAt
  simp only [meta?, insertMeta_lookup]
  by_cases ht : t = t'
  · rw [if_pos ht, if_pos ht]
    simp only [hm]
    unfold sheetI
    simp
  · rw [if_neg ht, if_neg ht]
    cases hx : c.metadata.lookup t with
    | none => rfl
    | some m' => exact sheetI_append_left (hc.idx t m' hx)

theorem HalfwaySheet.push {R : Sheet V} {t : TypeId} {c : ComponentStorage V} {sets : List (TypeId × CompSet V)}
    (h : HalfwaySheet R t (c, sets)) (t' : TypeId) (m : ComponentMetadata) (hm : m.storageIndex = c.components.length) :
    HalfwaySheet R t (⟨c.groups, insertMeta c.metadata t' m, c.components ++ [(removeSet sets t').1.getD CompSet.new]⟩,
      (removeSet sets t').2) := by
  refine ⟨h.stat.push _ _ hm _ _, h.keys.sublist (List.filter_sublist.map _), ?_⟩
  simp only
  rw [sheetAt_push h.stat _ _ _ hm]
  by_cases ht : t = t'
  · subst ht
    rw [if_pos rfl]
    right
    have hno : (removeSet sets t).2.lookup t = none := by
      unfold removeSet
      rw [lookup_none]
      simp
    refine ⟨hno, ?_⟩
    rcases h.where_ with ⟨_, h2⟩ | ⟨h1, _⟩
    · simp only [waitingSheet] at h2
      simp only [removeSet]
      cases hl : sets.lookup t with
      | none => exact .inr rfl
      | some s =>
        rw [hl] at h2
        exact .inl h2
    · simp only at h1
      right
      simp only [removeSet, h1]
      rfl
  · rw [if_neg ht]
    have hl : (removeSet sets t').2.lookup t = sets.lookup t := lookup_filter_ne _ _ _ ht
    have hmeta : meta? (⟨c.groups, insertMeta c.metadata t' m,
        c.components ++ [(removeSet sets t').1.getD CompSet.new]⟩ : ComponentStorage V) t = c.meta? t := by
      simp only [meta?, insertMeta_lookup, if_neg ht]
    unfold waitingSheet
    rw [hl, hmeta]
    exact h.where_

theorem HalfwaySheet.regroup {R : Sheet V} {t : TypeId} {c : ComponentStorage V} {sets : List (TypeId × CompSet V)}
    (h : HalfwaySheet R t (c, sets)) (gs : List Group) : HalfwaySheet R t ({ c with groups := gs }, sets) :=
  ⟨h.stat.regroup gs, h.keys, h.where_⟩

theorem addComponents_sheet {R : Sheet V} {t : TypeId} {f : GroupFamily} {a b c : Nat} : ∀ (n idx : Nat)
    (x : Building V), HalfwaySheet R t x → (addComponents f a b c idx n x).Leaves (HalfwaySheet R t)
  | 0, _, x, hx => hx
  | n + 1, idx, (st, sets), hx => by
    rw [addComponents]
    refine Outcome.Leaves.ofRes hx fun p hp => ?_
    obtain ⟨t', m⟩ := p
    obtain ⟨_, _, hp⟩ := Res.bind_ok' hp
    obtain ⟨_, _, hp⟩ := Res.bind_ok' hp
    obtain ⟨_, _, hp⟩ := Res.bind_ok' hp
    obtain ⟨_, _, hp⟩ := Res.bind_ok' hp
    cases hp
    exact addComponents_sheet n (idx + 1) _ (hx.push _ _ rfl)

theorem addGroups_sheet {R : Sheet V} {t : TypeId} {f : GroupFamily} {a b c : Nat} : ∀ (l : List Nat) (prev : Nat)
    (x : Building V), HalfwaySheet R t x → (addGroups f a b c prev l x).Leaves (HalfwaySheet R t)
  | [], _, x, hx => hx
  | n :: l, prev, (st, sets), hx => by
    rw [addGroups]
    refine Outcome.Leaves.ofRes hx fun g _ => ?_
    exact Outcome.Leaves.bind (addComponents_sheet _ _ _ (hx.regroup _)) fun _ y hy => addGroups_sheet l n y hy

theorem addFamilies_sheet {R : Sheet V} {t : TypeId} : ∀ (fs : List GroupFamily) (x : Building V), HalfwaySheet R t x →
    (addFamilies fs x).Leaves (HalfwaySheet R t)
  | [], x, hx => hx
  | f :: fs, (c, sets), hx => by
    rw [addFamilies]
    exact Outcome.Leaves.bind (addGroups_sheet _ _ _ hx) fun _ y hy => addFamilies_sheet fs y hy

theorem addUngrouped_sheet (t : TypeId) : ∀ (l : List (TypeId × CompSet V)) (c : ComponentStorage V), Static c →
    (l.map Prod.fst).Nodup → (addUngrouped l c).sheetAt t = match l.lookup t with
      | some s => s.sheet
      | none => c.sheetAt t
  | [], c, _, _ => rfl
  | (t', s) :: l, c, hc, hn => by
    rw [addUngrouped]
    simp only [List.map_cons, List.nodup_cons] at hn
    rw [addUngrouped_sheet t l _ (hc.push _ _ rfl _ _) hn.2]
    rw [sheetAt_push hc _ _ _ rfl]
    by_cases ht : t = t'
    · subst ht
      have : l.lookup t = none := by
        rw [lookup_none]
        exact hn.1
      rw [this]
      simp
    · have hb : (t == t') = false := by simpa using ht
      rw [List.lookup_cons, hb, if_neg ht]

/-- Whatever happens in `set_layout`, the rows of a type are kept, with the labels in place, or lost together. -/
theorem setLayout_sheet (rank : TypeId → Nat) {c : ComponentStorage V} (hc : Static c)
    (ha : AllSets CompSet.IdxOk c.components) (hk : (c.metadata.map Prod.fst).Nodup) (l : GroupLayout) (es : List Entity)
    (t : TypeId) : (c.setLayout rank l es).Leaves (fun c' => (c.sheetAt t).Shuffled (c'.sheetAt t) ∨ c'.sheetAt t = .empty) := by
  obtain ⟨sets, comps0, h1, h2, _, h4, _, h6⟩ := takeSets_ok c.metadata c.components hk
    (fun t m hm => hc.idx t m ((lookup_some hk t m).2 hm))
    (fun t t' m m' hm hm' => hc.inj t t' m m' ((lookup_some hk t m).2 hm) ((lookup_some hk t' m').2 hm'))
  have hex : c.extractSparseSets = .ok (sets, ⟨[], [], comps0⟩) := by simp [extractSparseSets, h1]
  have hR : waitingSheet sets t = c.sheetAt t := by
    unfold waitingSheet
    rw [h6]
    unfold sheetAt
    show (match (c.meta? t).bind fun m => c.components[m.storageIndex]? with | some s => s.sheet | none => Sheet.empty) = _
    cases c.meta? t with
    | none => rfl
    | some m => rfl
  have h0 : HalfwaySheet (c.sheetAt t) t ((⟨[], [], comps0⟩, sets) : Building V) :=
    ⟨⟨fun t m h => by simp [meta?] at h, fun t t' m m' h => by simp [meta?] at h⟩, by rw [h4]; exact hk, .inl ⟨rfl, hR⟩⟩
  have hf := addFamilies_sheet l.families _ h0
  have hb := stable_idx.addFamilies l.families _ (stable_idx.takeSets _ ha h1 : Stable.Built _ ((⟨[], [], comps0⟩, sets) : Building V))
  unfold setLayout
  rw [hex]
  simp only
  revert hf hb
  cases hF : addFamilies l.families ((⟨[], [], comps0⟩, sets) : Building V) with
  | ub => exact fun _ _ => trivial
  | panic b =>
    intro hf _
    obtain ⟨c2, sets2⟩ := b
    show (c.sheetAt t).Shuffled (c2.sheetAt t) ∨ c2.sheetAt t = .empty
    rcases hf.where_ with ⟨k1, _⟩ | ⟨_, k1 | k1⟩
    · exact .inr (sheetAt_none k1)
    · rw [show c2.sheetAt t = _ from k1]
      exact .inl (Sheet.Shuffled.refl _)
    · exact .inr k1
  | ok u b =>
    intro hf hb
    obtain ⟨c2, sets2⟩ := b
    have hk2 : (sets2.map Prod.fst).Nodup := hf.keys
    have hp := sortByRank_perm rank sets2
    have hk3 : ((sortByRank rank sets2).map Prod.fst).Nodup := ((hp.map _).nodup_iff).2 hk2
    have hu := addUngrouped_sheet t (sortByRank rank sets2) c2 hf.stat hk3
    have ha3 : AllSets CompSet.IdxOk (addUngrouped (sortByRank rank sets2) c2).components :=
      Stable.addUngrouped _ _ hb.1 fun p hp' => hb.2 p (hp.mem_iff.1 hp')
    rw [lookup_perm hp hk2] at hu
    have h3 : (addUngrouped (sortByRank rank sets2) c2).sheetAt t = c.sheetAt t ∨
        (addUngrouped (sortByRank rank sets2) c2).sheetAt t = .empty := by
      rw [hu]
      rcases hf.where_ with ⟨k1, k2⟩ | ⟨k1, k2⟩
      · unfold waitingSheet at k2
        simp only at k2
        rw [← k2]
        cases sets2.lookup t with
        | none => exact .inl (sheetAt_none k1)
        | some s => exact .inl rfl
      · simp only at k1
        rw [k1]
        exact k2
    simp only
    generalize addUngrouped (sortByRank rank sets2) c2 = c3 at h3 ha3 ⊢
    have h3 : (c.sheetAt t).Shuffled (c3.sheetAt t) ∨ c3.sheetAt t = .empty := by
      rcases h3 with h3 | h3
      · rw [h3]; exact .inl (Sheet.Shuffled.refl _)
      · exact .inr h3
    cases GroupMask.fromTo 0 c3.groups.length with
    | panic => exact h3
    | ub => trivial
    | ok mask =>
      simp only
      cases hg : groupEntities mask es (c3.components, c3.groups) with
      | panic => exact h3
      | ub => trivial
      | ok p =>
        obtain ⟨comps, groups⟩ := p
        have k1 := sheetAt_labelled (c := c3) (c' := { c3 with components := comps, groups := groups })
          (groupEntities_labelled es _ _ ha3 hg) rfl t
        rcases h3 with h3 | h3
        · exact .inl (h3.trans k1)
        · rw [h3] at k1
          right
          have h5 : (sheetAt { c3 with components := comps, groups := groups } t).rows = [] := k1.1.eq_nil
          have h6 : (sheetAt { c3 with components := comps, groups := groups } t).labels = [] := k1.2
          show sheetAt { c3 with components := comps, groups := groups } t = ⟨[], []⟩
          rw [← h5, ← h6]

theorem sheetAt_rows (c : ComponentStorage V) (t : TypeId) : (c.sheetAt t).rows = c.rowsAt t := by
  unfold sheetAt rowsAt
  cases c.meta? t with
  | none => rfl
  | some m =>
    simp only
    unfold sheetI rowsI
    cases c.components[m.storageIndex]? <;> rfl

theorem sheetAt_length {c : ComponentStorage V} (ha : AllSets CompSet.IdxOk c.components) (t : TypeId) :
    (c.sheetAt t).labels.length = (c.sheetAt t).rows.length := by
  unfold sheetAt
  cases c.meta? t with
  | none => rfl
  | some m =>
    simp only
    unfold sheetI
    cases hs : c.components[m.storageIndex]? with
    | none => rfl
    | some s =>
      simp only [CompSet.sheet, CompSet.rows, List.length_map, List.length_zip]
      have := (mem_at ha hs).len
      omega

theorem sheetAt_nil {c : ComponentStorage V} (ha : AllSets CompSet.IdxOk c.components) {t : TypeId} (h : c.rowsAt t = []) :
    c.sheetAt t = .empty := by
  have h1 := sheetAt_rows c t
  rw [h] at h1
  have h2 := sheetAt_length ha t
  rw [h1] at h2
  have h3 : (c.sheetAt t).labels = [] := List.length_eq_zero_iff.1 h2
  show c.sheetAt t = ⟨[], []⟩
  rw [← h3, ← h1]

/-- Without a panic the rows are lost exactly if the type is twice in the layout. -/
theorem setLayout_sheet_ok {rank : TypeId → Nat} {c c' : ComponentStorage V} (hc : Static c)
    (ha : AllSets CompSet.IdxOk c.components) (hk : (c.metadata.map Prod.fst).Nodup) {l : GroupLayout}
    (hl : FamsOK l.families) {es : List Entity} (h : c.setLayout rank l es = .ok () c') (t : TypeId) :
    if (layoutTypes l).count t ≤ 1 then (c.sheetAt t).Shuffled (c'.sheetAt t) else c'.sheetAt t = .empty := by
  have h1 := setLayout_sheet rank hc ha hk l es t
  have h2 := setLayout_rows_ok hc hk hl h t
  have h3 := stable_idx.setLayout rank l es ha
  rw [h] at h1 h3
  split
  · rename_i hx
    rw [if_pos hx] at h2
    rcases h1 with h1 | h1
    · exact h1
    · have h4 : c'.rowsAt t = [] := by rw [← sheetAt_rows, h1]; rfl
      rw [h4] at h2
      rw [h1, sheetAt_nil ha h2.symm.eq_nil]
      exact Sheet.Shuffled.refl _
  · rename_i hx
    rw [if_neg hx] at h2
    exact sheetAt_nil h3 h2.eq_nil

end ComponentStorage
end Sparsey
