import Verif.Model.Debug
import Verif.Properties.Labels

/-!
C78: what `Debug` prints is what lookups find.
-/

set_option autoImplicit false
set_option linter.unusedSimpArgs false

namespace Sparsey
variable {V : Type}

theorem SparseVec.mem_debug {s : SparseVec} {e : Entity} {d : Nat} :
    (e, d) ∈ s.debugEntries ↔ ∃ i sl, s.slots[i]? = some (some sl) ∧ e = ⟨asU32 i, sl.version⟩ ∧ d = sl.index := by
  unfold SparseVec.debugEntries
  rw [List.mem_filterMap]
  constructor
  · rintro ⟨⟨slot, i⟩, h1, h2⟩
    rw [List.mem_zipIdx_iff_getElem?] at h1
    cases slot with
    | none => cases h2
    | some sl =>
      simp only [Option.map_some, Option.some.injEq, Prod.mk.injEq] at h2
      exact ⟨i, sl, h1, h2.1.symm, h2.2.symm⟩
  · rintro ⟨i, sl, h1, rfl, rfl⟩
    exact ⟨(some sl, i), List.mem_zipIdx_iff_getElem?.2 h1, rfl⟩

theorem SparseVec.zipIdx_lt {α : Type} : ∀ (l : List α) (k : Nat), (l.zipIdx k).Pairwise fun a b => a.2 < b.2
  | [], _ => by simp
  | a :: l, k => by
    rw [List.zipIdx_cons, List.pairwise_cons]
    refine ⟨fun p hp => ?_, SparseVec.zipIdx_lt l (k + 1)⟩
    obtain ⟨x, i⟩ := p
    have := (List.mem_zipIdx hp).1
    simp only
    omega

/-- The table of a set prints what it finds. -/
theorem IdxRep.debug {sv : SparseVec} {ents : List Entity} (h : IdxRep sv ents) :
    (∀ e d, (e, d) ∈ sv.debugEntries ↔ sv.get e = some d) ∧
    (sv.debugEntries.map fun p => p.1.index).Pairwise (· < ·) ∧
    (∀ p ∈ sv.debugEntries, (ents[p.2]?).map (·.index) = some p.1.index) ∧
    (sv.debugEntries.map (·.2)).Perm (List.range ents.length) := by
  have hsmall : ∀ i sl, sv.slots[i]? = some (some sl) → asU32 i = i := by
    intro i sl hi
    obtain ⟨e, h1, rfl⟩ := h.bwd i sl.index sl.version hi
    exact Nat.mod_eq_of_lt (h.small e (List.mem_of_getElem? h1))
  have hrow : ∀ p ∈ sv.debugEntries, (ents[p.2]?).map (·.index) = some p.1.index := by
    rintro ⟨e, d⟩ hm
    obtain ⟨i, sl, h1, rfl, rfl⟩ := SparseVec.mem_debug.1 hm
    obtain ⟨e', h2, h3⟩ := h.bwd i sl.index sl.version h1
    simp [h2, h3, hsmall i sl h1]
  have hlt : (sv.debugEntries.map fun p => p.1.index).Pairwise (· < ·) := by
    rw [List.pairwise_map]
    unfold SparseVec.debugEntries
    rw [List.pairwise_filterMap]
    refine (SparseVec.zipIdx_lt sv.slots 0).imp_of_mem ?_
    rintro ⟨sa, ia⟩ ⟨sb, ib⟩ ha hb hab p hp q hq
    rw [List.mem_zipIdx_iff_getElem?] at ha hb
    cases sa with
    | none => cases hp
    | some sa =>
      cases sb with
      | none => cases hq
      | some sb =>
        simp only [Option.map_some, Option.some.injEq] at hp hq
        subst hp hq
        simp only [hsmall _ _ ha, hsmall _ _ hb]
        exact hab
  refine ⟨fun e d => ?_, hlt, hrow, ?_⟩
  · rw [SparseVec.mem_debug]
    unfold SparseVec.get
    constructor
    · rintro ⟨i, sl, h1, rfl, rfl⟩
      simp [Entity.sparse, hsmall i sl h1, h1]
    · intro h1
      cases hs : sv.slots[e.sparse]? with
      | none => rw [hs] at h1; cases h1
      | some slot =>
        cases slot with
        | none => rw [hs] at h1; cases h1
        | some sl =>
          rw [hs] at h1
          simp only [Option.filter_some] at h1
          split at h1
          · rename_i hv
            simp only [Option.map_some, Option.some.injEq] at h1
            refine ⟨e.sparse, sl, hs, ?_, h1.symm⟩
            rw [hsmall _ _ hs]
            have : sl.version = e.version := by simpa using hv
            rw [this]
            rfl
          · cases h1
  · have hnd : (sv.debugEntries.map (·.2)).Nodup := by
      have h1 : (sv.debugEntries.map fun p => p.1.index).Nodup := hlt.imp fun h => Nat.ne_of_lt h
      have h2 : (sv.debugEntries.map fun p => (ents[p.2]?).map (·.index)).Nodup := by
        rw [List.map_congr_left hrow]
        have := h1.map (f := some) (Option.some_injective _)
        rwa [List.map_map] at this
      rw [show (sv.debugEntries.map fun p => (ents[p.2]?).map (·.index)) =
        (sv.debugEntries.map (·.2)).map fun d => (ents[d]?).map (·.index) by rw [List.map_map]; rfl] at h2
      exact List.Nodup.of_map _ h2
    refine (List.perm_ext_iff_of_nodup hnd List.nodup_range).2 fun d => ?_
    rw [List.mem_map, List.mem_range]
    constructor
    · rintro ⟨p, hp, rfl⟩
      have := hrow p hp
      by_contra hc
      rw [List.getElem?_eq_none (by omega)] at this
      cases this
    · intro hd
      obtain ⟨v, hv⟩ := h.fwd d _ (List.getElem?_eq_getElem hd)
      exact ⟨_, SparseVec.mem_debug.2 ⟨_, _, hv, rfl, rfl⟩, rfl⟩

/-- C78, tables: in every reachable world the table of the entities and that of every component set print exactly the entities they
find, with their positions, by increasing index; each position of the set is printed once, under the index of the entity there. -/
theorem C78_tables {h : History V} {w : World V} (hr : Reach World.empty h w) (sv : SparseVec) (ents : List Entity)
    (hs : (sv = w.entities.entities.sparse ∧ ents = w.entities.entities.entities) ∨
      ∃ s ∈ w.components.components, sv = s.sparse ∧ ents = s.entities) :
    (∀ e d, (e, d) ∈ sv.debugEntries ↔ sv.get e = some d) ∧
    (sv.debugEntries.map fun p => p.1.index).Pairwise (· < ·) ∧
    (∀ p ∈ sv.debugEntries, (ents[p.2]?).map (·.index) = some p.1.index) ∧
    (sv.debugEntries.map (·.2)).Perm (List.range ents.length) := by
  obtain ⟨h1, h2⟩ := reach_idx hr
  rcases hs with ⟨rfl, rfl⟩ | ⟨s, hs, rfl, rfl⟩
  · exact h1.rep.debug
  · exact (h2 s hs).rep.debug

/-- C78, entities: the set of entities prints the entities of the world. -/
theorem C78_entities (w : World V) : w.entities.entities.debugEntries = w.entities.asSlice := rfl

/-- C78, views: a view prints its rows, no two of one index; and it prints exactly the components that can be looked up, if and
only if the lookup of each of its entities finds its row. -/
theorem C78_views {h : History V} {w : World V} (hr : Reach World.empty h w) {t : TypeId} (hreg : w.isRegistered t = true) :
    ∃ l, w.viewDebug t = .ok l ∧ l = w.rows t ∧ (l.map fun p => p.1.index).Nodup ∧
      ((∀ e v, (e, v) ∈ l ↔ w.viewGet t e = .ok (some v)) ↔ w.FindsAll t) := by
  obtain ⟨j1, j2, j3, j4⟩ := C68_found hr t
  have hb : w.viewDebug t = .ok (w.rows t) := by
    obtain ⟨m, hm⟩ := Option.isSome_iff_exists.1 (show (w.components.meta? t).isSome = true from hreg)
    have hi := (reach_static hr).idx t m hm
    have hb : w.borrow t = .ok w.components.components[m.storageIndex] := by
      unfold World.borrow
      rw [hm]
      simp [Res.unchecked, List.getElem?_eq_getElem hi]
    simp [World.viewDebug, World.rows, hb]
  refine ⟨_, hb, rfl, j3, fun hf p hp => (hf p.1 p.2).1 hp, fun hf e v => ⟨fun hm => hf _ hm, fun hg => ?_⟩⟩
  have hl := (C68_all hr t).1 hf
  rw [j4 hreg e, Res.ok.injEq] at hg
  unfold Sheet.get at hg
  cases hpos : (w.sheet t).pos e with
  | none => rw [hpos] at hg; simp at hg
  | some i =>
    rw [hpos] at hg
    simp only at hg
    split at hg
    · rename_i hv
      rw [hl, List.getElem?_map] at hv
      rw [j1] at hg
      cases hri : (w.rows t)[i]? with
      | none => rw [hri] at hg; cases hg
      | some p =>
        rw [hri] at hv hg
        simp only [Option.map_some, Option.some.injEq] at hv hg
        unfold Sheet.pos at hpos
        rw [j1, List.findIdx?_eq_some_iff_getElem] at hpos
        obtain ⟨hi, hx, -⟩ := hpos
        rw [List.getElem?_eq_getElem hi, Option.some.injEq] at hri
        rw [hri] at hx
        have hidx : p.1.index = e.index := by simpa using hx
        have he : p = (e, v) := by
          obtain ⟨⟨a, b⟩, c⟩ := p
          obtain ⟨a', b'⟩ := e
          simp only at hidx hv hg
          rw [hidx, hv, hg]
        rw [← he, ← hri]
        exact List.getElem_mem hi
    · cases hg

/-- C78, component sets: the set of a registered type prints the entities of its view, in the same order. -/
theorem C78_sets {h : History V} {w : World V} (hr : Reach World.empty h w) {t : TypeId} (hreg : w.isRegistered t = true) :
    ∃ s, w.borrow t = .ok s ∧ s.debugEntries = (w.rows t).map (·.1) := by
  obtain ⟨m, hm⟩ := Option.isSome_iff_exists.1 (show (w.components.meta? t).isSome = true from hreg)
  have hi := (reach_static hr).idx t m hm
  have hb : w.borrow t = .ok w.components.components[m.storageIndex] := by
    unfold World.borrow
    rw [hm]
    simp [Res.unchecked, List.getElem?_eq_getElem hi]
  refine ⟨_, hb, ?_⟩
  have hs := (reach_sound hr).2.sets _ (List.getElem_mem hi)
  simp only [World.rows, hb, CompSet.debugEntries]
  rw [List.map_fst_zip]
  exact Nat.le_of_eq hs.len.symm

/-- C78, false: an entity printed by the table of a set need not be the entity at this position of the set. -/
theorem C78_false : ∃ (h : History Nat) (w : World Nat), Reach World.empty h w ∧
    ∃ s ∈ w.components.components, ∃ p ∈ s.sparse.debugEntries, s.entities[p.2]? ≠ some p.1 := by
  obtain ⟨rs, w, h1, h2⟩ := reach_witness (V := Nat) (ops := labelOps ++ [.insert ⟨1, 1⟩ [(0, 30)]])
    (f := fun (_ : List (Ret Nat)) w => decide (
      ∃ s ∈ w.components.components, ∃ p ∈ s.sparse.debugEntries, s.entities[p.2]? ≠ some p.1)) (by decide)
  exact ⟨_, w, h1, of_decide_eq_true h2⟩

/-- Before the exchange of `C78_false` and after: the view prints its rows both times, the table of type 1 the labels. -/
example : holdsAfter labelOps (fun _ w => decide (
      w.isRegistered 1 = true ∧ w.viewDebug 1 = .ok [(⟨0, 2⟩, 10), (⟨1, 1⟩, 20)] ∧
      w.entities.entities.sparse.debugEntries = [(⟨0, 2⟩, 0), (⟨1, 1⟩, 1)] ∧
      w.components.components.map (fun s => s.sparse.debugEntries) = [[], [(⟨0, 2⟩, 0), (⟨1, 1⟩, 1)]])) = true ∧
    holdsAfter (labelOps ++ [.insert ⟨1, 1⟩ [(0, 30)]]) (fun _ w => decide (
      w.viewDebug 1 = .ok [(⟨1, 1⟩, 20), (⟨0, 2⟩, 10)] ∧
      w.components.components.map (fun s => s.sparse.debugEntries) =
        [[(⟨1, 1⟩, 0)], [(⟨0, 1⟩, 1), (⟨1, 2⟩, 0)]])) = true := by decide

/-- The hypotheses of `C78_tables` and `C78_views`: a component set with two rows, of a registered type. -/
example : ∃ rs w, Reach World.empty (labelOps.zip rs) w ∧ w.isRegistered 1 = true ∧
    ∃ s ∈ w.components.components, s.entities.length = 2 := by
  obtain ⟨rs, w, h1, h2⟩ := reach_witness (V := Nat) (ops := labelOps) (f := fun (_ : List (Ret Nat)) w =>
    decide (w.isRegistered 1 = true ∧ ∃ s ∈ w.components.components, s.entities.length = 2)) (by decide)
  exact ⟨rs, w, h1, of_decide_eq_true h2⟩

end Sparsey
