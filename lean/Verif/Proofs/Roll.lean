import Verif.Spec.Roll
import Verif.Proofs.Labels
import Verif.Proofs.Versions
import Verif.Proofs.Life
import Verif.Properties.Panics

/-!
The entity storage does what `Roll` says. The set of entities is a component set without components (`EntitySparseSet.comp`).
-/

set_option autoImplicit false
set_option linter.unusedSimpArgs false

namespace Sparsey
variable {V : Type}

namespace EntitySparseSet
variable {s s' : EntitySparseSet}

/-- The set of entities as a component set. -/
def comp (s : EntitySparseSet) : CompSet Unit := ⟨s.sparse, s.entities, s.entities.map fun _ => ()⟩

theorem comp_ok (h : IdxRep s.sparse s.entities) : s.comp.IdxOk := ⟨h, by simp [comp]⟩

theorem comp_insert {e : Entity} {o : Option Entity} (h : s.insert e = .ok (o, s')) :
    ∃ o', s.comp.insert e () = .ok (o', s'.comp) := by
  unfold EntitySparseSet.insert at h
  obtain ⟨slot, hs, h⟩ := Res.bind_ok' h
  unfold CompSet.insert
  simp only [comp, hs, Res.bind_ok]
  cases slot with
  | some sl =>
    obtain ⟨old, hold, h⟩ := Res.bind_ok' h
    cases h
    simp only [hold, Res.bind_ok, List.getElem?_map, Res.unchecked_ok hold, Option.map_some, Res.unchecked_some]
    exact ⟨_, by simp [List.map_set]; rfl⟩
  | none =>
    obtain ⟨sp, h1, h⟩ := Res.bind_ok' h
    cases h
    simp only [h1, Res.bind_ok]
    exact ⟨_, by simp; rfl⟩

theorem insert_comp (h : IdxRep s.sparse s.entities) {e : Entity} (he : e.index < u32Size) {o : Option Entity}
    (hi : s.insert e = .ok (o, s')) : s'.comp.sheet = s.comp.sheet.put (e, ()) := by
  obtain ⟨o', h1⟩ := comp_insert hi
  exact CompSet.insert_sheet (comp_ok h) he h1

theorem comp_remove {e : Entity} {b : Bool} (h : s.remove e = .ok (b, s')) :
    ∃ o, s.comp.remove e = .ok (o, s'.comp) ∧ o.isSome = b := by
  unfold EntitySparseSet.remove at h
  unfold CompSet.remove
  rw [show s.comp.sparse = s.sparse from rfl]
  cases hr : s.sparse.remove e with
  | mk d sp =>
    rw [hr] at h
    cases d with
    | none =>
      cases h
      exact ⟨none, rfl, rfl⟩
    | some d =>
      simp only at h ⊢
      obtain ⟨_, ha, h⟩ := Res.bind_ok' h
      have hd : d < s.entities.length := by
        by_contra hc
        simp [Res.assert, hc] at ha
      have hlast : s.entities[s.entities.length - 1]? = some (s.entities[s.entities.length - 1]'(by omega)) :=
        List.getElem?_eq_getElem _
      generalize s.entities[s.entities.length - 1]'(by omega) = last at hlast
      have hget := Rep.removeAt_get s.entities (last := last) hd d
      rw [swapRemove_eq _ d last hlast] at h
      have hu : (List.replicate s.entities.length ())[s.entities.length - 1]? = some () := by
        rw [List.getElem?_replicate, if_pos (by omega)]
      by_cases hlt : d < s.entities.length - 1
      · rw [hget, if_pos hlt] at h
        simp only at h
        obtain ⟨sp', h1, h⟩ := Res.bind_ok' h
        cases h
        refine ⟨some (), ?_, rfl⟩
        simp [comp, hlast, hd, hlt, h1, hu, List.map_take, List.map_set]
      · rw [hget, if_neg hlt] at h
        cases h
        refine ⟨some (), ?_, rfl⟩
        simp [comp, hlast, hd, hlt, hu, List.map_take, List.map_set]

theorem remove_comp (h : IdxRep s.sparse s.entities) {e : Entity} {b : Bool} (hi : s.remove e = .ok (b, s')) :
    b = (s.comp.sheet.get e).isSome ∧ s'.comp.sheet = s.comp.sheet.take e := by
  obtain ⟨o, h1, h2⟩ := comp_remove hi
  obtain ⟨h3, h4⟩ := CompSet.remove_sheet (comp_ok h) h1
  exact ⟨by rw [← h3, h2], h4⟩

theorem contains_comp (h : IdxRep s.sparse s.entities) (e : Entity) : s.contains e = (s.comp.sheet.get e).isSome := by
  have h1 := CompSet.sheet_get (comp_ok h) e
  unfold CompSet.get at h1
  unfold EntitySparseSet.contains SparseVec.contains
  have hs : s.comp.sparse = s.sparse := rfl
  rw [hs] at h1
  unfold SparseVec.get at h1
  cases hsl : s.sparse.slots[e.sparse]? with
  | none =>
    rw [hsl] at h1
    have h1 := (Res.ok.inj h1).symm
    simp [h1]
  | some slot =>
    rw [hsl] at h1
    cases slot with
    | none =>
      simp at h1
      simp [← h1]
    | some sl =>
      by_cases hv : sl.version = e.version
      · simp [hv, Option.filter] at h1
        obtain ⟨v, _, h1⟩ := Res.bind_ok' h1
        have h1 := (Res.ok.inj h1).symm
        simp [hv, h1]
      · simp [hv, Option.filter] at h1
        simp [hv, ← h1]

theorem entities_comp (s : EntitySparseSet) : s.comp.sheet.rows.map (·.1) = s.entities := by
  show (s.entities.zip (s.entities.map fun _ => ())).map (·.1) = _
  exact List.map_fst_zip (by simp)

theorem insertAll_comp : ∀ (xs : List Entity) {s s' : EntitySparseSet}, IdxRep s.sparse s.entities →
    (∀ x ∈ xs, x.index < u32Size) → EntityStorage.insertAll s xs = .ok s' →
    ∀ r : Roll, r.list = s.comp.sheet → (xs.foldl Roll.put r).list = s'.comp.sheet
  | [], s, s', _, _, hi, r, hr => by cases hi; exact hr
  | x :: xs, s, s', h, hx, hi, r, hr => by
    obtain ⟨o, s1, h1, h2⟩ := idx_insert h x (hx x (.head _))
    rw [EntityStorage.insertAll, h1] at hi
    refine insertAll_comp xs h2 (fun y hy => hx y (.tail _ hy)) hi (r.put x) ?_
    rw [insert_comp h (hx x (.head _)) h1, ← hr]
    rfl

end EntitySparseSet

theorem Roll.foldl_put : ∀ (xs : List Entity) (r : Roll), (xs.foldl Roll.put r).waiting = r.waiting ∧
    (xs.foldl Roll.put r).next = r.next ∧ (xs.foldl Roll.put r).due = r.due
  | [], _ => ⟨rfl, rfl, rfl⟩
  | x :: xs, r => Roll.foldl_put xs (r.put x)

/-- The queue of new entities, in order. -/
theorem AllocRep.allocate_order {a a' : EntityAllocator} {ws : List Entity} {n : Nat} (h : AllocRep a ws n) {e : Entity}
    (hal : a.allocate = .ok (some e, a')) :
    a'.drained = if ws = [] then a.drained ++ [e] else e :: a.drained := by
  have hr := h.rsm
  have hl := h.length
  unfold EntityAllocator.allocate at hal
  split at hal
  · rename_i hlt
    have hi : a.recycled.length - a.recycledSinceMaintain - 1 < a.recycled.length := by omega
    rw [List.getElem?_eq_getElem hi, Res.checked_some, Res.bind_ok] at hal
    cases hal
    have hne : ws ≠ [] := by
      rintro rfl
      simp only [List.length_nil] at hl
      omega
    rw [if_neg hne]
    have h1 : a.recycled.length - (a.recycledSinceMaintain + 1) =
      a.recycled.length - a.recycledSinceMaintain - 1 := by omega
    have h2 : a.recycled.length - a.recycledSinceMaintain - 1 + 1 =
      a.recycled.length - a.recycledSinceMaintain := by omega
    simp only [EntityAllocator.drained]
    rw [h1, List.drop_eq_getElem_cons hi, h2]
    rfl
  · have hws : ws = [] := List.length_eq_zero_iff.1 (by omega)
    rw [if_pos hws]
    split at hal
    · cases hal
      simp only [EntityAllocator.drained]
      have h3 := h.last
      rw [← h.next] at h3
      rw [show a.nextIndexToAllocate + 1 - a.lastMaintainedIndex =
        (a.nextIndexToAllocate - a.lastMaintainedIndex) + 1 by omega, List.range'_concat]
      simp only [List.map_append, List.map_cons, List.map_nil, Nat.one_mul, List.append_assoc]
      rename_i hlt
      rw [show a.lastMaintainedIndex + (a.nextIndexToAllocate - a.lastMaintainedIndex) = a.nextIndexToAllocate by omega,
        show asU32 a.nextIndexToAllocate = a.nextIndexToAllocate from Nat.mod_eq_of_lt hlt]
    · cases hal

/-- The storage holds what the roll says. -/
structure RollInv (s : EntityStorage) (r : Roll) : Prop where
  ok : EntOk s
  list : r.list = s.entities.comp.sheet
  alloc : AllocRep s.allocator r.waiting r.next
  due : s.allocator.drained = r.due

namespace RollInv
variable {s s' : EntityStorage} {r : Roll}

theorem init : RollInv EntityStorage.empty Roll.init := ⟨EntOk.empty, rfl, AllocRep.empty, rfl⟩

theorem entities (h : RollInv s r) : r.entities = s.asSlice := by
  rw [Roll.entities, h.list]
  exact EntitySparseSet.entities_comp _

theorem has (h : RollInv s r) (e : Entity) : r.has e = s.contains e := by
  rw [Roll.has, h.list]
  exact (EntitySparseSet.contains_comp h.ok.rep e).symm

/-- The allocator hands out what the roll says. -/
theorem hand (h : RollInv s r) : (r.hand = none ∧ s.allocator.allocate = .ok (none, s.allocator)) ∨
    ∃ e r' a, r.hand = some (e, r') ∧ s.allocator.allocate = .ok (some e, a) ∧ AllocRep a r'.waiting r'.next ∧
      a.drained = r'.due ∧ r'.list = r.list := by
  have ha := h.alloc
  have hd := h.due
  obtain ⟨list, waiting, next, due⟩ := r
  simp only at ha hd
  cases waiting with
  | cons w ws =>
    obtain ⟨a', h1, _, h2, _⟩ := ha.allocate_waiting
    refine .inr ⟨w, _, a', rfl, h1, h2, ?_, rfl⟩
    rw [ha.allocate_order h1, hd]
    rfl
  | nil =>
    by_cases hn : next < u32Size
    · obtain ⟨a', h1, _, h2, _⟩ := ha.allocate_next hn
      refine .inr ⟨⟨next, 1⟩, _, a', if_pos hn, h1, h2, ?_, rfl⟩
      rw [ha.allocate_order h1, hd]
      rfl
    · exact .inl ⟨if_neg hn, (ha.allocate_none hn).1⟩

theorem create (h : RollInv s r) : (r.hand = none ∧ s.create = .panic) ∨
    ∃ e r' s', r.hand = some (e, r') ∧ s.create = .ok (e, s') ∧ RollInv s' (r'.put e) := by
  rcases h.hand with ⟨h1, h2⟩ | ⟨e, r', a, h1, h2, h3, h4, h5⟩
  · exact .inl ⟨h1, by simp [EntityStorage.create, h2, Res.checked]⟩
  · rcases h.ok.create with h6 | ⟨e', s', h6, h7, h8⟩
    · exfalso
      obtain ⟨o, a', h9, h10, _⟩ := h.ok.allocate
      rw [h2] at h9
      cases h9
      obtain ⟨o', es, h11, _⟩ := EntitySparseSet.idx_insert h.ok.rep e (h10 e rfl)
      simp [EntityStorage.create, h2, h11, Res.checked] at h6
    · have h9 := h6
      simp only [EntityStorage.create, h2, Res.bind_ok, Res.checked_some] at h9
      obtain ⟨⟨o, es⟩, h10, h9⟩ := Res.bind_ok' h9
      cases h9
      refine .inr ⟨e, r', _, h1, h6, h8, ?_, h3, h4⟩
      rw [EntitySparseSet.insert_comp h.ok.rep h7 h10, ← h.list, ← h5]
      rfl

theorem createAtomic (h : RollInv s r) : (r.hand = none ∧ s.createAtomic = .panic) ∨
    ∃ e r' s', r.hand = some (e, r') ∧ s.createAtomic = .ok (e, s') ∧ RollInv s' r' := by
  rcases h.hand with ⟨h1, h2⟩ | ⟨e, r', a, h1, h2, h3, h4, h5⟩
  · exact .inl ⟨h1, by simp [EntityStorage.createAtomic, EntOk.allocateAtomic, h2, Res.checked]⟩
  · obtain ⟨o, a', h9, h10, _, h11⟩ := h.ok.allocate
    rw [h2] at h9
    cases h9
    exact .inr ⟨e, r', ⟨a, s.entities⟩, h1, by simp [EntityStorage.createAtomic, EntOk.allocateAtomic, h2, Res.checked],
      h11 _ h.ok.rep, by rw [h5, h.list], h3, h4⟩

theorem make : ∀ (n : Nat) {s : EntityStorage} {r : Roll}, RollInv s r →
    RollInv (s.createN n) (r.make n).2 ∧ s.createUpTo n = (r.make n).1
  | 0, s, r, h => ⟨h, rfl⟩
  | n + 1, s, r, h => by
    rw [EntityStorage.createN, EntityStorage.createUpTo, Roll.make]
    rcases h.create with ⟨h1, h2⟩ | ⟨e, r', s', h1, h2, h3⟩
    · rw [h1, h2]
      exact ⟨h, rfl⟩
    · obtain ⟨h4, h5⟩ := make n h3
      rw [h1, h2]
      exact ⟨h4, congrArg (e :: ·) h5⟩

theorem remove (h : RollInv s r) {e : Entity} {b : Bool} (hr : s.remove e = .ok (b, s')) :
    b = r.has e ∧ RollInv s' (r.step (.destroy e : Op V) (.bool b)) := by
  obtain ⟨b1, s1, h1, h2⟩ := h.ok.remove e
  rw [hr] at h1
  cases h1
  unfold EntityStorage.remove at hr
  obtain ⟨⟨b2, es⟩, h3, hr⟩ := Res.bind_ok' hr
  obtain ⟨h4, h5⟩ := EntitySparseSet.remove_comp h.ok.rep h3
  rw [← h.list] at h4 h5
  cases b2 with
  | false =>
    cases hr
    refine ⟨h4, h2, ?_, h.alloc, h.due⟩
    show r.list = es.comp.sheet
    rw [h5]
    have h6 : r.list.get e = none := by
      cases hg : r.list.get e with
      | none => rfl
      | some u => rw [hg] at h4; cases h4
    unfold Sheet.get at h6
    unfold Sheet.take
    cases hp : r.list.pos e with
    | none => rfl
    | some i =>
      rw [hp] at h6
      simp only at h6 ⊢
      split
      · rename_i hl
        rw [if_pos hl] at h6
        have hi : i < r.list.rows.length := by
          unfold Sheet.pos at hp
          exact (List.findIdx?_eq_some_iff_getElem.1 hp).1
        rw [List.getElem?_eq_getElem hi] at h6
        cases h6
      · rfl
  | true =>
    cases hr
    refine ⟨h4, h2, h5.symm, (h.alloc.recycle e).1, ?_⟩
    show (s.allocator.recycle e).drained = r.due
    rw [h.alloc.recycle_drained, h.due]

theorem maintain (h : RollInv s r) (hm : s.maintain = .ok s') : RollInv s' { r.due.foldl Roll.put r with due := [] } := by
  obtain ⟨s1, h1, h2⟩ := h.ok.maintain
  rw [hm] at h1
  cases h1
  obtain ⟨xs, a, h3, h4, h5⟩ := h.ok.maintain_alloc
  obtain ⟨a', h6, h7, h8⟩ := h.alloc.maintain
  rw [h3] at h6
  cases h6
  simp only [EntityStorage.maintain, h3, Res.bind_ok] at hm
  obtain ⟨es, h9, hm⟩ := Res.bind_ok' hm
  cases hm
  obtain ⟨h10, h11, _⟩ := Roll.foldl_put r.due r
  refine ⟨h2, ?_, by rw [show _ = r.waiting from h10, show _ = r.next from h11]; exact h7, h8⟩
  rw [← h.due]
  exact EntitySparseSet.insertAll_comp _ h.ok.rep h4 h9 r h.list

theorem clear (h : RollInv s r) (hm : s.clear = .ok s') : RollInv s' { r with list := .empty, due := [] } := by
  obtain ⟨s1, h1, h2⟩ := h.ok.clear
  rw [hm] at h1
  cases h1
  obtain ⟨a', h6, h7, h8⟩ := h.alloc.maintain
  simp only [EntityStorage.clear, h6, Res.bind_ok, Res.pure_eq, Res.ok.injEq] at hm
  subst hm
  exact ⟨h2, rfl, h7, h8⟩

end RollInv

theorem Roll.make_all (r : Roll) : ∀ n, r.make (r.make n).1.length = r.make n := by
  intro n
  induction n generalizing r with
  | zero => rfl
  | succ n ih =>
    cases hh : r.hand with
    | none =>
      have : r.make (n + 1) = ([], r) := by rw [Roll.make, hh]
      rw [this]
      rfl
    | some p =>
      obtain ⟨e, r'⟩ := p
      have : r.make (n + 1) = (e :: ((r'.put e).make n).1, ((r'.put e).make n).2) := by rw [Roll.make, hh]
      rw [this, List.length_cons, Roll.make, hh]
      simp only [ih]

theorem roll_snoc (h : History V) (op : Op V) (a : Ret V) : roll (h ++ [(op, a)]) = (roll h).step op a := by
  simp [roll]

/-- A call does to the storage what it does to the roll. -/
theorem RollInv.step {s s' : EntityStorage} {r : Roll} (h : RollInv s r) {op : Op V} {a : Ret V}
    (hs : EntStep s op a s') : RollInv s' (r.step op a) := by
  cases op with
  | create vs =>
    rcases hs with ⟨_, rfl, rfl⟩ | ⟨e, h1, h2⟩
    · exact h
    · have h3 := (RollInv.make 1 h).1
      simp only [EntityStorage.createN, h1] at h3
      rcases h2 with rfl | rfl
      · exact h3
      · exact h3
  | extend ts it =>
    rcases hs with ⟨rfl, rfl⟩ | ⟨rfl, h2⟩
    · exact h
    · obtain ⟨h3, h4⟩ := RollInv.make it.items.length h
      rcases h2 with rfl | ⟨rfl, _⟩
      · show RollInv _ (r.make _).2
        rw [h4, Roll.make_all]
        exact h3
      · exact h3
  | createAtomic =>
    rcases hs with ⟨_, rfl, rfl⟩ | ⟨e, h1, rfl⟩
    · exact h
    · rcases h.createAtomic with ⟨_, h2⟩ | ⟨e', r', s1, h2, h3, h4⟩
      · rw [h1] at h2; cases h2
      · rw [h1] at h3
        cases h3
        show RollInv _ ((r.hand.map (·.2)).getD r)
        rw [h2]
        exact h4
  | destroy e =>
    rcases hs with ⟨rfl, rfl⟩ | ⟨b, h1, rfl⟩
    · exact h
    · exact (h.remove h1).2
  | maintain => exact h.maintain hs.1
  | clear => exact h.clear hs.1
  | reset =>
    obtain ⟨rfl, _⟩ := hs
    exact RollInv.init
  | register t => cases (show s' = s from hs); exact h
  | setLayout k gs => cases (show s' = s from hs); exact h
  | insert e vs => cases (show s' = s from hs); exact h
  | remove e ts => cases (show s' = s from hs); exact h
  | delete e ts => cases (show s' = s from hs); exact h
  | write t e v => cases (show s' = s from hs); exact h
  | writeAt t k v => cases (show s' = s from hs); exact h

theorem reach_roll {h : History V} {w : World V} (hr : Reach World.empty h w) : RollInv w.entities (roll h) := by
  induction hr with
  | nil => exact RollInv.init
  | snoc hr hs ih =>
    rw [roll_snoc]
    obtain ⟨he, hc⟩ := reach_sound hr
    exact ih.step (step_ents he hc hs)

end Sparsey
