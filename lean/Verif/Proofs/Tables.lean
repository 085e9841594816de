import Verif.Spec.Tables
import Verif.Properties.Indexes
import Verif.Proofs.AllSets

/-!
The lengths of the tables from indexes to rows in every reachable world.
-/

set_option autoImplicit false
set_option linter.unusedSimpArgs false

namespace Sparsey
variable {V : Type}

theorem IsTable.le {n : Nat} (h : IsTable n) : n ≤ 2 ^ 32 + 1 := by
  rcases h with rfl | ⟨k, hk, rfl⟩
  · omega
  · have : 2 ^ k ≤ 2 ^ 32 := Nat.pow_le_pow_right (by omega) hk
    omega

/-- Making room for an index: either nothing changes or the table ends right after the least power of two. -/
theorem allocate_table (s : SparseVec) {i : Nat} (hi : i ≤ 2 ^ 32) :
    s.slots.length ≤ (s.allocateAt i).slots.length ∧ i < (s.allocateAt i).slots.length ∧
    ((s.allocateAt i).slots.length = s.slots.length ∨ ∃ k, k ≤ 32 ∧ (s.allocateAt i).slots.length = 2 ^ k + 1 ∧
      ∀ j, i ≤ 2 ^ j → 2 ^ k ≤ 2 ^ j) := by
  have h0 := s.allocateAt_length i
  unfold SparseVec.allocateAt at h0 ⊢
  by_cases h : s.slots.length ≤ i
  · rw [if_pos h] at h0 ⊢
    obtain ⟨k, h1, h2, h3, h4⟩ := nextPow_spec hi
    have : (s.extendToIndex i).slots.length = 2 ^ k + 1 := by
      unfold SparseVec.extendToIndex
      rw [h1]
      simp only [Option.getD_some, List.length_append, List.length_replicate]
      omega
    exact ⟨by omega, h0, .inr ⟨k, h4, this, h3⟩⟩
  · rw [if_neg h] at h0 ⊢
    exact ⟨Nat.le_refl _, h0, .inl rfl⟩

theorem allocate_isTable (s : SparseVec) {i : Nat} (hi : i ≤ 2 ^ 32) (h : IsTable s.slots.length) :
    IsTable (s.allocateAt i).slots.length := by
  rcases (allocate_table s hi).2.2 with h1 | ⟨k, h1, h2, _⟩
  · rw [h1]; exact h
  · exact .inr ⟨k, h1, h2⟩

/-- Making room for an index of a longer table does not make the table longer than that one. -/
theorem allocate_fits (s : SparseVec) {i m : Nat} (hm : IsTable m) (hi : i < m) (h : FitsTable m s.slots.length) :
    FitsTable m (s.allocateAt i).slots.length := by
  have hi2 : i ≤ 2 ^ 32 := by have := hm.le; omega
  refine ⟨allocate_isTable s hi2 h.1, ?_⟩
  rcases (allocate_table s hi2).2.2 with h1 | ⟨k, _, h2, h3⟩
  · rw [h1]; exact h.2
  · rcases hm with rfl | ⟨j, _, rfl⟩
    · omega
    · have := h3 j (by omega)
      omega

/-- Making room for one of `n` indexes leaves at most `2 * n` slots. -/
theorem allocate_twice (s : SparseVec) {i n : Nat} (hn : n ≤ 2 ^ 32) (hi : i < n) (h : s.slots.length ≤ 2 * n) :
    (s.allocateAt i).slots.length ≤ 2 * n := by
  rcases (allocate_table s (by omega : i ≤ 2 ^ 32)).2.2 with h1 | ⟨k, _, h2, h3⟩
  · omega
  · rw [h2]
    cases k with
    | zero => omega
    | succ k =>
      have : 2 ^ k < i := by
        by_contra hc
        have h4 := h3 k (by omega)
        have := Nat.pow_succ (n := 2) (m := k)
        have := Nat.two_pow_pos k
        omega
      rw [Nat.pow_succ]
      omega

theorem SparseVec.setUnchecked_length {s s' : SparseVec} {i : Nat} {x : Option Slot} (h : s.setUnchecked i x = .ok s') :
    s'.slots.length = s.slots.length := by
  unfold SparseVec.setUnchecked at h
  split at h
  · cases h; simp
  · cases h

theorem SparseVec.remove_length (s : SparseVec) (e : Entity) : (s.remove e).2.slots.length = s.slots.length := by
  unfold SparseVec.remove
  split
  · split <;> simp
  · rfl

theorem SparseVec.swap_length {s s' : SparseVec} {a b : Nat} (h : s.swapNonoverlapping a b = .ok s') :
    s'.slots.length = s.slots.length := by
  unfold SparseVec.swapNonoverlapping at h
  split at h
  · split at h
    · cases h
    · cases h; simp
  · cases h

/-! ### Component sets -/

/-- The table of a set. -/
def CompSet.tab (s : CompSet V) : Nat := s.sparse.slots.length

theorem CompSet.insert_tab {s s' : CompSet V} {e : Entity} {v : V} {o : Option V} (h : s.insert e v = .ok (o, s')) :
    s'.tab = (s.sparse.allocateAt e.index).slots.length := by
  unfold CompSet.insert at h
  simp only [Entity.sparse] at h
  obtain ⟨slot, _, h⟩ := Res.bind_ok' h
  cases slot with
  | some sl =>
    obtain ⟨_, _, h⟩ := Res.bind_ok' h
    obtain ⟨_, _, h⟩ := Res.bind_ok' h
    cases h; rfl
  | none =>
    obtain ⟨sp, h1, h⟩ := Res.bind_ok' h
    cases h
    exact SparseVec.setUnchecked_length h1

theorem CompSet.remove_tab {s s' : CompSet V} {e : Entity} {o : Option V} (h : s.remove e = .ok (o, s')) :
    s'.tab = s.tab := by
  unfold CompSet.remove at h
  have h0 := s.sparse.remove_length e
  cases hr : s.sparse.remove e with
  | mk d sp =>
    rw [hr] at h h0
    cases d with
    | none => cases h; rfl
    | some d =>
      simp only at h h0
      obtain ⟨le, _, h⟩ := Res.bind_ok' h
      obtain ⟨_, _, h⟩ := Res.bind_ok' h
      split at h
      · obtain ⟨sp', h1, h⟩ := Res.bind_ok' h
        obtain ⟨_, _, h⟩ := Res.bind_ok' h
        obtain ⟨_, _, h⟩ := Res.bind_ok' h
        cases h
        exact (SparseVec.setUnchecked_length h1).trans h0
      · obtain ⟨sp', h1, h⟩ := Res.bind_ok' h
        obtain ⟨_, _, h⟩ := Res.bind_ok' h
        obtain ⟨_, _, h⟩ := Res.bind_ok' h
        cases h
        cases h1
        exact h0

theorem CompSet.delete_tab {s s' : CompSet V} {e : Entity} (h : s.delete e = .ok s') : s'.tab = s.tab := by
  unfold CompSet.delete at h
  have h0 := s.sparse.remove_length e
  cases hr : s.sparse.remove e with
  | mk d sp =>
    rw [hr] at h h0
    cases d with
    | none => cases h; rfl
    | some d =>
      simp only at h h0
      obtain ⟨le, _, h⟩ := Res.bind_ok' h
      obtain ⟨_, _, h⟩ := Res.bind_ok' h
      split at h
      · obtain ⟨sp', h1, h⟩ := Res.bind_ok' h
        obtain ⟨_, _, h⟩ := Res.bind_ok' h
        obtain ⟨_, _, h⟩ := Res.bind_ok' h
        cases h
        exact (SparseVec.setUnchecked_length h1).trans h0
      · obtain ⟨sp', h1, h⟩ := Res.bind_ok' h
        obtain ⟨_, _, h⟩ := Res.bind_ok' h
        obtain ⟨_, _, h⟩ := Res.bind_ok' h
        cases h
        cases h1
        exact h0

/-- The tables of sets keep fitting as long as only indexes of the longer table are used. -/
theorem stable_fits {m : Nat} (hm : IsTable m) : StableTo m (fun s : CompSet V => FitsTable m s.tab) where
  new := ⟨.inl rfl, Nat.zero_le _⟩
  insert := fun h he hr => by
    rw [CompSet.insert_tab hr]
    exact allocate_fits _ hm he h
  remove := fun h hr => by rw [CompSet.remove_tab hr]; exact h
  delete := fun h hr => by rw [CompSet.delete_tab hr]; exact h
  setMut := by
    intro s s' e v b h hr
    unfold CompSet.setMut at hr
    split at hr
    · cases hr; exact h
    · obtain ⟨_, _, hr⟩ := Res.bind_ok' hr
      cases hr; exact h
  setAt := by
    intro s s' pos v h hr
    obtain ⟨_, _, hr⟩ := Res.bind_ok' hr
    cases hr; exact h
  swap := by
    intro s s' a b h hr
    obtain ⟨_, _, hr⟩ := Res.bind_ok' hr
    obtain ⟨_, _, hr⟩ := Res.bind_ok' hr
    obtain ⟨sp, h1, hr⟩ := Res.bind_ok' hr
    obtain ⟨_, _, hr⟩ := Res.bind_ok' hr
    obtain ⟨_, _, hr⟩ := Res.bind_ok' hr
    cases hr
    show FitsTable m sp.slots.length
    rw [SparseVec.swap_length h1]
    exact h
  clear := fun _ => ⟨.inl rfl, Nat.zero_le _⟩

/-! ### Entities -/

theorem Res.checked_ok {α : Type} {o : Option α} {x : α} (h : Res.checked o = .ok x) : o = some x := by
  cases o with
  | none => cases h
  | some y => cases h; rfl

/-- What holds of the table of entities. -/
structure TabEnt (s : EntityStorage) : Prop where
  ok : EntOk s
  dense : ∀ e ∈ s.entities.entities, e.index < s.allocator.nextIndexToAllocate
  recycled : ∀ e ∈ s.allocator.recycled, e.index < s.allocator.nextIndexToAllocate
  tab : IsTable s.entities.sparse.slots.length
  twice : s.entities.sparse.slots.length ≤ 2 * s.allocator.nextIndexToAllocate

theorem EntitySparseSet.insert_tab {s s' : EntitySparseSet} {e : Entity} {o : Option Entity}
    (h : s.insert e = .ok (o, s')) : s'.sparse.slots.length = (s.sparse.allocateAt e.index).slots.length ∧
    ∀ x ∈ s'.entities, x = e ∨ x ∈ s.entities := by
  unfold EntitySparseSet.insert at h
  simp only [Entity.sparse] at h
  obtain ⟨slot, _, h⟩ := Res.bind_ok' h
  cases slot with
  | some sl =>
    obtain ⟨_, _, h⟩ := Res.bind_ok' h
    cases h
    exact ⟨rfl, fun x hx => (List.mem_or_eq_of_mem_set hx).symm⟩
  | none =>
    obtain ⟨sp, h1, h⟩ := Res.bind_ok' h
    cases h
    refine ⟨SparseVec.setUnchecked_length h1, fun x hx => ?_⟩
    simp only [List.mem_append, List.mem_singleton] at hx
    exact hx.symm

theorem mem_swapRemove {α : Type} {l : List α} {i : Nat} {x : α} (h : x ∈ swapRemove l i) : x ∈ l := by
  unfold swapRemove at h
  split at h
  · exact h
  · rename_i y hy
    rcases List.mem_or_eq_of_mem_set (List.mem_of_mem_dropLast h) with h | rfl
    · exact h
    · exact List.mem_of_getLast? hy

theorem EntitySparseSet.remove_tab {s s' : EntitySparseSet} {e : Entity} {b : Bool} (h : s.remove e = .ok (b, s')) :
    s'.sparse.slots.length = s.sparse.slots.length ∧ ∀ x ∈ s'.entities, x ∈ s.entities := by
  unfold EntitySparseSet.remove at h
  have h0 := s.sparse.remove_length e
  cases hr : s.sparse.remove e with
  | mk d sp =>
    rw [hr] at h h0
    cases d with
    | none => cases h; exact ⟨rfl, fun _ h => h⟩
    | some d =>
      simp only at h h0
      obtain ⟨_, _, h⟩ := Res.bind_ok' h
      split at h
      · obtain ⟨sp', h1, h⟩ := Res.bind_ok' h
        cases h
        exact ⟨(SparseVec.setUnchecked_length h1).trans h0, fun x hx => mem_swapRemove hx⟩
      · cases h
        exact ⟨h0, fun x hx => mem_swapRemove hx⟩

namespace TabEnt
variable {s s' : EntityStorage}

theorem empty : TabEnt EntityStorage.empty :=
  ⟨EntOk.empty, fun _ h => absurd h (List.not_mem_nil), fun _ h => absurd h (List.not_mem_nil), .inl rfl, Nat.zero_le _⟩

theorem lt_of_contains {e : Entity} (he : s.contains e = true) :
    e.index < s.entities.sparse.slots.length := by
  unfold EntityStorage.contains EntitySparseSet.contains SparseVec.contains at he
  split at he
  · rename_i sl hs
    exact (List.getElem?_eq_some_iff.1 hs).1
  · cases he

/-- What `allocate` hands out lies below the next index. -/
theorem allocate (h : TabEnt s) {e : Entity} {a : EntityAllocator} (ha : s.allocator.allocate = .ok (some e, a)) :
    e.index < a.nextIndexToAllocate ∧ s.allocator.nextIndexToAllocate ≤ a.nextIndexToAllocate ∧
    a.recycled = s.allocator.recycled := by
  unfold EntityAllocator.allocate at ha
  split at ha
  · obtain ⟨x, hx, ha⟩ := Res.bind_ok' ha
    cases ha
    exact ⟨h.recycled _ (List.mem_of_getElem? (Res.checked_ok hx)), Nat.le_refl _, rfl⟩
  · split at ha
    · cases ha
      exact ⟨Nat.lt_succ_self _, Nat.le_succ _, rfl⟩
    · cases ha

theorem create (h : TabEnt s) {e : Entity} (hc : s.create = .ok (e, s')) : TabEnt s' ∧
    s.entities.sparse.slots.length ≤ s'.entities.sparse.slots.length ∧ e.index < s'.entities.sparse.slots.length := by
  have hok : EntOk s' := by
    rcases h.ok.create with h1 | ⟨e', s1, h1, _, h2⟩
    · rw [h1] at hc; cases hc
    · rw [h1] at hc; cases hc; exact h2
  unfold EntityStorage.create at hc
  obtain ⟨⟨o, a⟩, ha, hc⟩ := Res.bind_ok' hc
  obtain ⟨x, hx, hc⟩ := Res.bind_ok' hc
  obtain ⟨⟨o', es⟩, hi, hc⟩ := Res.bind_ok' hc
  cases hc
  have hx := Res.checked_ok hx
  subst hx
  obtain ⟨h1, h2, h3⟩ := h.allocate ha
  obtain ⟨h4, h5⟩ := EntitySparseSet.insert_tab hi
  have hn : a.nextIndexToAllocate ≤ 2 ^ 32 := hok.next
  have hi32 : e.index ≤ 2 ^ 32 := by omega
  obtain ⟨h6, h7, _⟩ := allocate_table s.entities.sparse hi32
  have ht := h.twice
  refine ⟨⟨hok, ?_, ?_, ?_, ?_⟩, ?_, ?_⟩
  · intro y hy
    rcases h5 y hy with rfl | hy
    · exact h1
    · exact Nat.lt_of_lt_of_le (h.dense y hy) h2
  · intro y hy
    exact Nat.lt_of_lt_of_le (h.recycled y (h3 ▸ hy)) h2
  · show IsTable es.sparse.slots.length
    rw [h4]
    exact allocate_isTable _ hi32 h.tab
  · show es.sparse.slots.length ≤ 2 * a.nextIndexToAllocate
    rw [h4]
    exact allocate_twice _ hn h1 (by omega)
  · show _ ≤ es.sparse.slots.length
    omega
  · show _ < es.sparse.slots.length
    omega

theorem createAtomic (h : TabEnt s) {e : Entity} (hc : s.createAtomic = .ok (e, s')) : TabEnt s' ∧
    s'.entities = s.entities := by
  have hok : EntOk s' := by
    rcases h.ok.createAtomic with h1 | ⟨e', s1, h1, _, h2⟩
    · rw [h1] at hc; cases hc
    · rw [h1] at hc; cases hc; exact h2
  unfold EntityStorage.createAtomic at hc
  rw [EntOk.allocateAtomic] at hc
  obtain ⟨⟨o, a⟩, ha, hc⟩ := Res.bind_ok' hc
  obtain ⟨x, hx, hc⟩ := Res.bind_ok' hc
  cases hc
  have hx := Res.checked_ok hx
  subst hx
  obtain ⟨h1, h2, h3⟩ := h.allocate ha
  have ht := h.twice
  exact ⟨⟨hok, fun y hy => Nat.lt_of_lt_of_le (h.dense y hy) h2,
    fun y hy => Nat.lt_of_lt_of_le (h.recycled y (h3 ▸ hy)) h2, h.tab, by
    show s.entities.sparse.slots.length ≤ 2 * a.nextIndexToAllocate; omega⟩, rfl⟩

theorem insertAll {n : Nat} (hn : n ≤ 2 ^ 32) : ∀ {es : List Entity} {s s' : EntitySparseSet},
    (∀ e ∈ s.entities, e.index < n) → IsTable s.sparse.slots.length → s.sparse.slots.length ≤ 2 * n →
    (∀ e ∈ es, e.index < n) → EntityStorage.insertAll s es = .ok s' →
    (∀ e ∈ s'.entities, e.index < n) ∧ IsTable s'.sparse.slots.length ∧ s'.sparse.slots.length ≤ 2 * n ∧
    s.sparse.slots.length ≤ s'.sparse.slots.length
  | [], s, s', h1, h2, h3, _, h => by cases h; exact ⟨h1, h2, h3, Nat.le_refl _⟩
  | e :: es, s, s', h1, h2, h3, h4, h => by
    obtain ⟨⟨o, s1⟩, hi, h⟩ := Res.bind_ok' h
    obtain ⟨h5, h6⟩ := EntitySparseSet.insert_tab hi
    have he := h4 e (.head _)
    have hi32 : e.index ≤ 2 ^ 32 := by omega
    obtain ⟨h7, _, _⟩ := allocate_table s.sparse hi32
    obtain ⟨g1, g2, g3, g4⟩ := insertAll hn (s := s1) (fun y hy => by
      rcases h6 y hy with rfl | hy
      · exact he
      · exact h1 y hy) (by rw [h5]; exact allocate_isTable _ hi32 h2) (by rw [h5]; exact allocate_twice _ hn he h3)
      (fun y hy => h4 y (.tail _ hy)) h
    exact ⟨g1, g2, g3, by omega⟩

theorem maintain_alloc (h : TabEnt s) {es : List Entity} {a : EntityAllocator} (ha : s.allocator.maintain = .ok (es, a)) :
    (∀ e ∈ es, e.index < s.allocator.nextIndexToAllocate) ∧ a.nextIndexToAllocate = s.allocator.nextIndexToAllocate ∧
    ∀ e ∈ a.recycled, e.index < s.allocator.nextIndexToAllocate := by
  obtain ⟨_, _, ha⟩ := Res.bind_ok' ha
  cases ha
  refine ⟨fun e he => ?_, rfl, fun e he => h.recycled e (List.mem_of_mem_take he)⟩
  rcases List.mem_append.1 he with he | he
  · exact h.recycled e (List.mem_of_mem_drop he)
  · obtain ⟨i, hi, rfl⟩ := List.mem_map.1 he
    rw [List.mem_range'_1] at hi
    refine Nat.lt_of_le_of_lt (Nat.mod_le i _) ?_
    omega

theorem maintain (h : TabEnt s) (hm : s.maintain = .ok s') : TabEnt s' ∧
    s.entities.sparse.slots.length ≤ s'.entities.sparse.slots.length := by
  have hok : EntOk s' := by
    obtain ⟨s1, h1, h2⟩ := h.ok.maintain
    rw [h1] at hm; cases hm; exact h2
  obtain ⟨⟨es, a⟩, ha, hm⟩ := Res.bind_ok' hm
  obtain ⟨s1, hi, hm⟩ := Res.bind_ok' hm
  cases hm
  obtain ⟨h1, h2, h3⟩ := h.maintain_alloc ha
  obtain ⟨g1, g2, g3, g4⟩ := insertAll h.ok.next h.dense h.tab h.twice h1 hi
  refine ⟨⟨hok, ?_, ?_, g2, ?_⟩, g4⟩
  · show ∀ e ∈ (_ : List Entity), e.index < a.nextIndexToAllocate
    rw [h2]; exact g1
  · show ∀ e ∈ (_ : List Entity), e.index < a.nextIndexToAllocate
    rw [h2]; exact h3
  · show _ ≤ 2 * a.nextIndexToAllocate
    rw [h2]; exact g3

theorem clear (h : TabEnt s) (hm : s.clear = .ok s') : TabEnt s' := by
  have hok : EntOk s' := by
    obtain ⟨s1, h1, h2⟩ := h.ok.clear
    rw [h1] at hm; cases hm; exact h2
  obtain ⟨⟨es, a⟩, ha, hm⟩ := Res.bind_ok' hm
  cases hm
  obtain ⟨_, h2, h3⟩ := h.maintain_alloc ha
  refine ⟨hok, fun _ h => absurd h (List.not_mem_nil), ?_, .inl rfl, Nat.zero_le _⟩
  show ∀ e ∈ (_ : List Entity), e.index < a.nextIndexToAllocate
  rw [h2]; exact h3

theorem reset (s : EntityStorage) : TabEnt s.reset :=
  ⟨EntOk.reset s, fun _ h => absurd h (List.not_mem_nil), fun _ h => absurd h (List.not_mem_nil), .inl rfl, Nat.zero_le _⟩

theorem remove (h : TabEnt s) {e : Entity} {b : Bool} (hm : s.remove e = .ok (b, s')) : TabEnt s' ∧
    s'.entities.sparse.slots.length = s.entities.sparse.slots.length := by
  have hok : EntOk s' := by
    obtain ⟨b', s1, h1, h2⟩ := h.ok.remove e
    rw [h1] at hm; cases hm; exact h2
  obtain ⟨⟨b', es⟩, hr, hm⟩ := Res.bind_ok' hm
  obtain ⟨h1, h2⟩ := EntitySparseSet.remove_tab hr
  have htab : IsTable es.sparse.slots.length := by rw [h1]; exact h.tab
  dsimp only at hm
  split at hm
  · cases hm
    have he : e.index < s.allocator.nextIndexToAllocate := by
      rcases h.ok.rep.remove_cases e with h3 | ⟨d, x, _, h4, h5⟩
      · unfold EntitySparseSet.remove at hr
        rw [h3] at hr
        cases hr
        rename_i hb
        simp at hb
      · rw [← h5]
        exact h.dense x (List.mem_of_getElem? h4)
    have hn : (s.allocator.recycle e).nextIndexToAllocate = s.allocator.nextIndexToAllocate := by
      unfold EntityAllocator.recycle
      split <;> rfl
    refine ⟨⟨hok, ?_, ?_, htab, ?_⟩, h1⟩
    · show ∀ y ∈ (_ : List Entity), y.index < (s.allocator.recycle e).nextIndexToAllocate
      rw [hn]
      exact fun y hy => h.dense y (h2 y hy)
    · show ∀ y ∈ (s.allocator.recycle e).recycled, y.index < (s.allocator.recycle e).nextIndexToAllocate
      rw [hn]
      intro y hy
      unfold EntityAllocator.recycle at hy
      split at hy
      · rcases List.mem_cons.1 hy with rfl | hy
        · exact he
        · exact h.recycled y hy
      · exact h.recycled y hy
    · show es.sparse.slots.length ≤ 2 * (s.allocator.recycle e).nextIndexToAllocate
      rw [hn, h1]; exact h.twice
  · cases hm
    exact ⟨⟨hok, fun y hy => h.dense y (h2 y hy), h.recycled, htab, by show es.sparse.slots.length ≤ _; rw [h1]; exact h.twice⟩, h1⟩

end TabEnt

/-! ### Calls on a world -/

/-- The length of the table of entities. -/
def World.tab (w : World V) : Nat := w.entities.entities.sparse.slots.length

/-- What holds of all tables. -/
structure TabWorld (w : World V) : Prop where
  ents : TabEnt w.entities
  sets : AllSets (fun s => FitsTable w.tab s.tab) w.components.components

theorem AllSets.longer {m n : Nat} (h : m ≤ n) {l : List (CompSet V)} (hl : AllSets (fun s => FitsTable m s.tab) l) :
    AllSets (fun s => FitsTable n s.tab) l := fun s hs => ⟨(hl s hs).1, Nat.le_trans (hl s hs).2 h⟩

namespace TabWorld
variable {w w' : World V}

theorem stable (h : TabWorld w) : StableTo w.tab (fun s : CompSet V => FitsTable w.tab s.tab) := stable_fits h.ents.tab

theorem extendEach {idxs : List Nat} : ∀ (items : List (List V)) (w : World V), TabWorld w →
    (World.extendEach idxs items w).Leaves TabWorld
  | [], _, hw => hw
  | vs :: items, w, hw => by
    rw [World.extendEach]
    refine Outcome.Leaves.ofRes hw fun p hp => ?_
    obtain ⟨e, es⟩ := p
    obtain ⟨h1, h2, h3⟩ := hw.ents.create hp
    have hw1 : TabWorld (⟨es, w.components⟩ : World V) := ⟨h1, hw.sets.longer h2⟩
    exact Outcome.Leaves.ofRes hw1 fun c hc => extendEach items _ ⟨h1, hw1.stable.insertAt h3 _ hw1.sets hc⟩

theorem extend (w : World V) (ts : List TypeId) (it : Items V) (hw : TabWorld w) :
    (w.extend ts it).Leaves TabWorld := by
  refine Outcome.Leaves.ofRes hw fun p _ => Outcome.Leaves.bind (extendEach _ _ hw) fun _ w' hw' => ?_
  split
  · exact hw'
  · split
    · trivial
    · exact Outcome.Leaves.ofRes hw' fun c hc =>
        ⟨hw'.ents, StableTo.withMask (fun s s' hs hr => hw'.stable.groupEntities _ _ _ hs hr) hw'.sets hc⟩

theorem insertSet (hw : TabWorld w) {e : Entity} (he : e.index < w.tab) (vs : List (TypeId × V)) :
    (w.insertSet e vs).Leaves TabWorld := by
  have := hw.stable.insertComps he vs hw.sets
  unfold World.insertSet
  cases hi : w.components.insert e vs <;> rw [hi] at this
  · exact ⟨hw.ents, this⟩
  · exact ⟨hw.ents, this⟩
  · trivial

theorem step (hw : TabWorld w) {op : Op V} {r : Ret V} (hs : Sparsey.step w op = some (r, w')) : TabWorld w' := by
  have h := hw.stable
  cases op with
  | register t =>
    simp only [Sparsey.step, Option.some.injEq, Prod.mk.injEq] at hs
    rw [← hs.2]
    refine ⟨hw.ents, ?_⟩
    show AllSets _ (w.components.register t).2.components
    unfold ComponentStorage.register
    split
    · exact hw.sets
    · exact hw.sets.append (AllSets.single h.new)
  | setLayout rank gs =>
    refine retOutcome_some (P := TabWorld) hs ?_
    have := h.setLayout rank (GroupLayout.build gs).2 w.entities.asSlice hw.sets
    unfold World.setLayout
    cases hl : w.components.setLayout rank (GroupLayout.build gs).2 w.entities.asSlice <;> rw [hl] at this
    · exact ⟨hw.ents, this⟩
    · exact ⟨hw.ents, this⟩
    · trivial
  | create vs =>
    refine retOutcome_some (P := TabWorld) hs ?_
    refine Outcome.Leaves.ofRes hw fun p hp => ?_
    obtain ⟨e, es⟩ := p
    obtain ⟨h1, h2, h3⟩ := hw.ents.create hp
    have hw1 : TabWorld (⟨es, w.components⟩ : World V) := ⟨h1, hw.sets.longer h2⟩
    exact Outcome.Leaves.bind (hw1.insertSet h3 vs) fun _ _ h => h
  | extend ts it => exact retOutcome_some hs (extend w ts it hw)
  | destroy e =>
    rcases retRes_some hs with rfl | ⟨⟨b, w1⟩, h1, h2⟩
    · exact hw
    · simp only [Prod.mk.injEq] at h2
      rw [← h2.2]
      unfold World.destroy at h1
      obtain ⟨⟨b', es'⟩, h3, h1⟩ := Res.bind_ok' h1
      dsimp only at h1
      obtain ⟨h4, h5⟩ := hw.ents.remove h3
      have h6 := hw.sets.longer (Nat.le_of_eq h5.symm)
      split at h1
      · obtain ⟨c, hc, h1⟩ := Res.bind_ok' h1
        cases h1
        exact ⟨h4, (stable_fits h4.tab).strip h6 hc⟩
      · cases h1; exact ⟨h4, h6⟩
  | createAtomic =>
    rcases retRes_some hs with rfl | ⟨⟨b, w1⟩, h1, h2⟩
    · exact hw
    · simp only [Prod.mk.injEq] at h2
      rw [← h2.2]
      obtain ⟨⟨e, es⟩, h3, h1⟩ := Res.bind_ok' h1
      cases h1
      obtain ⟨h4, h5⟩ := hw.ents.createAtomic h3
      exact ⟨h4, hw.sets.longer (Nat.le_of_eq (by show _ = es.entities.sparse.slots.length; rw [h5]; rfl))⟩
  | maintain =>
    rcases retRes_some hs with rfl | ⟨w1, h1, h2⟩
    · exact hw
    · simp only [Prod.mk.injEq] at h2
      rw [← h2.2]
      obtain ⟨es, h3, h1⟩ := Res.bind_ok' h1
      cases h1
      obtain ⟨h4, h5⟩ := hw.ents.maintain h3
      exact ⟨h4, hw.sets.longer h5⟩
  | insert e vs =>
    refine retOutcome_some (P := TabWorld) hs ?_
    unfold World.insert
    split
    · exact hw
    · rename_i hc
      exact Outcome.Leaves.bind (hw.insertSet (TabEnt.lt_of_contains (by simpa using hc)) vs) fun _ _ h => h
  | remove e ts =>
    rcases retRes_some hs with rfl | ⟨⟨vs, w1⟩, h1, h2⟩
    · exact hw
    · simp only [Prod.mk.injEq] at h2
      rw [← h2.2]
      obtain ⟨⟨vs, c⟩, hc, h1⟩ := Res.bind_ok' h1
      cases h1
      obtain ⟨⟨idxs, mask⟩, _, hc⟩ := Res.bind_ok' hc
      obtain ⟨c1, hc1, hc⟩ := Res.bind_ok' hc
      exact ⟨hw.ents, h.removeEach _ (StableTo.withMask (fun s s' hs hr => h.ungroupLoop _ _ _ _ hs hr) hw.sets hc1) hc⟩
  | delete e ts =>
    rcases retRes_some hs with rfl | ⟨w1, h1, h2⟩
    · exact hw
    · simp only [Prod.mk.injEq] at h2
      rw [← h2.2]
      obtain ⟨c, hc, h1⟩ := Res.bind_ok' h1
      cases h1
      obtain ⟨⟨idxs, mask⟩, _, hc⟩ := Res.bind_ok' hc
      obtain ⟨c1, hc1, hc⟩ := Res.bind_ok' hc
      exact ⟨hw.ents, h.deleteEach _ (StableTo.withMask (fun s s' hs hr => h.ungroupLoop _ _ _ _ hs hr) hw.sets hc1) hc⟩
  | clear =>
    rcases retRes_some hs with rfl | ⟨w1, h1, h2⟩
    · exact hw
    · simp only [Prod.mk.injEq] at h2
      rw [← h2.2]
      obtain ⟨es, h3, h1⟩ := Res.bind_ok' h1
      cases h1
      have h4 := hw.ents.clear h3
      refine ⟨h4, fun s hs => ?_⟩
      obtain ⟨s0, _, rfl⟩ := List.mem_map.1 hs
      exact (stable_fits h4.tab).new
  | reset =>
    simp only [Sparsey.step, Option.some.injEq, Prod.mk.injEq] at hs
    rw [← hs.2]
    have h4 := TabEnt.reset w.entities
    refine ⟨h4, fun s hs => ?_⟩
    obtain ⟨s0, _, rfl⟩ := List.mem_map.1 hs
    exact (stable_fits h4.tab).new
  | writeAt t pos v =>
    rcases retRes_some hs with rfl | ⟨w1, h1, h2⟩
    · exact hw
    · simp only [Prod.mk.injEq] at h2
      rw [← h2.2]
      unfold World.writeAt at h1
      split at h1
      · cases h1
      · obtain ⟨s, hs1, h1⟩ := Res.bind_ok' h1
        obtain ⟨s', hs2, h1⟩ := Res.bind_ok' h1
        cases h1
        exact ⟨hw.ents, hw.sets.set (h.setAt (hw.sets.at_unchecked hs1) hs2) _⟩
  | write t e v =>
    rcases retRes_some hs with rfl | ⟨⟨b, w1⟩, h1, h2⟩
    · exact hw
    · simp only [Prod.mk.injEq] at h2
      rw [← h2.2]
      unfold World.writeView at h1
      split at h1
      · cases h1
      · obtain ⟨s, hs1, h1⟩ := Res.bind_ok' h1
        obtain ⟨⟨b', s'⟩, hs2, h1⟩ := Res.bind_ok' h1
        cases h1
        exact ⟨hw.ents, hw.sets.set (h.setMut (hw.sets.at_unchecked hs1) hs2) _⟩

end TabWorld

/-- In every reachable world the tables have their lengths. -/
theorem reach_tab {h : History V} {w : World V} (hr : Reach World.empty h w) : TabWorld w := by
  induction hr with
  | nil => exact ⟨TabEnt.empty, fun s hs => by cases hs⟩
  | snoc _ hs ih => exact ih.step hs

end Sparsey
