import Mathlib.Data.List.Perm.Subperm
import Verif.Properties.Components
import Verif.Proofs.TablesLife

/-!
C72: the tables from indexes to rows stay small.
-/

set_option autoImplicit false
set_option linter.unusedSimpArgs false

namespace Sparsey
variable {V : Type}

/-- C72, lengths: in every reachable world, whatever the calls were, the table of the entities and those of all component
sets are empty or one slot longer than a power of two up to `2^32`, and no component set has a longer table than the
entities. -/
theorem C72_lengths {h : History V} {w : World V} (hr : Reach World.empty h w) :
    IsTable w.entities.entities.sparse.slots.length ∧
    ∀ s ∈ w.components.components, IsTable s.sparse.slots.length ∧
      s.sparse.slots.length ≤ w.entities.entities.sparse.slots.length :=
  ⟨(reach_tab hr).ents.tab, (reach_tab hr).sets⟩

/-- C72, indexes: if all entities handed out since the last `reset` have an index below `n`, no table has more than `2 * n`
slots. -/
theorem C72_indexes {h : History V} {w : World V} (hr : Reach World.empty h w) {n : Nat}
    (hn : ∀ e ∈ (life h).issued, e.index < n) :
    w.entities.entities.sparse.slots.length ≤ 2 * n ∧
    ∀ s ∈ w.components.components, s.sparse.slots.length ≤ 2 * n := by
  have ht := reach_tab hr
  have hnext : w.entities.allocator.nextIndexToAllocate ≤ n := by
    by_contra hc
    obtain ⟨e, he, hi⟩ := reach_used hr n (by omega)
    have := hn e he
    omega
  have h1 := ht.ents.twice
  have h2 : w.entities.entities.sparse.slots.length ≤ 2 * n := by omega
  exact ⟨h2, fun s hs => Nat.le_trans (ht.sets s hs).2 h2⟩

/-- C72, entities: no table has more than twice as many slots as entities were handed out since the last `reset`. -/
theorem C72_entities {h : History V} {w : World V} (hr : Reach World.empty h w) :
    w.entities.entities.sparse.slots.length ≤ 2 * (life h).issued.length ∧
    ∀ s ∈ w.components.components, s.sparse.slots.length ≤ 2 * (life h).issued.length := by
  have ht := reach_tab hr
  have hnext : w.entities.allocator.nextIndexToAllocate ≤ (life h).issued.length := by
    have hsub : List.range w.entities.allocator.nextIndexToAllocate ⊆ (life h).issued.map (·.index) := by
      intro i hi
      obtain ⟨e, he, hei⟩ := reach_used hr i (List.mem_range.1 hi)
      exact List.mem_map.2 ⟨e, he, hei⟩
    have := (List.nodup_range.subperm hsub).length_le
    simpa using this
  have h1 := ht.ents.twice
  have h2 : w.entities.entities.sparse.slots.length ≤ 2 * (life h).issued.length := by omega
  exact ⟨h2, fun s hs => Nat.le_trans (ht.sets s hs).2 h2⟩

/-- Six entities, of which the first has a component of type 0 and the last one of type 1; an index is used twice. -/
def tableOps : List (Op Nat) :=
  [.setLayout anyOrder [[0, 1]], .create [(0, 10)], .create [], .destroy ⟨1, 1⟩, .create [], .create [], .createAtomic, .create [],
    .maintain, .extend [1] ⟨[[20]], false⟩]

/-- Six indexes were handed out; the tables have 9, 2 and 9 slots. -/
example : ∃ (h : History Nat) (w : World Nat), Reach World.empty h w ∧ (life h).issued.length = 7 ∧
    (∀ e ∈ (life h).issued, e.index < 6) ∧ w.entities.entities.sparse.slots.length = 9 ∧
    w.components.components.map (·.sparse.slots.length) = [2, 9] := by
  obtain ⟨rs, w, hr, hf⟩ := reach_witness (ops := tableOps) (f := fun rs w =>
      decide ((life (tableOps.zip rs)).issued.length = 7 ∧ (∀ e ∈ (life (tableOps.zip rs)).issued, e.index < 6) ∧
        w.entities.entities.sparse.slots.length = 9 ∧ w.components.components.map (·.sparse.slots.length) = [2, 9]))
      (by decide +kernel)
  exact ⟨_, w, hr, of_decide_eq_true hf⟩

/-- The factor cannot be less: one entity, two slots. -/
example : ∃ (h : History Nat) (w : World Nat), Reach World.empty h w ∧ (life h).issued.length = 1 ∧
    w.entities.entities.sparse.slots.length = 2 * 1 := by
  obtain ⟨rs, w, hr, hf⟩ := reach_witness (ops := [.create []]) (f := fun rs (w : World Nat) =>
      decide ((life ([Op.create []].zip rs)).issued.length = 1 ∧ w.entities.entities.sparse.slots.length = 2))
      (by decide +kernel)
  exact ⟨_, w, hr, of_decide_eq_true hf⟩

/-- The lengths in the statement: 0, 2, 3, 5 and 9 are lengths of tables, 1, 4 and 8 are not. -/
example : IsTable 0 ∧ IsTable 2 ∧ IsTable 3 ∧ IsTable 5 ∧ IsTable 9 ∧ ¬ IsTable 1 ∧ ¬ IsTable 4 ∧ ¬ IsTable 8 := by
  have no : ∀ n m : Nat, 2 ^ m < n - 1 → n - 1 < 2 ^ (m + 1) → 0 < n → ¬ IsTable n := by
    rintro n m h1 h2 h0 (rfl | ⟨k, _, rfl⟩)
    · omega
    · have h3 := (Nat.pow_lt_pow_iff_right (a := 2) (by omega)).1 (by simpa using h1 : 2 ^ m < 2 ^ k)
      have h4 := (Nat.pow_lt_pow_iff_right (a := 2) (by omega)).1 (by simpa using h2 : 2 ^ k < 2 ^ (m + 1))
      omega
  refine ⟨.inl rfl, .inr ⟨0, by omega, rfl⟩, .inr ⟨1, by omega, rfl⟩, .inr ⟨2, by omega, rfl⟩, .inr ⟨3, by omega, rfl⟩, ?_,
    no 4 1 (by decide) (by decide) (by decide), no 8 2 (by decide) (by decide) (by decide)⟩
  rintro (h | ⟨k, _, h⟩)
  · cases h
  · have := Nat.two_pow_pos k
    omega

end Sparsey
