import Verif.Proofs.Versions
import Verif.Properties.Components

/-!
Properties of indexes and versions that need no discipline: C39, C40, and the parts of C10, C11 and C31 that hold in
every reachable world; histories that show that the rest of C10 and C11 is false.
-/

set_option autoImplicit false
set_option linter.unusedSimpArgs false

namespace Sparsey
variable {V : Type}

/-! ### C39 -/

/-- Positions agree: `dense[d]` has index `i` exactly if the sparse vector maps `i` to `d`. -/
def PositionsAgree (sparse : SparseVec) (dense : List Entity) : Prop :=
  dense.length ≤ 2 ^ 32 ∧ ∀ i d, sparse.getSparse i = some d ↔ ∃ e, dense[d]? = some e ∧ e.index = i

theorem IdxRep.agree {sv : SparseVec} {ents : List Entity} (h : IdxRep sv ents) : PositionsAgree sv ents :=
  ⟨by have := h.length_le; have := u32Size_eq; omega, fun _ _ => h.getSparse_iff⟩

theorem IdxRep.room {sv : SparseVec} {ents : List Entity} (h : IdxRep sv ents) {e : Entity} (he : e.index < 2 ^ 32)
    (hn : sv.getSparse e.index = none) : ents.length < 2 ^ 32 := by
  have hfresh : ∀ x ∈ ents, x.index ≠ e.index := by
    intro x hx hi
    obtain ⟨d, hd⟩ := List.mem_iff_getElem?.1 hx
    rw [(h.getSparse_iff (d := d)).2 ⟨x, hd, hi⟩] at hn
    cases hn
  have h1 := ((h.alloc e.index).push hfresh (SparseVec.allocateAt_length _ _)
    (by have := u32Size_eq; omega)).1.length_le
  have := u32Size_eq
  simp only [List.length_append, List.length_cons, List.length_nil] at h1
  omega

/-- C39: in every reachable world the dense positions of living entities and of the entities of every component type
fit in 32 bits and are found through the index; whenever an entity with a new index is inserted there is room for its
position, and it is stored as it is. -/
theorem C39 {h : History V} {w : World V} (hr : Reach World.empty h w) :
    PositionsAgree w.entities.entities.sparse w.entitiesSlice ∧
    (∀ e, e.index < 2 ^ 32 → w.entities.entities.sparse.getSparse e.index = none →
      w.entitiesSlice.length < 2 ^ 32 ∧ ∃ s, w.entities.entities.insert e = .ok (none, s) ∧
        s.sparse.getSparse e.index = some w.entitiesSlice.length) ∧
    ∀ t c, w.borrow t = .ok c → PositionsAgree c.sparse c.entities ∧
      ∀ e v, e.index < 2 ^ 32 → c.sparse.getSparse e.index = none →
        c.entities.length < 2 ^ 32 ∧ ∃ c', c.insert e v = .ok (none, c') ∧
          c'.sparse.getSparse e.index = some c.entities.length := by
  obtain ⟨h1, h2⟩ := reach_idx hr
  have hsz := u32Size_eq
  refine ⟨h1.rep.agree, fun e he hn => ⟨h1.rep.room he hn, ?_⟩, fun t c hc => ?_⟩
  · obtain ⟨o, s, h3, h4⟩ := EntitySparseSet.idx_insert h1.rep e (by omega)
    have h5 := h3
    unfold EntitySparseSet.insert at h5
    obtain ⟨sl, h6, h5⟩ := Res.bind_ok' h5
    have h6 := Res.unchecked_ok h6
    cases sl with
    | some sl =>
      have := (SparseVec.allocateAt_some _ _ _ _).1 h6
      simp only [SparseVec.getSparse] at hn
      rw [show e.index = e.sparse from rfl, this] at hn
      cases hn
    | none =>
      obtain ⟨sv, _, h5⟩ := Res.bind_ok' h5
      cases h5
      exact ⟨_, h3, (h4.getSparse_iff).2 ⟨e, by simp [World.entitiesSlice, EntityStorage.asSlice], rfl⟩⟩
  · have hmem : c ∈ w.components.components := by
      unfold World.borrow at hc
      cases hm : w.components.meta? t with
      | none => rw [hm] at hc; cases hc
      | some m =>
        rw [hm] at hc
        exact List.mem_of_getElem? (Res.unchecked_ok hc)
    have h3 := h2 c hmem
    refine ⟨h3.rep.agree, fun e v he hn => ⟨h3.rep.room he hn, ?_⟩⟩
    obtain ⟨o, s, h4, h5⟩ := h3.insert e v (by omega)
    have h6 := h4
    unfold CompSet.insert at h6
    obtain ⟨sl, h7, h6⟩ := Res.bind_ok' h6
    have h7 := Res.unchecked_ok h7
    cases sl with
    | some sl =>
      have := (SparseVec.allocateAt_some _ _ _ _).1 h7
      simp only [SparseVec.getSparse] at hn
      rw [show e.index = e.sparse from rfl, this] at hn
      cases hn
    | none =>
      obtain ⟨sv, _, h6⟩ := Res.bind_ok' h6
      cases h6
      exact ⟨_, h4, (h5.rep.getSparse_iff).2 ⟨e, by simp, rfl⟩⟩

example : ∃ w, Reach World.empty (calmOps.zip calmRets) w ∧ w.entitiesSlice.length = 4 ∧
    ∃ c, w.borrow 7 = .ok c ∧ c.entities = [⟨3, 1⟩] := by
  obtain ⟨w, hw, h⟩ := reach_answers (ops := calmOps) (rs := calmRets) (by decide)
  refine ⟨w, h, ?_⟩
  have : (run World.empty calmOps).map (fun p => (p.2.entitiesSlice.length,
    (p.2.borrow 7).bind fun c => .ok c.entities)) = some (4, .ok [⟨3, 1⟩]) := by decide
  rw [hw] at this
  simp only [Option.map_some, Option.some.injEq, Prod.mk.injEq] at this
  refine ⟨this.1, ?_⟩
  cases hb : w.borrow 7 with
  | ok c =>
    rw [hb] at this
    exact ⟨c, rfl, by simpa [Res.bind] using this.2⟩
  | panic => rw [hb] at this; simp [Res.bind] at this
  | ub => rw [hb] at this; simp [Res.bind] at this

/-! ### C40 -/

/-- The expression `index.checked_next_power_of_two().unwrap_or(index) - self.slots.len() + 1` of
src/entity/sparse_vec.rs:118 in 64-bit arithmetic; `none` if a step leaves the range of `usize`. -/
def extraLen64 (len index : Nat) : Option Nat :=
  let p := (SparseVec.checkedNextPowerOfTwo index).getD index
  if p < len ∨ 2 ^ 64 ≤ p then none
  else if 2 ^ 64 ≤ p - len + 1 then none
  else some (p - len + 1)

theorem nextPow_spec {n : Nat} (h : n ≤ 2 ^ 32) : ∃ k, SparseVec.checkedNextPowerOfTwo n = some (2 ^ k) ∧ n ≤ 2 ^ k ∧
    (∀ j, n ≤ 2 ^ j → 2 ^ k ≤ 2 ^ j) ∧ k ≤ 32 := by
  unfold SparseVec.checkedNextPowerOfTwo
  split
  · exact ⟨0, rfl, by omega, fun j _ => Nat.one_le_two_pow, by omega⟩
  · rename_i h1
    rw [if_pos (by omega)]
    have h2 : Nat.log2 (n - 1) < 32 := (Nat.log2_lt (by omega)).2 (by omega)
    refine ⟨_, rfl, ?_, fun j hj => ?_, by omega⟩
    · have := @Nat.lt_log2_self (n - 1)
      omega
    · refine Nat.pow_le_pow_right (by omega) ?_
      have : Nat.log2 (n - 1) < j := (Nat.log2_lt (by omega)).2 (by omega)
      omega

/-- C40: when room is made for a 32-bit index the arithmetic stays in range, the vector then has a slot for the index
(its length is one more than the least power of two that is not less than the index), all earlier slots are kept and
the new ones are empty; otherwise nothing changes. -/
theorem C40 (s : SparseVec) (index : Nat) (hi : index < 2 ^ 32) :
    (index < s.slots.length → s.allocateAt index = s) ∧
    (s.slots.length ≤ index → ∃ n k, extraLen64 s.slots.length index = some n ∧
      (s.allocateAt index).slots = s.slots ++ List.replicate n none ∧
      s.slots.length + n = 2 ^ k + 1 ∧ index ≤ 2 ^ k ∧ (∀ j, index ≤ 2 ^ j → 2 ^ k ≤ 2 ^ j) ∧ 2 ^ k ≤ 2 ^ 32) ∧
    index < (s.allocateAt index).slots.length ∧
    ∀ e d, (s.allocateAt index).get e = some d ↔ s.get e = some d := by
  refine ⟨fun h => ?_, fun h => ?_, SparseVec.allocateAt_length s index, fun e d => ?_⟩
  · unfold SparseVec.allocateAt
    rw [if_neg (by omega)]
  · obtain ⟨k, h1, h2, h3, h4⟩ := nextPow_spec (Nat.le_of_lt hi)
    have h5 : 2 ^ k ≤ 2 ^ 32 := Nat.pow_le_pow_right (by omega) h4
    refine ⟨2 ^ k - s.slots.length + 1, k, ?_, ?_, by omega, h2, h3, h5⟩
    · unfold extraLen64
      rw [h1]
      simp only [Option.getD_some]
      rw [if_neg (by omega), if_neg (by omega)]
    · unfold SparseVec.allocateAt SparseVec.extendToIndex
      rw [if_pos h, h1]
      rfl
  · simp only [SparseVec.get]
    rcases s.allocateAt_get index e.sparse with h | ⟨h1, h2⟩
    · rw [h]
    · rw [h1, h2]
      simp

example : (SparseVec.allocateAt ⟨[some ⟨0, 3⟩, none]⟩ 5).slots = some ⟨0, 3⟩ :: List.replicate 8 none ∧
    extraLen64 2 5 = some 7 ∧ extraLen64 4294967295 4294967295 = some 2 := by decide

/-! ### C10, C11 -/

/-- C10, range: entities handed out in any history whatsoever have an index below `2^32` and a version from 1 to
`2^32 - 1`. -/
theorem C10_range {h : History V} {w : World V} (hr : Reach World.empty h w) {e : Entity}
    (he : .made e ∈ historyEvents h ∨ .queued e ∈ historyEvents h) :
    e.index < 2 ^ 32 ∧ 1 ≤ e.version ∧ e.version < 2 ^ 32 := by
  obtain ⟨h1, h2, h3⟩ := (reach_vers hr).2 e he
  have := u32Size_eq
  exact ⟨by omega, h2, by omega⟩

example : .made ⟨0, 2⟩ ∈ historyEvents (reviveOps.zip reviveRets) := by decide

/-- C10, exhaustion, without discipline: `create` and `create_atomic` panic exactly when every index is used up, and
then change nothing. Missing: histories in which an `extend` returned less entities than it was given items. -/
theorem C10_exhausted_partial {h : History V} {w : World V} (hr : Reach World.empty h w) (hf : FullExtends h) :
    ((life h).exhausted → step w (.create []) = some (.panicked [], w) ∧
      step w .createAtomic = some (.panicked [], w)) ∧
    (¬ (life h).exhausted → (∃ w', step w (.create []) = some (.entity (life h).nextEntity, w')) ∧
      ∃ w', step w .createAtomic = some (.entity (life h).nextEntity, w')) := by
  have hq := reach_queue hr hf
  constructor
  · intro hx
    rcases hq.create with ⟨_, h1⟩ | ⟨h1, _⟩
    · rcases hq.createAtomic with ⟨_, h2⟩ | ⟨h2, _⟩
      · exact ⟨by simp [step, retOutcome, World.create, h1, EntityStorage.createUpTo],
          by simp [step, retRes, World.createAtomic, h2]⟩
      · exact absurd hx h2
    · exact absurd hx h1
  · intro hx
    rcases hq.create with ⟨h1, _⟩ | ⟨_, s1, h1, _⟩
    · exact absurd h1 hx
    · rcases hq.createAtomic with ⟨h2, _⟩ | ⟨_, s2, h2, _⟩
      · exact absurd h2 hx
      · refine ⟨⟨⟨s1, w.components⟩, ?_⟩, ⟨s2, w.components⟩, ?_⟩
        · simp [step, retOutcome, World.create, h1, World.insertSet, ComponentStorage.insert,
            ComponentStorage.insertEach, ComponentStorage.withMask]
        · simp [step, retRes, World.createAtomic, h2]

/-- C11 without discipline: `create`, `create_atomic` and `extend` hand out the destroyed index that waits longest,
with its next version, and a new index only if none waits. Missing: histories in which an `extend` returned less
entities than it was given items. -/
theorem C11_full_partial {h : History V} {w w' : World V} {r : Ret V} {op : Op V} (hr : Reach World.empty h w)
    (hs : step w op = some (r, w')) (hf : FullExtends (h ++ [(op, r)])) :
    (∀ e, (∃ vs, op = .create vs) ∨ op = .createAtomic → r = .entity e → e = (life h).nextEntity) ∧
    (∀ es, (∃ ts it, op = .extend ts it) → r = .entities es →
      ∀ (i : Nat) (e : Entity), es[i]? = some e →
        e = ((life h).run ((es.take i).map .made)).nextEntity) := by
  have hq := reach_queue hr fun ts it es hm => hf ts it es (List.mem_append_left _ hm)
  obtain ⟨h1, h2⟩ := reach_sound hr
  have he := step_ents h1 h2 hs
  constructor
  · rintro e (⟨vs, rfl⟩ | rfl) rfl
    · rcases he with ⟨_, h3, _⟩ | ⟨e', h3, h4 | h4⟩
      · cases h3
      · cases h4
        rcases hq.create with ⟨_, h5⟩ | ⟨_, s1, h5, _⟩
        · rw [h5] at h3; cases h3
        · rw [h5] at h3; cases h3; rfl
      · cases h4
    · rcases he with ⟨_, h3, _⟩ | ⟨e', h3, h4⟩
      · cases h3
      · cases h4
        rcases hq.createAtomic with ⟨_, h5⟩ | ⟨_, s1, h5, _⟩
        · rw [h5] at h3; cases h3
        · rw [h5] at h3; cases h3; rfl
  · rintro es ⟨ts, it, rfl⟩ rfl i e hi
    obtain ⟨_, h3, h4⟩ := hq.createN it.items.length
    rcases he with ⟨h5, _⟩ | ⟨h5, h6 | ⟨h6, h7⟩⟩
    · cases h5
    · cases h6
    · simp only [Ret.entities.injEq] at h6
      have hlen := hf ts it es (by simp)
      have hes : es = w.entities.createUpTo it.items.length := by
        rcases h3 with h3 | h3
        · rw [h6, h5, h3]
          simp [EntityStorage.len, EntityStorage.asSlice]
        · exfalso
          have h8 := Queue.createN_len it.items.length w.entities
          rw [h6, h5] at hlen
          simp only [List.length_drop, EntityStorage.len, EntityStorage.asSlice] at h3 h8 hlen
          omega
      rw [hes] at hi ⊢
      exact h4 i e hi

/-- The condition is met by histories without discipline. -/
example : FullExtends (reviveOps.zip reviveRets) ∧ ¬ Disciplined (reviveOps.zip reviveRets) := by
  refine ⟨?_, by decide⟩
  intro ts it es h
  simp [reviveOps, reviveRets] at h

/-- C11 is false in general: make `0v1`, destroy it, `maintain` revives it; `extend` with two items makes `0v2` in its
place and `1v1`, but returns only `1v1`, though index 0 was waiting. -/
theorem C11_false : ∃ (h : History Nat) (w w' : World Nat), Reach World.empty h w ∧
    step w (.extend [] ⟨[[], []], false⟩) = some (.entities [⟨1, 1⟩], w') ∧ (life h).nextEntity = ⟨0, 2⟩ := by
  obtain ⟨w, hw, h⟩ := reach_answers (ops := reviveOps.take 3) (rs := reviveRets.take 3) (by decide)
  refine ⟨(reviveOps.take 3).zip (reviveRets.take 3), w, ?_⟩
  have h1 : (run World.empty (reviveOps.take 3)).bind
      (fun p => (step p.2 (.extend [] ⟨[[], []], false⟩)).map (·.1)) = some (.entities [⟨1, 1⟩]) := by decide
  rw [hw] at h1
  simp only [Option.bind_some] at h1
  cases hs : step w (.extend [] ⟨[[], []], false⟩) with
  | none => rw [hs] at h1; cases h1
  | some p =>
    obtain ⟨r, w'⟩ := p
    rw [hs] at h1
    simp only [Option.map_some, Option.some.injEq] at h1
    subst h1
    exact ⟨w', h, rfl, by decide⟩

/-- C17 fails in the same way: `extend` with one item returns nothing. -/
theorem C17_short_false : ∃ (h : History Nat) (w w' : World Nat), Reach World.empty h w ∧
    step w (.extend [] ⟨[[]], false⟩) = some (.entities [], w') := by
  obtain ⟨w, hw, h⟩ := reach_answers (ops := reviveOps.take 3) (rs := reviveRets.take 3) (by decide)
  refine ⟨(reviveOps.take 3).zip (reviveRets.take 3), w, ?_⟩
  have h1 : (run World.empty (reviveOps.take 3)).bind
      (fun p => (step p.2 (.extend [] ⟨[[]], false⟩)).map (·.1)) = some (.entities []) := by decide
  rw [hw] at h1
  simp only [Option.bind_some] at h1
  cases hs : step w (.extend [] ⟨[[]], false⟩) with
  | none => rw [hs] at h1; cases h1
  | some p =>
    obtain ⟨r, w'⟩ := p
    rw [hs] at h1
    simp only [Option.map_some, Option.some.injEq] at h1
    subst h1
    exact ⟨w', h, rfl⟩

/-- Two tokens for index 0 wait in the queue, `⟨0, a⟩` first, then `⟨0, b⟩`. -/
def twoTokens (a b : Nat) (rest : List Entity) : World Nat :=
  ⟨⟨⟨1, 1, ⟨0, b⟩ :: ⟨0, a⟩ :: rest, rest.length⟩, ⟨⟨[none, none]⟩, []⟩⟩, ComponentStorage.empty⟩

/-- `create` hands out `⟨0, a⟩`. -/
def tokenTaken (a b : Nat) (rest : List Entity) : World Nat :=
  ⟨⟨⟨1, 1, ⟨0, b⟩ :: ⟨0, a⟩ :: rest, rest.length + 1⟩, ⟨⟨[some ⟨0, a⟩, none]⟩, [⟨0, a⟩]⟩⟩, ComponentStorage.empty⟩

theorem twoTokens_create (a b : Nat) (rest : List Entity) :
    step (twoTokens a b rest) (.create []) = some (.entity ⟨0, a⟩, tokenTaken a b rest) := by
  have h1 : (⟨0, b⟩ :: ⟨0, a⟩ :: rest : List Entity)[rest.length + 1 + 1 - rest.length - 1]? = some ⟨0, a⟩ := by
    rw [show rest.length + 1 + 1 - rest.length - 1 = 1 by omega]
    rfl
  have h2 : rest.length < rest.length + 1 + 1 := by omega
  simp [step, retOutcome, World.create, twoTokens, tokenTaken, EntityStorage.create, EntityAllocator.allocate,
    EntitySparseSet.insert, SparseVec.allocateAt, SparseVec.setUnchecked, asU32, Entity.sparse, World.insertSet,
    ComponentStorage.insert, ComponentStorage.insertEach, ComponentStorage.withMask, h1, h2]

theorem tokenTaken_destroy (a b : Nat) (rest : List Entity) (ha : a + 1 < 2 ^ 32) :
    step (tokenTaken a b rest) (.destroy ⟨0, a⟩) =
      some (.bool true, twoTokens b (a + 1) (⟨0, a⟩ :: rest)) := by
  have h1 : a + 1 < u32Size := by
    have := u32Size_eq
    omega
  simp [step, retRes, World.destroy, twoTokens, tokenTaken, EntityStorage.remove, EntitySparseSet.remove,
    SparseVec.remove, Entity.sparse, swapRemove, EntityAllocator.recycle, Version.next, h1, ComponentStorage.strip,
    ComponentStorage.empty, ungroupAll, ungroupAllLoop, ComponentStorage.deleteAll]

theorem tokenTaken_last (b : Nat) (rest : List Entity) : ∃ w,
    step (tokenTaken 4294967295 b rest) (.destroy ⟨0, 4294967295⟩) = some (.bool true, w) ∧
    ∃ w', step w (.create []) = some (.entity ⟨0, b⟩, w') := by
  have h1 : (⟨0, b⟩ :: ⟨0, 4294967295⟩ :: rest : List Entity)[rest.length + 1 + 1 - (rest.length + 1) - 1]? =
      some ⟨0, b⟩ := by
    rw [show rest.length + 1 + 1 - (rest.length + 1) - 1 = 0 by omega]
    rfl
  have h2 : rest.length + 1 < rest.length + 1 + 1 := by omega
  refine ⟨⟨⟨⟨1, 1, ⟨0, b⟩ :: ⟨0, 4294967295⟩ :: rest, rest.length + 1⟩, ⟨⟨[none, none]⟩, []⟩⟩,
    ComponentStorage.empty⟩, ?_, ?_⟩
  · simp [step, retRes, World.destroy, twoTokens, tokenTaken, EntityStorage.remove, EntitySparseSet.remove,
      SparseVec.remove, Entity.sparse, swapRemove, EntityAllocator.recycle, Version.next, u32Size,
      ComponentStorage.strip, ComponentStorage.empty, ungroupAll, ungroupAllLoop, ComponentStorage.deleteAll]
  · simp [step, retOutcome, World.create, EntityStorage.create, EntityAllocator.allocate,
      EntitySparseSet.insert, SparseVec.allocateAt, SparseVec.setUnchecked, asU32, Entity.sparse, World.insertSet,
      ComponentStorage.insert, ComponentStorage.insertEach, ComponentStorage.withMask, h1, h2]

theorem reach_tokens : ∀ (n : Nat), n + 2 < 2 ^ 32 →
    ∃ h rest, Reach World.empty h (twoTokens (n + 2) (n + 2) rest)
  | 0, _ => by
    refine ⟨_, [], reach_run (reviveOps.take 4) World.empty _ (reviveRets.take 4) (by decide)⟩
  | n + 1, hn => by
    obtain ⟨h, rest, hr⟩ := reach_tokens n (by omega)
    exact ⟨_, _, (((hr.snoc (twoTokens_create _ _ _)).snoc (tokenTaken_destroy _ _ _ (by omega))).snoc
      (twoTokens_create _ _ _)).snoc (tokenTaken_destroy _ _ _ (by omega))⟩

/-- C10 is false in general: in a history of about `2^34` calls `create` hands out index 0 with the last version, the
entity is destroyed, and the next `create` hands out index 0 with the last version again. -/
theorem C10_false : ∃ (h : History Nat) (w : World Nat), Reach World.empty
    (h ++ [(.create [], .entity ⟨0, 2 ^ 32 - 1⟩)] ++ [(.destroy ⟨0, 2 ^ 32 - 1⟩, .bool true)] ++
      [(.create [], .entity ⟨0, 2 ^ 32 - 1⟩)]) w := by
  obtain ⟨h, rest, hr⟩ := reach_tokens (2 ^ 32 - 3) (by omega)
  obtain ⟨w1, h1, w2, h2⟩ := tokenTaken_last (2 ^ 32 - 1) rest
  exact ⟨h, w2, ((hr.snoc (twoTokens_create _ _ _)).snoc h1).snoc h2⟩

/-- Also false: versions of an index increase. -/
theorem C10_increasing_false : ∃ (h : History Nat) (w : World Nat), Reach World.empty h w ∧
    ¬ (life h).issued.Pairwise (fun later earlier => earlier.index = later.index → earlier.version < later.version) := by
  obtain ⟨w, _, h⟩ := reach_answers (ops := reviveOps) (rs := reviveRets) (by decide)
  exact ⟨_, w, h, by decide⟩

/-! ### C08 -/

/-- C08, in every reachable world: after `clear` nothing is alive or stored, registrations are kept. -/
theorem C08_now {h : History V} {w : World V} (hr : Reach World.empty h w) :
    ∃ w', step w .clear = some (.unit, w') ∧
      (∀ x, w'.containsEntity x = false) ∧ w'.entitiesSlice = [] ∧
      (∀ t, w'.isRegistered t = w.isRegistered t) ∧
      (∀ t x, w.isRegistered t = true → w'.viewGet t x = .ok none) ∧
      ∀ t x v, w'.viewGet t x ≠ .ok (some v) := by
  obtain ⟨h1, h2⟩ := reach_sound hr
  obtain ⟨w', h3⟩ := clear_safe h1
  have h4 := h3
  unfold World.clear EntityStorage.clear at h4
  obtain ⟨es, h5, h4⟩ := Res.bind_ok' h4
  obtain ⟨p, _, h5⟩ := Res.bind_ok' h5
  cases h5
  cases h4
  have hget : ∀ t x, w.isRegistered t = true →
      (⟨⟨p.2, w.entities.entities.clear⟩, w.components.clear⟩ : World V).viewGet t x = .ok none := by
    intro t x ht
    obtain ⟨m, hm⟩ := Option.isSome_iff_exists.1 (show (w.components.meta? t).isSome = true from ht)
    obtain ⟨s, hs, _⟩ := h2.at_meta hm
    have hm' : w.components.clear.meta? t = some m := hm
    have hs' : w.components.clear.components[m.storageIndex]? = some s.clear := by
      simp [ComponentStorage.clear, hs]
    simp [World.viewGet, World.borrow, hm', hs', Res.unchecked, CompSet.get, CompSet.clear, SparseVec.get, SparseVec.clear]
  refine ⟨⟨⟨p.2, w.entities.entities.clear⟩, w.components.clear⟩, by simp [step, retRes, h3], fun x => rfl, rfl, fun t => rfl,
    hget, fun t x v hv => ?_⟩
  by_cases ht : w.isRegistered t = true
  · rw [hget t x ht] at hv
    cases hv
  · have hm : w.components.clear.meta? t = none := by
      have : ¬ (w.components.meta? t).isSome = true := ht
      show w.components.meta? t = none
      simpa using this
    simp [World.viewGet, World.borrow, hm] at hv

/-- A world after an exchange of entities of different versions, and one in which an entity was revived. -/
example : holdsAfter mixOps (fun _ w => decide (w.isRegistered 0 = true ∧ w.entitiesSlice ≠ [])) = true ∧
    holdsAfter reviveOps (fun _ w => decide (w.entitiesSlice ≠ [])) = true := by decide

/-! ### C31 -/

/-- C31, calls that are safe in every reachable world, whatever was done before. -/
theorem C31_safe {h : History V} {w : World V} (hr : Reach World.empty h w) :
    (∀ t, ∃ x, step w (.register t) = some x) ∧ (∃ x, step w .createAtomic = some x) ∧
    (∃ x, step w .maintain = some x) ∧ (∃ x, step w .clear = some x) ∧ (∃ x, step w .reset = some x) ∧
    (∀ t e v, ∃ x, step w (.write t e v) = some x) ∧ (∀ t pos v, ∃ x, step w (.writeAt t pos v) = some x) ∧
    (∀ t e, w.viewGet t e ≠ .ub) := by
  obtain ⟨h1, h2⟩ := reach_sound hr
  refine ⟨fun t => ⟨_, rfl⟩, retRes_safe (createAtomic_safe h1), ?_, ?_, ⟨_, rfl⟩,
    fun t e v => retRes_safe (write_safe h2 t e v), fun t pos v => retRes_safe (writeAt_safe h2 t pos v),
    viewGet_safe h2⟩
  · obtain ⟨w', h3⟩ := maintain_safe h1
    exact retRes_safe (by simp [h3])
  · obtain ⟨w', h3⟩ := clear_safe h1
    exact retRes_safe (by simp [h3])

/-- C31 for worlds without groups, without any discipline: if no layout that is set has groups, no history runs into
undefined behaviour. Missing: layouts with groups. -/
theorem C31_ungrouped_partial {ops : List (Op V)}
    (hn : ∀ op ∈ ops, ∀ r gs, op = .setLayout r gs → (GroupLayout.build gs).2 = .empty) :
    ∃ rs w, run World.empty ops = some (rs, w) :=
  run_flat ops ⟨EntOk.empty, fun s hs => by simp [World.empty, ComponentStorage.empty] at hs⟩
    (reach_static Reach.nil) ⟨rfl, fun t m hm => by simp [World.empty, ComponentStorage.empty, ComponentStorage.meta?] at hm⟩ hn

example : ∀ op ∈ (reviveOps ++ [.setLayout anyOrder [], .write 3 ⟨9, 9⟩ 1] : List (Op Nat)), ∀ r gs,
    op = .setLayout r gs → (GroupLayout.build gs).2 = .empty := by
  intro op hop r gs h
  subst h
  simp [reviveOps] at hop
  rw [hop.2]
  rfl

end Sparsey
