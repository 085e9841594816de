import Verif.Spec.Atomic
import Verif.Proofs.Reach

/-!
Concurrent `create_atomic` calls are linearizable: each takes effect at its successful compare-exchange (or, when no
entity is left, when it sees so).
-/

set_option autoImplicit false
set_option linter.unusedSimpArgs false

namespace Sparsey

variable {V : Type}

/-- The last value of a modification order is also the largest. -/
structure Newest (l : List Nat) (n : Nat) : Prop where
  last : l.getLast? = some n
  le : ∀ v ∈ l, v ≤ n

theorem Newest.one (n : Nat) : Newest [n] n := ⟨rfl, by simp⟩

theorem Newest.push {l : List Nat} {n : Nat} (h : Newest l n) : Newest (l ++ [n + 1]) (n + 1) :=
  ⟨by simp, by
    intro v hv
    rcases List.mem_append.1 hv with hv | hv
    · exact Nat.le_succ_of_le (h.le v hv)
    · simp at hv; omega⟩

/-- A running call is consistent with the current allocator. -/
def PcOk (a : EntityAllocator) : AtomicPc → Prop
  | .start => True
  | .recLoop p => p ≤ a.recycledSinceMaintain
  | .nextStart => a.recycled.length ≤ a.recycledSinceMaintain
  | .nextLoop p => a.recycled.length ≤ a.recycledSinceMaintain ∧ p ≤ a.nextIndexToAllocate
  | .done _ => True
  | .failed => False

/-- A configuration represents the allocator `a`. -/
structure ConfOk (a : EntityAllocator) (c : AtomicConf) : Prop where
  since : Newest c.mem.since a.recycledSinceMaintain
  next : Newest c.mem.next a.nextIndexToAllocate
  pcs : ∀ i, PcOk a (c.pc i)

theorem ConfOk.init (a : EntityAllocator) : ConfOk a (AtomicConf.init a) :=
  ⟨Newest.one _, Newest.one _, fun _ => trivial⟩

/-- Serial calls: the results and the allocator at the end. -/
inductive Serial (a : EntityAllocator) : List (Option Entity) → EntityAllocator → Prop where
  | nil : Serial a [] a
  | snoc {rs : List (Option Entity)} {a₁ a₂ : EntityAllocator} {r : Option Entity} :
      Serial a rs a₁ → a₁.allocateAtomic = .ok (r, a₂) → Serial a (rs ++ [r]) a₂

theorem PcOk.mono {a a' : EntityAllocator} (hr : a'.recycled = a.recycled)
    (hs : a.recycledSinceMaintain ≤ a'.recycledSinceMaintain) (hn : a.nextIndexToAllocate ≤ a'.nextIndexToAllocate)
    {p : AtomicPc} (h : PcOk a p) : PcOk a' p := by
  cases p with
  | start => trivial
  | recLoop p => simp only [PcOk] at h ⊢; omega
  | nextStart => simp only [PcOk, hr] at h ⊢; omega
  | nextLoop p => simp only [PcOk, hr] at h ⊢; omega
  | done r => trivial
  | failed => exact h

/-- The three outcomes of a call without interference. -/
theorem allocateAtomic_cases (a : EntityAllocator) :
    (∃ (_ : a.recycledSinceMaintain < a.recycled.length)
      (hlt : a.recycled.length - a.recycledSinceMaintain - 1 < a.recycled.length),
      a.allocateAtomic = .ok (some a.recycled[a.recycled.length - a.recycledSinceMaintain - 1],
        { a with recycledSinceMaintain := a.recycledSinceMaintain + 1 })) ∨
    (a.recycled.length ≤ a.recycledSinceMaintain ∧ a.nextIndexToAllocate < u32Size ∧
      a.allocateAtomic = .ok (some (Entity.withIndex a.nextIndexToAllocate),
        { a with nextIndexToAllocate := a.nextIndexToAllocate + 1 })) ∨
    (a.recycled.length ≤ a.recycledSinceMaintain ∧ u32Size ≤ a.nextIndexToAllocate ∧
      a.allocateAtomic = .ok (none, a)) := by
  by_cases h1 : a.recycledSinceMaintain < a.recycled.length
  · have hlt : a.recycled.length - a.recycledSinceMaintain - 1 < a.recycled.length := by omega
    refine .inl ⟨h1, hlt, ?_⟩
    simp [EntityAllocator.allocateAtomic, EntityAllocator.incrementRecycledSinceMaintain, h1,
        List.getElem?_eq_getElem hlt, Res.checked]
  · by_cases h2 : a.nextIndexToAllocate < u32Size
    · refine .inr (.inl ⟨Nat.not_lt.1 h1, h2, ?_⟩)
      simp [EntityAllocator.allocateAtomic, EntityAllocator.incrementRecycledSinceMaintain,
        EntityAllocator.incrementNextIndexToAllocate, h1, h2]
    · refine .inr (.inr ⟨Nat.not_lt.1 h1, Nat.not_lt.1 h2, ?_⟩)
      simp [EntityAllocator.allocateAtomic, EntityAllocator.incrementRecycledSinceMaintain,
        EntityAllocator.incrementNextIndexToAllocate, h1, h2]

/-- One step: either nothing has changed, or the call has returned what a serial call returns. -/
theorem atomicStep_ok {a : EntityAllocator} {c : AtomicConf} (h : ConfOk a c) {i : Nat} {m : AtomicMem} {p : AtomicPc}
    (hs : AtomicStep a.recycled (c.mem, c.pc i) (m, p)) :
    ∃ a', a'.recycled = a.recycled ∧ ConfOk a' ⟨m, fun j => if j = i then p else c.pc j⟩ ∧
      ((p.result = none ∧ a' = a) ∨ ∃ r, p.result = some r ∧ a.allocateAtomic = .ok (r, a')) := by
  have hpc := h.pcs i
  have upd : ∀ {p' : AtomicPc}, PcOk a p' → ∀ j, PcOk a (if j = i then p' else c.pc j) := by
    intro p' hp j
    by_cases hj : j = i
    · simpa [hj] using hp
    · simpa [hj] using h.pcs j
  generalize hc : c.pc i = q at hs hpc
  generalize hm : c.mem = mm at hs
  cases hs with
  | loadSince hv =>
    subst hm
    exact ⟨a, rfl, ⟨h.since, h.next, upd (h.since.le _ hv)⟩, .inl ⟨rfl, rfl⟩⟩
  | casSince hlt hl =>
    rename_i prev
    subst hm
    have he : prev = a.recycledSinceMaintain := by
      have := h.since.last
      rw [hl] at this
      exact Option.some.inj this
    subst he
    have hget : a.recycled.length - a.recycledSinceMaintain - 1 < a.recycled.length := by omega
    rw [List.getElem?_eq_getElem hget]
    refine ⟨{ a with recycledSinceMaintain := a.recycledSinceMaintain + 1 }, rfl, ⟨h.since.push, h.next, ?_⟩,
      .inr ⟨_, rfl, ?_⟩⟩
    · intro j
      by_cases hj : j = i
      · simp [hj, PcOk]
      · simp only [hj, if_false]
        exact PcOk.mono (a := a) (a' := { a with recycledSinceMaintain := a.recycledSinceMaintain + 1 }) rfl
          (Nat.le_succ _) (Nat.le_refl _) (h.pcs j)
    · simp [EntityAllocator.allocateAtomic, EntityAllocator.incrementRecycledSinceMaintain, hlt,
        List.getElem?_eq_getElem hget, Res.checked]
  | casSinceFail _ hv =>
    subst hm
    exact ⟨a, rfl, ⟨h.since, h.next, upd (h.since.le _ hv)⟩, .inl ⟨rfl, rfl⟩⟩
  | noSince hge =>
    subst hm
    refine ⟨a, rfl, ⟨h.since, h.next, upd ?_⟩, .inl ⟨rfl, rfl⟩⟩
    simp only [PcOk] at hpc ⊢
    omega
  | loadNext hv =>
    subst hm
    exact ⟨a, rfl, ⟨h.since, h.next, upd ⟨hpc, h.next.le _ hv⟩⟩, .inl ⟨rfl, rfl⟩⟩
  | casNext hlt hl =>
    rename_i prev
    subst hm
    have he : prev = a.nextIndexToAllocate := by
      have := h.next.last
      rw [hl] at this
      exact Option.some.inj this
    subst he
    refine ⟨{ a with nextIndexToAllocate := a.nextIndexToAllocate + 1 }, rfl, ⟨h.since, h.next.push, ?_⟩,
      .inr ⟨_, rfl, ?_⟩⟩
    · intro j
      by_cases hj : j = i
      · simp [hj, PcOk]
      · simp only [hj, if_false]
        exact PcOk.mono (a := a) (a' := { a with nextIndexToAllocate := a.nextIndexToAllocate + 1 }) rfl
          (Nat.le_refl _) (Nat.le_succ _) (h.pcs j)
    · have hn : ¬ a.recycledSinceMaintain < a.recycled.length := Nat.not_lt.2 hpc.1
      simp [EntityAllocator.allocateAtomic, EntityAllocator.incrementRecycledSinceMaintain,
        EntityAllocator.incrementNextIndexToAllocate, hn, hlt]
  | casNextFail _ hv =>
    subst hm
    exact ⟨a, rfl, ⟨h.since, h.next, upd ⟨hpc.1, h.next.le _ hv⟩⟩, .inl ⟨rfl, rfl⟩⟩
  | noNext hge =>
    subst hm
    refine ⟨a, rfl, ⟨h.since, h.next, upd trivial⟩, .inr ⟨_, rfl, ?_⟩⟩
    have hn : ¬ a.recycledSinceMaintain < a.recycled.length := Nat.not_lt.2 hpc.1
    have hn' : ¬ a.nextIndexToAllocate < u32Size := by
      have := hpc.2
      omega
    simp [EntityAllocator.allocateAtomic, EntityAllocator.incrementRecycledSinceMaintain,
      EntityAllocator.incrementNextIndexToAllocate, hn, hn']

/-- Every interleaving is a serial execution of the calls in the order of their returns. -/
theorem atomicRun_serial {a : EntityAllocator} {tr : List (Nat × Option Entity)} {c : AtomicConf}
    (hr : AtomicRun a.recycled (AtomicConf.init a) tr c) :
    ∃ a', a'.recycled = a.recycled ∧ ConfOk a' c ∧ Serial a (tr.map Prod.snd) a' := by
  induction hr with
  | nil => exact ⟨a, rfl, ConfOk.init a, .nil⟩
  | snoc _ hs ih =>
    obtain ⟨a₁, h1, h2, h3⟩ := ih
    rw [← h1] at hs
    obtain ⟨a₂, k1, k2, k3⟩ := atomicStep_ok h2 hs
    refine ⟨a₂, k1.trans h1, k2, ?_⟩
    rcases k3 with ⟨hn, rfl⟩ | ⟨r, hr', ha⟩
    · simpa [hn] using h3
    · simpa [hr'] using Serial.snoc h3 ha

/-- A call that has returned has stopped: its result is in the trace, once. -/
theorem atomicRun_once {l : List Entity} {c₀ : AtomicConf} (h0 : ∀ i, (c₀.pc i).result = none)
    {tr : List (Nat × Option Entity)} {c : AtomicConf} (hr : AtomicRun l c₀ tr c) :
    (tr.map Prod.fst).Nodup ∧ ∀ i r, (i, r) ∈ tr ↔ c.pc i = .done r := by
  induction hr with
  | nil =>
    refine ⟨by simp, fun i r => ⟨by simp, fun h => ?_⟩⟩
    have := h0 i
    rw [h] at this
    simp [AtomicPc.result] at this
  | @snoc tr c' i m p hr hs ih =>
    obtain ⟨h1, h2⟩ := ih
    have hnd : ∀ r, c'.pc i ≠ .done r := by
      intro r hd
      rw [hd] at hs
      cases hs
    have hni : ∀ r, (i, r) ∉ tr := fun r hm => hnd r ((h2 i r).1 hm)
    have hres : ∀ r, p.result = some r ↔ p = .done r := by
      intro r; cases p <;> simp [AtomicPc.result]
    refine ⟨?_, fun j r => ?_⟩
    · cases hp : p.result with
      | none => simpa using h1
      | some r =>
        simp only [Option.map_some, Option.toList_some, List.map_append, List.map_cons, List.map_nil]
        refine List.nodup_append.2 ⟨h1, by simp, ?_⟩
        intro x hx y hy hxy
        obtain ⟨⟨k, r'⟩, hm, rfl⟩ := List.mem_map.1 hx
        simp only [List.mem_singleton] at hy
        subst hy
        simp only at hxy
        subst hxy
        exact hni _ hm
    · rw [List.mem_append]
      by_cases hj : j = i
      · subst hj
        simp only [if_true, hni, false_or]
        rw [← hres]
        cases hp : p.result <;> simp [eq_comm]
      · simp only [if_neg hj, ← h2 j r]
        cases hp : p.result <;> simp [hj]

theorem Serial.recycled {a a' : EntityAllocator} {rs : List (Option Entity)} (h : Serial a rs a') :
    a'.recycled = a.recycled ∧ a'.lastMaintainedIndex = a.lastMaintainedIndex := by
  induction h with
  | nil => exact ⟨rfl, rfl⟩
  | @snoc rs a₁ a₂ r h1 h2 ih =>
    rcases allocateAtomic_cases a₁ with ⟨_, _, h⟩ | ⟨_, _, h⟩ | ⟨_, _, h⟩ <;>
    · rw [h] at h2
      injection h2 with h2
      rw [← (Prod.mk.inj h2).2]
      exact ih

/-- What one call gives and leaves, in terms of the supply. -/
theorem allocateAtomic_supply {a a' : EntityAllocator} {r : Option Entity} (h : a.allocateAtomic = .ok (r, a')) :
    r = supply a 0 ∧ ∀ k, supply a' k = supply a (k + 1) ∨ (r = none ∧ a' = a) := by
  rcases allocateAtomic_cases a with ⟨h1, hlt, h'⟩ | ⟨h1, h2, h'⟩ | ⟨h1, h2, h'⟩ <;> rw [h'] at h <;>
    injection h with h
  · obtain ⟨rfl, rfl⟩ := Prod.mk.inj h
    constructor
    · simp only [supply, List.length_drop, List.length_reverse]
      rw [if_pos (by omega), List.getElem?_drop, List.getElem?_reverse (by omega)]
      simp only [Nat.add_zero]
      rw [show a.recycled.length - 1 - a.recycledSinceMaintain = a.recycled.length - a.recycledSinceMaintain - 1 by omega,
        List.getElem?_eq_getElem hlt]
    · intro k
      left
      simp only [supply, List.length_drop, List.length_reverse]
      by_cases hk : k < a.recycled.length - (a.recycledSinceMaintain + 1)
      · rw [if_pos hk, if_pos (by omega), List.getElem?_drop, List.getElem?_drop]
        congr 1
        omega
      · rw [if_neg hk, if_neg (show ¬ k + 1 < a.recycled.length - a.recycledSinceMaintain by omega),
          show k + 1 - (a.recycled.length - a.recycledSinceMaintain) =
            k - (a.recycled.length - (a.recycledSinceMaintain + 1)) by omega]
  · obtain ⟨rfl, rfl⟩ := Prod.mk.inj h
    have h2' : a.nextIndexToAllocate < 2 ^ 32 := h2
    constructor
    · simp only [supply, List.length_drop, List.length_reverse]
      rw [if_neg (by omega), if_pos (by omega)]
      simp [Entity.withIndex, Version.first, show a.recycled.length - a.recycledSinceMaintain = 0 by omega]
    · intro k
      left
      simp only [supply, List.length_drop, List.length_reverse]
      rw [if_neg (show ¬ k < a.recycled.length - a.recycledSinceMaintain by omega),
        if_neg (show ¬ k + 1 < a.recycled.length - a.recycledSinceMaintain by omega),
        show a.nextIndexToAllocate + 1 + (k - (a.recycled.length - a.recycledSinceMaintain)) =
          a.nextIndexToAllocate + (k + 1 - (a.recycled.length - a.recycledSinceMaintain)) by omega]
  · obtain ⟨rfl, rfl⟩ := Prod.mk.inj h
    have h2' : 2 ^ 32 ≤ a.nextIndexToAllocate := h2
    refine ⟨?_, fun k => .inr ⟨rfl, rfl⟩⟩
    simp only [supply, List.length_drop, List.length_reverse]
    rw [if_neg (by omega), if_neg (by omega)]

/-- Once the supply is at its end it stays so. -/
theorem supply_none {a : EntityAllocator} {j k : Nat} (h : supply a j = none) (hjk : j ≤ k) : supply a k = none := by
  simp only [supply] at h ⊢
  split_ifs at h with h1 h2
  · rw [List.getElem?_eq_getElem h1] at h
    cases h
  · rw [if_neg (by omega), if_neg (by omega)]

theorem Serial.supply {a a' : EntityAllocator} {rs : List (Option Entity)} (h : Serial a rs a') :
    (∀ k, Sparsey.supply a' k = Sparsey.supply a (k + rs.length)) ∧
      ∀ k (hk : k < rs.length), rs[k] = Sparsey.supply a k := by
  induction h with
  | nil => exact ⟨fun _ => rfl, fun k hk => by simp at hk⟩
  | @snoc rs a₁ a₂ r h1 h2 ih =>
    obtain ⟨i1, i2⟩ := ih
    obtain ⟨j1, j2⟩ := allocateAtomic_supply h2
    constructor
    · intro k
      simp only [List.length_append, List.length_cons, List.length_nil, Nat.zero_add]
      rcases j2 k with h | ⟨hr, rfl⟩
      · rw [h, i1]
        congr 1
        omega
      · rw [i1]
        have h0 : Sparsey.supply a rs.length = none := by
          have := i1 0
          rw [← j1, hr, Nat.zero_add] at this
          exact this.symm
        rw [supply_none h0 (by omega), supply_none h0 (by omega)]
    · intro k hk
      by_cases hkl : k < rs.length
      · rw [List.getElem_append_left hkl]
        exact i2 k hkl
      · simp only [List.length_append, List.length_cons, List.length_nil] at hk
        rw [List.getElem_append_right (by omega)]
        have : k = rs.length := by omega
        subst this
        simp only [Nat.sub_self, List.getElem_cons_zero, j1, i1, Nat.zero_add]

/-- Serial calls on the allocator are calls on the world. -/
theorem Serial.reach {w : World V} {rs : List (Option Entity)} {a' : EntityAllocator}
    (h : Serial w.entities.allocator rs a') :
    Reach w (rs.map fun r => (Op.createAtomic, atomicRet r))
      { w with entities := { w.entities with allocator := a' } } := by
  induction h with
  | nil => exact .nil
  | @snoc rs a₁ a₂ r _ h2 ih =>
    rw [List.map_append]
    refine .snoc ih ?_
    simp only [step, World.createAtomic, EntityStorage.createAtomic, h2, Res.bind_ok]
    cases r with
    | some e => rfl
    | none =>
      have : a₂ = a₁ := by
        rcases allocateAtomic_cases a₁ with ⟨_, _, h⟩ | ⟨_, _, h⟩ | ⟨_, _, h⟩ <;> rw [h] at h2 <;>
          injection h2 with h2
        · cases (Prod.mk.inj h2).1
        · cases (Prod.mk.inj h2).1
        · exact (Prod.mk.inj h2).2.symm
      subst this
      rfl

/-! ### Progress -/

/-- `c` with call `i` at `p`. -/
def AtomicConf.at' (c : AtomicConf) (i : Nat) (m : AtomicMem) (p : AtomicPc) : AtomicConf :=
  ⟨m, fun j => if j = i then p else c.pc j⟩

theorem AtomicRun.alone {l : List Entity} {c : AtomicConf} (i : Nat) :
    AtomicRun l c [] (c.at' i c.mem (c.pc i)) := by
  have h : c.at' i c.mem (c.pc i) = c := by
    unfold AtomicConf.at'
    congr 1
    funext j
    by_cases hj : j = i
    · subst hj; simp
    · simp [hj]
  rw [h]
  exact .nil

theorem AtomicRun.more {l : List Entity} {c : AtomicConf} {i : Nat} {m m' : AtomicMem} {p p' : AtomicPc}
    {tr : List (Nat × Option Entity)} (h : AtomicRun l c tr (c.at' i m p)) (hs : AtomicStep l (m, p) (m', p')) :
    AtomicRun l c (tr ++ (p'.result.map fun r => (i, r)).toList) (c.at' i m' p') := by
  have h2 := h.snoc (i := i) (m := m') (p := p') (by simpa [AtomicConf.at'] using hs)
  have he : (AtomicConf.mk m' fun j => if j = i then p' else (c.at' i m p).pc j) = c.at' i m' p' := by
    unfold AtomicConf.at'
    congr 1
    funext j
    by_cases hj : j = i <;> simp [hj]
  rw [he] at h2
  exact h2

theorem atomicRun_finish {a : EntityAllocator} {tr : List (Nat × Option Entity)} {c : AtomicConf}
    (hr : AtomicRun a.recycled (.init a) tr c) (i : Nat) (hi : ∀ r, c.pc i ≠ .done r) :
    ∃ r m, AtomicRun a.recycled c [(i, r)] ⟨m, fun j => if j = i then .done r else c.pc j⟩ := by
  obtain ⟨a', h1, h2, _⟩ := atomicRun_serial hr
  have hsm : a'.recycledSinceMaintain ∈ c.mem.since := List.mem_of_getLast? h2.since.last
  have hnm : a'.nextIndexToAllocate ∈ c.mem.next := List.mem_of_getLast? h2.next.last
  -- from the second loop, with the current value
  have next : AtomicRun a.recycled c [] (c.at' i c.mem (.nextLoop a'.nextIndexToAllocate)) →
      ∃ r m, AtomicRun a.recycled c [(i, r)] (c.at' i m (.done r)) := by
    intro h
    by_cases hlt : a'.nextIndexToAllocate < u32Size
    · exact ⟨_, _, h.more (.casNext hlt h2.next.last)⟩
    · exact ⟨_, _, h.more (.noNext hlt)⟩
  have nextStart : AtomicRun a.recycled c [] (c.at' i c.mem .nextStart) →
      ∃ r m, AtomicRun a.recycled c [(i, r)] (c.at' i m (.done r)) := fun h => next (h.more (.loadNext hnm))
  have since : AtomicRun a.recycled c [] (c.at' i c.mem (.recLoop a'.recycledSinceMaintain)) →
      ∃ r m, AtomicRun a.recycled c [(i, r)] (c.at' i m (.done r)) := by
    intro h
    by_cases hlt : a'.recycledSinceMaintain < a.recycled.length
    · have hs := h.more (.casSince hlt h2.since.last)
      have hget : a.recycled.length - a'.recycledSinceMaintain - 1 < a.recycled.length := by omega
      rw [List.getElem?_eq_getElem hget] at hs
      exact ⟨_, _, hs⟩
    · exact nextStart (h.more (.noSince hlt))
  have h0 := AtomicRun.alone (l := a.recycled) (c := c) i
  have hpc := h2.pcs i
  cases hp : c.pc i with
  | start =>
    rw [hp] at h0
    exact since (h0.more (.loadSince hsm))
  | recLoop p =>
    rw [hp] at h0
    by_cases hlt : p < a.recycled.length
    · exact since (h0.more (.casSinceFail hlt hsm))
    · exact nextStart (h0.more (.noSince hlt))
  | nextStart =>
    rw [hp] at h0
    exact nextStart h0
  | nextLoop p =>
    rw [hp] at h0
    by_cases hlt : p < u32Size
    · exact next (h0.more (.casNextFail hlt hnm))
    · exact ⟨_, _, h0.more (.noNext hlt)⟩
  | done r => exact absurd hp (hi r)
  | failed => rw [hp] at hpc; exact hpc.elim

end Sparsey
