import Verif.Spec.Growth
import Verif.Properties.RawSet

/-!
C69: the memory of a component set grows geometrically, with the largest number of components that it ever had.
-/

set_option autoImplicit false
set_option linter.unusedSimpArgs false

namespace Sparsey
variable {V : Type}

theorem allocsOf_append : ∀ (a b : List (Effect V)), allocsOf (a ++ b) = allocsOf a ++ allocsOf b
  | [], _ => rfl
  | .dropped _ :: a, b => by simp [allocsOf, allocsOf_append a b]
  | .alloc _ :: a, b => by simp [allocsOf, allocsOf_append a b]
  | .dealloc _ :: a, b => by simp [allocsOf, allocsOf_append a b]

theorem freesOf_append : ∀ (a b : List (Effect V)), freesOf (a ++ b) = freesOf a ++ freesOf b
  | [], _ => rfl
  | .dropped _ :: a, b => by simp [freesOf, freesOf_append a b]
  | .alloc _ :: a, b => by simp [freesOf, freesOf_append a b]
  | .dealloc _ :: a, b => by simp [freesOf, freesOf_append a b]

namespace RawSet

/-- The memory is the same and there are not more components. -/
structure NotMore (s s' : RawSet V) : Prop where
  cap : s'.cap = s.cap
  len : s'.len ≤ s.len
  allocs : allocsOf s'.log = allocsOf s.log
  frees : freesOf s'.log = freesOf s.log

theorem NotMore.refl (s : RawSet V) : NotMore s s := ⟨rfl, Nat.le_refl _, rfl, rfl⟩

theorem NotMore.trans {a b c : RawSet V} (h : NotMore a b) (h' : NotMore b c) : NotMore a c :=
  ⟨h'.cap.trans h.cap, h'.len.trans h.len, h'.allocs.trans h.allocs, h'.frees.trans h.frees⟩

theorem leaves_trans {α : Type} {a b : RawSet V} (h : NotMore a b) {o : Outcome (RawSet V) α} (ho : o.Leaves (NotMore b)) :
    o.Leaves (NotMore a) := by
  cases o with
  | ok x s => exact h.trans ho
  | panic s => exact h.trans ho
  | ub => trivial

theorem dropAt_notMore (bomb : V → Bool) (s : RawSet V) (i : Nat) : (s.dropAt bomb i).Leaves (NotMore s) := by
  unfold dropAt
  refine Outcome.Leaves.ofRes (NotMore.refl s) fun v _ => ?_
  have : NotMore s { s with log := s.log ++ [.dropped v] } :=
    ⟨rfl, Nat.le_refl _, by simp [allocsOf_append, allocsOf], by simp [freesOf_append, freesOf]⟩
  dsimp only
  split
  · exact this
  · exact this

theorem unlink_notMore {s s' : RawSet V} {i : Nat} {sp : SparseVec} (h : s.unlink i sp = .ok s') : NotMore s s' := by
  unfold unlink at h
  split at h
  · cases h
  · obtain ⟨_, _, h⟩ := Res.bind_ok' h
    obtain ⟨_, _, h⟩ := Res.bind_ok' h
    obtain ⟨_, _, h⟩ := Res.bind_ok' h
    dsimp only at h
    split at h
    · obtain ⟨_, _, h⟩ := Res.bind_ok' h
      cases h
      exact ⟨rfl, Nat.sub_le _ _, rfl, rfl⟩
    · obtain ⟨_, _, h⟩ := Res.bind_ok' h
      cases h
      exact ⟨rfl, Nat.sub_le _ _, rfl, rfl⟩

theorem dropFrom_notMore (bomb : V → Bool) : ∀ (n i : Nat) (s : RawSet V), (dropFrom bomb i n s).Leaves (NotMore s)
  | 0, _, s => NotMore.refl s
  | n + 1, i, s => by
    rw [dropFrom]
    exact Outcome.Leaves.bind (dropAt_notMore bomb s i) fun _ s1 h => leaves_trans h (dropFrom_notMore bomb n (i + 1) s1)

/-- Only `insert` adds components or changes the block. -/
theorem act_notMore (ty : MemLayout) (bomb : V → Bool) (s : RawSet V) {op : SetOp V} (ho : ∀ e v, op ≠ .insert e v) :
    (s.act ty bomb op).Leaves (NotMore s) := by
  cases op with
  | insert e v => exact absurd rfl (ho e v)
  | remove e =>
    refine Outcome.Leaves.bind ?_ fun _ _ h => h
    unfold remove
    split
    · exact NotMore.refl s
    · refine Outcome.Leaves.ofRes (NotMore.refl s) fun s1 h1 => ?_
      have h1 := unlink_notMore h1
      refine Outcome.Leaves.ofRes h1 fun _ _ => Outcome.Leaves.ofRes h1 fun _ _ => ?_
      exact ⟨h1.cap, h1.len, h1.allocs, h1.frees⟩
  | delete e =>
    refine Outcome.Leaves.bind ?_ fun _ _ h => h
    unfold delete
    split
    · exact NotMore.refl s
    · refine Outcome.Leaves.ofRes (NotMore.refl s) fun s1 h1 => ?_
      have h1 := unlink_notMore h1
      refine Outcome.Leaves.bind (leaves_trans h1 (dropAt_notMore bomb s1 _)) fun _ s2 h2 => ?_
      refine Outcome.Leaves.ofRes h2 fun _ _ => ?_
      exact ⟨h2.cap, h2.len, h2.allocs, h2.frees⟩
  | replace e v =>
    refine Outcome.Leaves.bind ?_ fun _ _ h => h
    unfold replaceMut
    split
    · exact NotMore.refl s
    · exact Outcome.Leaves.ofRes (NotMore.refl s) fun _ _ => Outcome.Leaves.ofRes (NotMore.refl s) fun _ _ =>
        ⟨rfl, Nat.le_refl _, rfl, rfl⟩
  | replaceAt pos v =>
    refine Outcome.Leaves.bind ?_ fun _ _ h => h
    unfold replaceAt
    split
    · exact Outcome.Leaves.ofRes (NotMore.refl s) fun _ _ => Outcome.Leaves.ofRes (NotMore.refl s) fun _ _ =>
        ⟨rfl, Nat.le_refl _, rfl, rfl⟩
    · exact NotMore.refl s
  | swap a b =>
    refine Outcome.Leaves.bind ?_ fun _ _ h => h
    unfold swap
    exact Outcome.Leaves.ofRes (NotMore.refl s) fun _ _ => Outcome.Leaves.ofRes (NotMore.refl s) fun _ _ =>
      Outcome.Leaves.ofRes (NotMore.refl s) fun _ _ => Outcome.Leaves.ofRes (NotMore.refl s) fun _ _ =>
      Outcome.Leaves.ofRes (NotMore.refl s) fun _ _ => ⟨rfl, Nat.le_refl _, rfl, rfl⟩
  | clear =>
    refine Outcome.Leaves.bind ?_ fun _ _ h => h
    unfold clear
    have h0 : NotMore s { s with sparse := s.sparse.clear } := ⟨rfl, Nat.le_refl _, rfl, rfl⟩
    refine Outcome.Leaves.bind (leaves_trans h0 (dropFrom_notMore bomb _ _ _)) fun _ s1 h => ?_
    exact ⟨h.cap, Nat.zero_le _, h.allocs, h.frees⟩

theorem growthBlocks_succ (ty : MemLayout) (k : Nat) :
    growthBlocks ty (k + 1) = growthBlocks ty k ++ [(computeLayout ty (4 * 2 ^ k)).map Prod.fst] := by
  unfold growthBlocks
  rw [List.range_succ, List.map_append]
  rfl

theorem GrownTo.same {ty : MemLayout} {peak : Nat} {s s' : RawSet V} (h : s.GrownTo ty peak) (hc : s'.cap = s.cap)
    (ha : allocsOf s'.log = allocsOf s.log) (hf : freesOf s'.log = freesOf s.log) : s'.GrownTo ty peak := by
  unfold GrownTo at h ⊢
  rw [hc, ha, hf]
  exact h

theorem GrownTo.le {ty : MemLayout} {peak : Nat} {s : RawSet V} (h : s.GrownTo ty peak) : peak ≤ s.cap := by
  rcases h with h | ⟨k, _, _, h, _⟩
  · omega
  · exact h

/-- More components that the block has room for. -/
theorem GrownTo.more {ty : MemLayout} {peak n : Nat} {s : RawSet V} (h : s.GrownTo ty peak) (hn : n ≤ s.cap) :
    s.GrownTo ty (max peak n) := by
  rcases h with ⟨h1, h2, h3⟩ | ⟨k, h1, h2, h3, h4, h5⟩
  · exact .inl ⟨by omega, h2, h3⟩
  · exact .inr ⟨k, by omega, h2, by omega, by omega, h5⟩

/-- A full block is replaced by one of twice the size. -/
theorem grow_grown {ty : MemLayout} {peak : Nat} {s : RawSet V} (h : s.GrownTo ty peak) (hl : s.len ≤ peak) (hc : s.len = s.cap) :
    match s.grow ty with
    | .ok _ s' => s'.len = s.len ∧ s'.GrownTo ty (s.len + 1)
    | .panic s' => s'.len = s.len ∧ s'.GrownTo ty peak
    | .ub => True := by
  have hle := h.le
  have hp : peak = s.cap := by omega
  unfold grow
  rcases h with ⟨h1, h2, h3, h4⟩ | ⟨k, h1, h2, h3, h4, h5, h6⟩
  · simp only [h2, if_pos]
    rw [if_neg (by decide)]
    cases hx : computeLayout ty 4 with
    | none => exact ⟨rfl, .inl ⟨h1, h2, h3, h4⟩⟩
    | some p =>
      obtain ⟨block, off⟩ := p
      simp only
      by_cases hb : s.entities.length < s.len ∨ s.components.length < s.len
      · rw [if_pos hb]
        trivial
      · rw [if_neg hb]
        refine ⟨rfl, .inr ⟨0, by omega, rfl, by simp only; omega, .inl rfl, ?_, ?_⟩⟩
        · simp [allocsOf_append, allocsOf, h3, growthBlocks, hx]
        · simp [freesOf_append, freesOf, h4, growthBlocks]
  · have hlast : ∃ p, computeLayout ty s.cap = some p := by
      rw [growthBlocks_succ, ← h2] at h5
      cases hx : computeLayout ty s.cap with
      | some p => exact ⟨p, rfl⟩
      | none =>
        rw [hx] at h5
        have : none ∈ (allocsOf s.log).map some := by rw [h5]; simp
        simp at this
    obtain ⟨⟨old, off⟩, hold⟩ := hlast
    have hcap := computeLayout_cap hold
    have hpos : 0 < s.cap := by omega
    have hne : s.cap ≠ 0 := by omega
    have hdbl : 4 * 2 ^ (k + 1) = s.cap + s.cap := by
      rw [Nat.pow_succ]
      omega
    have hmin : min (s.cap + s.cap) usizeMax = 4 * 2 ^ (k + 1) := by
      rw [hdbl]
      have : usizeMax = 18446744073709551615 := rfl
      omega
    simp only [if_neg hne, hmin]
    rw [if_neg (by omega)]
    cases hx : computeLayout ty (4 * 2 ^ (k + 1)) with
    | none => exact ⟨rfl, .inr ⟨k, h1, h2, h3, h4, h5, h6⟩⟩
    | some p =>
      obtain ⟨block, off'⟩ := p
      simp only
      by_cases hb : s.entities.length < s.len ∨ s.components.length < s.len
      · rw [if_pos hb]
        trivial
      · rw [if_neg hb, hold]
        show _ ∧ GrownTo _ _ _
        refine ⟨rfl, .inr ⟨k + 1, by omega, rfl, by simp only; omega, .inr (by simp only; omega), ?_, ?_⟩⟩
        · rw [growthBlocks_succ, ← h5, hx]
          simp [allocsOf_append, allocsOf]
        · rw [growthBlocks_succ, ← h6, ← h2, hold]
          simp [freesOf_append, freesOf]

theorem insert_grown {ty : MemLayout} {peak : Nat} {s : RawSet V} (h : s.GrownTo ty peak) (hl : s.len ≤ peak) (e : Entity) (v : V) :
    (s.insert ty e v).Leaves (fun s' => s'.GrownTo ty (max peak s'.len)) := by
  have hle := h.le
  unfold insert
  have h0 : ∀ s' : RawSet V, s'.len = s.len → s'.GrownTo ty peak → s'.GrownTo ty (max peak s'.len) := by
    intro s' h1 h2
    rw [h1, Nat.max_eq_left hl]
    exact h2
  have h1 := h0 { s with sparse := s.sparse.allocateAt e.sparse } rfl (h.same rfl rfl rfl)
  refine Outcome.Leaves.ofRes h1 fun slot _ => ?_
  cases slot with
  | some sl =>
    exact Outcome.Leaves.ofRes h1 fun _ _ => Outcome.Leaves.ofRes h1 fun _ _ => Outcome.Leaves.ofRes h1 fun _ _ =>
      Outcome.Leaves.ofRes h1 fun _ _ => h0 _ rfl (h.same rfl rfl rfl)
  | none =>
    refine Outcome.Leaves.ofRes h1 fun sparse _ => ?_
    dsimp only
    by_cases hc : s.len = s.cap
    · rw [if_pos hc]
      have hs : GrownTo ty peak { s with sparse } := h.same rfl rfl rfl
      have hg := grow_grown (s := { s with sparse }) hs hl hc
      revert hg
      cases grow ty { s with sparse } with
      | ub => exact fun _ => trivial
      | panic s2 => exact fun hg => h0 s2 hg.1 hg.2
      | ok u s2 =>
        rintro ⟨g1, g2⟩
        have g1 : s2.len = s.len := g1
        have g2 : s2.GrownTo ty (s.len + 1) := g2
        rw [Outcome.bind_ok]
        cases hw : writeCell s2.entities s2.len e with
        | ub => trivial
        | panic => unfold writeCell at hw; split at hw <;> cases hw
        | ok ents =>
          rw [Outcome.ofRes_ok]
          cases hw2 : writeCell s2.components s2.len v with
          | ub => trivial
          | panic => unfold writeCell at hw2; split at hw2 <;> cases hw2
          | ok comps =>
            show GrownTo ty (max peak (s2.len + 1)) { s2 with entities := ents, components := comps, len := s2.len + 1 }
            rw [show max peak (s2.len + 1) = s.len + 1 by omega]
            exact g2.same rfl rfl rfl
    · rw [if_neg hc, Outcome.bind_ok]
      refine Outcome.Leaves.ofRes (h0 { s with sparse } rfl (h.same rfl rfl rfl)) fun _ _ =>
        Outcome.Leaves.ofRes (h0 { s with sparse } rfl (h.same rfl rfl rfl)) fun _ _ => ?_
      exact (GrownTo.more h (n := s.len + 1) (by omega)).same rfl rfl rfl

theorem act_grown {ty : MemLayout} (bomb : V → Bool) {peak : Nat} {s : RawSet V} (h : s.GrownTo ty peak) (hl : s.len ≤ peak)
    (op : SetOp V) : (s.act ty bomb op).Leaves (fun s' => s'.GrownTo ty (max peak s'.len)) := by
  by_cases ho : ∀ e v, op ≠ .insert e v
  · have := act_notMore ty bomb s ho
    revert this
    have h0 : ∀ s', NotMore s s' → s'.GrownTo ty (max peak s'.len) := by
      intro s' hn
      rw [Nat.max_eq_left (Nat.le_trans hn.len hl)]
      exact h.same hn.cap hn.allocs hn.frees
    cases s.act ty bomb op with
    | ub => exact fun _ => trivial
    | ok x s' => exact h0 s'
    | panic s' => exact h0 s'
  · push Not at ho
    obtain ⟨e, v, rfl⟩ := ho
    exact Outcome.Leaves.bind (insert_grown h hl e v) fun _ _ h => h

theorem trace_grown {ty : MemLayout} {bomb : V → Bool} : ∀ (ops : List (SetOp V)) {peak n : Nat} {s s' : RawSet V},
    s.GrownTo ty peak → s.len ≤ peak → s.trace ty bomb ops = some (n, s') → s'.GrownTo ty (max peak n)
  | [], peak, n, s, s', h, hl, ht => by
    cases ht
    rwa [Nat.max_eq_left hl]
  | op :: ops, peak, n, s, s', h, hl, ht => by
    have ha := act_grown bomb h hl op
    rw [trace] at ht
    have hnext : ∀ s1 : RawSet V, s1.GrownTo ty (max peak s1.len) →
        (s1.trace ty bomb ops).map (fun p => (max s.len p.1, p.2)) = some (n, s') → s'.GrownTo ty (max peak n) := by
      intro s1 h1 ht
      cases hx : s1.trace ty bomb ops with
      | none => rw [hx] at ht; cases ht
      | some p =>
        obtain ⟨m, s2⟩ := p
        rw [hx] at ht
        cases ht
        have hm : s1.len ≤ m := by
          cases ops with
          | nil => cases hx; exact Nat.le_refl _
          | cons o os =>
            rw [trace] at hx
            split at hx
            · rw [Option.map_eq_some_iff] at hx
              obtain ⟨q, _, hq⟩ := hx
              cases hq
              exact Nat.le_max_left _ _
            · rw [Option.map_eq_some_iff] at hx
              obtain ⟨q, _, hq⟩ := hx
              cases hq
              exact Nat.le_max_left _ _
            · cases hx
        have := trace_grown ops h1 (Nat.le_max_right _ _) hx
        rw [show max peak (max s.len m) = max (max peak s1.len) m by omega]
        exact this
    revert ha ht
    cases s.act ty bomb op with
    | ub => exact fun ht _ => by cases ht
    | ok x s1 => exact fun ht ha => hnext s1 ha ht
    | panic s1 => exact fun ht ha => hnext s1 ha ht

end RawSet

/-- C69: after any calls on a new set, panicking ones included, its capacity and the blocks it has allocated and freed are
determined by the largest number of components that it had between calls. -/
theorem C69 {ty : MemLayout} {bomb : V → Bool} {ops : List (SetOp V)} {peak : Nat} {s : RawSet V}
    (h : RawSet.new.trace ty bomb ops = some (peak, s)) : s.GrownTo ty peak := by
  have h0 : (RawSet.new : RawSet V).GrownTo ty 0 := .inl ⟨rfl, rfl, rfl, rfl⟩
  have := RawSet.trace_grown ops h0 (Nat.le_refl _) h
  rwa [Nat.max_eq_right (Nat.zero_le _)] at this

theorem sum_growth : ∀ k, ((List.range k).map fun i => 4 * 2 ^ i).sum + 4 = 4 * 2 ^ k
  | 0 => rfl
  | k + 1 => by
    rw [List.range_succ, List.map_append, List.sum_append]
    have := sum_growth k
    simp only [List.map_cons, List.map_nil, List.sum_cons, List.sum_nil, Nat.pow_succ] at this ⊢
    omega

/-- C69, costs: with at most `peak` components a set allocates at most about log2 `peak` blocks, moves less than twice `peak`
components in all when it grows (all components of each block that it frees), and has room for less than twice `peak`
components, or for 4. -/
theorem C69_cost {ty : MemLayout} {bomb : V → Bool} {ops : List (SetOp V)} {peak : Nat} {s : RawSet V}
    (h : RawSet.new.trace ty bomb ops = some (peak, s)) :
    2 ^ (allocsOf s.log).length ≤ max 2 peak ∧
    ((List.range (freesOf s.log).length).map fun i => 4 * 2 ^ i).sum ≤ 2 * peak ∧
    s.cap ≤ max 4 (2 * peak - 1) ∧ peak ≤ s.cap := by
  have hg := C69 h
  refine ⟨?_, ?_, ?_, hg.le⟩
  · rcases hg with ⟨_, _, h3, _⟩ | ⟨k, h1, h2, h3, h4, h5, _⟩
    · rw [h3]
      show 1 ≤ _
      omega
    · have := congrArg List.length h5
      simp only [List.length_map, growthBlocks, List.length_range] at this
      rw [this]
      rcases h4 with rfl | h4
      · show 2 ≤ _
        omega
      · rw [Nat.pow_succ]
        omega
  · rcases hg with ⟨_, _, _, h4⟩ | ⟨k, h1, h2, h3, h4, _, h6⟩
    · rw [h4]
      exact Nat.zero_le _
    · have := congrArg List.length h6
      simp only [List.length_map, growthBlocks, List.length_range] at this
      rw [this]
      have hs := sum_growth k
      rcases h4 with rfl | h4
      · exact Nat.zero_le _
      · omega
  · rcases hg with ⟨_, h2, _⟩ | ⟨k, h1, h2, h3, h4, _⟩
    · omega
    · rcases h4 with rfl | h4
      · omega
      · omega

/-- Components of 24 bytes: the set had ten of them once. Some calls panic, because of a wrong position or a destructor
(the `clear` too, so that nothing is cleared). -/
def growOps : List (SetOp Nat) :=
  (List.range 9).map (fun i => .insert ⟨i, 1⟩ i) ++ [.delete ⟨3, 1⟩, .replaceAt 20 5, .insert ⟨3, 1⟩ 7, .clear, .insert ⟨1, 2⟩ 1]

example : (RawSet.new.trace ⟨24, 8⟩ (fun v => v == 3) growOps).map (fun p => (p.1, p.2.cap, allocsOf p.2.log, freesOf p.2.log)) =
    some (10, 16, [⟨128, 8⟩, ⟨256, 8⟩, ⟨512, 8⟩], [⟨128, 8⟩, ⟨256, 8⟩]) := by decide +kernel

end Sparsey
