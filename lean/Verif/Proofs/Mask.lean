import Verif.Model.Mask
import Mathlib.Data.List.Sort
import Mathlib.Data.Nat.Bitwise
import Mathlib.Tactic.Ring

/-!
Lemmas about masks.
-/

set_option autoImplicit false
set_option linter.unusedSimpArgs false

namespace Sparsey

theorem ones_getLsbD {w n i : Nat} (hn : n < w) (hi : i < w) :
    ((1#w <<< n) - 1#w).getLsbD i = decide (i < n) := by
  have hw : 1 < 2 ^ w := Nat.one_lt_two_pow (by omega)
  have h2 : 2 ^ n < 2 ^ w := Nat.pow_lt_pow_right (by omega) hn
  have hpos : 0 < 2 ^ n := Nat.two_pow_pos n
  have h1 : ((1#w <<< n) - 1#w).toNat = 2 ^ n - 1 := by
    rw [BitVec.toNat_sub_of_le]
    · simp [BitVec.toNat_shiftLeft, Nat.shiftLeft_eq, Nat.mod_eq_of_lt h2, Nat.mod_eq_of_lt hw]
    · rw [BitVec.le_def]
      simp [BitVec.toNat_shiftLeft, Nat.shiftLeft_eq, Nat.mod_eq_of_lt h2, Nat.mod_eq_of_lt hw]
      omega
  rw [← BitVec.testBit_toNat, h1, Nat.testBit_two_pow_sub_one]

theorem range_getLsbD {w a b i : Nat} (hb : b < w) (hab : a ≤ b) (hi : i < w) :
    (((1#w <<< (b - a)) - 1#w) <<< a).getLsbD i = decide (a ≤ i ∧ i < b) := by
  rw [BitVec.getLsbD_shiftLeft]
  by_cases hia : i < a
  · simp [hi, hia]
  · rw [ones_getLsbD (by omega) (by omega)]
    simp only [hi, hia, decide_true, decide_false, Bool.not_false, Bool.true_and]
    congr 1
    apply propext
    omega

namespace GroupMask

theorem fromTo_ok {a b : Nat} (hb : b < 64) (hab : a ≤ b) :
    ∃ m, fromTo a b = .ok m ∧ ∀ i < 64, m.getLsbD i = decide (a ≤ i ∧ i < b) := by
  refine ⟨_, ?_, fun i hi => range_getLsbD hb hab hi⟩
  unfold fromTo
  simp [maxGroupCount, hb, hab, show a < 64 by omega]

theorem fromTo_panic {a b : Nat} (h : ¬ (b < 64 ∧ a ≤ b)) : fromTo a b = .panic := by
  unfold fromTo
  simp only [maxGroupCount]
  by_cases h1 : a < 64 <;> by_cases h2 : b < 64 <;> by_cases h3 : a ≤ b <;>
    simp [h1, h2, h3, Res.assert] <;> omega

theorem skipFromTo_ok {a b : Nat} (hb : b < 64) (hab : a ≤ b) :
    ∃ m, skipFromTo a b = .ok m ∧ ∀ i < 64, m.getLsbD i = !decide (a ≤ i ∧ i < b) := by
  refine ⟨~~~ (((1#64 <<< (b - a)) - 1#64) <<< a), ?_, fun i hi => ?_⟩
  · unfold skipFromTo
    simp [maxGroupCount, hb, hab, show a < 64 by omega]
  · rw [BitVec.getLsbD_not, range_getLsbD hb hab hi]
    simp [hi]

theorem skipFromTo_panic {a b : Nat} (h : ¬ (b < 64 ∧ a ≤ b)) : skipFromTo a b = .panic := by
  unfold skipFromTo
  simp only [maxGroupCount]
  by_cases h1 : a < 64 <;> by_cases h2 : b < 64 <;> by_cases h3 : a ≤ b <;>
    simp [h1, h2, h3, Res.assert] <;> omega

end GroupMask

namespace StorageMask

theorem fromTo_ok {a b : Nat} (hb : b < 16) (hab : a ≤ b) :
    ∃ m, fromTo a b = .ok m ∧ ∀ i < 16, m.getLsbD i = decide (a ≤ i ∧ i < b) := by
  refine ⟨_, ?_, fun i hi => range_getLsbD hb hab hi⟩
  unfold fromTo
  simp [maxGroupArity, hb, hab, show a < 16 by omega]

theorem fromTo_panic {a b : Nat} (h : ¬ (b < 16 ∧ a ≤ b)) : fromTo a b = .panic := by
  unfold fromTo
  simp only [maxGroupArity]
  by_cases h1 : a < 16 <;> by_cases h2 : b < 16 <;> by_cases h3 : a ≤ b <;>
    simp [h1, h2, h3, Res.assert] <;> omega

theorem single_ok {a : Nat} (ha : a < 16) :
    ∃ m, single a = .ok m ∧ ∀ i < 16, m.getLsbD i = decide (i = a) := by
  have hbit : ∀ i < 16, (1#16 <<< a).getLsbD i = decide (i = a) := by
    intro i hi
    rw [BitVec.getLsbD_shiftLeft, BitVec.getLsbD_one]
    by_cases h1 : i < a <;> by_cases h2 : i = a <;> simp [hi, h1, h2] <;> omega
  refine ⟨1#16 <<< a, ?_, hbit⟩
  have hne : (1#16 <<< a) ≠ 0#16 := by
    intro hc
    have := hbit a ha
    rw [hc] at this
    simp at this
  have hb : ((1#16 <<< a) != 0#16) = true := by simpa using hne
  unfold single
  simp [hb, maxGroupArity, ha]

end StorageMask

/-! ### Iteration over bits -/

theorem mask_eq_zero {m : BitVec 64} (h : ∀ i < 64, m.getLsbD i = false) : m = 0#64 := by
  apply BitVec.eq_of_getLsbD_eq
  intro i hi
  simp [h i hi]

theorem find_range {p : Nat → Bool} {n : Nat} (h : ∃ i < n, p i = true) :
    ∃ i, (List.range n).find? p = some i ∧ i < n ∧ p i = true ∧ ∀ j < i, p j = false := by
  cases hf : (List.range n).find? p with
  | none =>
    obtain ⟨i, hi, hp⟩ := h
    rw [List.find?_eq_none] at hf
    exact absurd hp (by simpa using hf i (by simpa using hi))
  | some i =>
    obtain ⟨h1, h2, h3⟩ := List.find?_range_eq_some.1 hf
    exact ⟨i, rfl, by simpa using h2, h1, fun j hj => by simpa using h3 j hj⟩

theorem clear_getLsbD (m : BitVec 64) (i j : Nat) (hi : i < 64) :
    (m &&& ~~~ (1#64 <<< i)).getLsbD j = (m.getLsbD j && !decide (j = i)) := by
  rw [BitVec.getLsbD_and, BitVec.getLsbD_not, BitVec.getLsbD_shiftLeft, BitVec.getLsbD_one]
  by_cases hj : j < 64
  · by_cases h1 : j < i <;> by_cases h2 : j = i <;> simp [hj, h1, h2]
    omega
  · have : m.getLsbD j = false := BitVec.getLsbD_of_ge _ _ (by omega)
    simp [this]

theorem bitNext_none {m : BitVec 64} : bitNext m = none ↔ m = 0#64 := by
  unfold bitNext
  split <;> simp_all

/-- `next` yields the lowest bit and clears it. -/
theorem bitNext_some {m m' : BitVec 64} {i : Nat} (h : bitNext m = some (i, m')) :
    i < 64 ∧ m.getLsbD i = true ∧ (∀ j < i, m.getLsbD j = false) ∧
      ∀ j, m'.getLsbD j = (m.getLsbD j && !decide (j = i)) := by
  unfold bitNext at h
  split at h
  · cases h
  · rename_i hm
    simp only [Option.some.injEq, Prod.mk.injEq] at h
    obtain ⟨hi, hm'⟩ := h
    have hex : ∃ i < 64, m.getLsbD i = true := by
      by_contra hc
      apply hm
      apply mask_eq_zero
      intro i hi
      by_contra hb
      exact hc ⟨i, hi, by simpa using hb⟩
    obtain ⟨k, h1, h2, h3, h4⟩ := find_range hex
    have hk : trailingZeros m = k := by simp [trailingZeros, h1]
    rw [hk] at hi hm'
    subst hi
    refine ⟨h2, h3, h4, fun j => ?_⟩
    rw [← hm', clear_getLsbD _ _ _ h2]

theorem bitNextBack_none {m : BitVec 64} : bitNextBack m = none ↔ m = 0#64 := by
  unfold bitNextBack
  split <;> simp_all

/-- `next_back` yields the highest bit and clears it. -/
theorem bitNextBack_some {m m' : BitVec 64} {i : Nat} (h : bitNextBack m = some (i, m')) :
    i < 64 ∧ m.getLsbD i = true ∧ (∀ j, i < j → m.getLsbD j = false) ∧
      ∀ j, m'.getLsbD j = (m.getLsbD j && !decide (j = i)) := by
  unfold bitNextBack at h
  split at h
  · cases h
  · rename_i hm
    simp only [Option.some.injEq, Prod.mk.injEq] at h
    obtain ⟨hi, hm'⟩ := h
    have hex : ∃ i < 64, m.getLsbD (63 - i) = true := by
      by_contra hc
      apply hm
      apply mask_eq_zero
      intro i hi
      by_contra hb
      exact hc ⟨63 - i, by omega, by rw [show 63 - (63 - i) = i by omega]; simpa using hb⟩
    obtain ⟨k, h1, h2, h3, h4⟩ := find_range (p := fun i => m.getLsbD (63 - i)) hex
    have hk : leadingZeros m = k := by simp [leadingZeros, h1]
    rw [hk] at hi hm'
    subst hi
    refine ⟨by omega, h3, ?_, fun j => ?_⟩
    · intro j hj
      by_cases hj64 : j < 64
      · have := h4 (63 - j) (by omega)
        rwa [show 63 - (63 - j) = j by omega] at this
      · exact BitVec.getLsbD_of_ge _ _ (by omega)
    · rw [← hm', clear_getLsbD _ _ _ (by omega)]

/-- The members of a mask below `n`. -/
def maskCard (m : BitVec 64) : Nat := ((List.range 64).filter (fun i => m.getLsbD i)).length

theorem filter_range_lt {p q : Nat → Bool} {n i : Nat} (hi : i < n) (hp : p i = true) (hq : q i = false)
    (hpq : ∀ j, q j = true → p j = true) :
    ((List.range n).filter q).length < ((List.range n).filter p).length := by
  rw [← List.countP_eq_length_filter, ← List.countP_eq_length_filter]
  have h1 := List.countP_mono_left (l := List.range n) (p := q) (q := p) (fun j _ => hpq j)
  rcases Nat.lt_or_ge (List.countP q (List.range n)) (List.countP p (List.range n)) with h | h
  · exact h
  · exfalso
    have heq := Nat.le_antisymm h1 h
    have : ∀ x ∈ List.range n, p x = true → q x = true := by
      have hsub : (List.range n).countP p = (List.range n).countP (fun x => p x && q x)
        + (List.range n).countP (fun x => p x && !q x) := by
        rw [List.countP_eq_countP_filter_add (List.range n) p q]
        simp [List.countP_filter]
      have h2 : (List.range n).countP (fun x => p x && q x) = (List.range n).countP q := by
        apply List.countP_congr
        intro x _
        have := hpq x
        by_cases hqx : q x = true
        · simp [hqx, this hqx]
        · simp [hqx]
      have h3 : (List.range n).countP (fun x => p x && !q x) = 0 := by omega
      rw [List.countP_eq_zero] at h3
      intro x hx hpx
      have := h3 x hx
      simpa [hpx] using this
    have := this i (by simpa using hi) hp
    rw [hq] at this
    cases this

theorem maskCard_clear {m m' : BitVec 64} {i : Nat} (hi : i < 64) (hm : m.getLsbD i = true)
    (h : ∀ j, m'.getLsbD j = (m.getLsbD j && !decide (j = i))) : maskCard m' < maskCard m := by
  unfold maskCard
  refine filter_range_lt hi hm (by simp [h]) (fun j hj => ?_)
  rw [h] at hj
  simp only [Bool.and_eq_true] at hj
  exact hj.1

theorem maskCard_and_le (m k : BitVec 64) : maskCard (m &&& k) ≤ maskCard m := by
  unfold maskCard
  rw [← List.countP_eq_length_filter, ← List.countP_eq_length_filter]
  apply List.countP_mono_left
  intro j _ hj
  rw [BitVec.getLsbD_and, Bool.and_eq_true] at hj
  exact hj.1

theorem maskCard_zero {m : BitVec 64} (h : maskCard m ≤ 0) : m = 0#64 := by
  apply mask_eq_zero
  intro i hi
  by_contra hc
  have h1 : i ∈ (List.range 64).filter (fun i => m.getLsbD i) :=
    List.mem_filter.2 ⟨List.mem_range.2 hi, by simpa only [Bool.not_eq_false] using hc⟩
  have := List.length_pos_of_mem h1
  unfold maskCard at h
  omega

theorem maskCard_le (m : BitVec 64) : maskCard m ≤ 64 := by
  unfold maskCard
  exact Nat.le_trans (List.length_filter_le _ _) (by simp)

end Sparsey
