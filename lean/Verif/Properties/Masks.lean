import Verif.Proofs.Mask

/-!
C41: group masks denote index ranges and iterate in order.
-/

set_option autoImplicit false

namespace Sparsey

/-- Repeated `BitIndexIter::next` (src/component/group_mask.rs:110-118) until `None`, at most `n` times. -/
def bitsForward : Nat → BitVec 64 → List Nat
  | 0, _ => []
  | n + 1, m =>
    match bitNext m with
    | none => []
    | some (i, m') => i :: bitsForward n m'

/-- Repeated `BitIndexIter::next_back` (src/component/group_mask.rs:123-131), the iteration of `.rev()`. -/
def bitsBackward : Nat → BitVec 64 → List Nat
  | 0, _ => []
  | n + 1, m =>
    match bitNextBack m with
    | none => []
    | some (i, m') => i :: bitsBackward n m'

/-- C41, masks: `GroupMask::from_to(a, b)` contains exactly the group indexes `a ≤ i < b`, `skip_from_to(a, b)` all
others; both panic unless `a ≤ b < 64`. -/
theorem C41_masks (a b : Nat) :
    (a ≤ b ∧ b < 64 →
      (∃ m, GroupMask.fromTo a b = .ok m ∧ ∀ i < 64, (m.getLsbD i = true ↔ a ≤ i ∧ i < b)) ∧
      (∃ m, GroupMask.skipFromTo a b = .ok m ∧ ∀ i < 64, (m.getLsbD i = true ↔ i < a ∨ b ≤ i))) ∧
    (¬ (a ≤ b ∧ b < 64) → GroupMask.fromTo a b = .panic ∧ GroupMask.skipFromTo a b = .panic) := by
  refine ⟨fun ⟨h1, h2⟩ => ⟨?_, ?_⟩, fun h => ?_⟩
  · obtain ⟨m, hm, hb⟩ := GroupMask.fromTo_ok h2 h1
    exact ⟨m, hm, fun i hi => by rw [hb i hi]; simp⟩
  · obtain ⟨m, hm, hb⟩ := GroupMask.skipFromTo_ok h2 h1
    refine ⟨m, hm, fun i hi => ?_⟩
    rw [hb i hi]
    simp only [Bool.not_eq_true', decide_eq_false_iff_not]
    omega
  · exact ⟨GroupMask.fromTo_panic (by omega), GroupMask.skipFromTo_panic (by omega)⟩

theorem bitsForward_spec : ∀ (n : Nat) (m : BitVec 64), maskCard m ≤ n →
    (bitsForward n m).Pairwise (· < ·) ∧ ∀ i, i ∈ bitsForward n m ↔ i < 64 ∧ m.getLsbD i = true := by
  intro n
  induction n with
  | zero =>
    intro m hm
    refine ⟨by simp [bitsForward], fun i => ?_⟩
    simp only [bitsForward, List.not_mem_nil, false_iff, not_and]
    intro hi hc
    have : i ∈ (List.range 64).filter (fun i => m.getLsbD i) := by simp [hi, hc]
    have := List.length_pos_of_mem this
    unfold maskCard at hm
    omega
  | succ n ih =>
    intro m hm
    unfold bitsForward
    split
    · rename_i h
      rw [bitNext_none.1 h]
      simp
    · rename_i i m' h
      obtain ⟨h1, h2, h3, h4⟩ := bitNext_some h
      have hlt := maskCard_clear h1 h2 h4
      obtain ⟨ih1, ih2⟩ := ih m' (by omega)
      refine ⟨?_, fun j => ?_⟩
      · rw [List.pairwise_cons]
        refine ⟨fun j hj => ?_, ih1⟩
        have := ((ih2 j).1 hj).2
        rw [h4, Bool.and_eq_true] at this
        by_contra hc
        rcases Nat.lt_or_eq_of_le (Nat.le_of_not_lt hc) with hc | hc
        · rw [h3 j hc] at this; simp at this
        · rw [hc] at this; simp at this
      · rw [List.mem_cons, ih2, h4]
        simp only [Bool.and_eq_true, Bool.not_eq_true', decide_eq_false_iff_not]
        constructor
        · rintro (rfl | ⟨h5, h6, _⟩)
          · exact ⟨h1, h2⟩
          · exact ⟨h5, h6⟩
        · rintro ⟨h5, h6⟩
          by_cases hj : j = i
          · exact .inl hj
          · exact .inr ⟨h5, h6, hj⟩

theorem bitsBackward_spec : ∀ (n : Nat) (m : BitVec 64), maskCard m ≤ n →
    (bitsBackward n m).Pairwise (· > ·) ∧ ∀ i, i ∈ bitsBackward n m ↔ i < 64 ∧ m.getLsbD i = true := by
  intro n
  induction n with
  | zero =>
    intro m hm
    refine ⟨by simp [bitsBackward], fun i => ?_⟩
    simp only [bitsBackward, List.not_mem_nil, false_iff, not_and]
    intro hi hc
    have : i ∈ (List.range 64).filter (fun i => m.getLsbD i) := by simp [hi, hc]
    have := List.length_pos_of_mem this
    unfold maskCard at hm
    omega
  | succ n ih =>
    intro m hm
    unfold bitsBackward
    split
    · rename_i h
      rw [bitNextBack_none.1 h]
      simp
    · rename_i i m' h
      obtain ⟨h1, h2, h3, h4⟩ := bitNextBack_some h
      have hlt := maskCard_clear h1 h2 h4
      obtain ⟨ih1, ih2⟩ := ih m' (by omega)
      refine ⟨?_, fun j => ?_⟩
      · rw [List.pairwise_cons]
        refine ⟨fun j hj => ?_, ih1⟩
        have := ((ih2 j).1 hj).2
        rw [h4, Bool.and_eq_true] at this
        by_contra hc
        rcases Nat.lt_or_eq_of_le (Nat.le_of_not_lt hc) with hc | hc
        · rw [h3 j hc] at this; simp at this
        · rw [← hc] at this; simp at this
      · rw [List.mem_cons, ih2, h4]
        simp only [Bool.and_eq_true, Bool.not_eq_true', decide_eq_false_iff_not]
        constructor
        · rintro (rfl | ⟨h5, h6, _⟩)
          · exact ⟨h1, h2⟩
          · exact ⟨h5, h6⟩
        · rintro ⟨h5, h6⟩
          by_cases hj : j = i
          · exact .inl hj
          · exact .inr ⟨h5, h6, hj⟩

/-- C41, iteration: driving the iterator of any mask forwards (backwards) visits its members once each in increasing
(decreasing) order; 64 steps exhaust it. -/
theorem C41_iter (m : BitVec 64) :
    bitsForward 64 m = (List.range 64).filter (fun i => m.getLsbD i) ∧
    bitsBackward 64 m = ((List.range 64).filter (fun i => m.getLsbD i)).reverse := by
  obtain ⟨h1, h2⟩ := bitsForward_spec 64 m (maskCard_le m)
  obtain ⟨h3, h4⟩ := bitsBackward_spec 64 m (maskCard_le m)
  have hs : ((List.range 64).filter (fun i => m.getLsbD i)).Pairwise (· < ·) :=
    List.Pairwise.filter _ List.pairwise_lt_range
  have key : ∀ {l l' : List Nat}, l.Pairwise (· < ·) → l'.Pairwise (· < ·) → (∀ i, i ∈ l ↔ i ∈ l') → l = l' := by
    intro l l' h h' hm
    refine List.Perm.eq_of_pairwise (le := (· < ·)) (fun a b _ _ h1 h2 => absurd h1 (Nat.lt_asymm h2)) h h' ?_
    rw [List.perm_ext_iff_of_nodup]
    · exact hm
    · exact h.imp (fun h => Nat.ne_of_lt h)
    · exact h'.imp (fun h => Nat.ne_of_lt h)
  refine ⟨key h1 hs (fun i => by rw [h2]; simp), ?_⟩
  rw [← List.reverse_reverse (bitsBackward 64 m)]
  congr 1
  refine key (List.pairwise_reverse.2 h3) hs (fun i => by rw [List.mem_reverse, h4]; simp)

example : bitsForward 64 0x8000000000000029#64 = [0, 3, 5, 63] ∧
    bitsBackward 64 0x8000000000000029#64 = [63, 5, 3, 0] ∧
    GroupMask.fromTo 3 6 = .ok 0x38#64 ∧ GroupMask.fromTo 0 64 = .panic := by decide

end Sparsey
