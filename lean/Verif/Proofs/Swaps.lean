import Verif.Proofs.StoreOps
import Verif.Proofs.Static

/-!
Where the exchanges of grouping happen: always within one set of a group, between entities that were in the set before.
-/

set_option autoImplicit false
set_option linter.unusedSimpArgs false

namespace Sparsey
variable {V : Type}

/-- Every pair consists of entities of one set of a group. -/
def PairsIn (L : Nat → List Entity) (gs : List Group) (ps : List (Entity × Entity)) : Prop :=
  ∀ pr ∈ ps, ∃ (j : Nat) (g : Group) (s : Nat), gs[j]? = some g ∧ g.storageStart ≤ s ∧ s < g.storageEnd ∧
    pr.1 ∈ L s ∧ pr.2 ∈ L s

theorem PairsIn.even {L : Nat → List Entity} {gs : List Group} {ps : List (Entity × Entity)} (h : PairsIn L gs ps)
    (hv : VersOK L gs) : EvenPairs ps := by
  intro pr hpr
  obtain ⟨j, g, s, h1, h2, h3, h4, h5⟩ := h pr hpr
  exact hv j g h1 s h2 h3 _ h4 _ h5

theorem PairsIn.nil (L : Nat → List Entity) (gs : List Group) : PairsIn L gs [] := by
  intro pr hpr; simp at hpr

theorem PairsIn.append {L : Nat → List Entity} {gs : List Group} {a b : List (Entity × Entity)} (ha : PairsIn L gs a)
    (hb : PairsIn L gs b) : PairsIn L gs (a ++ b) := by
  intro pr hpr
  rcases List.mem_append.1 hpr with h | h
  · exact ha pr h
  · exact hb pr h

theorem PairsIn.of {L L' : Nat → List Entity} {gs gs' : List Group} {ps : List (Entity × Entity)}
    (h : PairsIn L' gs' ps) (hs : SameStat gs gs') (hm : ∀ s e, e ∈ L' s → e ∈ L s) : PairsIn L gs ps := by
  intro pr hpr
  obtain ⟨j, g, s, h1, h2, h3, h4, h5⟩ := h pr hpr
  obtain ⟨g', h6, h7⟩ := hs.get h1
  exact ⟨j, g', s, h6, by rw [← Group.stat_start h7]; exact h2, by rw [← Group.stat_end h7]; exact h3, hm s _ h4,
    hm s _ h5⟩

theorem EvenPairs.nil : EvenPairs [] := by
  intro pr hpr; simp at hpr

theorem EvenPairs.append {a b : List (Entity × Entity)} (ha : EvenPairs a) (hb : EvenPairs b) : EvenPairs (a ++ b) := by
  intro pr hpr
  rcases List.mem_append.1 hpr with h | h
  · exact ha pr h
  · exact hb pr h

/-! ### Swaps keep the entities of a set -/

theorem CompSet.swap_sub {s s' : CompSet V} {a b : Nat} (h : s.swap a b = .ok s') :
    ∀ e ∈ s'.entities, e ∈ s.entities := by
  unfold CompSet.swap at h
  obtain ⟨ea, h1, h⟩ := Res.bind_ok' h
  obtain ⟨eb, h2, h⟩ := Res.bind_ok' h
  obtain ⟨sp, _, h⟩ := Res.bind_ok' h
  obtain ⟨va, _, h⟩ := Res.bind_ok' h
  obtain ⟨vb, _, h⟩ := Res.bind_ok' h
  cases h
  have h1' : ea ∈ s.entities := by
    cases hx : s.entities[a]? with
    | none => simp [hx, Res.unchecked] at h1
    | some x => simp [hx, Res.unchecked] at h1; subst h1; exact List.mem_of_getElem? hx
  have h2' : eb ∈ s.entities := by
    cases hx : s.entities[b]? with
    | none => simp [hx, Res.unchecked] at h2
    | some x => simp [hx, Res.unchecked] at h2; subst h2; exact List.mem_of_getElem? hx
  intro e he
  rcases List.mem_or_eq_of_mem_set he with he | rfl
  · rcases List.mem_or_eq_of_mem_set he with he | rfl
    · exact he
    · exact h2'
  · exact h1'

theorem swapTo_sub {s s' : CompSet V} {q sp : Nat} (h : swapTo s q sp = .ok s') : ∀ e ∈ s'.entities, e ∈ s.entities := by
  unfold swapTo at h
  obtain ⟨d, _, h⟩ := Res.bind_ok' h
  split at h
  · exact CompSet.swap_sub h
  · cases h; exact fun e he => he

theorem swapAllTo_sub {q sp : Nat} : ∀ {seg seg' : List (CompSet V)}, swapAllTo q sp seg = .ok seg' →
    seg'.length = seg.length ∧ ∀ s, ∀ e ∈ lists seg' s, e ∈ lists seg s := by
  intro seg
  induction seg with
  | nil => intro seg' h; cases h; exact ⟨rfl, fun _ _ h => h⟩
  | cons c cs ih =>
    intro seg' h
    unfold swapAllTo at h
    obtain ⟨c', h1, h⟩ := Res.bind_ok' h
    obtain ⟨cs', h2, h⟩ := Res.bind_ok' h
    cases h
    obtain ⟨h3, h4⟩ := ih h2
    refine ⟨by simp [h3], fun s e he => ?_⟩
    cases s with
    | zero => exact swapTo_sub h1 e he
    | succ s => exact h4 s e he

theorem swapRange_sub {comps comps' : List (CompSet V)} {a b q sp : Nat} (h : swapRange comps a b q sp = .ok comps') :
    ∀ s, ∀ e ∈ lists comps' s, e ∈ lists comps s := by
  unfold swapRange at h
  obtain ⟨seg, h1, h⟩ := Res.bind_ok' h
  obtain ⟨seg', h2, h⟩ := Res.bind_ok' h
  cases h
  unfold compRange at h1
  split at h1
  · rename_i hab
    cases h1
    obtain ⟨h3, h4⟩ := swapAllTo_sub h2
    have hsl : seg'.length = b - a := by
      rw [h3, List.length_take, List.length_drop]; omega
    intro s e he
    have hget := splice_get (l := comps) (seg' := seg') hab.1 hab.2 hsl s
    unfold lists at he
    rw [hget] at he
    split at he
    · rename_i hr
      have h5 := h4 (s - a) e he
      unfold lists at h5
      rw [seg_get comps (s - a) (by omega), show a + (s - a) = s by omega] at h5
      exact h5
    · exact he
  · cases h1

/-! ### The pairs -/

theorem swapToPairs_in {s : CompSet V} {q sp : Nat} : ∀ pr ∈ swapToPairs s q sp, pr.1 ∈ s.entities ∧ pr.2 ∈ s.entities := by
  intro pr hpr
  unfold swapToPairs at hpr
  split at hpr
  · split at hpr
    · simp at hpr
    · split at hpr
      · rename_i a b h1 h2
        simp only [List.mem_singleton] at hpr
        subst hpr
        exact ⟨List.mem_of_getElem? h1, List.mem_of_getElem? h2⟩
      · simp at hpr
  · simp at hpr

theorem swapRangePairs_in {comps : List (CompSet V)} {gs : List Group} {j q sp : Nat} {g : Group}
    (hg : gs[j]? = some g) : PairsIn (lists comps) gs (swapRangePairs comps g.storageStart g.storageEnd q sp) := by
  intro pr hpr
  obtain ⟨c, hc, hpr⟩ := List.mem_flatMap.1 hpr
  obtain ⟨s, h1, h2, h3⟩ := mem_seg.1 hc
  obtain ⟨h4, h5⟩ := swapToPairs_in pr hpr
  exact ⟨j, g, s, hg, h1, h2, by rw [lists_some h3]; exact h4, by rw [lists_some h3]; exact h5⟩

theorem groupLoopPairs_in {e : Entity} : ∀ (fuel : Nat) (m : BitVec 64) (comps : List (CompSet V)) (gs : List Group),
    PairsIn (lists comps) gs (groupLoopPairs e fuel m (comps, gs)) := by
  intro fuel
  induction fuel with
  | zero =>
    intro m comps gs
    unfold groupLoopPairs
    split
    · exact .nil _ _
    · exact .nil _ _
  | succ fuel ih =>
    intro m comps gs
    unfold groupLoopPairs
    cases hb : bitNext m with
    | none => exact .nil _ _
    | some r =>
      obtain ⟨j, m'⟩ := r
      simp only
      cases hg : gs[j]? with
      | none => exact .nil _ _
      | some g =>
        simp only
        cases hc : compRange comps g.newStorageStart g.storageEnd with
        | panic => exact .nil _ _
        | ub => exact .nil _ _
        | ok seg =>
          simp only
          cases hst : getGroupStatus seg g.len e with
          | panic => exact .nil _ _
          | ub => exact .nil _ _
          | ok st =>
            cases st with
            | incomplete => exact ih _ comps gs
            | grouped => exact ih _ comps gs
            | ungrouped =>
              simp only
              refine (swapRangePairs_in hg).append ?_
              cases hgc : groupComponents comps g e with
              | panic => exact .nil _ _
              | ub => exact .nil _ _
              | ok r =>
                obtain ⟨comps1, g1⟩ := r
                simp only
                unfold groupComponents at hgc
                obtain ⟨comps2, h1, h2⟩ := Res.bind_ok' hgc
                cases h2
                exact (ih m' comps1 (gs.set j { g with len := g.len + 1 })).of (SameStat.set hg _) (swapRange_sub h1)

theorem ungroupStepPairs_in {e : Entity} {j : Nat} (comps : List (CompSet V)) (gs : List Group) :
    PairsIn (lists comps) gs (ungroupStepPairs e j (comps, gs)) := by
  unfold ungroupStepPairs
  dsimp only
  cases hg : gs[j]? with
  | none => exact .nil _ _
  | some g =>
    simp only
    cases hc : compRange comps g.newStorageStart g.storageEnd with
    | panic => exact .nil _ _
    | ub => exact .nil _ _
    | ok seg =>
      simp only
      split
      · exact swapRangePairs_in hg
      · exact .nil _ _

theorem ungroupStep_sub {e : Entity} {j : Nat} {comps comps' : List (CompSet V)} {gs gs' : List Group}
    (h : ungroupStep e j (comps, gs) = .ok (comps', gs')) :
    SameStat gs gs' ∧ ∀ s, ∀ x ∈ lists comps' s, x ∈ lists comps s := by
  unfold ungroupStep at h
  obtain ⟨g, h1, h⟩ := Res.bind_ok' h
  obtain ⟨seg, h2, h⟩ := Res.bind_ok' h
  obtain ⟨st, h3, h⟩ := Res.bind_ok' h
  have hg : gs[j]? = some g := by
    cases hx : gs[j]? with
    | none => simp [hx, Res.unchecked] at h1
    | some x => simp [hx, Res.unchecked] at h1; subst h1; rfl
  cases st with
  | grouped =>
    simp only at h
    obtain ⟨r, h4, h⟩ := Res.bind_ok' h
    obtain ⟨comps1, g1⟩ := r
    cases h
    unfold ungroupComponents at h4
    split at h4
    · cases h4
    · obtain ⟨comps2, h5, h6⟩ := Res.bind_ok' h4
      cases h6
      exact ⟨SameStat.set hg _, swapRange_sub h5⟩
  | incomplete => cases h; exact ⟨.refl _, fun _ _ h => h⟩
  | ungrouped => cases h; exact ⟨.refl _, fun _ _ h => h⟩

theorem ungroupLoopPairs_in {e : Entity} : ∀ (fuel : Nat) (m : BitVec 64) (comps : List (CompSet V)) (gs : List Group),
    PairsIn (lists comps) gs (ungroupLoopPairs e fuel m (comps, gs)) := by
  intro fuel
  induction fuel with
  | zero =>
    intro m comps gs
    unfold ungroupLoopPairs
    split
    · exact .nil _ _
    · exact .nil _ _
  | succ fuel ih =>
    intro m comps gs
    unfold ungroupLoopPairs
    cases hb : bitNextBack m with
    | none => exact .nil _ _
    | some r =>
      obtain ⟨j, m'⟩ := r
      simp only
      refine (ungroupStepPairs_in comps gs).append ?_
      cases hs : ungroupStep e j (comps, gs) with
      | panic => exact .nil _ _
      | ub => exact .nil _ _
      | ok r =>
        obtain ⟨comps1, gs1⟩ := r
        obtain ⟨h1, h2⟩ := ungroupStep_sub hs
        exact (ih m' comps1 gs1).of h1 h2

theorem ungroupAllLoopPairs_in {e : Entity} : ∀ (n : Nat) (comps : List (CompSet V)) (gs : List Group),
    PairsIn (lists comps) gs (ungroupAllLoopPairs e n (comps, gs)) := by
  intro n
  induction n with
  | zero => intro comps gs; exact .nil _ _
  | succ n ih =>
    intro comps gs
    unfold ungroupAllLoopPairs
    refine (ungroupStepPairs_in comps gs).append ?_
    cases hs : ungroupStep e n (comps, gs) with
    | panic => exact .nil _ _
    | ub => exact .nil _ _
    | ok r =>
      obtain ⟨comps1, gs1⟩ := r
      obtain ⟨h1, h2⟩ := ungroupStep_sub hs
      exact (ih comps1 gs1).of h1 h2

theorem groupLoop_sub {e : Entity} : ∀ (fuel : Nat) (m : BitVec 64) (comps : List (CompSet V)) (gs : List Group)
    {comps' : List (CompSet V)} {gs' : List Group}, groupLoop e fuel m (comps, gs) = .ok (comps', gs') →
    SameStat gs gs' ∧ ∀ s, ∀ x ∈ lists comps' s, x ∈ lists comps s := by
  intro fuel
  induction fuel with
  | zero =>
    intro m comps gs comps' gs' h
    unfold groupLoop at h
    cases hb : bitNext m with
    | none => simp only [hb] at h; cases h; exact ⟨.refl _, fun _ _ h => h⟩
    | some r => simp only [hb] at h; cases h
  | succ fuel ih =>
    intro m comps gs comps' gs' h
    unfold groupLoop at h
    cases hb : bitNext m with
    | none => simp only [hb] at h; cases h; exact ⟨.refl _, fun _ _ h => h⟩
    | some r =>
      obtain ⟨j, m'⟩ := r
      simp only [hb] at h
      obtain ⟨g, h1, h⟩ := Res.bind_ok' h
      obtain ⟨seg, h2, h⟩ := Res.bind_ok' h
      obtain ⟨st, h3, h⟩ := Res.bind_ok' h
      have hg : gs[j]? = some g := by
        cases hx : gs[j]? with
        | none => simp [hx, Res.unchecked] at h1
        | some x => simp [hx, Res.unchecked] at h1; subst h1; rfl
      cases st with
      | incomplete => exact ih _ comps gs h
      | grouped => exact ih _ comps gs h
      | ungrouped =>
        simp only at h
        obtain ⟨r, h4, h⟩ := Res.bind_ok' h
        obtain ⟨comps1, g1⟩ := r
        unfold groupComponents at h4
        obtain ⟨comps2, h5, h6⟩ := Res.bind_ok' h4
        cases h6
        obtain ⟨h7, h8⟩ := ih m' comps1 _ h
        exact ⟨(SameStat.set hg _).trans h7, fun s x hx => swapRange_sub h5 s x (h8 s x hx)⟩

theorem groupEntitiesPairs_in {mask : GroupMask} : ∀ (es : List Entity) (comps : List (CompSet V)) (gs : List Group),
    PairsIn (lists comps) gs (ComponentStorage.groupEntitiesPairs mask es (comps, gs)) := by
  intro es
  induction es with
  | nil => intro comps gs; exact .nil _ _
  | cons e es ih =>
    intro comps gs
    unfold ComponentStorage.groupEntitiesPairs
    refine (groupLoopPairs_in 64 mask comps gs).append ?_
    cases hs : group (comps, gs) mask e with
    | panic => exact .nil _ _
    | ub => exact .nil _ _
    | ok r =>
      obtain ⟨comps1, gs1⟩ := r
      obtain ⟨h1, h2⟩ := groupLoop_sub _ _ _ _ hs
      exact (ih comps1 gs1).of h1 h2

end Sparsey
