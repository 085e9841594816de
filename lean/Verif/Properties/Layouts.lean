import Verif.Properties.Queries
import Verif.Proofs.Settled
import Verif.Proofs.LayoutLimits
import Mathlib.Data.List.Permutation
import Mathlib.Tactic.IntervalCases

/-!
Properties of group layouts: C26, C32, C33, C34.

`GroupLayout.build gs = (p, l)` says that the calls `add_group` for the groups `gs`, starting from an empty layout, give
the layout `l`, and `p` whether one of them panicked.
-/

set_option autoImplicit false
set_option linter.unusedSimpArgs false

namespace Sparsey
variable {V : Type}

/-! ### C32 -/

/-- C32 is false: adding `(0, 1)` after `(0, 1, 2)` panics, in the other order both are accepted. -/
theorem C32_false : (GroupLayout.build [[0, 1, 2], [0, 1]]).1 = true ∧
    (GroupLayout.build [[0, 1], [0, 1, 2]]).1 = false ∧
    SameGroups (layoutGroups (GroupLayout.build [[0, 1], [0, 1, 2]]).2) [[0, 1], [0, 1, 2]] := by
  decide

/-- C32 is false for some sets of disjoint or nested groups in whatever order they are added. -/
theorem C32_laminar_false (gs : List (List TypeId)) (h : gs.Perm [[0, 1], [2, 3], [0, 1, 2, 3]]) :
    (GroupLayout.build gs).1 = true := by
  have h1 : ∀ gs ∈ List.permutations' ([[0, 1], [2, 3], [0, 1, 2, 3]] : List (List TypeId)),
    (GroupLayout.build gs).1 = true := by decide
  exact h1 gs (List.mem_permutations'.2 h)

/-- C32 for groups of at most 16 types of which each one, when it is added, contains those added before with which it
has types in common, and these have types in common with each other (or it was added before): no `add_group` call
panics, and the layout then has exactly these groups. Missing: other orders (`C32_false`), and disjoint groups inside a
common larger one (`C32_laminar_false`). -/
theorem C32_partial (gs : List (List TypeId)) (h16 : ∀ g ∈ gs, g.dedup.length ≤ 16)
    (hj : ∀ a g b, gs = a ++ g :: b → IsGroup g → Joins (a.filter fun g => decide (IsGroup g)) g) :
    ∃ l, GroupLayout.build gs = (false, l) ∧ LayoutOK l ∧
      SameGroups (layoutGroups l) (gs.filter fun g => decide (IsGroup g)) := by
  have := addGroups_joins gs [] .empty LayoutOK.empty (by simp [GroupLayout.empty, layoutGroups, SameGroups]) h16
    (by simpa using hj)
  simpa [GroupLayout.build] using this

/-- C32 with conditions on the set of groups: groups of at most 16 types, any two of them disjoint or nested, any two
inside a third one nested. They are accepted if smaller ones are added first. -/
theorem C32_sorted_partial (gs : List (List TypeId)) (h16 : ∀ g ∈ gs, g.dedup.length ≤ 16)
    (hn : ∀ a ∈ gs, ∀ b ∈ gs, Meet a b → (∀ t ∈ a, t ∈ b) ∨ ∀ t ∈ b, t ∈ a)
    (hc : ∀ a ∈ gs, ∀ b ∈ gs, ∀ c ∈ gs, IsGroup a → IsGroup b → (∀ t ∈ a, t ∈ c) → (∀ t ∈ b, t ∈ c) → Meet a b)
    (ho : gs.Pairwise fun a b => a.dedup.length ≤ b.dedup.length) :
    ∃ l, GroupLayout.build gs = (false, l) ∧ LayoutOK l ∧
      SameGroups (layoutGroups l) (gs.filter fun g => decide (IsGroup g)) := by
  refine C32_partial gs h16 fun a g b hab hg => .inr ?_
  have hgm : g ∈ gs := by rw [hab]; simp
  have hsub : ∀ h ∈ a.filter (fun g => decide (IsGroup g)), Meet h g → ∀ t ∈ h, t ∈ g := by
    intro h hh hm
    have hha := (List.mem_filter.1 hh).1
    have hhg : h ∈ gs := by rw [hab]; exact List.mem_append_left _ hha
    rcases hn h hhg g hgm hm with h1 | h1
    · exact h1
    · rw [hab] at ho
      have hle := (List.pairwise_append.1 ho).2.2 h hha g (.head _)
      have hs := Nodup.same_of_subset (List.nodup_dedup g) (b := h.dedup)
        (fun t ht => List.mem_dedup.2 (h1 t (List.mem_dedup.1 ht))) hle
      intro t ht
      exact List.mem_dedup.1 ((hs t).2 (List.mem_dedup.2 ht))
  refine ⟨hsub, ?_⟩
  intro h hh k hk hmh hmk
  have h1 := List.mem_filter.1 hh
  have h2 := List.mem_filter.1 hk
  refine hc h (by rw [hab]; exact List.mem_append_left _ h1.1) k (by rw [hab]; exact List.mem_append_left _ h2.1) g hgm
    (by simpa using h1.2) (by simpa using h2.2) (hsub h hh hmh) (hsub k hk hmk)

/-- Groups for which `C32_sorted_partial` (and so `C32_partial`) applies: two chains, a repetition in a different order,
and lists of fewer than two types. -/
example : ∃ l, GroupLayout.build [[], [7, 7], [3, 1], [5, 6, 5], [1, 3], [1, 2, 3], [1, 2, 3, 4, 9]] = (false, l) ∧
    LayoutOK l ∧ SameGroups (layoutGroups l) [[3, 1], [5, 6, 5], [1, 3], [1, 2, 3], [1, 2, 3, 4, 9]] :=
  C32_sorted_partial _ (by decide) (by decide) (by decide) (by decide)

/-! ### C33 -/

/-- C33, first part: if no `add_group` call panics, the families are pairwise disjoint, have no type twice, and strictly
increasing arities from 2 to 16, the last one covering the family. -/
theorem C33_wellformed {gs : List (List TypeId)} {l : GroupLayout} (h : GroupLayout.build gs = (false, l)) :
    LayoutOK l ∧ (∀ f ∈ l.families, f.components.length ≤ 16) ∧
      ∀ g ∈ layoutGroups l, 2 ≤ g.length ∧ g.length ≤ 16 ∧ g.Nodup := by
  obtain ⟨h1, h2⟩ := addGroups_wf LayoutOK.empty (by simp [GroupLayout.empty]) h
  refine ⟨h1, h2, fun g hg => ?_⟩
  have hn := h1.group_nodup hg
  obtain ⟨f, hf, hg⟩ := List.mem_flatMap.1 hg
  obtain ⟨a, ha, rfl⟩ := List.mem_map.1 hg
  have h3 := (h1.1 f hf).mem_le ha
  have h4 := (h1.1 f hf).2.1 a ha
  have h5 := h2 f hf
  rw [List.length_take]
  exact ⟨by omega, by omega, hn⟩

/-- C33, group sizes: groups have at least `MIN_GROUP_ARITY` and at most `MAX_GROUP_ARITY` types, and every size in between is
possible. -/
theorem C33_arity : (∀ (gs : List (List TypeId)) (l : GroupLayout), GroupLayout.build gs = (false, l) →
      ∀ g ∈ layoutGroups l, minGroupArity ≤ g.length ∧ g.length ≤ maxGroupArity) ∧
    ∀ n, minGroupArity ≤ n → n ≤ maxGroupArity →
      ∃ l, GroupLayout.build [List.range n] = (false, l) ∧ ∃ g ∈ layoutGroups l, g.length = n := by
  constructor
  · intro gs l h g hg
    have := (C33_wellformed h).2.2 g hg
    exact ⟨this.1, this.2.1⟩
  · intro n h1 h2
    unfold minGroupArity at h1
    unfold maxGroupArity at h2
    interval_cases n <;> exact ⟨_, by rfl, by decide⟩

/-- A group of the largest and one of the smallest size. -/
example : let l := (GroupLayout.build [List.range 16, [20, 21]]).2
    (layoutGroups l).map List.length = [maxGroupArity, minGroupArity] := by decide

/-- A layout built without panics, one group silently misinterpreted. -/
example : GroupLayout.build [[0, 1, 2], [0, 1, 2, 3, 4], [3, 4], [8, 7]] =
    (false, ⟨[⟨[0, 1, 2, 3, 4], [2, 3, 5]⟩, ⟨[7, 8], [2]⟩]⟩) := by decide

/-- C33, second part, is false: no `add_group` call panics, but instead of the group `(3, 4)` the layout has `(0, 1)`,
which was never asked for. In the second case the layout loses the group `(0, 1)` and forgets the type `5`. -/
theorem C33_false :
    (∃ l, GroupLayout.build [[0, 1, 2], [0, 1, 2, 3, 4], [3, 4]] = (false, l) ∧
      (¬ ∃ g ∈ layoutGroups l, SameTypes g [3, 4]) ∧ ∃ g ∈ layoutGroups l, SameTypes g [0, 1]) ∧
    ∃ l, GroupLayout.build [[0, 1], [0, 1, 2, 3, 4], [0, 1, 5]] = (false, l) ∧
      (¬ ∃ g ∈ layoutGroups l, SameTypes g [0, 1]) ∧ 5 ∉ layoutTypes l := by
  exact ⟨⟨_, rfl, by decide, by decide⟩, ⟨_, rfl, by decide, by decide⟩⟩

/-- C33 is false for layouts that are used further after a caught panic: the families are not disjoint. -/
theorem C33_caught_false : ∃ l, GroupLayout.build [[0, 1], [2, 3], [0, 1, 2, 3]] = (true, l) ∧
    ¬ (layoutTypes l).Nodup := ⟨_, rfl, by decide⟩

/-- C33, second part, for every well formed layout and list of types: `add_group` ignores less than two types and
rejects more than 16 by a panic, without changing the layout. Other groups are added if they fit, that is
`Joins`, and the layout then has exactly one group more (or the group was there). A group that does not fit and has no
types in common with a larger one is rejected by a panic. Missing: a group that does not fit and has types in common
with a larger one is either rejected by a panic or silently *not* added (`C33_false`). -/
theorem C33_partial {l : GroupLayout} (h : LayoutOK l) (g : List TypeId) :
    (¬ IsGroup g → l.addGroup g = .ok () l) ∧
    (16 < g.dedup.length → l.addGroup g = .panic l) ∧
    (IsGroup g → g.dedup.length ≤ 16 → Joins (layoutGroups l) g → ∃ l', l.addGroup g = .ok () l' ∧ LayoutOK l' ∧
      SameGroups (layoutGroups l') (layoutGroups l ++ [g])) ∧
    (IsGroup g → g.dedup.length ≤ 16 → ¬ Joins (layoutGroups l) g →
      (∀ k ∈ layoutGroups l, Meet k g → k.length ≤ g.dedup.length) → ∃ l', l.addGroup g = .panic l') ∧
    (IsGroup g → g.dedup.length ≤ 16 → ¬ Joins (layoutGroups l) g → (∃ l', l.addGroup g = .panic l') ∨
      ∃ l', l.addGroup g = .ok () l' ∧ LayoutOK l' ∧ ¬ ∃ k ∈ layoutGroups l', SameTypes k g) := by
  refine ⟨addGroup_few, addGroup_many, fun hg h16 => (addGroup_ok h hg h16).1, fun hg h16 hJ hk => ?_,
    fun hg h16 hJ => ?_⟩
  · rcases (addGroup_ok h hg h16).2 hJ with h1 | ⟨_, _, _, _, _, k, h2, h3, h4⟩
    · exact h1
    · have := hk k h2 h3
      omega
  · rcases (addGroup_ok h hg h16).2 hJ with h1 | ⟨l', h1, h2, h3, _⟩
    · exact .inl h1
    · exact .inr ⟨l', h1, h2, h3⟩

/-- The cases of `C33_partial` on one layout: a group that is added, one that does not fit, one that is there. -/
example : let l : GroupLayout := ⟨[⟨[0, 1, 2], [2, 3]⟩, ⟨[7, 8], [2]⟩]⟩
    LayoutOK l ∧ (IsGroup [8, 9, 7] ∧ Joins (layoutGroups l) [8, 9, 7]) ∧
      (¬ Joins (layoutGroups l) [2, 3, 4] ∧ ∀ k ∈ layoutGroups l, Meet k [2, 3, 4] → k.length ≤ 3) ∧
      Joins (layoutGroups l) [1, 0] := by decide

/-! ### C34 -/

/-- C34 is false: the layout with one group of 16 types, and the layout with 64 groups, are accepted by `add_group`, but
a world cannot be made with them. -/
theorem C34_false :
    (∃ l w, GroupLayout.build [List.range 16] = (false, l) ∧ WithinLimits l ∧
      (World.new anyOrder l : Outcome (World Nat) Unit) = .panic w) ∧
    ∃ l w, GroupLayout.build ((List.range 64).map fun i => [2 * i, 2 * i + 1]) = (false, l) ∧ WithinLimits l ∧
      (World.new anyOrder l : Outcome (World Nat) Unit) = .panic w := by
  have key : ∀ gs, (GroupLayout.build gs).1 = false → WithinLimits (GroupLayout.build gs).2 →
      (match (World.new anyOrder (GroupLayout.build gs).2 : Outcome (World Nat) Unit) with
        | .panic _ => true
        | _ => false) = true →
      ∃ l w, GroupLayout.build gs = (false, l) ∧ WithinLimits l ∧
        (World.new anyOrder l : Outcome (World Nat) Unit) = .panic w := by
    intro gs h1 h2 h3
    cases hw : (World.new anyOrder (GroupLayout.build gs).2 : Outcome (World Nat) Unit) with
    | ok u w => rw [hw] at h3; cases h3
    | ub => rw [hw] at h3; cases h3
    | panic w => exact ⟨_, w, by rw [← h1], h2, hw⟩
  exact ⟨key _ (by decide +kernel) (by decide +kernel) (by decide +kernel),
    key _ (by decide +kernel) (by decide +kernel) (by decide +kernel)⟩

/-- C34 for groups of at most 15 types and at most 63 groups; these are exactly the well formed layouts with which a
world can be made. Missing: groups of 16 types, 64 groups. -/
theorem C34_partial {l : GroupLayout} (h : LayoutOK l) (rank : TypeId → Nat) :
    (∃ w : World V, World.new rank l = .ok () w) ↔ LayoutFits l := by
  constructor
  · rintro ⟨w, hw⟩
    unfold World.new at hw
    cases hc : (ComponentStorage.new rank l : Outcome (ComponentStorage V) Unit) with
    | ok u c => exact setLayout_limits h hc
    | panic c => rw [hc] at hw; cases hw
    | ub => rw [hc] at hw; cases hw
  · intro hf
    have hi := Inv.init (V := V)
    obtain ⟨c', h1, _⟩ := setLayout_ok (A := fun e => e ∈ (MapWorld.init : MapWorld V).life.alive) (es := [])
      hi.life.idxUniq hi.store h hf (fun x hx => by cases hx) rank
      (by
        unfold ComponentStorage.setLayoutPairs
        dsimp only
        repeat' split
        all_goals exact .nil)
    refine ⟨⟨EntityStorage.empty, c'⟩, ?_⟩
    unfold World.new ComponentStorage.new
    have h1 : ComponentStorage.setLayout rank ComponentStorage.empty l [] = .ok () c' := h1
    rw [h1]

/-- Changing the layout of a world never succeeds at the maxima. -/
theorem C34_set {l : GroupLayout} (h : LayoutOK l) {rank : TypeId → Nat} {w w' : World V}
    (hs : w.setLayout rank l = .ok () w') : LayoutFits l := by
  unfold World.setLayout at hs
  cases hc : w.components.setLayout rank l w.entities.asSlice with
  | ok u c => exact setLayout_limits h hc
  | panic c => rw [hc] at hs; cases hs
  | ub => rw [hc] at hs; cases hs

/-- A layout at the limit of `C34_partial`. -/
example : let l := (GroupLayout.build [[20, 21], List.range 15]).2
    LayoutOK l ∧ LayoutFits l ∧ ∃ g ∈ layoutGroups l, g.length = 15 := by decide +kernel

/-! ### C26 -/

/-- C26 is false: the groups `(0, 1, 2)`, `(0, 1, 2, 3, 4)` and `(3, 4)` are accepted, a world is made with them, but
the query over `(3, 4)` is neither dense nor sliceable. -/
theorem C26_false : ∃ (h : History Nat) (w : World Nat) (q : QueryAll Nat) (b : Borrows) (it : Iter Nat),
    (GroupLayout.build [[0, 1, 2], [0, 1, 2, 3, 4], [3, 4]]).1 = false ∧
    calls h = [.setLayout anyOrder [[0, 1, 2], [0, 1, 2, 3, 4], [3, 4]]] ∧ Reach World.empty h w ∧
    QueryAll.new w [] [.ref 3, .ref 4] [] [] = .ok (q, b) ∧ q.iter = .ok it ∧ it.isDense = false ∧
    q.slice = .ok none := by
  obtain ⟨rs, w, hr, hf⟩ := reach_witness
    (ops := ([.setLayout anyOrder [[0, 1, 2], [0, 1, 2, 3, 4], [3, 4]]] : List (Op Nat)))
    (f := fun rs w => decide (rs.length = 1) && match QueryAll.new w [] [.ref 3, .ref 4] [] [] with
      | .ok (q, _) => (match q.iter with
        | .ok it => !it.isDense
        | _ => false) && decide (q.slice = .ok none)
      | _ => false) (by decide)
  simp only [Bool.and_eq_true, decide_eq_true_eq] at hf
  obtain ⟨hl, hf⟩ := hf
  cases hq : QueryAll.new w [] [.ref 3, .ref 4] [] [] with
  | panic => rw [hq] at hf; cases hf
  | ub => rw [hq] at hf; cases hf
  | ok p =>
    obtain ⟨q, b⟩ := p
    rw [hq] at hf
    simp only [Bool.and_eq_true, decide_eq_true_eq] at hf
    cases hi : q.iter with
    | panic => rw [hi] at hf; cases hf.1
    | ub => rw [hi] at hf; cases hf.1
    | ok it =>
      rw [hi] at hf
      refine ⟨_, w, q, b, it, by decide, ?_, hr, hq, hi, by simpa using hf.1, hf.2⟩
      unfold calls
      rw [List.map_fst_zip (by simp [hl])]

/-- C26 for the groups the layout has: a query whose required types are exactly those of a group of the layout, without
exclusions, is dense, whatever was done to the world since the layout was set; for `Fair` histories it can be sliced.
Missing: layouts that are not `Settled`, slices after histories that are not `Fair`. -/
theorem C26_partial {h : History V} {w : World V} (hr : Reach World.empty h w) (hl : Settled (calls h)) {b b' : Borrows}
    {g i x : Query} {q : QueryAll V} (hq : QueryAll.new w b g i x = .ok (q, b')) {ts : List TypeId}
    (hts : ∃ k ∈ (mapOf (calls h)).groups, SameTypes k ts) (hR : SameTypes (required g ++ required i) ts)
    (hx : required x = []) :
    (∃ it, q.iter = .ok it ∧ it.isDense = true) ∧ (Fair (calls h) → ∃ sl, q.slice = .ok (some sl)) := by
  have hlay := reach_lay hr hl
  have ho := QueryAll.new_ok hq
  obtain ⟨k, hk, hks⟩ := hts
  have hG : Grouped (mapOf (calls h)).groups (required g ++ required i) (required x) :=
    .inl ⟨hx, .inr ⟨k, hk, hR.trans hks.symm⟩⟩
  constructor
  · obtain ⟨it, hit, _⟩ := (reach_range hr).iter ho
    exact ⟨it, hit, (hlay.iter_iff ho hit).2 hG⟩
  · intro hg
    obtain ⟨r, hrs⟩ := (reach_out hr hg).slice_ok ho
    obtain ⟨sl, rfl⟩ := Option.isSome_iff_exists.1 (((hlay.slice_iff ho).2 r hrs).2 hG)
    exact ⟨sl, hrs⟩

theorem groups_after {ops : List (Op V)} (hn : ∀ rank gs, .setLayout rank gs ∉ ops) :
    ∀ s : MapWorld V, (s.run ops).groups = s.groups := by
  induction ops with
  | nil => exact fun s => rfl
  | cons op ops ih =>
    intro s
    show ((s.next op).run ops).groups = s.groups
    rw [ih (fun r g h => hn r g (.tail _ h))]
    cases op with
    | setLayout r g => exact (hn r g (.head _)).elim
    | _ => rfl

/-- C26 for the groups asked for: in a world whose layout was last set with groups that fit each other in the order in
which they were added (`C32_partial`), a query over exactly the types of one of them is dense, whatever was done since;
for `Fair` histories it can be sliced. Missing: layouts with misinterpreted groups (`C26_false`) or at the documented
maxima, slices after histories that are not `Fair`. -/
theorem C26_declared_partial {h : History V} {w : World V} (hr : Reach World.empty h w)
    {pre post : List (Op V)} {rank : TypeId → Nat} {gs : List (List TypeId)}
    (hc : calls h = pre ++ .setLayout rank gs :: post) (hp : ∀ r g, .setLayout r g ∉ post)
    (h16 : ∀ g ∈ gs, g.dedup.length ≤ 16) (hfit : LayoutFits (GroupLayout.build gs).2)
    (hj : ∀ a g b, gs = a ++ g :: b → IsGroup g → Joins (a.filter fun g => decide (IsGroup g)) g)
    {b b' : Borrows} {g i x : Query} {q : QueryAll V} (hq : QueryAll.new w b g i x = .ok (q, b')) {ts : List TypeId}
    (hts : ts ∈ gs) (hgr : IsGroup ts) (hR : SameTypes (required g ++ required i) ts) (hx : required x = []) :
    (∃ it, q.iter = .ok it ∧ it.isDense = true) ∧ (Fair (calls h) → ∃ sl, q.slice = .ok (some sl)) := by
  obtain ⟨l, hl, hok, hs⟩ := C32_partial gs h16 hj
  refine C26_partial hr ?_ hq ?_ hR hx
  · intro gs' hgs
    rw [hc, lastLayout_split hp] at hgs
    cases hgs
    exact ⟨by rw [hl]; exact hok, hfit⟩
  have : (mapOf (calls h)).groups = layoutGroups l := by
    rw [hc]
    unfold mapOf MapWorld.run
    rw [List.foldl_append, List.foldl_cons]
    show (MapWorld.run _ post).groups = _
    rw [groups_after hp]
    show layoutGroups (GroupLayout.build gs).2 = _
    rw [hl]
  rw [this]
  exact hs.2 ts (List.mem_filter.2 ⟨hts, by simpa using hgr⟩)

/-- A world and a query for which `C26_declared_partial` and `C26_partial` apply. -/
example : Good queryOps ∧ (∃ k ∈ (mapOf queryOps).groups, SameTypes k [1, 0]) ∧ holdsAfter queryOps (fun _ w =>
    match QueryAll.new w [] [.ref 1, .entity] [.refMut 0] [] with
    | .ok (q, _) => (match q.iter with
      | .ok it => it.isDense
      | _ => false)
    | _ => false) = true := by
  decide +kernel

end Sparsey
