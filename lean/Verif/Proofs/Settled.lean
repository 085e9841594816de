import Verif.Proofs.LayoutQuery
import Verif.Proofs.LoneStep
import Verif.Proofs.Ranges

/-!
The groups of every world whose last layout is proper, whatever the calls did to the contents of sets.
-/

set_option autoImplicit false
set_option linter.unusedSimpArgs false

namespace Sparsey
variable {V : Type}

theorem LayStat.of_shape {c c' : ComponentStorage V} {gl : List (List TypeId)} (h : LayStat c gl) (hs : Shape c c') :
    LayStat c' gl where
  store := by
    constructor
    · rw [hs.len]
      exact h.store.gstat.of_same hs.stat
    · rw [hs.len, hs.md]
      exact h.store.mds.of_same hs.stat
  groups := h.groups.of_same hs.md hs.stat

theorem LayStat.empty : LayStat (ComponentStorage.empty : ComponentStorage V) [] where
  store := by
    constructor
    · constructor <;> simp [ComponentStorage.empty]
    · constructor <;> simp [ComponentStorage.empty]
  groups := by simp [GroupsAre, ComponentStorage.empty]

theorem LayStat.register {c : ComponentStorage V} {gl : List (List TypeId)} (h : LayStat c gl) (t : TypeId) :
    LayStat (c.register t).2 gl := by
  unfold ComponentStorage.register
  cases hm : c.meta? t with
  | some m => exact h
  | none =>
    obtain ⟨h1, h2, h3⟩ := addSet_stat h.store hm _
    refine ⟨h1, h.groups.1, fun k g ts hg hts t' => ?_⟩
    exact (h.groups.2 k g ts hg hts t').trans (h3 t' k g hg).symm

theorem step_lay {w w' : World V} {op : Op V} {r : Ret V} {gl : List (List TypeId)} (h : LayStat w.components gl) (hl : op.layout = none)
    (hs : step w op = some (r, w')) : LayStat w'.components gl := by
  by_cases hop : op.keepsTypes
  · exact h.of_shape (step_shape hs hop)
  · cases op <;> simp only [Op.keepsTypes, not_true_eq_false, not_false_eq_true, Op.layout, reduceCtorEq] at hop hl
    simp only [step, Option.some.injEq, Prod.mk.injEq] at hs
    rw [← hs.2]
    exact h.register _

theorem step_setLayout_lay {w w' : World V} {rank : TypeId → Nat} {gs : List (List TypeId)} {r : Ret V}
    (hc : Static w.components) (hk : (w.components.metadata.map Prod.fst).Nodup)
    (hl : LayoutOK (GroupLayout.build gs).2) (hf : LayoutFits (GroupLayout.build gs).2)
    (hs : step w (.setLayout rank gs) = some (r, w')) :
    LayStat w'.components (layoutGroups (GroupLayout.build gs).2) := by
  obtain ⟨c1, mask, h1, h2, _, _, _, h4⟩ := setLayout_stat hk hc.idx hc.inj hl hf rank
  have h4 := h4 w.entities.asSlice
  have h0 : LayStat c1 (layoutGroups (GroupLayout.build gs).2) := ⟨h1, h2⟩
  simp only [step, World.setLayout] at hs
  rw [h4] at hs
  cases hg : ComponentStorage.groupEntities mask w.entities.asSlice (c1.components, c1.groups) with
  | ok p =>
    obtain ⟨comps', gs'⟩ := p
    rw [hg] at hs
    simp only [retOutcome, Option.some.injEq, Prod.mk.injEq] at hs
    rw [← hs.2]
    have := ComponentStorage.groupEntities_shape _ _ _ hg
    exact h0.of_shape ⟨rfl, this.1, this.2⟩
  | panic =>
    rw [hg] at hs
    simp only [retOutcome, Option.some.injEq, Prod.mk.injEq] at hs
    rw [← hs.2]
    exact h0
  | ub =>
    rw [hg] at hs
    cases hs

theorem lastLayout_snoc (ops : List (Op V)) (op : Op V) : lastLayout (ops ++ [op]) = op.layout.or (lastLayout ops) := by
  unfold lastLayout
  rw [List.reverse_append, List.reverse_singleton, List.singleton_append, List.findSome?_cons]
  cases op.layout <;> rfl

theorem lastLayout_split {pre post : List (Op V)} {rank : TypeId → Nat} {gs : List (List TypeId)}
    (hp : ∀ r g, .setLayout r g ∉ post) : lastLayout (pre ++ .setLayout rank gs :: post) = some gs := by
  unfold lastLayout
  rw [List.reverse_append, List.reverse_cons, List.append_assoc, List.findSome?_append,
    List.findSome?_eq_none_iff.2 fun op ho => ?_]
  · rfl
  · cases op <;> first | rfl | exact absurd (List.mem_reverse.1 ho) (hp _ _)

/-- Every reachable world whose last layout is proper has the groups of this layout. -/
theorem reach_lay {h : History V} {w : World V} (hr : Reach World.empty h w) (hn : Settled (calls h)) :
    LayStat w.components (mapOf (calls h)).groups := by
  induction hr with
  | nil => exact LayStat.empty
  | @snoc h w1 w2 op r hr hs ih =>
    have hcalls : calls (h ++ [(op, r)]) = calls h ++ [op] := by simp [calls]
    rw [hcalls] at hn ⊢
    rw [mapOf_snoc]
    unfold Settled at hn
    rw [lastLayout_snoc] at hn
    cases hl : op.layout with
    | none =>
      rw [hl, Option.none_or] at hn
      have : ((mapOf (calls h)).next op).groups = (mapOf (calls h)).groups := by
        cases op <;> first | rfl | cases hl
      rw [this]
      exact step_lay (ih hn) hl hs
    | some gs =>
      cases op <;> simp only [Op.layout, reduceCtorEq, Option.some.injEq] at hl
      subst hl
      obtain ⟨h1, h2⟩ := hn _ rfl
      exact step_setLayout_lay (reach_static hr) (reach_keys hr) h1 h2 hs

/-- Which queries are iterated with a group. -/
theorem LayStat.iter_iff {w : World V} {gl : List (List TypeId)} (h : LayStat w.components gl) {g i x : Query}
    {q : QueryAll V} (hq : q.Of w g i x) {it : Iter V} (hit : q.iter = .ok it) :
    it.isDense = true ↔ Grouped gl (required g ++ required i) (required x) := by
  rw [← h.range_iff hq]
  obtain ⟨o, ho⟩ : ∃ o, q.getGroupRange = .ok o := by
    unfold QueryAll.iter at hit
    obtain ⟨o, ho, _⟩ := Res.bind_ok' hit
    exact ⟨o, ho⟩
  simp only [QueryAll.iter, ho, Res.bind_ok] at hit
  cases o with
  | none =>
    cases hit
    simp [ho, Iter.isDense]
  | some p =>
    obtain ⟨m, n⟩ := p
    obtain ⟨es, _, he⟩ := Res.bind_ok' hit
    cases he
    simp [ho, Iter.isDense]

theorem MapWorld.AllFair.layouts : ∀ {ops : List (Op V)} {s : MapWorld V}, s.AllFair ops → ∀ op ∈ ops, ∀ gs,
    op.layout = some gs → LayoutOK (GroupLayout.build gs).2 ∧ LayoutFits (GroupLayout.build gs).2
  | op :: ops, s, h, op', ho, gs, hgs => by
    rcases List.mem_cons.1 ho with rfl | ho
    · cases op' <;> simp only [Op.layout, reduceCtorEq, Option.some.injEq] at hgs
      subst hgs
      exact h.1
    · exact MapWorld.AllFair.layouts h.2 op' ho gs hgs

theorem Fair.settled {ops : List (Op V)} (h : Fair ops) : Settled ops := by
  intro gs hgs
  obtain ⟨op, ho, hop⟩ := List.exists_of_findSome?_eq_some hgs
  exact h.allFair.layouts op (List.mem_reverse.1 ho) gs hop

/-- Slices are given exactly for the queries that are iterated with a group; looking for the group does not fail. -/
theorem LayStat.slice_iff {w : World V} {gl : List (List TypeId)} (h : LayStat w.components gl) {g i x : Query}
    {q : QueryAll V} (hq : q.Of w g i x) :
    (¬ Grouped gl (required g ++ required i) (required x) → q.slice = .ok none) ∧
    ∀ sl, q.slice = .ok sl → (sl.isSome ↔ Grouped gl (required g ++ required i) (required x)) := by
  rw [← h.range_iff hq]
  obtain ⟨o, ho, _⟩ := h.range_grouped hq
  simp only [QueryAll.slice, ho, Res.bind_ok]
  cases o with
  | none =>
    refine ⟨fun _ => rfl, fun sl hs => ?_⟩
    cases hs
    simp
  | some p =>
    obtain ⟨m, n⟩ := p
    refine ⟨fun hn => absurd ⟨m, n, rfl⟩ hn, fun sl hs => ?_⟩
    obtain ⟨xs, _, hx⟩ := Res.bind_ok' hs
    cases hx
    simp

end Sparsey
