import Verif.Proofs.QueryIter
import Verif.Proofs.Static
import Verif.Proofs.Safe

/-!
Group infos point to existing groups in every reachable world, even after a `set_layout` that panicked half-way: looking
up the group of a query is always in bounds.
-/

set_option autoImplicit false
set_option linter.unusedSimpArgs false

namespace Sparsey
variable {V : Type}

/-- Group infos point to existing groups and are not empty; the first group excludes nothing from nothing. -/
structure RangeOk (c : ComponentStorage V) : Prop where
  info : ∀ t m i, c.meta? t = some m → m.groupInfo = some i → 1 ≤ i.groupEnd ∧ i.groupEnd ≤ c.groups.length ∧
    ∃ b, i.storageMask.getLsbD b = true
  first : ∀ g, c.groups[0]? = some g → g.excludeMask.includeMask = 0#16

namespace RangeOk
variable {c c' : ComponentStorage V}

theorem of_shape (h : RangeOk c) (hs : Shape c c') : RangeOk c' where
  info t m i hm hi := by rw [hs.stat.length]; exact h.info t m i (by rw [← hs.meta?]; exact hm) hi
  first g hg := by
    obtain ⟨g', h1, h2⟩ := hs.stat.get hg
    rw [Group.stat_exc h2]
    exact h.first g' h1

theorem push (h : RangeOk c) (t : TypeId) (m : ComponentMetadata)
    (hm : ∀ i, m.groupInfo = some i → 1 ≤ i.groupEnd ∧ i.groupEnd ≤ c.groups.length ∧ ∃ b, i.storageMask.getLsbD b = true)
    (s : CompSet V) :
    RangeOk { c with metadata := ComponentStorage.insertMeta c.metadata t m, components := c.components ++ [s] } where
  info t' m' i h' hi := by
    simp only [ComponentStorage.meta?, insertMeta_lookup] at h'
    split at h'
    · cases h'; exact hm i hi
    · exact h.info t' m' i h' hi
  first := h.first

theorem pushGroup (h : RangeOk c) {g : Group} (hg : c.groups = [] → g.excludeMask.includeMask = 0#16) :
    RangeOk { c with groups := c.groups ++ [g] } where
  info t m i hm hi := by
    obtain ⟨h1, h2, h3⟩ := h.info t m i hm hi
    exact ⟨h1, by simp only [List.length_append, List.length_singleton]; omega, h3⟩
  first g' hg' := by
    cases hc : c.groups with
    | nil =>
      simp only [hc, List.nil_append, List.getElem?_cons_zero, Option.some.injEq] at hg'
      subst hg'
      exact hg hc
    | cons a l =>
      refine h.first g' ?_
      simp only [hc, List.cons_append, List.getElem?_cons_zero] at hg' ⊢
      exact hg'

end RangeOk

namespace ComponentStorage

/-- The groups and metadata built so far are fine, with at least `n` groups. -/
def RangeBuilt (n : Nat) (b : Building V) : Prop := RangeOk b.1 ∧ b.1.groups.length = n

theorem addComponents_range {f : GroupFamily} {a b c : Nat} : ∀ (n idx : Nat) (x : Building V), RangeBuilt (b + 1) x →
    (addComponents f a b c idx n x).Leaves (RangeBuilt (b + 1))
  | 0, _, x, hx => hx
  | n + 1, idx, (st, sets), hx => by
    rw [addComponents]
    refine Outcome.Leaves.ofRes hx fun p hp => ?_
    obtain ⟨t, m⟩ := p
    refine addComponents_range n (idx + 1) _ ⟨hx.1.push t m (fun i hi => ?_) _, hx.2⟩
    obtain ⟨t', _, hp⟩ := Res.bind_ok' hp
    obtain ⟨im, _, hp⟩ := Res.bind_ok' hp
    obtain ⟨dm, hdm, hp⟩ := Res.bind_ok' hp
    obtain ⟨sm, hsm, hp⟩ := Res.bind_ok' hp
    cases hp
    simp only [Option.some.injEq] at hi
    subst hi
    have hb : b < 64 := by
      by_contra hn
      rw [GroupMask.fromTo_panic (by omega)] at hdm
      cases hdm
    have hlen : st.groups.length = b + 1 := hx.2
    have hu : asU8 st.groups.length = st.groups.length := by
      unfold asU8
      omega
    refine ⟨by simp only [hu]; omega, by simp only [hu]; omega, idx, ?_⟩
    have hidx : idx < 16 := by
      unfold StorageMask.single at hsm
      by_contra hn
      simp [maxGroupArity, hn, Res.assert] at hsm
    obtain ⟨sm', h1, h2⟩ := StorageMask.single_ok hidx
    rw [h1] at hsm
    cases hsm
    rw [h2 idx hidx]
    simp

theorem addGroups_range {f : GroupFamily} {a b c : Nat} : ∀ (l : List Nat) (prev : Nat) (x : Building V), RangeOk x.1 →
    (x.1.groups = [] → prev = 0) → (addGroups f a b c prev l x).Leaves (fun y => RangeOk y.1)
  | [], _, x, hx, _ => hx
  | n :: l, prev, (st, sets), hx, hp => by
    rw [addGroups]
    refine Outcome.Leaves.ofRes hx fun g hg => ?_
    have hex : st.groups = [] → g.excludeMask.includeMask = 0#16 := by
      intro hnil
      have : prev = 0 := hp hnil
      subst this
      obtain ⟨sm, _, hg⟩ := Res.bind_ok' hg
      obtain ⟨im, _, hg⟩ := Res.bind_ok' hg
      obtain ⟨em, hem, hg⟩ := Res.bind_ok' hg
      cases hg
      obtain ⟨x, h1, hem⟩ := Res.bind_ok' hem
      obtain ⟨y, _, hem⟩ := Res.bind_ok' hem
      cases hem
      have : StorageMask.fromTo 0 0 = .ok 0#16 := by decide
      rw [this] at h1
      cases h1
      rfl
    have h0 : RangeBuilt (st.groups.length + 1) (({ st with groups := st.groups ++ [g] }, sets) : Building V) :=
      ⟨RangeOk.pushGroup hx hex, by simp⟩
    have key := addComponents_range (f := f) (a := b) (b := st.groups.length) (c := c) (n - prev) prev _ h0
    generalize addComponents f b st.groups.length c prev (n - prev)
      (({ st with groups := st.groups ++ [g] }, sets) : Building V) = o at key ⊢
    cases o with
    | ok u y =>
      exact addGroups_range l n y key.1 (fun hn => by have := key.2; rw [hn] at this; simp at this)
    | panic y => exact key.1
    | ub => trivial

theorem addFamilies_range : ∀ (fs : List GroupFamily) (x : Building V), RangeOk x.1 →
    (addFamilies fs x).Leaves (fun y => RangeOk y.1)
  | [], x, hx => hx
  | f :: fs, (c, sets), hx => by
    rw [addFamilies]
    exact Outcome.Leaves.bind (addGroups_range _ _ _ hx fun _ => rfl) fun _ y hy => addFamilies_range fs y hy

theorem addUngrouped_range : ∀ (l : List (TypeId × CompSet V)) (c : ComponentStorage V), RangeOk c →
    RangeOk (addUngrouped l c)
  | [], c, h => h
  | (t, s) :: l, c, h => by
    rw [addUngrouped]
    exact addUngrouped_range l _ (h.push t _ (fun i hi => by cases hi) s)

theorem setLayout_range (rank : TypeId → Nat) (c : ComponentStorage V) (hc : RangeOk c) (l : GroupLayout)
    (es : List Entity) : (c.setLayout rank l es).Leaves RangeOk := by
  unfold setLayout
  cases hx : c.extractSparseSets with
  | panic => exact hc
  | ub => trivial
  | ok p =>
    obtain ⟨sets, c1⟩ := p
    obtain ⟨⟨sets', comps⟩, h1, hx⟩ := Res.bind_ok' hx
    cases hx
    have hk := addFamilies_range l.families ((⟨[], [], comps⟩, sets) : Building V)
      ⟨fun t m i hm => by simp [meta?] at hm, fun g hg => by simp at hg⟩
    cases hf : addFamilies l.families ((⟨[], [], comps⟩, sets) : Building V) with
    | ub => simp only [hf]; trivial
    | panic b =>
      rw [hf] at hk
      simp only [hf]
      exact hk
    | ok u b =>
      obtain ⟨c2, sets2⟩ := b
      rw [hf] at hk
      have hu := addUngrouped_range (sortByRank rank sets2) c2 hk
      simp only [hf]
      generalize hc3 : addUngrouped (sortByRank rank sets2) c2 = c3 at *
      cases hm : GroupMask.fromTo 0 c3.groups.length with
      | panic => exact hu
      | ub => trivial
      | ok mask =>
        simp only
        cases hg : groupEntities mask es (c3.components, c3.groups) with
        | panic => exact hu
        | ub => trivial
        | ok p =>
          obtain ⟨comps', gs'⟩ := p
          have hsh := groupEntities_shape _ _ _ hg
          exact hu.of_shape (c' := { c3 with components := comps', groups := gs' }) ⟨rfl, hsh.1, hsh.2⟩

theorem register_range {c : ComponentStorage V} (h : RangeOk c) (t : TypeId) : RangeOk (c.register t).2 := by
  unfold register
  split
  · exact h
  · exact h.push t _ (fun i hi => by cases hi) _

end ComponentStorage

theorem step_range {w w' : World V} {op : Op V} {r : Ret V} (h : step w op = some (r, w'))
    (hw : RangeOk w.components) : RangeOk w'.components := by
  by_cases hop : op.keepsTypes
  · exact hw.of_shape (step_shape h hop)
  · cases op <;> simp only [Op.keepsTypes, not_true_eq_false, not_false_eq_true] at hop
    · simp only [step, Option.some.injEq, Prod.mk.injEq] at h
      rw [← h.2]
      exact ComponentStorage.register_range hw _
    · rename_i rank gs
      refine retOutcome_some (P := fun w' : World V => RangeOk w'.components) h ?_
      have := ComponentStorage.setLayout_range rank w.components hw (GroupLayout.build gs).2 w.entities.asSlice
      unfold World.setLayout
      cases hs : w.components.setLayout rank (GroupLayout.build gs).2 w.entities.asSlice <;> rw [hs] at this
      · exact this
      · exact this
      · trivial

theorem reach_range {h : History V} {w : World V} (hr : Reach World.empty h w) : RangeOk w.components := by
  induction hr with
  | nil => constructor <;> intros <;> simp_all [World.empty, ComponentStorage.empty, ComponentStorage.meta?]
  | snoc _ hs ih => exact step_range hs ih

/-! ### Ranges of queries -/

theorem ManyInfo.bound {c : ComponentStorage V} (h : RangeOk c) {g : GroupInfo} {R : List TypeId} (hi : ManyInfo c g R) :
    1 ≤ g.groupEnd ∧ g.groupEnd ≤ c.groups.length ∧ g.storageMask ≠ 0#16 := by
  obtain ⟨t, ht, i, ⟨m, h1, h2⟩, h3⟩ := hi.last
  obtain ⟨h4, h5, b, h6⟩ := h.info t m i h1 h2
  refine ⟨by omega, by omega, fun hz => ?_⟩
  have := (hi.mask b).2 ⟨t, ht, i, ⟨m, h1, h2⟩, h6⟩
  rw [hz] at this
  simp at this

theorem RangeOk.include {c : ComponentStorage V} (h : RangeOk c) {g : GroupInfo} {R : List TypeId}
    (hi : ManyInfo c g R) : ∃ r, c.includeGroupRange g = .ok r := by
  obtain ⟨h1, h2, _⟩ := hi.bound h
  unfold ComponentStorage.includeGroupRange
  rw [List.getElem?_eq_getElem (show g.groupEnd - 1 < c.groups.length by omega)]
  simp only [h1, decide_true, Res.assert_true, Res.bind_ok, Res.unchecked_some, Res.pure_eq]
  exact ⟨_, rfl⟩

theorem RangeOk.exclude {c : ComponentStorage V} (h : RangeOk c) {g x : GroupInfo} {R X : List TypeId}
    (hi : ManyInfo c g R) (hx : ManyInfo c x X) : ∃ r, c.excludeGroupRange g x = .ok r := by
  obtain ⟨h1, h2, h3⟩ := hi.bound h
  obtain ⟨h4, h5, _⟩ := hx.bound h
  unfold ComponentStorage.excludeGroupRange
  by_cases hs : g.groupStart ≠ x.groupStart
  · exact ⟨none, by rw [if_pos hs]⟩
  rw [if_neg hs]
  have h6 : 1 ≤ max g.groupEnd x.groupEnd := by omega
  have h7 : max g.groupEnd x.groupEnd - 1 < c.groups.length := by omega
  simp only [h6, decide_true, Res.assert_true, Res.bind_ok, List.getElem?_eq_getElem h7, Res.unchecked_some, Res.pure_eq]
  by_cases hmask : (⟨g.storageMask, x.storageMask⟩ : QueryMask) = c.groups[max g.groupEnd x.groupEnd - 1].excludeMask
  · simp only [hmask, ne_eq, not_true_eq_false, if_false]
    have h8 : 2 ≤ max g.groupEnd x.groupEnd := by
      by_contra hn
      have h9 : max g.groupEnd x.groupEnd - 1 = 0 := by omega
      have := h.first c.groups[max g.groupEnd x.groupEnd - 1] (by
        rw [← List.getElem?_eq_getElem h7, h9])
      rw [← hmask] at this
      exact h3 this
    have h9 : max g.groupEnd x.groupEnd - 2 < c.groups.length := by omega
    simp only [h8, decide_true, Res.assert_true, Res.bind_ok, List.getElem?_eq_getElem h9, Res.unchecked_some]
    exact ⟨_, rfl⟩
  · exact ⟨none, by simp [hmask]⟩

/-- The lookup of the group of a query succeeds, and finds a group only if the query requires something. -/
theorem RangeOk.range {w : World V} (h : RangeOk w.components) {g i x : Query} {q : QueryAll V} (hq : q.Of w g i x) :
    ∃ r, q.getGroupRange = .ok r ∧ (r.isSome → required g ++ required i ≠ []) := by
  have pg := present_of_views hq.get
  have pi := present_of_views hq.inc
  have px := present_of_views hq.exc
  unfold QueryAll.getGroupRange
  rw [hq.world]
  cases hgi : q.getInfo with
  | none => exact ⟨none, rfl, by simp⟩
  | some gi =>
  cases hii : q.incInfo with
  | none => exact ⟨none, rfl, by simp⟩
  | some ii =>
  cases hxi : q.excInfo with
  | none => exact ⟨none, rfl, by simp⟩
  | some xi =>
  have ig : InfoOf w.components gi (required g) := by
    rw [hq.getInfo] at hgi
    have := InfoOf.query (c := w.components) g (a := .empty) (ts := []) rfl pg hgi
    simpa using this
  have iI : InfoOf w.components ii (required i) := by
    rw [hq.incInfo] at hii
    have := InfoOf.query (c := w.components) i (a := .empty) (ts := []) rfl pi hii
    simpa using this
  have ix : InfoOf w.components xi (required x) := by
    rw [hq.excInfo] at hxi
    have := InfoOf.query (c := w.components) x (a := .empty) (ts := []) rfl px hxi
    simpa using this
  simp only
  cases hadd : gi.addQuery ii with
  | none => exact ⟨none, rfl, by simp⟩
  | some inc =>
    simp only
    have hinc := ig.add iI hadd
    have hgrp : ∀ {a : GroupInfo}, inc.groupInfo = some a → required g ++ required i ≠ [] := by
      intro a ha
      obtain ⟨t, ht, _⟩ := (hinc.group ha).last
      exact List.ne_nil_of_mem ht
    have hgen : ∃ r, (match inc.groupInfo, xi.groupInfo with
        | some inc, some exc => w.components.excludeGroupRange inc exc
        | _, _ => .ok none) = .ok r ∧ (r.isSome → required g ++ required i ≠ []) := by
      cases ha : inc.groupInfo with
      | none => exact ⟨none, rfl, by simp⟩
      | some a =>
        cases hb : xi.groupInfo with
        | none => exact ⟨none, rfl, by simp⟩
        | some b =>
          obtain ⟨r, hr⟩ := h.exclude (hinc.group ha) (ix.group hb)
          exact ⟨r, hr, fun _ => hgrp ha⟩
    cases xi with
    | empty =>
      cases inc with
      | empty => exact ⟨none, rfl, by simp⟩
      | one v =>
        obtain ⟨t, m, c, hR, hm, hc, rfl⟩ := hinc
        exact ⟨_, rfl, fun _ => by rw [hR]; simp⟩
      | many a =>
        obtain ⟨r, hr⟩ := h.include (hinc.group (g := a) rfl)
        exact ⟨r, hr, fun _ => hgrp (a := a) rfl⟩
    | one v => cases inc <;> exact hgen
    | many v => cases inc <;> exact hgen

/-- Making the iterator of a query succeeds. -/
theorem RangeOk.iter {w : World V} (h : RangeOk w.components) {g i x : Query} {q : QueryAll V} (hq : q.Of w g i x) :
    ∃ it, q.iter = .ok it ∧ (required g ++ required i = [] → it.fold = .ok []) := by
  obtain ⟨r, hr, hne⟩ := h.range hq
  cases r with
  | some ab =>
    obtain ⟨a, b⟩ := ab
    obtain ⟨es, he, _⟩ := dense_entities hq (hne rfl)
    exact ⟨.dense ⟨a, b, es, q.get⟩, by simp [QueryAll.iter, hr, he], fun hn => absurd hn (hne rfl)⟩
  | none =>
    refine ⟨.sparse ⟨QueryAll.chooseEntities (shortest none q.get) (shortest none q.inc), q.exc, q.inc, q.get⟩,
      by simp [QueryAll.iter, hr], fun hn => ?_⟩
    rcases sparse_entities hq with ⟨_, h2⟩ | ⟨t, ht, _⟩
    · simp only [Iter.fold, SparseIter.fold, h2]
      rfl
    · rw [hn] at ht
      cases ht

end Sparsey
