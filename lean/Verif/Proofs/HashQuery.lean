import Verif.Proofs.HashOrder
import Verif.Spec.HashOrder

/-!
Queries on worlds that differ in the positions of sets only (C64).
-/

set_option autoImplicit false
set_option linter.unusedSimpArgs false

namespace Sparsey
variable {V : Type}

/-! ### Positions of sets do not matter for what is read -/

/-- A view without the position of the set. -/
def PartView.bare : PartView V → PartView V
  | .entity => .entity
  | .req x _ s => .req x 0 s
  | .opt x _ s => .opt x 0 s

theorem containsAll_bare (vs : List (PartView V)) (e : Entity) : containsAll (vs.map PartView.bare) e = containsAll vs e := by
  simp only [containsAll, List.all_map]
  congr 1
  funext v
  cases v <;> rfl

theorem containsNone_bare (vs : List (PartView V)) (e : Entity) : containsNone (vs.map PartView.bare) e = containsNone vs e := by
  simp only [containsNone, List.all_map]
  congr 1
  funext v
  cases v <;> rfl

theorem containsAllRaw_bare (vs : List (PartView V)) (i : Nat) :
    containsAllRaw (vs.map PartView.bare) i = containsAllRaw vs i := by
  simp only [containsAllRaw, List.all_map]
  congr 1
  funext v
  cases v <;> rfl

theorem containsNoneRaw_bare (vs : List (PartView V)) (i : Nat) :
    containsNoneRaw (vs.map PartView.bare) i = containsNoneRaw vs i := by
  simp only [containsNoneRaw, List.all_map]
  congr 1
  funext v
  cases v <;> rfl

theorem PartView.get_bare (e : Entity) (v : PartView V) :
    v.bare.get e = (v.get e).bind fun o => .ok (o.map ItemPart.bare) := by
  cases v with
  | entity => rfl
  | req x i s =>
    simp only [PartView.bare, PartView.get]
    cases s.sparse.get e with
    | none => rfl
    | some d => simp only []; cases s.components[d]? <;> rfl
  | opt x i s =>
    simp only [PartView.bare, PartView.get]
    cases s.sparse.get e with
    | none => rfl
    | some d => simp only []; cases s.components[d]? <;> rfl

theorem PartView.optRaw_bare (i : Nat) (s : CompSet V) (e : Entity) :
    PartView.optRaw 0 s e = (PartView.optRaw i s e).bind fun p => .ok p.bare := by
  simp only [PartView.optRaw]
  cases s.sparse.getSparse e.sparse with
  | none => rfl
  | some d => simp only []; cases s.components[d]? <;> rfl

theorem PartView.getSparseRaw_bare (e : Entity) (v : PartView V) :
    v.bare.getSparseRaw e = (v.getSparseRaw e).bind fun o => .ok (o.map ItemPart.bare) := by
  cases v with
  | entity => rfl
  | req x i s =>
    simp only [PartView.bare, PartView.getSparseRaw]
    cases s.sparse.getSparse e.sparse with
    | none => rfl
    | some d => simp only []; cases s.components[d]? <;> rfl
  | opt x i s =>
    simp only [PartView.bare, PartView.getSparseRaw]
    rw [PartView.optRaw_bare i]
    cases PartView.optRaw i s e <;> rfl

theorem PartView.getDenseRaw_bare (k : Nat) (e : Entity) (v : PartView V) :
    v.bare.getDenseRaw k e = (v.getDenseRaw k e).bind fun o => .ok o.bare := by
  cases v with
  | entity => rfl
  | req x i s =>
    simp only [PartView.bare, PartView.getDenseRaw]
    cases s.components[k]? <;> rfl
  | opt x i s =>
    simp only [PartView.bare, PartView.getDenseRaw]
    rw [PartView.optRaw_bare i]

theorem getAll_bare (e : Entity) : ∀ vs : List (PartView V),
    getAll e (vs.map PartView.bare) = (getAll e vs).bind fun o => .ok (o.map (·.map ItemPart.bare))
  | [] => rfl
  | v :: vs => by
    rw [List.map_cons, getAll, getAll, PartView.get_bare, getAll_bare e vs]
    cases v.get e with
    | ub => rfl
    | panic => rfl
    | ok o =>
      cases o with
      | none => rfl
      | some p =>
        simp only [Res.bind, Res.bind_ok, Option.map_some]
        cases getAll e vs with
        | ub => rfl
        | panic => rfl
        | ok o => cases o <;> rfl

theorem getAllSparseRaw_bare (e : Entity) : ∀ vs : List (PartView V),
    getAllSparseRaw e (vs.map PartView.bare) = (getAllSparseRaw e vs).bind fun o => .ok (o.map (·.map ItemPart.bare))
  | [] => rfl
  | v :: vs => by
    rw [List.map_cons, getAllSparseRaw, getAllSparseRaw, PartView.getSparseRaw_bare, getAllSparseRaw_bare e vs]
    cases v.getSparseRaw e with
    | ub => rfl
    | panic => rfl
    | ok o =>
      cases o with
      | none => rfl
      | some p =>
        simp only [Res.bind, Res.bind_ok, Option.map_some]
        cases getAllSparseRaw e vs with
        | ub => rfl
        | panic => rfl
        | ok o => cases o <;> rfl

theorem getAllDenseRaw_bare (k : Nat) (e : Entity) : ∀ vs : List (PartView V),
    getAllDenseRaw k e (vs.map PartView.bare) = (getAllDenseRaw k e vs).bind fun o => .ok (o.map ItemPart.bare)
  | [] => rfl
  | v :: vs => by
    rw [List.map_cons, getAllDenseRaw, getAllDenseRaw, PartView.getDenseRaw_bare, getAllDenseRaw_bare k e vs]
    cases v.getDenseRaw k e with
    | ub => rfl
    | panic => rfl
    | ok o =>
      simp only [Res.bind, Res.bind_ok]
      cases getAllDenseRaw k e vs <;> rfl

theorem shortest_bare : ∀ (vs : List (PartView V)) (acc : Option (List Entity)),
    shortest acc (vs.map PartView.bare) = shortest acc vs
  | [], _ => rfl
  | v :: vs, acc => by
    have hv : v.bare.entities = v.entities := by cases v <;> rfl
    rw [List.map_cons]
    simp only [shortest, hv, shortest_bare vs]

theorem firstEntities_bare : ∀ vs : List (PartView V), firstEntities (vs.map PartView.bare) = firstEntities vs
  | [] => rfl
  | v :: vs => by
    rw [List.map_cons, firstEntities, firstEntities]
    cases v <;> first | rfl | exact firstEntities_bare vs

theorem sliceAllRaw_bare (es : List Entity) (a b : Nat) : ∀ vs : List (PartView V),
    sliceAllRaw es a b (vs.map PartView.bare) = (sliceAllRaw es a b vs).bind fun o => .ok (o.map SlicePart.bare)
  | [] => rfl
  | v :: vs => by
    have h1 : v.bare.sliceRaw es a b = (v.sliceRaw es a b).bind fun p => .ok p.bare := by
      cases v with
      | entity => simp only [PartView.bare, PartView.sliceRaw]; split <;> rfl
      | req x i s => simp only [PartView.bare, PartView.sliceRaw]; split <;> rfl
      | opt x i s => rfl
    rw [List.map_cons, sliceAllRaw, sliceAllRaw, h1, sliceAllRaw_bare es a b vs]
    cases v.sliceRaw es a b with
    | ub => rfl
    | panic => rfl
    | ok o =>
      simp only [Res.bind, Res.bind_ok]
      cases sliceAllRaw es a b vs <;> rfl

/-- An iterator without positions of sets. -/
def Iter.bare : Iter V → Iter V
  | .sparse it => .sparse ⟨it.entities, it.exc.map PartView.bare, it.inc.map PartView.bare, it.get.map PartView.bare⟩
  | .dense it => .dense ⟨it.start, it.stop, it.entities, it.get.map PartView.bare⟩

theorem Iter.fold_bare (it : Iter V) : it.bare.fold = it.fold.bind fun xs => .ok (xs.map (·.map ItemPart.bare)) := by
  cases it with
  | sparse it =>
    have hitem : ∀ e, SparseIter.item ⟨it.entities, it.exc.map PartView.bare, it.inc.map PartView.bare,
        it.get.map PartView.bare⟩ e = (it.item e).bind fun o => .ok (o.map (·.map ItemPart.bare)) := by
      intro e
      simp only [SparseIter.item, containsNoneRaw_bare, containsAllRaw_bare, getAllSparseRaw_bare]
      split
      · rfl
      · split
        · rfl
        · rfl
    have hfold : ∀ es, SparseIter.foldFrom ⟨it.entities, it.exc.map PartView.bare, it.inc.map PartView.bare,
        it.get.map PartView.bare⟩ es = (it.foldFrom es).bind fun xs => .ok (xs.map (·.map ItemPart.bare)) := by
      intro es
      induction es with
      | nil => rfl
      | cons e es ih =>
        rw [SparseIter.foldFrom, SparseIter.foldFrom, hitem, ih]
        cases it.item e with
        | ub => rfl
        | panic => rfl
        | ok o =>
          cases o with
          | none => rfl
          | some x =>
            simp only [Res.bind, Res.bind_ok, Option.map_some]
            cases it.foldFrom es <;> rfl
    exact hfold it.entities
  | dense it =>
    have hitem : ∀ k, DenseIter.item ⟨it.start, it.stop, it.entities, it.get.map PartView.bare⟩ k =
        (it.item k).bind fun o => .ok (o.map ItemPart.bare) := by
      intro k
      simp only [DenseIter.item, getAllDenseRaw_bare]
      cases it.entities[k]? with
      | none => rfl
      | some e => rfl
    have hfold : ∀ n k, DenseIter.foldFrom ⟨it.start, it.stop, it.entities, it.get.map PartView.bare⟩ k n =
        (it.foldFrom k n).bind fun xs => .ok (xs.map (·.map ItemPart.bare)) := by
      intro n
      induction n with
      | zero => intro k; rfl
      | succ n ih =>
        intro k
        rw [DenseIter.foldFrom, DenseIter.foldFrom, hitem, ih]
        cases it.item k with
        | ub => rfl
        | panic => rfl
        | ok o =>
          simp only [Res.bind, Res.bind_ok]
          cases it.foldFrom (k + 1) n <;> rfl
    exact hfold _ _

/-! ### Borrowing -/

/-- The same borrows, by type. -/
def SameBorrows (md md' : List (TypeId × ComponentMetadata)) (h h' : Borrows) : Prop :=
  List.Forall₂ (fun p p' => ComponentStorage.Alike.PairAt md md' p.1 p'.1 ∧ p.2 = p'.2) h h'

namespace ComponentStorage.Alike
variable {n : Nat} {c c' : ComponentStorage V}

theorem pair_eq (h : Alike n c c') {i i' j j' : Nat} (hi : PairAt c.metadata c'.metadata i i')
    (hj : PairAt c.metadata c'.metadata j j') : i = j ↔ i' = j' := by
  obtain ⟨t, m, m', h1, h2, rfl, rfl⟩ := hi
  obtain ⟨u, k, k', h3, h4, rfl, rfl⟩ := hj
  constructor
  · intro he
    have := h.st.inj t u m k h1 h3 he
    subst this
    rw [h2] at h4
    cases h4
    rfl
  · intro he
    have := h.st'.inj t u m' k' h2 h4 he
    subst this
    rw [h1] at h3
    cases h3
    rfl

theorem held (h : Alike n c c') {b b' : Borrows} (hb : SameBorrows c.metadata c'.metadata b b') {i i' : Nat}
    (hi : PairAt c.metadata c'.metadata i i') :
    b'.any (fun p => p.1 == i' && p.2) = b.any (fun p => p.1 == i && p.2) ∧
    b'.any (fun p => p.1 == i') = b.any (fun p => p.1 == i) := by
  induction hb with
  | nil => exact ⟨rfl, rfl⟩
  | @cons p p' l l' hp _ ih =>
    have : (p'.1 == i') = (p.1 == i) := by
      have := h.pair_eq hp.1 hi
      rw [Bool.eq_iff_iff, beq_iff_eq, beq_iff_eq]
      exact this.symm
    simp only [List.any_cons, this, hp.2, ih.1, ih.2, and_self]

theorem borrowSet (h : Alike n c c') {b b' : Borrows} (hb : SameBorrows c.metadata c'.metadata b b') (x : Bool) (t : TypeId) :
    (Sparsey.borrowSet c b x t).Same (fun p p' => p'.2.1 = p.2.1 ∧ p'.2.2.1 = p.2.2.1 ∧
      SameBorrows c.metadata c'.metadata p.2.2.2 p'.2.2.2) (Sparsey.borrowSet c' b' x t) := by
  unfold Sparsey.borrowSet
  cases hm : c.meta? t with
  | none =>
    rw [(h.absent t).2 hm]
    exact trivial
  | some m =>
    obtain ⟨m', hm', ha⟩ := h.get hm
    have hp : PairAt c.metadata c'.metadata m.storageIndex m'.storageIndex := ⟨t, m, m', hm, hm', rfl, rfl⟩
    obtain ⟨g1, g2⟩ := h.held hb hp
    rw [hm']
    dsimp only
    rw [ha.set, ha.info]
    cases c.components[m.storageIndex]? with
    | none => exact trivial
    | some s =>
      simp only [Res.unchecked_some, Res.bind_ok]
      cases x with
      | false =>
        simp only [Bool.false_eq_true, if_false, borrowShared, g1]
        cases b.any (fun p => p.1 == m.storageIndex && p.2) with
        | true => exact trivial
        | false => exact ⟨rfl, rfl, .cons ⟨hp, rfl⟩ hb⟩
      | true =>
        simp only [if_true, borrowExclusive, g2]
        cases b.any (fun p => p.1 == m.storageIndex) with
        | true => exact trivial
        | false => exact ⟨rfl, rfl, .cons ⟨hp, rfl⟩ hb⟩

theorem borrowPart (h : Alike n c c') {b b' : Borrows} (hb : SameBorrows c.metadata c'.metadata b b') (p : Part) :
    (Sparsey.borrowPart c b p).Same (fun r r' => r'.1.bare = r.1.bare ∧ r'.2.1 = r.2.1 ∧
      SameBorrows c.metadata c'.metadata r.2.2 r'.2.2) (Sparsey.borrowPart c' b' p) := by
  cases p with
  | entity => exact ⟨rfl, rfl, hb⟩
  | ref t => exact (h.borrowSet hb false t).bind fun r r' hr => ⟨by simp [PartView.bare, hr.1], by simp [hr.1, hr.2.1], hr.2.2⟩
  | refMut t => exact (h.borrowSet hb true t).bind fun r r' hr => ⟨by simp [PartView.bare, hr.1], by simp [hr.1, hr.2.1], hr.2.2⟩
  | opt t => exact (h.borrowSet hb false t).bind fun r r' hr => ⟨by simp [PartView.bare, hr.1], rfl, hr.2.2⟩
  | optMut t => exact (h.borrowSet hb true t).bind fun r r' hr => ⟨by simp [PartView.bare, hr.1], rfl, hr.2.2⟩

theorem borrowParts (h : Alike n c c') : ∀ (q : Query) {b b' : Borrows}, SameBorrows c.metadata c'.metadata b b' →
    (Sparsey.borrowParts c b q).Same (fun r r' => r'.1.map PartView.bare = r.1.map PartView.bare ∧ r'.2.1 = r.2.1 ∧
      SameBorrows c.metadata c'.metadata r.2.2 r'.2.2) (Sparsey.borrowParts c' b' q)
  | [], b, b', hb => ⟨rfl, rfl, hb⟩
  | p :: q, b, b', hb => by
    rw [Sparsey.borrowParts, Sparsey.borrowParts]
    refine (h.borrowPart hb p).bind fun r r' hr => ?_
    refine (borrowParts h q hr.2.2).bind fun s s' hs => ?_
    exact ⟨by simp only [List.map_cons, hr.1, hs.1], by dsimp only; rw [hr.2.1, hs.2.1], hs.2.2⟩

theorem borrowQuery (h : Alike n c c') (q : Query) {b b' : Borrows} (hb : SameBorrows c.metadata c'.metadata b b') :
    (Sparsey.borrowQuery c b q).Same (fun r r' => r'.1.map PartView.bare = r.1.map PartView.bare ∧ r'.2.1 = r.2.1 ∧
      SameBorrows c.metadata c'.metadata r.2.2 r'.2.2) (Sparsey.borrowQuery c' b' q) :=
  (h.borrowParts q hb).bind fun r r' hr => ⟨hr.1, by dsimp only; rw [hr.2.1], hr.2.2⟩

end ComponentStorage.Alike

/-! ### Queries -/

/-- Two `QueryAll`s that differ in positions of sets only. -/
structure QueryAll.Alike (q q' : QueryAll V) : Prop where
  groups : q'.world.components.groups = q.world.components.groups
  get : q'.get.map PartView.bare = q.get.map PartView.bare
  inc : q'.inc.map PartView.bare = q.inc.map PartView.bare
  exc : q'.exc.map PartView.bare = q.exc.map PartView.bare
  getInfo : q'.getInfo = q.getInfo
  incInfo : q'.incInfo = q.incInfo
  excInfo : q'.excInfo = q.excInfo

theorem groupRange_groups {c c' : ComponentStorage V} (h : c'.groups = c.groups) (a b : QueryGroupInfo) :
    c'.groupRange a b = c.groupRange a b := by
  unfold ComponentStorage.groupRange ComponentStorage.includeGroupRange ComponentStorage.excludeGroupRange
  rw [h]

theorem QueryAll.Alike.range {q q' : QueryAll V} (h : QueryAll.Alike q q') : q'.getGroupRange = q.getGroupRange := by
  unfold QueryAll.getGroupRange
  rw [h.getInfo, h.incInfo, h.excInfo]
  cases q.getInfo <;> cases q.incInfo <;> cases q.excInfo <;> try rfl
  dsimp only
  split
  · exact groupRange_groups h.groups _ _
  · rfl

theorem QueryAll.Alike.iter {q q' : QueryAll V} (h : QueryAll.Alike q q') :
    q.iter.Same (fun it it' => it'.bare = it.bare) q'.iter := by
  have hf : firstEntities q'.get = firstEntities q.get := by
    rw [← firstEntities_bare, h.get, firstEntities_bare]
  have hs : shortest none q'.get = shortest none q.get := by
    rw [← shortest_bare, h.get, shortest_bare]
  have hi : shortest none q'.inc = shortest none q.inc := by
    rw [← shortest_bare, h.inc, shortest_bare]
  unfold QueryAll.iter
  rw [h.range, hf, hs, hi]
  cases q.getGroupRange with
  | panic => exact trivial
  | ub => exact trivial
  | ok o =>
    cases o with
    | none =>
      show _ = _
      simp only [Iter.bare, h.get, h.inc, h.exc]
    | some p =>
      simp only [Res.bind_ok]
      cases (firstEntities q.get).or (shortest none q.inc) with
      | none => exact trivial
      | some es =>
        show _ = _
        simp only [Iter.bare, h.get]

theorem QueryAll.Alike.slice {q q' : QueryAll V} (h : QueryAll.Alike q q') :
    q.slice.Same (fun s s' => s'.map (·.map SlicePart.bare) = s.map (·.map SlicePart.bare)) q'.slice := by
  have hf : firstEntities q'.get = firstEntities q.get := by
    rw [← firstEntities_bare, h.get, firstEntities_bare]
  have hi : shortest none q'.inc = shortest none q.inc := by
    rw [← shortest_bare, h.inc, shortest_bare]
  unfold QueryAll.slice
  rw [h.range, hf, hi]
  cases q.getGroupRange with
  | panic => exact trivial
  | ub => exact trivial
  | ok o =>
    cases o with
    | none => exact rfl
    | some p =>
      simp only [Res.bind_ok]
      have h1 := sliceAllRaw_bare (((firstEntities q.get).or (shortest none q.inc)).getD []) p.1 p.2 q.get
      have h2 := sliceAllRaw_bare (((firstEntities q.get).or (shortest none q.inc)).getD []) p.1 p.2 q'.get
      rw [h.get, h1] at h2
      revert h2
      cases sliceAllRaw (((firstEntities q.get).or (shortest none q.inc)).getD []) p.1 p.2 q.get <;>
        cases sliceAllRaw (((firstEntities q.get).or (shortest none q.inc)).getD []) p.1 p.2 q'.get <;> intro h2 <;>
        first
          | exact trivial
          | (simp only [Res.bind] at h2; cases h2)
          | (simp only [Res.bind, Res.ok.injEq] at h2
             show Option.map _ (some _) = Option.map _ (some _)
             simp only [Option.map_some, h2])

theorem AlikeWorlds.all {w w' : World V} (h : AlikeWorlds w w') (held g i x : Query) :
    seeAll w' held g i x = seeAll w held g i x := by
  obtain ⟨n, hc⟩ := h.components
  have key : (seeAll w held g i x).Same Eq (seeAll w' held g i x) := by
    unfold seeAll
    refine (hc.borrowParts held .nil).bind fun r r' hr => ?_
    obtain ⟨_, _, b⟩ := r
    obtain ⟨_, _, b'⟩ := r'
    have hq : (QueryAll.new w b g i x).Same (fun q q' => QueryAll.Alike q.1 q'.1) (QueryAll.new w' b' g i x) := by
      unfold QueryAll.new
      refine (hc.borrowQuery g hr.2.2).bind fun r r' h1 => ?_
      refine (hc.borrowQuery i h1.2.2).bind fun s s' h2 => ?_
      refine (hc.borrowQuery x h2.2.2).bind fun u u' h3 => ?_
      exact ⟨hc.groups, h1.1, h2.1, h3.1, h1.2.1, h2.2.1, h3.2.1⟩
    refine hq.bind fun q q' hq => ?_
    dsimp only
    refine hq.iter.bind fun it it' hit => ?_
    have hd : it'.isDense = it.isDense := by
      cases it <;> cases it' <;> first | rfl | cases hit
    have hfold : it.fold.Same (fun a a' => a'.map (·.map ItemPart.bare) = a.map (·.map ItemPart.bare)) it'.fold := by
      have h1 := it.fold_bare
      have h2 := it'.fold_bare
      rw [hit, h1] at h2
      revert h2
      cases it.fold <;> cases it'.fold <;> intro h2 <;>
        first
          | exact trivial
          | (simp only [Res.bind] at h2; cases h2)
          | (simp only [Res.bind, Res.ok.injEq] at h2; exact h2.symm)
    refine hfold.bind fun a a' ha => ?_
    refine hq.slice.bind fun s s' hs => ?_
    show _ = _
    rw [hd, ha, hs]
  revert key
  cases seeAll w held g i x <;> cases seeAll w' held g i x <;> intro key <;>
    first | exact key.elim | rfl | exact congrArg Res.ok key.symm

theorem AlikeWorlds.one {w w' : World V} (h : AlikeWorlds w w') (held g i x : Query) (e : Entity) :
    seeOne w' held g i x e = seeOne w held g i x e := by
  obtain ⟨n, hc⟩ := h.components
  have key : (seeOne w held g i x e).Same Eq (seeOne w' held g i x e) := by
    unfold seeOne
    refine (hc.borrowParts held .nil).bind fun r r' hr => ?_
    obtain ⟨_, _, b⟩ := r
    obtain ⟨_, _, b'⟩ := r'
    have hq : (QueryOne.new w b g i x).Same (fun q q' => q'.1.get.map PartView.bare = q.1.get.map PartView.bare ∧
        q'.1.inc.map PartView.bare = q.1.inc.map PartView.bare ∧ q'.1.exc.map PartView.bare = q.1.exc.map PartView.bare)
        (QueryOne.new w' b' g i x) := by
      unfold QueryOne.new
      refine (hc.borrowQuery g hr.2.2).bind fun r r' h1 => ?_
      refine (hc.borrowQuery i h1.2.2).bind fun s s' h2 => ?_
      refine (hc.borrowQuery x h2.2.2).bind fun u u' h3 => ?_
      exact ⟨h1.1, h2.1, h3.1⟩
    refine hq.bind fun q q' hq => ?_
    obtain ⟨q1, q2, q3⟩ := hq
    have e1 : containsNone q'.1.exc e = containsNone q.1.exc e := by rw [← containsNone_bare, q3, containsNone_bare]
    have e2 : containsAll q'.1.inc e = containsAll q.1.inc e := by rw [← containsAll_bare, q2, containsAll_bare]
    have e3 : containsAll q'.1.get e = containsAll q.1.get e := by rw [← containsAll_bare, q1, containsAll_bare]
    have hget : (q.1.getItem e).Same (fun a a' => a'.map (·.map ItemPart.bare) = a.map (·.map ItemPart.bare)) (q'.1.getItem e) := by
      unfold QueryOne.getItem
      rw [e1, e2]
      split
      · exact rfl
      · split
        · exact rfl
        · have h1 := getAll_bare e q.1.get
          have h2 := getAll_bare e q'.1.get
          rw [q1, h1] at h2
          revert h2
          cases getAll e q.1.get <;> cases getAll e q'.1.get <;> intro h2 <;>
            first
              | exact trivial
              | (simp only [Res.bind] at h2; cases h2)
              | (simp only [Res.bind, Res.ok.injEq] at h2; exact h2.symm)
    dsimp only
    refine hget.bind fun a a' ha => ?_
    show _ = _
    rw [ha]
    unfold QueryOne.contains
    rw [e1, e2, e3]
  revert key
  cases seeOne w held g i x e <;> cases seeOne w' held g i x e <;> intro key <;>
    first | exact key.elim | rfl | exact congrArg Res.ok key.symm

theorem AlikeWorlds.sight {w w' : World V} (h : AlikeWorlds w w') : SameSight w w' := by
  obtain ⟨n, hc⟩ := h.components
  refine ⟨h.entities, fun t => ?_, fun t => ?_, h.all, h.one⟩
  · unfold World.isRegistered ComponentStorage.isRegistered
    cases hm : w.components.meta? t with
    | none => rw [(hc.absent t).2 hm]
    | some m =>
      obtain ⟨m', hm', _⟩ := hc.get hm
      rw [hm']
      rfl
  · unfold World.borrow
    cases hm : w.components.meta? t with
    | none => rw [(hc.absent t).2 hm]
    | some m =>
      obtain ⟨m', hm', ha⟩ := hc.get hm
      rw [hm']
      dsimp only
      rw [ha.set]

end Sparsey
