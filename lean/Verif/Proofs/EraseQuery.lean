import Verif.Proofs.EraseReach
import Verif.Proofs.Query

/-!
Queries over some component types on worlds that agree on these types.
-/

set_option autoImplicit false
set_option linter.unusedSimpArgs false

namespace Sparsey
variable {V : Type}

/-- Information about a group in `B`. -/
structure InfoIn (B : Nat → Prop) (gs : List Group) (i : GroupInfo) : Prop where
  pos : 1 ≤ i.groupEnd
  grp : ∃ g, gs[i.groupEnd - 1]? = some g ∧ B g.storageStart
  mask : i.storageMask ≠ 0#16

theorem InfoIn.addGroup {B : Nat → Prop} {gs : List Group} {a b c : GroupInfo} (ha : InfoIn B gs a) (hb : InfoIn B gs b)
    (h : a.addGroup b = some c) : InfoIn B gs c := by
  unfold GroupInfo.addGroup at h
  split at h
  · cases h
  · cases h
    refine ⟨le_trans ha.pos (le_max_left _ _), ?_, ?_⟩
    · rcases le_total a.groupEnd b.groupEnd with hab | hab
      · rw [max_eq_right hab]
        exact hb.grp
      · rw [max_eq_left hab]
        exact ha.grp
    · intro hc
      have : a.storageMask ||| b.storageMask = 0#16 := hc
      rw [BitVec.or_eq_zero_iff] at this
      exact ha.mask this.1

/-- Every group information in it is about a group in `B`. -/
def QueryInfoIn (B : Nat → Prop) (gs : List Group) (q : QueryGroupInfo) : Prop := ∀ i, q.groupInfo = some i → InfoIn B gs i

theorem QueryInfoIn.addView {B : Nat → Prop} {gs : List Group} {q q' : QueryGroupInfo} {v : ViewGroupInfo}
    (hq : QueryInfoIn B gs q) (hv : ∀ i, v.info = some i → InfoIn B gs i) (h : q.addView v = some q') :
    QueryInfoIn B gs q' := by
  unfold QueryGroupInfo.addView at h
  cases q with
  | empty =>
    cases h
    exact hv
  | one old =>
    simp only at h
    cases ho : old.info with
    | none => rw [ho] at h; cases h
    | some a =>
      cases hn : v.info with
      | none => rw [ho, hn] at h; cases h
      | some b =>
        rw [ho, hn] at h
        obtain ⟨c, h1, rfl⟩ := Option.map_eq_some_iff.1 h
        intro i hi
        cases hi
        exact (hq a ho).addGroup (hv b hn) h1
  | many old =>
    simp only at h
    cases hn : v.info with
    | none => rw [hn] at h; cases h
    | some b =>
      rw [hn] at h
      obtain ⟨c, h1, rfl⟩ := Option.map_eq_some_iff.1 h
      intro i hi
      cases hi
      exact (hq old rfl).addGroup (hv b hn) h1

theorem QueryInfoIn.addQuery {B : Nat → Prop} {gs : List Group} {a b c : QueryGroupInfo}
    (ha : QueryInfoIn B gs a) (hb : QueryInfoIn B gs b) (h : a.addQuery b = some c) : QueryInfoIn B gs c := by
  have main : ∀ {a b : QueryGroupInfo}, QueryInfoIn B gs a → QueryInfoIn B gs b → (do
      let a ← a.groupInfo
      let b ← b.groupInfo
      let g ← a.addGroup b
      pure (QueryGroupInfo.many g)) = some c → QueryInfoIn B gs c := by
    intro a b ha hb h
    cases ho : a.groupInfo with
    | none => rw [ho] at h; cases h
    | some x =>
      cases hn : b.groupInfo with
      | none => rw [ho, hn] at h; cases h
      | some y =>
        rw [ho, hn] at h
        cases hz : x.addGroup y with
        | none => simp [hz] at h
        | some z =>
          simp [hz] at h
          subst h
          intro i hi
          cases hi
          exact (ha x ho).addGroup (hb y hn) hz
  unfold QueryGroupInfo.addQuery at h
  cases a with
  | empty =>
    cases b with
    | empty => cases h; exact ha
    | one v => cases h; exact hb
    | many v => cases h; exact hb
  | one v =>
    cases b with
    | empty => cases h; exact ha
    | one v => exact main ha hb h
    | many v => exact main ha hb h
  | many v =>
    cases b with
    | empty => cases h; exact ha
    | one v => exact main ha hb h
    | many v => exact main ha hb h

theorem queryInfo_in {B : Nat → Prop} {gs : List Group} : ∀ (is : List (Option ViewGroupInfo)) {q q' : QueryGroupInfo},
    QueryInfoIn B gs q → (∀ v ∈ is, ∀ u, v = some u → ∀ i, u.info = some i → InfoIn B gs i) → queryInfo q is = some q' →
    QueryInfoIn B gs q'
  | [], q, q', hq, _, h => by
    cases h
    exact hq
  | none :: is, q, q', hq, hv, h => queryInfo_in is hq (fun v hm => hv v (List.mem_cons_of_mem _ hm)) h
  | some i :: is, q, q', hq, hv, h => by
    rw [queryInfo] at h
    cases ha : q.addView i with
    | none => rw [ha] at h; cases h
    | some q1 =>
      rw [ha] at h
      exact queryInfo_in is (hq.addView (hv _ List.mem_cons_self i rfl) ha)
        (fun v hm => hv v (List.mem_cons_of_mem _ hm)) h

namespace AgreeOn
variable {K : TypeId → Prop} {B : Nat → Prop} {c c' : ComponentStorage V}

theorem groupRange (h : AgreeOn K B c c') {inc exc : QueryGroupInfo} (hi : QueryInfoIn B c.groups inc)
    (he : QueryInfoIn B c.groups exc) : c'.groupRange inc exc = c.groupRange inc exc := by
  have hinc : ∀ i, InfoIn B c.groups i → c'.includeGroupRange i = c.includeGroupRange i := by
    intro i hi
    obtain ⟨g, h1, h2⟩ := hi.grp
    unfold ComponentStorage.includeGroupRange
    rw [h1, h.sets.grp _ g h1 h2]
  have hexc : ∀ a b, InfoIn B c.groups a → InfoIn B c.groups b → c'.excludeGroupRange a b = c.excludeGroupRange a b := by
    intro a b ha hb
    have hab : ∃ g, c.groups[max a.groupEnd b.groupEnd - 1]? = some g ∧ B g.storageStart := by
      rcases le_total a.groupEnd b.groupEnd with hab | hab
      · rw [max_eq_right hab]
        exact hb.grp
      · rw [max_eq_left hab]
        exact ha.grp
    obtain ⟨g, h1, h2⟩ := hab
    unfold ComponentStorage.excludeGroupRange
    dsimp only
    rw [h1, h.sets.grp _ g h1 h2]
    split
    · rfl
    · dsimp only [Res.unchecked_some]
      cases hass : Res.assert (1 ≤ max a.groupEnd b.groupEnd) with
      | ub => rfl
      | panic => rfl
      | ok _ =>
        simp only [Res.unchecked_some, Res.bind_ok]
        split
        · rfl
        · rename_i hm
          rw [ne_eq, not_not] at hm
          have hinc : a.storageMask = g.excludeMask.includeMask := congrArg QueryMask.includeMask hm
          rcases h.sets.gst.chain _ g h1 with hc | ⟨j, p, h3, h4, h5, _⟩
          · exfalso
            apply ha.mask
            rw [hinc]
            apply BitVec.eq_of_getLsbD_eq
            intro b hb
            have := (h.sets.gst.exc _ g h1).1 b hb
            rw [this, hc]
            simp
          · have : max a.groupEnd b.groupEnd - 2 = j := by omega
            rw [this, h4, h.sets.grp _ p h4 (by rw [h5]; exact h2)]
  unfold ComponentStorage.groupRange
  split
  · rfl
  · exact hinc _ (hi _ rfl)
  · split
    · rename_i h1 h2
      exact hexc _ _ (hi _ h1) (he _ h2)
    · rfl

theorem infoIn (h : AgreeOn K B c c') {t : TypeId} {m : ComponentMetadata} (hm : c.meta? t = some m) (hk : K t)
    {i : GroupInfo} (hi : m.groupInfo = some i) : InfoIn B c.groups i := by
  obtain ⟨j, g, g0, h1, h2, h3, h4, h5, h6, h7, h8, h9, h10⟩ := h.mds.infoSome t m i hm hi
  have hb := h.sets.gst.bounds j g h1
  refine ⟨by omega, ⟨g, ?_, ?_⟩, ?_⟩
  · rw [h4, Nat.add_sub_cancel]
    exact h1
  · exact h.sets.whole j g h1 m.storageIndex g.storageStart ⟨by omega, h3⟩ ⟨le_refl _, by omega⟩ ((h.pos t m hm).2 hk)
  · intro hc
    have := h10 _ h9
    rw [hc] at this
    simp at this

theorem borrowSet (h : AgreeOn K B c c') {t : TypeId} (hk : K t) (b : Borrows) (ex : Bool) :
    Sparsey.borrowSet c' b ex t = Sparsey.borrowSet c b ex t ∧
    ∀ i s g b', Sparsey.borrowSet c b ex t = .ok (i, s, g, b') → ∀ u, g = some u → InfoIn B c.groups u := by
  constructor
  · unfold Sparsey.borrowSet
    rw [h.meta?]
    cases hm : c.meta? t with
    | none => rfl
    | some m =>
      simp only
      rw [h.set_eq hm hk]
  · intro i s g b' hb u hu
    obtain ⟨m, hm, _, _, rfl, _⟩ := borrowSet_ok hb
    exact h.infoIn hm hk hu

theorem borrowPart (h : AgreeOn K B c c') {p : Part} (hk : ∀ a ∈ accesses [p], K a.1) (b : Borrows) :
    Sparsey.borrowPart c' b p = Sparsey.borrowPart c b p ∧
    ∀ v i b', Sparsey.borrowPart c b p = .ok (v, i, b') → ∀ u, i = some u → ∀ g, u.info = some g → InfoIn B c.groups g := by
  cases p with
  | entity =>
    refine ⟨rfl, fun v i b' hb u hu => ?_⟩
    cases hb
    cases hu
  | ref t =>
    obtain ⟨h1, h2⟩ := h.borrowSet (hk (t, false) (by simp [accesses, Part.access])) b false
    refine ⟨by simp only [Sparsey.borrowPart, h1], fun v i b' hb u hu g hg => ?_⟩
    simp only [Sparsey.borrowPart] at hb
    obtain ⟨⟨j, s, g', b1⟩, h3, hb⟩ := Res.bind_ok' hb
    cases hb
    cases hu
    exact h2 _ _ _ _ h3 g hg
  | refMut t =>
    obtain ⟨h1, h2⟩ := h.borrowSet (hk (t, true) (by simp [accesses, Part.access])) b true
    refine ⟨by simp only [Sparsey.borrowPart, h1], fun v i b' hb u hu g hg => ?_⟩
    simp only [Sparsey.borrowPart] at hb
    obtain ⟨⟨j, s, g', b1⟩, h3, hb⟩ := Res.bind_ok' hb
    cases hb
    cases hu
    exact h2 _ _ _ _ h3 g hg
  | opt t =>
    obtain ⟨h1, h2⟩ := h.borrowSet (hk (t, false) (by simp [accesses, Part.access])) b false
    refine ⟨by simp only [Sparsey.borrowPart, h1], fun v i b' hb u hu g hg => ?_⟩
    simp only [Sparsey.borrowPart] at hb
    obtain ⟨⟨j, s, g', b1⟩, h3, hb⟩ := Res.bind_ok' hb
    cases hb
    cases hu
  | optMut t =>
    obtain ⟨h1, h2⟩ := h.borrowSet (hk (t, true) (by simp [accesses, Part.access])) b true
    refine ⟨by simp only [Sparsey.borrowPart, h1], fun v i b' hb u hu g hg => ?_⟩
    simp only [Sparsey.borrowPart] at hb
    obtain ⟨⟨j, s, g', b1⟩, h3, hb⟩ := Res.bind_ok' hb
    cases hb
    cases hu

theorem borrowParts (h : AgreeOn K B c c') : ∀ {q : Query} (_ : ∀ a ∈ accesses q, K a.1) (b : Borrows),
    Sparsey.borrowParts c' b q = Sparsey.borrowParts c b q ∧
    ∀ vs is b', Sparsey.borrowParts c b q = .ok (vs, is, b') → ∀ v ∈ is, ∀ u, v = some u → ∀ g, u.info = some g →
      InfoIn B c.groups g
  | [], _, b => by
    refine ⟨rfl, fun vs is b' hb => ?_⟩
    cases hb
    intro v hv
    cases hv
  | p :: q, hk, b => by
    have hk1 : ∀ a ∈ accesses [p], K a.1 := fun a ha => hk a (by
      rw [← List.singleton_append, accesses, List.filterMap_append]
      exact List.mem_append_left _ ha)
    have hk2 : ∀ a ∈ accesses q, K a.1 := fun a ha => hk a (by
      rw [← List.singleton_append, accesses, List.filterMap_append]
      exact List.mem_append_right _ ha)
    obtain ⟨h1, h2⟩ := h.borrowPart hk1 b
    constructor
    · simp only [Sparsey.borrowParts, h1]
      cases Sparsey.borrowPart c b p with
      | ub => rfl
      | panic => rfl
      | ok r =>
        obtain ⟨v, i, b1⟩ := r
        simp only [Res.bind_ok, (h.borrowParts hk2 b1).1]
    · intro vs is b' hb
      simp only [Sparsey.borrowParts] at hb
      obtain ⟨⟨v, i, b1⟩, h3, hb⟩ := Res.bind_ok' hb
      obtain ⟨⟨vs1, is1, b2⟩, h4, hb⟩ := Res.bind_ok' hb
      cases hb
      intro x hx u hu
      rcases List.mem_cons.1 hx with rfl | hx
      · exact h2 _ _ _ h3 u hu
      · exact (h.borrowParts hk2 b1).2 _ _ _ h4 x hx u hu

theorem borrowQuery (h : AgreeOn K B c c') {q : Query} (hk : ∀ a ∈ accesses q, K a.1) (b : Borrows) :
    Sparsey.borrowQuery c' b q = Sparsey.borrowQuery c b q ∧
    ∀ vs i b', Sparsey.borrowQuery c b q = .ok (vs, i, b') → ∀ u, i = some u → QueryInfoIn B c.groups u := by
  obtain ⟨h1, h2⟩ := h.borrowParts hk b
  constructor
  · unfold Sparsey.borrowQuery
    rw [h1]
  · intro vs i b' hb u hu
    unfold Sparsey.borrowQuery at hb
    obtain ⟨⟨vs1, is1, b1⟩, h3, hb⟩ := Res.bind_ok' hb
    cases hb
    exact queryInfo_in _ (fun _ h => by cases h) (h2 _ _ _ h3) hu

end AgreeOn

/-- The same query on another world. -/
def QueryAll.onWorld (w : World V) (q : QueryAll V) : QueryAll V := { q with world := w }

theorem AgreeWorld.queryOne {K : List TypeId} {B : Nat → Prop} {w w' : World V} (h : AgreeWorld K B w w') {g i x : Query}
    (hg : ∀ a ∈ accesses g, a.1 ∈ K) (hi : ∀ a ∈ accesses i, a.1 ∈ K) (hx : ∀ a ∈ accesses x, a.1 ∈ K) (b : Borrows) :
    QueryOne.new w' b g i x = QueryOne.new w b g i x := by
  unfold QueryOne.new
  rw [(h.comps.borrowQuery hg b).1]
  cases Sparsey.borrowQuery w.components b g with
  | ub => rfl
  | panic => rfl
  | ok r =>
    obtain ⟨gv, gi, b1⟩ := r
    simp only [Res.bind_ok]
    rw [(h.comps.borrowQuery hi b1).1]
    cases Sparsey.borrowQuery w.components b1 i with
    | ub => rfl
    | panic => rfl
    | ok r =>
      obtain ⟨iv, ii, b2⟩ := r
      simp only [Res.bind_ok]
      rw [(h.comps.borrowQuery hx b2).1]

theorem AgreeWorld.queryAll {K : List TypeId} {B : Nat → Prop} {w w' : World V} (h : AgreeWorld K B w w') {g i x : Query}
    (hg : ∀ a ∈ accesses g, a.1 ∈ K) (hi : ∀ a ∈ accesses i, a.1 ∈ K) (hx : ∀ a ∈ accesses x, a.1 ∈ K) (b : Borrows) :
    (QueryAll.new w' b g i x = do
      let (q, b') ← QueryAll.new w b g i x
      pure (q.onWorld w', b')) ∧
    ∀ q b', QueryAll.new w b g i x = .ok (q, b') → (q.onWorld w').getGroupRange = q.getGroupRange := by
  have h1 := h.comps.borrowQuery hg b
  constructor
  · unfold QueryAll.new
    rw [h1.1]
    cases Sparsey.borrowQuery w.components b g with
    | ub => rfl
    | panic => rfl
    | ok r =>
      obtain ⟨gv, gi, b1⟩ := r
      simp only [Res.bind_ok]
      rw [(h.comps.borrowQuery hi b1).1]
      cases Sparsey.borrowQuery w.components b1 i with
      | ub => rfl
      | panic => rfl
      | ok r =>
        obtain ⟨iv, ii, b2⟩ := r
        simp only [Res.bind_ok]
        rw [(h.comps.borrowQuery hx b2).1]
        cases Sparsey.borrowQuery w.components b2 x with
        | ub => rfl
        | panic => rfl
        | ok r => rfl
  · intro q b' hq
    unfold QueryAll.new at hq
    obtain ⟨⟨gv, gi, b1⟩, h2, hq⟩ := Res.bind_ok' hq
    obtain ⟨⟨iv, ii, b2⟩, h3, hq⟩ := Res.bind_ok' hq
    obtain ⟨⟨xv, xi, b3⟩, h4, hq⟩ := Res.bind_ok' hq
    cases hq
    have i1 := h1.2 _ _ _ h2
    have i2 := (h.comps.borrowQuery hi b1).2 _ _ _ h3
    have i3 := (h.comps.borrowQuery hx b2).2 _ _ _ h4
    unfold QueryAll.getGroupRange QueryAll.onWorld
    cases gi with
    | none => rfl
    | some gi =>
      cases ii with
      | none => rfl
      | some ii =>
        cases xi with
        | none => rfl
        | some xi =>
          simp only
          cases hadd : gi.addQuery ii with
          | none => rfl
          | some inc => exact h.comps.groupRange ((i1 _ rfl).addQuery (i2 _ rfl) hadd) (i3 _ rfl)

theorem QueryAll.onWorld_iter {w : World V} {q : QueryAll V} (h : (q.onWorld w).getGroupRange = q.getGroupRange) :
    (q.onWorld w).iter = q.iter ∧ (q.onWorld w).items = q.items ∧ (q.onWorld w).slice = q.slice := by
  have h1 : (q.onWorld w).iter = q.iter := by
    unfold QueryAll.iter
    rw [h]
    rfl
  refine ⟨h1, ?_, ?_⟩
  · unfold QueryAll.items
    rw [h1]
  · unfold QueryAll.slice
    rw [h]
    rfl

end Sparsey
