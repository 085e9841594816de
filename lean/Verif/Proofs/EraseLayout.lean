import Verif.Proofs.EraseStore

/-!
`register` and `set_layout` keep two storages in agreement (`AgreeOn`).
-/

set_option autoImplicit false
set_option linter.unusedSimpArgs false

namespace Sparsey
variable {V : Type}

/-- A position more: the one of a type at the end. -/
def addPos (B : Nat → Prop) (n : Nat) (k : Prop) (i : Nat) : Prop := if i = n then k else B i

theorem addPos_ne {B : Nat → Prop} {n : Nat} {k : Prop} {i : Nat} (h : i ≠ n) : addPos B n k i ↔ B i := by
  unfold addPos
  rw [if_neg h]

theorem addPos_eq {B : Nat → Prop} {n : Nat} {k : Prop} : addPos B n k n ↔ k := by
  unfold addPos
  rw [if_pos rfl]

/-- Two storages that are being built: the same metadata and groups, agreeing sets. -/
structure AgreeParts (K : TypeId → Prop) (B : Nat → Prop) (c c' : ComponentStorage V) : Prop where
  md : c'.metadata = c.metadata
  groups : c'.groups = c.groups
  len : c'.components.length = c.components.length
  idx : ∀ t m, c.meta? t = some m → m.storageIndex < c.components.length
  pos : ∀ t m, c.meta? t = some m → (B m.storageIndex ↔ K t)
  same : ∀ i, B i → c'.components[i]? = c.components[i]?
  fresh : ∀ i x, ¬ B i → c'.components[i]? = some x → x = CompSet.new

/-- Sets that are still to be placed: the same types, agreeing sets. -/
def AgreeLeft (K : TypeId → Prop) : List (TypeId × CompSet V) → List (TypeId × CompSet V) → Prop :=
  List.Forall₂ fun p p' => p'.1 = p.1 ∧ (K p.1 → p'.2 = p.2) ∧ (¬ K p.1 → p'.2 = CompSet.new)

namespace AgreeParts
variable {K : TypeId → Prop} {B : Nat → Prop} {c c' : ComponentStorage V}

theorem push (h : AgreeParts K B c c') (t : TypeId) (m : ComponentMetadata) (hm : m.storageIndex = c.components.length)
    {s s' : CompSet V} (hs : K t → s' = s) (hf : ¬ K t → s' = CompSet.new) :
    AgreeParts K (addPos B c.components.length (K t))
      { c with metadata := ComponentStorage.insertMeta c.metadata t m, components := c.components ++ [s] }
      { c' with metadata := ComponentStorage.insertMeta c'.metadata t m, components := c'.components ++ [s'] } where
  md := by simp only [h.md]
  groups := h.groups
  len := by simp [h.len]
  idx t' m' hm' := by
    simp only [ComponentStorage.meta?, insertMeta_lookup] at hm'
    simp only [List.length_append, List.length_cons, List.length_nil]
    split at hm'
    · cases hm'; omega
    · have := h.idx t' m' hm'; omega
  pos t' m' hm' := by
    simp only [ComponentStorage.meta?, insertMeta_lookup] at hm'
    split at hm'
    · rename_i he
      cases hm'
      rw [hm, he]
      exact addPos_eq
    · have := h.idx t' m' hm'
      rw [addPos_ne (by omega)]
      exact h.pos t' m' hm'
  same i hi := by
    have hl := h.len
    by_cases he : i = c.components.length
    · subst he
      rw [addPos_eq] at hi
      simp only [hs hi]
      rw [List.getElem?_append_right (by omega), List.getElem?_append_right (by omega), hl]
    · rw [addPos_ne he] at hi
      simp only [List.getElem?_append]
      rw [hl, h.same i hi]
      split
      · rfl
      · rw [List.getElem?_eq_none (by simp; omega), List.getElem?_eq_none (by simp; omega)]
  fresh i x hi hx := by
    have hl := h.len
    by_cases he : i = c.components.length
    · subst he
      rw [addPos_eq] at hi
      rw [List.getElem?_append_right (by omega), hl] at hx
      simp at hx
      rw [← hx]
      exact hf hi
    · rw [addPos_ne he] at hi
      have hlt : i < c'.components.length := by
        have := (List.getElem?_eq_some_iff.1 hx).1
        simp at this
        omega
      rw [List.getElem?_append_left hlt] at hx
      exact h.fresh i x hi hx

theorem addGroup (h : AgreeParts K B c c') (g : Group) :
    AgreeParts K B { c with groups := c.groups ++ [g] } { c' with groups := c'.groups ++ [g] } :=
  { h with groups := by simp only [h.groups] }

end AgreeParts

namespace AgreeLeft
variable {K : TypeId → Prop}

theorem lookup {l l' : List (TypeId × CompSet V)} (h : AgreeLeft K l l') (t : TypeId) :
    (K t → (l'.lookup t).getD CompSet.new = (l.lookup t).getD CompSet.new) ∧
    (¬ K t → (l'.lookup t).getD CompSet.new = (CompSet.new : CompSet V)) := by
  induction h with
  | nil => exact ⟨fun _ => rfl, fun _ => rfl⟩
  | @cons p p' l l' hp hl ih =>
    obtain ⟨a, s⟩ := p
    obtain ⟨a', s'⟩ := p'
    obtain ⟨h1, h2, h3⟩ := hp
    simp only at h1 h2 h3
    subst h1
    simp only [List.lookup_cons]
    by_cases he : t == a'
    · have := eq_of_beq he
      subst this
      simp only [he]
      exact ⟨h2, h3⟩
    · simp only [he]
      exact ih

theorem filter {l l' : List (TypeId × CompSet V)} (h : AgreeLeft K l l') (t : TypeId) :
    AgreeLeft K (l.filter fun p => p.1 != t) (l'.filter fun p => p.1 != t) := by
  induction h with
  | nil => exact .nil
  | @cons p p' l l' hp hl ih =>
    simp only [List.filter_cons, hp.1]
    split
    · exact .cons hp ih
    · exact ih

theorem insertByRank {rank : TypeId → Nat} {p p' : TypeId × CompSet V}
    (hp : p'.1 = p.1 ∧ (K p.1 → p'.2 = p.2) ∧ (¬ K p.1 → p'.2 = CompSet.new)) {l l' : List (TypeId × CompSet V)}
    (h : AgreeLeft K l l') :
    AgreeLeft K (ComponentStorage.insertByRank rank p l) (ComponentStorage.insertByRank rank p' l') := by
  induction h with
  | nil => exact .cons hp .nil
  | @cons q q' l l' hq hl ih =>
    simp only [ComponentStorage.insertByRank, hp.1, hq.1]
    split
    · exact .cons hp (.cons hq hl)
    · exact .cons hq ih

theorem sortByRank (rank : TypeId → Nat) {l l' : List (TypeId × CompSet V)} (h : AgreeLeft K l l') :
    AgreeLeft K (ComponentStorage.sortByRank rank l) (ComponentStorage.sortByRank rank l') := by
  induction h with
  | nil => exact .nil
  | @cons q q' l l' hq hl ih => exact insertByRank hq ih

end AgreeLeft

open ComponentStorage in
theorem AgreeParts.addComponents {K : TypeId → Prop} {f : GroupFamily} {gs ngs ge : Nat} : ∀ (n idx : Nat) {B : Nat → Prop}
    {c c' : ComponentStorage V} {l l' : List (TypeId × CompSet V)} {b : Building V}, AgreeParts K B c c' → AgreeLeft K l l' →
    ComponentStorage.addComponents f gs ngs ge idx n (c, l) = .ok () b →
    ∃ B1 b', ComponentStorage.addComponents f gs ngs ge idx n (c', l') = .ok () b' ∧ AgreeParts K B1 b.1 b'.1 ∧
      AgreeLeft K b.2 b'.2
  | 0, idx, B, c, c', l, l', b, h, hl, hr => by
    rw [ComponentStorage.addComponents] at hr
    cases hr
    exact ⟨B, (c', l'), by rw [ComponentStorage.addComponents], h, hl⟩
  | n + 1, idx, B, c, c', l, l', b, h, hl, hr => by
    rw [ComponentStorage.addComponents] at hr ⊢
    simp only [h.len, h.groups] at hr ⊢
    obtain ⟨p, hp, hr⟩ := Outcome.ofRes_eq_ok hr
    obtain ⟨t, m⟩ := p
    rw [hp]
    simp only [Outcome.ofRes_ok, removeSet] at hr ⊢
    have hm : m.storageIndex = c.components.length := by
      obtain ⟨_, _, hp⟩ := Res.bind_ok' hp
      obtain ⟨_, _, hp⟩ := Res.bind_ok' hp
      obtain ⟨_, _, hp⟩ := Res.bind_ok' hp
      obtain ⟨_, _, hp⟩ := Res.bind_ok' hp
      cases hp
      rfl
    have := h.push t m hm (hl.lookup t).1 (hl.lookup t).2
    have e := h.groups
    exact AgreeParts.addComponents n (idx + 1) (by simpa only [e] using this) (hl.filter t) hr

open ComponentStorage in
theorem AgreeParts.addGroups {K : TypeId → Prop} {f : GroupFamily} {ss gs ge : Nat} : ∀ (rest : List Nat) (prev : Nat)
    {B : Nat → Prop} {c c' : ComponentStorage V} {l l' : List (TypeId × CompSet V)} {b : Building V}, AgreeParts K B c c' →
    AgreeLeft K l l' → ComponentStorage.addGroups f ss gs ge prev rest (c, l) = .ok () b →
    ∃ B1 b', ComponentStorage.addGroups f ss gs ge prev rest (c', l') = .ok () b' ∧ AgreeParts K B1 b.1 b'.1 ∧
      AgreeLeft K b.2 b'.2
  | [], prev, B, c, c', l, l', b, h, hl, hr => by
    rw [ComponentStorage.addGroups] at hr
    cases hr
    exact ⟨B, (c', l'), by rw [ComponentStorage.addGroups], h, hl⟩
  | a :: rest, prev, B, c, c', l, l', b, h, hl, hr => by
    rw [ComponentStorage.addGroups] at hr ⊢
    simp only [h.groups] at hr ⊢
    obtain ⟨g, hg, hr⟩ := Outcome.ofRes_eq_ok hr
    rw [hg]
    simp only [Outcome.ofRes_ok] at hr ⊢
    obtain ⟨_, b1, h1, hr⟩ := Outcome.bind_eq_ok hr
    have := h.addGroup g
    rw [h.groups] at this
    obtain ⟨B1, b1', h2, h3, h4⟩ := AgreeParts.addComponents _ _ this hl h1
    obtain ⟨B2, b2', h5, h6, h7⟩ := AgreeParts.addGroups rest a h3 h4 hr
    exact ⟨B2, b2', by rw [h2]; exact h5, h6, h7⟩

open ComponentStorage in
theorem AgreeParts.addFamilies {K : TypeId → Prop} : ∀ (fs : List GroupFamily) {B : Nat → Prop} {c c' : ComponentStorage V}
    {l l' : List (TypeId × CompSet V)} {b : Building V}, AgreeParts K B c c' → AgreeLeft K l l' →
    ComponentStorage.addFamilies fs (c, l) = .ok () b →
    ∃ B1 b', ComponentStorage.addFamilies fs (c', l') = .ok () b' ∧ AgreeParts K B1 b.1 b'.1 ∧ AgreeLeft K b.2 b'.2
  | [], B, c, c', l, l', b, h, hl, hr => by
    rw [ComponentStorage.addFamilies] at hr
    cases hr
    exact ⟨B, (c', l'), by rw [ComponentStorage.addFamilies], h, hl⟩
  | f :: fs, B, c, c', l, l', b, h, hl, hr => by
    rw [ComponentStorage.addFamilies] at hr ⊢
    rw [h.len, h.groups]
    obtain ⟨_, b1, h1, hr⟩ := Outcome.bind_eq_ok hr
    obtain ⟨B1, b1', h2, h3, h4⟩ := AgreeParts.addGroups _ _ h hl h1
    obtain ⟨B2, b2', h5, h6, h7⟩ := AgreeParts.addFamilies fs h3 h4 hr
    exact ⟨B2, b2', by rw [h2]; exact h5, h6, h7⟩

theorem AgreeParts.addUngrouped {K : TypeId → Prop} {l l' : List (TypeId × CompSet V)} (hl : AgreeLeft K l l') :
    ∀ {B : Nat → Prop} {c c' : ComponentStorage V}, AgreeParts K B c c' →
    ∃ B1, AgreeParts K B1 (ComponentStorage.addUngrouped l c) (ComponentStorage.addUngrouped l' c') := by
  induction hl with
  | nil => exact fun h => ⟨_, h⟩
  | @cons p p' l l' hp hl ih =>
    intro B c c' h
    obtain ⟨t, s⟩ := p
    obtain ⟨t', s'⟩ := p'
    obtain ⟨h1, h2, h3⟩ := hp
    simp only at h1 h2 h3
    subst h1
    rw [ComponentStorage.addUngrouped, ComponentStorage.addUngrouped]
    have := h.push t' ⟨c.components.length, 0#64, 0#64, none⟩ rfl h2 h3
    rw [← h.len] at this
    exact ih (by simpa only [h.len] using this)

theorem takeSets_agree {K : TypeId → Prop} {B : Nat → Prop} : ∀ (md : List (TypeId × ComponentMetadata))
    {l l' : List (CompSet V)} {sets : List (TypeId × CompSet V)} {r : List (CompSet V)},
    (∀ p ∈ md, (B p.2.storageIndex ↔ K p.1)) → l'.length = l.length → (∀ i, B i → l'[i]? = l[i]?) →
    (∀ i x, ¬ B i → l'[i]? = some x → x = CompSet.new) → ComponentStorage.takeSets md l = .ok (sets, r) →
    ∃ sets' r', ComponentStorage.takeSets md l' = .ok (sets', r') ∧ AgreeLeft K sets sets' ∧ r'.length = r.length ∧
      (∀ i, B i → r'[i]? = r[i]?) ∧ ∀ i x, ¬ B i → r'[i]? = some x → x = CompSet.new
  | [], l, l', sets, r, _, h2, h3, h4, hr => by
    cases hr
    exact ⟨[], l', rfl, .nil, h2, h3, h4⟩
  | (t, m) :: md, l, l', sets, r, h1, h2, h3, h4, hr => by
    obtain ⟨s, hs, hr⟩ := Res.bind_ok' hr
    obtain ⟨⟨sets1, r1⟩, i1, hr⟩ := Res.bind_ok' hr
    cases hr
    have hs : l[m.storageIndex]? = some s := by
      cases hc : l[m.storageIndex]? with
      | none => rw [hc] at hs; cases hs
      | some x => rw [hc] at hs; cases hs; rfl
    have hlt : m.storageIndex < l'.length := by rw [h2]; exact (List.getElem?_eq_some_iff.1 hs).1
    obtain ⟨sets', r', j1, j2, j3, j4, j5⟩ := takeSets_agree md (fun p hp => h1 p (.tail _ hp))
      (l := l.set m.storageIndex CompSet.new) (l' := l'.set m.storageIndex CompSet.new) (by simp [h2])
      (fun i hi => by
        rw [List.getElem?_set, List.getElem?_set, h2, h3 i hi])
      (fun i x hi hx => by
        rw [List.getElem?_set] at hx
        split at hx
        · cases hx
          rfl
        · exact h4 i x hi hx) i1
    refine ⟨(t, l'[m.storageIndex]) :: sets', r', ?_, ?_, j3, j4, j5⟩
    · rw [ComponentStorage.takeSets, List.getElem?_eq_getElem hlt, Res.checked_some, Res.bind_ok, j1]
      rfl
    · refine .cons ⟨rfl, fun hk => ?_, fun hk => ?_⟩ j2
      · have := h3 m.storageIndex ((h1 (t, m) (.head _)).2 hk)
        rw [hs, List.getElem?_eq_getElem hlt] at this
        exact Option.some.inj this
      · exact h4 m.storageIndex _ (fun hc => hk ((h1 (t, m) (.head _)).1 hc)) (List.getElem?_eq_getElem hlt)

/-- No group has types both inside and outside of `K`. -/
def SplitBy (K : TypeId → Prop) (groups : List (List TypeId)) : Prop :=
  ∀ g ∈ groups, ∀ t ∈ g, ∀ t' ∈ g, K t → K t'

theorem whole_of {K : TypeId → Prop} {B : Nat → Prop} {c : ComponentStorage V} {gl : List (List TypeId)} (h : LayStat c gl)
    (hp : ∀ t m, c.meta? t = some m → (B m.storageIndex ↔ K t)) (hk : SplitBy K gl) : Whole B c.groups := by
  intro j g hg i i' hi hi' hb
  obtain ⟨t, m, h1, h2⟩ := h.store.mds.cover j g i hg hi
  obtain ⟨t', m', h1', h2'⟩ := h.store.mds.cover j g i' hg hi'
  obtain ⟨ts, h3, h4⟩ := h.group_types hg
  subst h2 h2'
  rw [hp t m h1] at hb
  rw [hp t' m' h1']
  exact hk ts (List.mem_of_getElem? h3) t ((h4 t).2 ⟨m, h1, hi⟩) t' ((h4 t').2 ⟨m', h1', hi'⟩) hb

theorem AgreeParts.agree {K : TypeId → Prop} {B : Nat → Prop} {c c' : ComponentStorage V} (h : AgreeParts K B c c')
    {gl : List (List TypeId)} (hl : LayStat c gl) (hk : SplitBy K gl) : AgreeOn K B c c' where
  md := h.md
  mds := hl.store.mds
  pos := h.pos
  sets := ⟨hl.store.gstat, whole_of hl h.pos hk, h.len, h.same, h.fresh, by rw [h.groups]; exact SameStat.refl _,
    fun j g hg _ => by simp only [h.groups]; exact hg⟩

namespace AgreeOn
variable {K : TypeId → Prop} {B : Nat → Prop} {c c' : ComponentStorage V}

theorem setLayout (h : AgreeOn K B c c') {rank : TypeId → Nat} {l : GroupLayout} {es : List Entity} {c2 : ComponentStorage V}
    (hr : c.setLayout rank l es = .ok () c2) {gl : List (List TypeId)} (hl : LayStat c2 gl) (hk : SplitBy K gl) :
    ∃ B2 c2', c'.setLayout rank l es = .ok () c2' ∧ AgreeOn K B2 c2 c2' := by
  unfold ComponentStorage.setLayout at hr ⊢
  cases hx : c.extractSparseSets with
  | ub => rw [hx] at hr; cases hr
  | panic => rw [hx] at hr; cases hr
  | ok p =>
    obtain ⟨sets, c0⟩ := p
    rw [hx] at hr
    simp only at hr
    obtain ⟨⟨sets1, comps⟩, h1, hx⟩ := Res.bind_ok' hx
    cases hx
    obtain ⟨sets', comps', h2, h3, h4, h5, h6⟩ := takeSets_agree (K := K) (B := B) c.metadata
      (fun p hp => h.pos p.1 p.2 ((lookup_some h.mds.keys p.1 p.2).2 hp)) h.sets.len h.sets.same h.sets.fresh h1
    have e1 : c'.extractSparseSets = .ok (sets', ⟨[], [], comps'⟩) := by
      unfold ComponentStorage.extractSparseSets
      rw [h.md, h2]
      rfl
    rw [e1]
    simp only
    have p0 : AgreeParts K B (⟨[], [], comps⟩ : ComponentStorage V) ⟨[], [], comps'⟩ :=
      ⟨rfl, rfl, h4, fun t m hm => by simp [ComponentStorage.meta?] at hm,
        fun t m hm => by simp [ComponentStorage.meta?] at hm, h5, h6⟩
    cases ha : ComponentStorage.addFamilies l.families ((⟨[], [], comps⟩ : ComponentStorage V), sets) with
    | ub => rw [ha] at hr; cases hr
    | panic b => rw [ha] at hr; cases hr
    | ok u b =>
      rw [ha] at hr
      obtain ⟨B1, b', h7, h8, h9⟩ := AgreeParts.addFamilies _ p0 h3 ha
      rw [h7]
      obtain ⟨c1, left⟩ := b
      obtain ⟨c1', left'⟩ := b'
      simp only at hr h8 h9 ⊢
      obtain ⟨B2, h10⟩ := AgreeParts.addUngrouped (h9.sortByRank rank) h8
      generalize ComponentStorage.addUngrouped (ComponentStorage.sortByRank rank left) c1 = d at hr h10
      generalize ComponentStorage.addUngrouped (ComponentStorage.sortByRank rank left') c1' = d' at h10 ⊢
      rw [h10.groups]
      cases hm : GroupMask.fromTo 0 d.groups.length with
      | ub => rw [hm] at hr; cases hr
      | panic => rw [hm] at hr; cases hr
      | ok mask =>
        rw [hm] at hr
        simp only at hr ⊢
        cases hg : ComponentStorage.groupEntities mask es (d.components, d.groups) with
        | ub => rw [hg] at hr; cases hr
        | panic => rw [hg] at hr; cases hr
        | ok p =>
          obtain ⟨comps2, gs2⟩ := p
          rw [hg] at hr
          simp only [Outcome.ok.injEq, true_and] at hr
          subst hr
          have hsh := ComponentStorage.groupEntities_shape _ _ _ hg
          have hl1 : LayStat d gl := hl.of_shape ⟨rfl, hsh.1.symm, hsh.2.symm⟩
          have h11 := h10.agree hl1 hk
          have hmask : AgreeMask B2 d.groups mask mask := by
            have hb : ∀ j, mask.getLsbD j = true → j < d.groups.length := by
              intro j hj
              obtain ⟨m1, k1, k2⟩ := GroupMask.fromTo_ok (a := 0) (b := d.groups.length) hl1.store.gstat.count (by omega)
              rw [k1] at hm
              cases hm
              by_contra hc
              by_cases hj64 : j < 64
              · rw [k2 j hj64] at hj
                simp at hj
                omega
              · rw [BitVec.getLsbD_of_ge _ _ (by omega)] at hj
                cases hj
            exact ⟨hb, hb, fun _ _ _ _ => rfl⟩
          obtain ⟨r', h12, h13⟩ := h11.sets.groupEntities es hmask hg
          rw [h10.groups] at h12
          rw [h12]
          exact ⟨B2, _, rfl, h11.of_sets hsh h13⟩

theorem register (h : AgreeOn K B c c') (t : TypeId) {gl : List (List TypeId)} (hl : LayStat (c.register t).2 gl)
    (hk : SplitBy K gl) :
    (c'.register t).1 = (c.register t).1 ∧ ∃ B2, AgreeOn K B2 (c.register t).2 (c'.register t).2 := by
  unfold ComponentStorage.register at hl ⊢
  rw [h.meta?]
  cases ht : c.meta? t with
  | some m => exact ⟨rfl, B, h⟩
  | none =>
    refine ⟨rfl, addPos B c.components.length (K t), ?_⟩
    rw [ht] at hl
    simp only at hl ⊢
    have hlen := h.sets.len
    simp only at hlen
    have hpos : ∀ t' m', (⟨c.groups, ComponentStorage.insertMeta c.metadata t ⟨c.components.length, 0#64, 0#64, none⟩,
        c.components ++ [CompSet.new]⟩ : ComponentStorage V).meta? t' = some m' →
        (addPos B c.components.length (K t) m'.storageIndex ↔ K t') := by
      intro t' m' hm'
      simp only [ComponentStorage.meta?, insertMeta_lookup] at hm'
      split at hm'
      · rename_i he
        cases hm'
        rw [he]
        exact addPos_eq
      · have := h.mds.idx t' m' hm'
        rw [addPos_ne (by omega)]
        exact h.pos t' m' hm'
    refine ⟨by simp only [h.md, hlen], hl.store.mds, hpos, hl.store.gstat,
      whole_of (c := ⟨c.groups, ComponentStorage.insertMeta c.metadata t ⟨c.components.length, 0#64, 0#64, none⟩,
        c.components ++ [CompSet.new]⟩) hl hpos hk, by simp [hlen], ?_, ?_, h.sets.stat, ?_⟩
    · intro i hi
      simp only [List.getElem?_append, hlen]
      split
      · rename_i hlt
        rw [addPos_ne (by omega)] at hi
        exact h.sets.same i hi
      · rfl
    · intro i x hi hx
      simp only [List.getElem?_append, hlen] at hx
      split at hx
      · rename_i hlt
        rw [addPos_ne (by omega)] at hi
        exact h.sets.fresh i x hi hx
      · rw [List.getElem?_eq_some_iff] at hx
        obtain ⟨_, hx⟩ := hx
        simp at hx
        exact hx.symm
    · intro j g hg hb
      have := h.sets.gst.bounds j g hg
      simp only at this
      rw [addPos_ne (by omega)] at hb
      exact h.sets.grp j g hg hb

end AgreeOn
end Sparsey
