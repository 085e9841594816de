import Verif.Proofs.Query
import Verif.Proofs.Safe

/-!
Writes to positions of component sets: at most one read changes. Needs no discipline.
-/

set_option autoImplicit false
set_option linter.unusedSimpArgs false

namespace Sparsey
variable {V : Type}

/-- Two handles found at the same position are equal. -/
theorem IdxRep.get_inj {sv : SparseVec} {ents : List Entity} (h : IdxRep sv ents) {a b : Entity} {d : Nat}
    (ha : sv.get a = some d) (hb : sv.get b = some d) : a = b := by
  obtain ⟨x, hx, h1⟩ := h.get_at ha
  obtain ⟨y, hy, h2⟩ := h.get_at hb
  rw [hx] at hy
  cases hy
  have hi : a.index = b.index := h1.symm.trans h2
  simp only [SparseVec.get, Entity.sparse, hi] at ha hb
  cases hs : sv.slots[b.index]? with
  | none => rw [hs] at ha; cases ha
  | some o =>
    rw [hs] at ha hb
    cases o with
    | none => cases ha
    | some sl =>
      simp only at ha hb
      by_cases hav : sl.version = a.version
      · by_cases hbv : sl.version = b.version
        · cases a; cases b
          simp_all
        · simp [hbv] at hb
      · simp [hav] at ha

/-- The world with position `pos` of set `idx` overwritten. -/
def World.poke (w : World V) (idx : Nat) (s : CompSet V) (pos : Nat) (v : V) : World V :=
  { w with components := { w.components with
      components := w.components.components.set idx { s with components := s.components.set pos v } } }

theorem World.poke_meta (w : World V) (idx : Nat) (s : CompSet V) (pos : Nat) (v : V) (t : TypeId) :
    (w.poke idx s pos v).components.meta? t = w.components.meta? t := rfl

theorem World.poke_get_same {w : World V} {t : TypeId} {idx pos : Nat} {s : CompSet V} (hv : ViewAt w.components t idx s)
    (hp : pos < s.components.length) (v : V) (x : Entity) : (w.poke idx s pos v).viewGet t x =
      if s.sparse.get x = some pos then .ok (some v) else w.viewGet t x := by
  obtain ⟨m, hm, rfl, hs⟩ := hv
  have hlt := (List.getElem?_eq_some_iff.1 hs).1
  simp only [World.viewGet, World.borrow, World.poke_meta, hm]
  simp only [World.poke, List.getElem?_set_self hlt, hs, Res.unchecked_some, Res.bind_ok, CompSet.get]
  cases hg : s.sparse.get x with
  | none => simp
  | some d =>
    simp only [Option.some.injEq]
    by_cases hd : d = pos
    · subst hd
      simp [List.getElem?_set_self hp]
    · rw [if_neg hd, List.getElem?_set_ne (Ne.symm hd)]

theorem World.poke_get_ne {w : World V} (hst : Static w.components) {t t' : TypeId} {idx pos : Nat} {s : CompSet V}
    (hv : ViewAt w.components t idx s) (hne : t' ≠ t) (v : V) (x : Entity) :
    (w.poke idx s pos v).viewGet t' x = w.viewGet t' x := by
  obtain ⟨m, hm, rfl, hs⟩ := hv
  simp only [World.viewGet, World.borrow, World.poke_meta]
  cases hm' : w.components.meta? t' with
  | none => rfl
  | some m' =>
    have : m.storageIndex ≠ m'.storageIndex := fun h => hne (hst.inj t' t m' m hm' hm h.symm)
    simp only [World.poke, List.getElem?_set_ne this]

theorem World.poke_self {w : World V} {t : TypeId} {idx pos : Nat} {s : CompSet V} (hv : ViewAt w.components t idx s)
    {v : V} (h : s.components[pos]? = some v) : w.poke idx s pos v = w := by
  obtain ⟨m, hm, rfl, hs⟩ := hv
  have h1 : s.components.set pos v = s.components := by
    apply List.ext_getElem?
    intro i
    by_cases hi : pos = i
    · subst hi
      rw [List.getElem?_set_self (List.getElem?_eq_some_iff.1 h).1, h]
    · rw [List.getElem?_set_ne hi]
  have h2 : w.components.components.set m.storageIndex s = w.components.components := by
    apply List.ext_getElem?
    intro i
    by_cases hi : m.storageIndex = i
    · subst hi
      rw [List.getElem?_set_self (List.getElem?_eq_some_iff.1 hs).1, hs]
    · rw [List.getElem?_set_ne hi]
  simp only [World.poke, h1, h2]

/-- A write by entity is a write to its position. -/
theorem World.writeView_eq {w : World V} (hc : Sound w.components) {t : TypeId} {idx : Nat} {s : CompSet V}
    (hv : ViewAt w.components t idx s) (e : Entity) (v : V) :
    (s.sparse.get e = none ∧ w.writeView t e v = .ok (false, w)) ∨
    ∃ pos, s.sparse.get e = some pos ∧ pos < s.components.length ∧
      w.writeView t e v = .ok (true, w.poke idx s pos v) := by
  obtain ⟨m, hm, rfl, hs⟩ := hv
  simp only [World.writeView, hm, hs, Res.unchecked_some, Res.bind_ok, CompSet.setMut]
  cases hg : s.sparse.get e with
  | none =>
    refine .inl ⟨rfl, ?_⟩
    have h2 : w.components.components.set m.storageIndex s = w.components.components := by
      apply List.ext_getElem?
      intro i
      by_cases hi : m.storageIndex = i
      · subst hi
        rw [List.getElem?_set_self (List.getElem?_eq_some_iff.1 hs).1, hs]
      · rw [List.getElem?_set_ne hi]
    simp [h2]
  | some pos =>
    obtain ⟨x, hx, _⟩ := (hc.sets s (List.mem_of_getElem? hs)).rep.get_at hg
    obtain ⟨u, hu⟩ := (hc.sets s (List.mem_of_getElem? hs)).comp_at hx
    refine .inr ⟨pos, rfl, (List.getElem?_eq_some_iff.1 hu).1, ?_⟩
    simp [hu, World.poke]

theorem World.writeAt_eq {w : World V} {t : TypeId} {idx pos : Nat} {s : CompSet V} (hv : ViewAt w.components t idx s)
    (hp : pos < s.components.length) (v : V) : w.writeAt t pos v = .ok (w.poke idx s pos v) := by
  obtain ⟨m, hm, rfl, hs⟩ := hv
  simp [World.writeAt, hm, hs, CompSet.setAt, List.getElem?_eq_getElem hp, World.poke]

theorem World.viewAt_of_registered {w : World V} (hc : Sound w.components) {t : TypeId} (ht : w.isRegistered t = true) :
    ∃ idx s, ViewAt w.components t idx s ∧ s.IdxOk := by
  simp only [World.isRegistered, ComponentStorage.isRegistered, Option.isSome_iff_exists] at ht
  obtain ⟨m, hm⟩ := ht
  obtain ⟨s, h1, h2⟩ := hc.at_meta hm
  exact ⟨_, s, ⟨m, hm, rfl, h1⟩, h2⟩

theorem World.viewGet_of {w : World V} {t : TypeId} {idx : Nat} {s : CompSet V} (hv : ViewAt w.components t idx s)
    (x : Entity) : w.viewGet t x = s.get x := by
  obtain ⟨m, hm, rfl, hs⟩ := hv
  simp [World.viewGet, World.borrow, hm, hs]

/-! ### Items refer to positions of sets -/

/-- The set, position and value that a part of an item refers to. -/
def ItemPart.refers : ItemPart V → Option (Nat × Nat × V)
  | .entity _ => none
  | .ref idx d v => some (idx, d, v)
  | .opt r => r

theorem PartView.get_refers {c : ComponentStorage V} {p : Part} {pv : PartView V} (hv : IsView c p pv) {e : Entity}
    {y : ItemPart V} (hy : pv.get e = .ok (some y)) {idx d : Nat} {u : V} (hr : y.refers = some (idx, d, u)) :
    ∃ t b s, p.access = some (t, b) ∧ ViewAt c t idx s ∧ s.sparse.get e = some d ∧ s.components[d]? = some u := by
  cases p <;> cases pv <;> simp only [IsView] at hv
  · cases hy; cases hr
  all_goals
    rename_i t x i s
    obtain ⟨rfl, hv⟩ := hv
    simp only [PartView.get] at hy
    cases hg : s.sparse.get e with
    | none => rw [hg] at hy; cases hy; try cases hr
    | some d' =>
      rw [hg] at hy
      simp only [Res.bind_eq_ok] at hy
      obtain ⟨u', hu, hy⟩ := hy
      have hu := Res.unchecked_ok hu
      cases hy
      cases hr
      exact ⟨t, _, s, rfl, hv, hg, hu⟩

theorem PartView.optRaw_refers {idx' : Nat} {s : CompSet V} {e : Entity} {y : ItemPart V}
    (hy : PartView.optRaw idx' s e = .ok y) {idx d : Nat} {u : V} (hr : y.refers = some (idx, d, u)) :
    idx = idx' ∧ s.components[d]? = some u := by
  unfold PartView.optRaw at hy
  split at hy
  · cases hy; cases hr
  · rw [Res.bind_eq_ok] at hy
    obtain ⟨u', hu, hy⟩ := hy
    have hu := Res.unchecked_ok hu
    cases hy
    cases hr
    exact ⟨rfl, hu⟩

theorem PartView.sparse_refers {c : ComponentStorage V} {p : Part} {pv : PartView V} (hv : IsView c p pv) {e : Entity}
    {y : ItemPart V} (hy : pv.getSparseRaw e = .ok (some y)) {idx d : Nat} {u : V} (hr : y.refers = some (idx, d, u)) :
    ∃ t b s, p.access = some (t, b) ∧ ViewAt c t idx s ∧ s.components[d]? = some u := by
  cases p <;> cases pv <;> simp only [IsView] at hv
  · cases hy; cases hr
  all_goals
    rename_i t x i s
    obtain ⟨rfl, hv⟩ := hv
    simp only [PartView.getSparseRaw] at hy
  iterate 2
    · cases hg : s.sparse.getSparse e.sparse with
      | none => rw [hg] at hy; cases hy
      | some d' =>
        rw [hg] at hy
        simp only [Res.bind_eq_ok] at hy
        obtain ⟨u', hu, hy⟩ := hy
        have hu := Res.unchecked_ok hu
        cases hy
        cases hr
        exact ⟨t, _, s, rfl, hv, hu⟩
  all_goals
    rw [Res.bind_eq_ok] at hy
    obtain ⟨y', h1, hy⟩ := hy
    cases hy
    obtain ⟨rfl, h2⟩ := PartView.optRaw_refers h1 hr
    exact ⟨t, _, s, rfl, hv, h2⟩

theorem PartView.dense_refers {c : ComponentStorage V} {p : Part} {pv : PartView V} (hv : IsView c p pv) {e : Entity}
    {k : Nat} {y : ItemPart V} (hy : pv.getDenseRaw k e = .ok y) {idx d : Nat} {u : V}
    (hr : y.refers = some (idx, d, u)) :
    ∃ t b s, p.access = some (t, b) ∧ ViewAt c t idx s ∧ s.components[d]? = some u := by
  cases p <;> cases pv <;> simp only [IsView] at hv
  · cases hy; cases hr
  all_goals
    rename_i t x i s
    obtain ⟨rfl, hv⟩ := hv
    simp only [PartView.getDenseRaw] at hy
  iterate 2
    · rw [Res.bind_eq_ok] at hy
      obtain ⟨u', hu, hy⟩ := hy
      have hu := Res.unchecked_ok hu
      cases hy
      cases hr
      exact ⟨t, _, s, rfl, hv, hu⟩
  all_goals
    obtain ⟨rfl, h2⟩ := PartView.optRaw_refers hy hr
    exact ⟨t, _, s, rfl, hv, h2⟩

end Sparsey
