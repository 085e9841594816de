import Verif.Spec.Torn
import Verif.Proofs.Bombs
import Verif.Proofs.Hidden

/-!
After an interrupted `delete` the world stands for a map again.
-/

set_option autoImplicit false
set_option linter.unusedSimpArgs false

namespace Sparsey
variable {V : Type}

/-- Contents after `e` has lost `t` and `z` may have got `v` in place of its own component. -/
def Content.torn (f : Content V) (t : TypeId) (e z : Entity) (v : V) : Content V :=
  if z = e then f else f.set t z v

/-- One deletion: complete, or interrupted by the destructor. -/
theorem StoreOK.deleteOneB {A : Entity → Prop} {c : ComponentStorage V} (h : StoreOK A c) {bomb : V → Bool} {e : Entity}
    {t : TypeId} {m : ComponentMetadata} (hm : c.meta? t = some m)
    (hn : ∀ (k : Nat) (g : Group), c.groups[k]? = some g → InRange g m.storageIndex →
      ¬ InPrefix (lists c.components) g e) :
    ∃ s, c.components[m.storageIndex]? = some s ∧
    ((∃ s', s.deleteB bomb e = .ok () (s', (c.value t e).toList) ∧ (∀ v, c.value t e = some v → bomb v = false) ∧
      StoreOK A { c with components := c.components.set m.storageIndex s' } ∧
      ({ c with components := c.components.set m.storageIndex s' } : ComponentStorage V).value = c.value.erase t e ∧
      (∀ (k : Nat) (g : Group), c.groups[k]? = some g → ∀ x,
        InPrefix (lists (c.components.set m.storageIndex s')) g x ↔ InPrefix (lists c.components) g x)) ∨
    ∃ s' z v, s.deleteB bomb e = .panic (s', [v]) ∧ c.value t e = some v ∧ bomb v = true ∧ (c.value t z).isSome ∧
      StoreOK A { c with components := c.components.set m.storageIndex s' } ∧
      ({ c with components := c.components.set m.storageIndex s' } : ComponentStorage V).value =
        (c.value.erase t e).torn t e z v ∧
      (∀ (k : Nat) (g : Group), c.groups[k]? = some g → ∀ x,
        InPrefix (lists (c.components.set m.storageIndex s')) g x ↔ InPrefix (lists c.components) g x)) := by
  obtain ⟨s, s', h1, _, h2, h3, h4, h5⟩ := h.removeOne hm (e := e) hn
  obtain ⟨s0, h6, hwf, hsub, hlen⟩ := h.set_at hm
  rw [h1] at h6
  cases h6
  have hval : ∀ x, c.value t x = s.val x := fun x => c.value_eq hm h1 x
  have hd := hwf.deleteDrops e
  have hil : m.storageIndex < c.components.length := (List.getElem?_eq_some_iff.1 h1).1
  refine ⟨s, h1, ?_⟩
  unfold CompSet.deleteB
  rw [h2, hd]
  cases hv : s.val e with
  | none => exact .inl ⟨s', by simp [Outcome.ofRes, hval, hv], (fun v hv' => by rw [hval, hv] at hv'; cases hv'), h3, h4, h5⟩
  | some v =>
    simp only [Outcome.ofRes, Option.toList, List.any_cons, List.any_nil, Bool.or_false]
    cases hb : bomb v with
    | false =>
      exact .inl ⟨s', by simp [hval, hv], fun v' hv' => by rw [hval, hv] at hv'; cases hv'; exact hb, h3, h4, h5⟩
    | true =>
      obtain ⟨d, hdd⟩ := List.mem_iff_getElem?.1 ((hwf.mem_iff e).2 (by rw [hv]; rfl))
      obtain ⟨z, hz, i1, i2, _, i3⟩ := hwf.afterBomb hdd h2
      have hs' : ({ c with components := c.components.set m.storageIndex s' } : ComponentStorage V).components[m.storageIndex]? =
          some s' := List.getElem?_set_self hil
      obtain ⟨j1, j2, j3⟩ := h3.update hs' i1 (fun x hx => by
        rw [i2] at hx
        obtain ⟨q, q1, _, q2, _⟩ := h3.set_at (t := t) (m := m) hm
        rw [hs'] at q1
        cases q1
        exact q2 x hx) (fun k g _ _ p _ => by rw [i2])
      refine .inr ⟨s.afterBomb s', z, v, by simp, by rw [hval, hv], hb, by
        rw [hval]; exact (hwf.mem_iff z).1 (List.mem_of_getElem? hz), ?_, ?_, ?_⟩
      · simpa [List.set_set] using j1
      · funext t' x
        rw [(h.readable.set hm i1).2]
        unfold Content.torn Content.erase Content.set
        by_cases ht : t' = t
        · subst ht
          rw [if_pos rfl, i3]
          by_cases hze : z = e
          · subst hze
            by_cases hx : x = z
            · simp [hx]
            · simp [hx, hval]
          · rw [if_neg hze]
            by_cases hx : x = e
            · subst hx
              simp [Ne.symm hze]
            · by_cases hxz : x = z
              · subst hxz
                simp [hx, hv]
              · simp [hx, hxz, hval]
        · rw [if_neg ht]
          split <;> simp [ht]
      · intro k g hg x
        have := j2 k g hg x
        simp only [List.set_set] at this
        rw [this]
        exact h5 k g hg x

/-- The loop of `delete`, interrupted. -/
theorem deleteEachB_torn {A : Entity → Prop} {bomb : V → Bool} {e : Entity} : ∀ (ts : List TypeId) (c : ComponentStorage V)
    (ds : List V) (c' : ComponentStorage V) (ds' : List V), StoreOK A c → (∀ t ∈ ts, (c.meta? t).isSome) →
    (∀ t ∈ ts, ∀ (k : Nat) (g : Group), c.groups[k]? = some g → InRange g (c.idxOf t) →
      ¬ InPrefix (lists c.components) g e) →
    ComponentStorage.deleteEachB bomb e (ts.map c.idxOf) c ds = .panic (c', ds') →
    ∃ a t b z v, ts = a ++ t :: b ∧ t ∉ a ∧ c.value t e = some v ∧ bomb v = true ∧
      (∀ u ∈ (c.value.removed e a).filterMap id, bomb u = false) ∧
      ds' = ds ++ ((c.value.removed e a).filterMap id ++ [v]) ∧ (c.value t z).isSome ∧ StoreOK A c' ∧
      c'.groups = c.groups ∧ c'.metadata = c.metadata ∧ c'.value = (c.value.eraseAll e (a ++ [t])).torn t e z v ∧
      (∀ (k : Nat) (g : Group), c.groups[k]? = some g → ∀ x,
        InPrefix (lists c'.components) g x ↔ InPrefix (lists c.components) g x) := by
  intro ts
  induction ts with
  | nil => intro c ds c' ds' _ _ _ h; cases h
  | cons t ts ih =>
    intro c ds c' ds' h hr hn hd
    obtain ⟨m, hm⟩ := Option.isSome_iff_exists.1 (hr t (by simp))
    have hidx := c.idxOf_eq hm
    obtain ⟨s, h1, h2⟩ := h.deleteOneB (bomb := bomb) hm (e := e) (by
      intro k g hg hr
      exact hn t (by simp) k g hg (by rw [hidx]; exact hr))
    rw [List.map_cons, hidx] at hd
    unfold ComponentStorage.deleteEachB at hd
    rw [h1] at hd
    simp only [Res.unchecked_some, Outcome.ofRes] at hd
    rcases h2 with ⟨s', h3, h4, h5, h6, h7⟩ | ⟨s', z, v, h3, h4, h5, h6, h7, h8, h9⟩
    · rw [h3] at hd
      dsimp only at hd
      have hmap : ts.map ({ c with components := c.components.set m.storageIndex s' } : ComponentStorage V).idxOf =
          ts.map c.idxOf := rfl
      obtain ⟨a, t', b, z, v, i1, i2, i3, i4, i5, i6, i7, i8, i9, i10, i11, i12⟩ := ih
        { c with components := c.components.set m.storageIndex s' } (ds ++ (c.value t e).toList) c' ds' h5
        (fun t' ht' => hr t' (by simp [ht'])) (by
          intro t' ht' k g hg hr hp
          exact hn t' (by simp [ht']) k g hg hr ((h7 k g hg e).1 hp)) (by rw [hmap]; exact hd)
      rw [h6] at i3 i5 i6 i7 i11
      have htt : t' ≠ t := by
        rintro rfl
        simp [Content.erase] at i3
      have hopt : (c.value.removed e (t :: a)).filterMap id =
          (c.value t e).toList ++ ((c.value.erase t e).removed e a).filterMap id := by
        rw [Content.removed]
        cases c.value t e <;> rfl
      refine ⟨t :: a, t', b, z, v, by rw [i1]; rfl, by simp [htt, i2], ?_, i4, ?_, ?_, ?_, i8, i9, i10, i11, ?_⟩
      · simpa [Content.erase, htt] using i3
      · rw [hopt]
        intro u hu
        rcases List.mem_append.1 hu with hu | hu
        · exact h4 u (by simpa using hu)
        · exact i5 u hu
      · rw [hopt, i6]
        simp only [List.append_assoc]
      · simpa [Content.erase, htt] using i7
      · intro k g hg x
        rw [i12 k g hg x]
        exact h7 k g hg x
    · rw [h3] at hd
      cases hd
      exact ⟨[], t, ts, z, v, rfl, by simp, h4, h5, by simp [Content.removed], by simp [Content.removed], h6, h7, rfl, rfl,
        h8, h9⟩

/-- An interrupted `delete`: the world stands for the torn map. -/
theorem InvX.deleteB_torn {w w' : World V} {s : MapWorld V} {P : Entity → Nat → Prop} (h : InvX w s P) {bomb : V → Bool}
    {e : Entity} {ts : List TypeId} (hv : w.Even (.delete e ts)) (hk : s.knows ts) {ds : List V}
    (hd : w.deleteB bomb e ts = .panic (w', ds)) :
    ∃ s', s.Torn bomb e ts ds s' ∧ InvX w' s' (fun x k => P x k ∨ x = e) ∧
      ∀ x k, w'.components.Shown x k ↔ w.components.Shown x k ∧ ¬ (x = e ∧ s.InGroup ts k) := by
  have hr' := (h.knows_iff ts).1 hk
  obtain ⟨mask, h1, h2⟩ := lookupAll_ok h.store (·.deleteMask) ts hr'
  obtain ⟨c1, h3, h4, h5, h6, h7, h8, h9, hsh⟩ := ungroup_store h.life.idxUniq h.store h.grouped (.ofTypes h.store h2) e
    (fun hm0 => by
      simp only [World.Even, World.swaps, ComponentStorage.removePairs, h1, if_neg hm0] at hv
      exact hv)
  have hmeta : ∀ t, c1.meta? t = w.components.meta? t := fun t => by
    unfold ComponentStorage.meta?; rw [h7]
  have hidx : ∀ t, c1.idxOf t = w.components.idxOf t := fun t => by
    unfold ComponentStorage.idxOf; rw [hmeta]
  have hmap : ts.map c1.idxOf = ts.map w.components.idxOf := List.map_congr_left fun t _ => hidx t
  have hmask : ∀ t ∈ ts, ∀ (k : Nat) (g : Group), c1.groups[k]? = some g → InRange g (c1.idxOf t) →
      mask.getLsbD k = true := by
    intro t ht k g hk hrg
    obtain ⟨m, hm⟩ := Option.isSome_iff_exists.1 (hr' t ht)
    obtain ⟨g0, h10, h11⟩ := h6.get hk
    refine (h2 k).2 ⟨t, ht, m, hm, (h.store.mds.del t m k hm).2 ⟨g0, h10, ?_⟩⟩
    rw [hidx, w.components.idxOf_eq hm] at hrg
    exact (InRange.stat h11 _).1 hrg
  unfold World.deleteB ComponentStorage.deleteB at hd
  rw [h1] at hd
  simp only [Outcome.ofRes, h3] at hd
  cases hp : ComponentStorage.deleteEachB bomb e (ts.map w.components.idxOf) c1 [] with
  | ub => rw [hp] at hd; cases hd
  | ok u q => rw [hp] at hd; cases hd
  | panic q =>
    obtain ⟨c', d⟩ := q
    rw [hp] at hd
    cases hd
    rw [← hmap] at hp
    obtain ⟨a, t, b, z, v, i1, i2, i3, i4, i5, i6, i7, i8, i9, i10, i11, i12⟩ := deleteEachB_torn ts c1 [] c' ds h4
      (fun t ht => by rw [hmeta]; exact hr' t ht) (fun t ht k g hk hrg => h9 k g (hmask t ht k g hk hrg) hk) hp
    rw [h5, h.value] at i3 i5 i6 i7 i11
    have hsome : ∀ t' x, (c'.value t' x).isSome → (c1.value t' x).isSome := by
      intro t' x hx
      rw [i11, Content.eraseAll_eq] at hx
      rw [h5, h.value]
      unfold Content.torn at hx
      split at hx
      · dsimp only at hx
        split at hx
        · cases hx
        · exact hx
      · unfold Content.set at hx
        split at hx
        · rename_i hc
          rw [hc.1, hc.2]
          exact i7
        · dsimp only at hx
          split at hx
          · cases hx
          · exact hx
    refine ⟨_, ⟨a, t, b, z, v, i1, i2, i3, i4, ?_, ?_, i7, rfl⟩, ?_, fun x k => ?_⟩
    · rw [Table.removed_eq]; exact i5
    · rw [Table.removed_eq]; simpa using i6
    · refine (h.mono (Q := fun x k => P x k ∨ x = e) fun _ _ => .inl).of_store rfl rfl rfl i8 ?_ ?_ (i10.trans h7)
        (by rw [i9]; exact h6)
      · intro k g x hg hc
        rw [i9] at hg
        rw [i12 k g hg]
        have hsub : Complete (lists c1.components) g x := by
          intro i h11 h12
          obtain ⟨t, m, hm, rfl⟩ := h4.mds.cover k g i hg ⟨h11, h12⟩
          rw [h4.mem_lists_iff hm]
          have h13 := hc m.storageIndex h11 h12
          rw [i8.mem_lists_iff (t := t) (m := m) (by unfold ComponentStorage.meta?; rw [i10]; exact hm)] at h13
          exact hsome t x h13
        rcases h8 k g x hg hsub with h13 | h13 | ⟨rfl, h13⟩
        · exact .inl h13
        · exact .inr (.inl h13)
        · exact .inr (.inr rfl)
      · rw [i11]
        unfold Content.torn
        split
        · rw [Table.get_eraseAll]
        · rw [Table.get_set, Table.get_eraseAll]
    · show c'.Shown x k ↔ _
      rw [ComponentStorage.shown_same i9 i12, hsh, ← h.inGroup_iff, h2]

/-- An interrupted `delete`: the entities outside of their groups. -/
theorem IsHidden.torn {w w' : World V} {s s' : MapWorld V} {H : List (Entity × Nat)} (hH : IsHidden w s H) {bomb : V → Bool}
    {e : Entity} {ts : List TypeId} {ds : List V} (ht : s.Torn bomb e ts ds s')
    (hs : ∀ x k, w'.components.Shown x k ↔ w.components.Shown x k ∧ ¬ (x = e ∧ s.InGroup ts k)) :
    IsHidden w' s' (s.hiddenTorn s' H e ts) := by
  obtain ⟨a, t, b, z, v, h1, _, _, _, _, _, h2, h3⟩ := ht
  have hg : s'.groups = s.groups := by rw [h3]
  have hget : ∀ u x, ¬ (x = e ∧ u ∈ ts) → ((s'.table.get u x).isSome ↔ (s.table.get u x).isSome) := by
    intro u x hx
    have h4 : (s.table.eraseAll e (a ++ [t])).get u x = s.table.get u x := by
      rw [Table.get_eraseAll, Content.eraseAll_eq]
      dsimp only
      rw [if_neg]
      rintro ⟨h5, rfl⟩
      refine hx ⟨rfl, ?_⟩
      rw [h1]
      rcases List.mem_append.1 h5 with h5 | h5
      · simp [h5]
      · simp [List.mem_singleton.1 h5]
    rw [h3]
    dsimp only
    split
    · rw [h4]
    · rw [Table.get_set]
      unfold Content.set
      split
      · rename_i hc
        rw [hc.1, hc.2]
        simp [h2]
      · rw [h4]
  have hfull : ∀ x k, ¬ (x = e ∧ s.InGroup ts k) → (s'.Full x k ↔ s.Full x k) := by
    intro x k hx
    constructor
    · refine MapWorld.full_congr hg.symm fun us h4 u h5 h => (hget u x ?_).1 h
      rintro ⟨rfl, h6⟩
      rw [hg] at h4
      exact hx ⟨rfl, us, h4, u, h6, h5⟩
    · refine MapWorld.full_congr hg fun us h4 u h5 h => (hget u x ?_).2 h
      rintro ⟨rfl, h6⟩
      exact hx ⟨rfl, us, h4, u, h6, h5⟩
  intro x k
  rw [MapWorld.hiddenTorn, List.mem_append, List.mem_filter, hH, hs]
  by_cases hx : x = e ∧ s.InGroup ts k
  · obtain ⟨rfl, hk⟩ := hx
    simp only [hk, and_self, not_true_eq_false, decide_false, Bool.false_eq_true, and_false, false_or, not_false_eq_true,
      and_true]
    simp only [List.mem_map, List.mem_filter, List.mem_range, decide_eq_true_eq, Prod.mk.injEq, true_and,
      exists_eq_right, and_iff_right_iff_imp]
    constructor
    · rintro ⟨_, _, h5⟩
      exact h5
    · intro h5
      refine ⟨?_, hk, h5⟩
      obtain ⟨us, h6, _⟩ := hk
      exact (List.getElem?_eq_some_iff.1 h6).1
  · simp only [hx, not_false_eq_true, decide_true, and_true, hfull x k hx]
    constructor
    · rintro (h5 | h5)
      · exact h5
      · refine absurd ?_ hx
        obtain ⟨k', h6, h7⟩ := List.mem_map.1 h5
        cases h7
        exact ⟨rfl, (of_decide_eq_true (List.mem_filter.1 h6).2).1⟩
    · exact .inl

end Sparsey
