import Verif.Proofs.Order
import Verif.Proofs.LoneStep
import Verif.Proofs.Panics
import Verif.Proofs.EraseStore

/-!
The iteration order of the hash map in `ComponentStorage::set_layout` (C64): two storages that differ in the positions of
the sets outside of groups only stay alike.
-/

set_option autoImplicit false
set_option linter.unusedSimpArgs false

namespace Sparsey
variable {V : Type}

/-! ### Grouping does not look at sets after the ends of the groups -/

/-- Adds sets at the end. -/
def Sets.more (b : List (CompSet V)) (s : Sets V) : Sets V := (s.1 ++ b, s.2)

/-- All groups end before `n`. -/
def EndBy (n : Nat) (gs : List Group) : Prop := ∀ g ∈ gs, g.storageEnd ≤ n

theorem EndBy.of_stat {n : Nat} {gs gs' : List Group} (h : EndBy n gs) (hs : SameStat gs gs') : EndBy n gs' := by
  intro g hg
  obtain ⟨i, hi⟩ := List.mem_iff_getElem?.1 hg
  obtain ⟨g', h1, h2⟩ := hs.get hi
  rw [Group.stat_end h2]
  exact h g' (List.mem_of_getElem? h1)

theorem compRange_more {a b : List (CompSet V)} {i j : Nat} (h : j ≤ a.length) : compRange (a ++ b) i j = compRange a i j := by
  unfold compRange
  by_cases hij : i ≤ j
  · rw [if_pos ⟨hij, by rw [List.length_append]; omega⟩, if_pos ⟨hij, h⟩, List.drop_append_of_le_length (by omega),
      List.take_append_of_le_length (by rw [List.length_drop]; omega)]
  · rw [if_neg (fun h => hij h.1), if_neg (fun h => hij h.1)]

theorem swapRange_more {a b : List (CompSet V)} {i j q x : Nat} (h : j ≤ a.length) :
    swapRange (a ++ b) i j q x = (swapRange a i j q x).bind fun a' => .ok (a' ++ b) := by
  unfold swapRange
  rw [compRange_more h]
  cases hc : compRange a i j with
  | panic => rfl
  | ub => rfl
  | ok seg =>
    simp only [Res.bind_ok]
    cases swapAllTo q x seg with
    | panic => rfl
    | ub => rfl
    | ok seg' =>
      have hij : i ≤ j := by
        unfold compRange at hc
        split at hc
        · rename_i h; exact h.1
        · cases hc
      simp only [Res.bind_ok, Res.pure_eq, Res.bind]
      rw [List.take_append_of_le_length (by omega), List.drop_append_of_le_length h]
      simp

theorem groupLoop_more {e : Entity} (b : List (CompSet V)) : ∀ (fuel : Nat) (m : BitVec 64) (s : Sets V),
    EndBy s.1.length s.2 → groupLoop e fuel m (s.more b) = (groupLoop e fuel m s).bind fun s' => .ok (s'.more b) := by
  intro fuel
  induction fuel with
  | zero =>
    intro m s _
    obtain ⟨comps, groups⟩ := s
    unfold groupLoop
    cases bitNext m with
    | none => rfl
    | some p => rfl
  | succ fuel ih =>
    intro m s hs
    obtain ⟨comps, groups⟩ := s
    unfold Sets.more groupLoop
    cases bitNext m with
    | none => rfl
    | some p =>
      obtain ⟨i, m'⟩ := p
      dsimp only
      cases hg : groups[i]? with
      | none => rfl
      | some g =>
        have hend := hs g (List.mem_of_getElem? hg)
        simp only [Res.unchecked_some, Res.bind_ok, compRange_more hend]
        cases hr : compRange comps g.newStorageStart g.storageEnd with
        | panic => rfl
        | ub => rfl
        | ok seg =>
          simp only [Res.bind_ok]
          cases getGroupStatus seg g.len e with
          | panic => rfl
          | ub => rfl
          | ok st =>
            simp only [Res.bind_ok]
            cases st with
            | incomplete => exact ih _ (comps, groups) hs
            | grouped => exact ih _ (comps, groups) hs
            | ungrouped =>
              simp only [groupComponents]
              rw [swapRange_more hend]
              cases hsw : swapRange comps g.storageStart g.storageEnd g.len e.sparse with
              | panic => rfl
              | ub => rfl
              | ok comps' =>
                refine ih _ (comps', groups.set i { g with len := g.len + 1 }) ?_
                intro g' hg'
                have hl := swapRange_length hsw
                simp only [hl]
                rcases List.mem_or_eq_of_mem_set hg' with h | rfl
                · exact hs g' h
                · exact hend

theorem ungroupStep_more {e : Entity} {i : Nat} (b : List (CompSet V)) {s : Sets V} (hs : EndBy s.1.length s.2) :
    ungroupStep e i (s.more b) = (ungroupStep e i s).bind fun s' => .ok (s'.more b) := by
  obtain ⟨comps, groups⟩ := s
  unfold Sets.more ungroupStep
  dsimp only
  cases hg : groups[i]? with
  | none => rfl
  | some g =>
    have hend := hs g (List.mem_of_getElem? hg)
    simp only [Res.unchecked_some, Res.bind_ok, compRange_more hend]
    cases hr : compRange comps g.newStorageStart g.storageEnd with
    | panic => rfl
    | ub => rfl
    | ok seg =>
      simp only [Res.bind_ok]
      cases getGroupStatus seg g.len e with
      | panic => rfl
      | ub => rfl
      | ok st =>
        simp only [Res.bind_ok]
        cases st with
        | incomplete => rfl
        | ungrouped => rfl
        | grouped =>
          simp only [ungroupComponents]
          by_cases h0 : g.len = 0
          · simp [h0, Res.bind]
          · rw [if_neg h0, if_neg h0, swapRange_more hend]
            cases swapRange comps g.storageStart g.storageEnd (g.len - 1) e.sparse <;> rfl

theorem EndBy.of_shape {s s' : Sets V} (h : EndBy s.1.length s.2) (hs : SetsShape s s') : EndBy s'.1.length s'.2 := by
  rw [hs.1]
  exact h.of_stat hs.2

theorem ungroupLoop_more {e : Entity} (b : List (CompSet V)) : ∀ (fuel : Nat) (m : BitVec 64) (s : Sets V),
    EndBy s.1.length s.2 → ungroupLoop e fuel m (s.more b) = (ungroupLoop e fuel m s).bind fun s' => .ok (s'.more b) := by
  intro fuel
  induction fuel with
  | zero =>
    intro m s _
    unfold ungroupLoop
    cases bitNextBack m with
    | none => rfl
    | some p => rfl
  | succ fuel ih =>
    intro m s hs
    unfold ungroupLoop
    cases bitNextBack m with
    | none => rfl
    | some p =>
      obtain ⟨i, m'⟩ := p
      dsimp only
      rw [ungroupStep_more b hs]
      cases h1 : ungroupStep e i s with
      | panic => rfl
      | ub => rfl
      | ok s1 => exact ih m' s1 (hs.of_shape (ungroupStep_shape h1))

theorem ungroupAllLoop_more {e : Entity} (b : List (CompSet V)) : ∀ (n : Nat) (s : Sets V),
    EndBy s.1.length s.2 → ungroupAllLoop e n (s.more b) = (ungroupAllLoop e n s).bind fun s' => .ok (s'.more b)
  | 0, _, _ => rfl
  | n + 1, s, hs => by
    unfold ungroupAllLoop
    rw [ungroupStep_more b hs]
    cases h1 : ungroupStep e n s with
    | panic => rfl
    | ub => rfl
    | ok s1 => exact ungroupAllLoop_more b n s1 (hs.of_shape (ungroupStep_shape h1))

theorem groupEntities_more {m : GroupMask} (b : List (CompSet V)) : ∀ (es : List Entity) (s : Sets V),
    EndBy s.1.length s.2 → ComponentStorage.groupEntities m es (s.more b) =
      (ComponentStorage.groupEntities m es s).bind fun s' => .ok (s'.more b)
  | [], _, _ => rfl
  | e :: es, s, hs => by
    unfold ComponentStorage.groupEntities group
    rw [groupLoop_more b 64 m s hs]
    cases h1 : groupLoop e 64 m s with
    | panic => rfl
    | ub => rfl
    | ok s1 => exact groupEntities_more b es s1 (hs.of_shape (groupLoop_shape _ _ _ _ h1))

/-! ### Storages that are alike -/

namespace ComponentStorage

/-- One type in two storages: the same metadata and the same set, the same position if it is below `n`. -/
structure AlikeAt (n : Nat) (c c' : ComponentStorage V) (m m' : ComponentMetadata) : Prop where
  ins : m'.insertMask = m.insertMask
  del : m'.deleteMask = m.deleteMask
  info : m'.groupInfo = m.groupInfo
  set : c'.components[m'.storageIndex]? = c.components[m.storageIndex]?
  low : m.storageIndex < n ∨ m'.storageIndex < n → m'.storageIndex = m.storageIndex

/-- Two storages that differ in the positions of the sets from position `n` on only. -/
structure Alike (n : Nat) (c c' : ComponentStorage V) : Prop where
  groups : c'.groups = c.groups
  len : c'.components.length = c.components.length
  bound : n ≤ c.components.length
  below : c'.components.take n = c.components.take n
  ends : EndBy n c.groups
  absent : ∀ t, c'.meta? t = none ↔ c.meta? t = none
  metas : ∀ t m m', c.meta? t = some m → c'.meta? t = some m' → AlikeAt n c c' m m'
  cover : ∀ i, n ≤ i → i < c.components.length → ∃ t m, c.meta? t = some m ∧ m.storageIndex = i
  cover' : ∀ i, n ≤ i → i < c'.components.length → ∃ t m, c'.meta? t = some m ∧ m.storageIndex = i
  st : Static c
  st' : Static c'

namespace Alike
variable {n : Nat} {c c' : ComponentStorage V}

theorem symm (h : Alike n c c') : Alike n c' c where
  groups := h.groups.symm
  len := h.len.symm
  bound := by rw [h.len]; exact h.bound
  below := h.below.symm
  ends := by rw [h.groups]; exact h.ends
  absent t := (h.absent t).symm
  metas t m m' hm hm' :=
    have a := h.metas t m' m hm' hm
    ⟨a.ins.symm, a.del.symm, a.info.symm, a.set.symm, fun hl => (a.low hl.symm).symm⟩
  cover := h.cover'
  cover' := h.cover
  st := h.st'
  st' := h.st

theorem get (h : Alike n c c') {t : TypeId} {m : ComponentMetadata} (hm : c.meta? t = some m) :
    ∃ m', c'.meta? t = some m' ∧ AlikeAt n c c' m m' := by
  cases hm' : c'.meta? t with
  | none => rw [(h.absent t).1 hm'] at hm; cases hm
  | some m' => exact ⟨m', rfl, h.metas t m m' hm hm'⟩

/-- The same change of the set of one type. -/
theorem set (h : Alike n c c') {t : TypeId} {m m' : ComponentMetadata} (hm : c.meta? t = some m)
    (hm' : c'.meta? t = some m') (s : CompSet V) :
    Alike n { c with components := c.components.set m.storageIndex s }
      { c' with components := c'.components.set m'.storageIndex s } := by
  have ha := h.metas t m m' hm hm'
  have hi := h.st.idx t m hm
  have hi' := h.st'.idx t m' hm'
  refine ⟨h.groups, by simp [h.len], by simp [h.bound], ?_, h.ends, h.absent, ?_, by rw [List.length_set]; exact h.cover,
    by rw [List.length_set]; exact h.cover',
    h.st.of_shape (Shape.set c _ s), h.st'.of_shape (Shape.set c' _ s)⟩
  · dsimp only
    by_cases hl : m.storageIndex < n ∨ m'.storageIndex < n
    · rw [ha.low hl, List.take_set, List.take_set, h.below]
    · rw [List.take_set_of_le (by omega), List.take_set_of_le (by omega), h.below]
  · intro t2 m2 m2' h2 h2'
    have hb := h.metas t2 m2 m2' h2 h2'
    refine ⟨hb.ins, hb.del, hb.info, ?_, hb.low⟩
    dsimp only
    by_cases ht : t2 = t
    · subst ht
      cases h2.symm.trans hm
      cases h2'.symm.trans hm'
      rw [List.getElem?_set_self hi, List.getElem?_set_self hi']
    · rw [List.getElem?_set_ne (fun he => ht (h.st.inj _ _ _ _ h2 hm he.symm)),
        List.getElem?_set_ne (fun he => ht (h.st'.inj _ _ _ _ h2' hm' he.symm))]
      exact hb.set

/-- The same change of the sets below `n` and of the groups. -/
theorem sets (h : Alike n c c') {r : Sets V} (hr : SetsShape (c.components.take n, c.groups) r) :
    Alike n { c with components := r.1 ++ c.components.drop n, groups := r.2 }
      { c' with components := r.1 ++ c'.components.drop n, groups := r.2 } := by
  have hb := h.bound
  have hb' := h.symm.bound
  have hl : r.1.length = n := by rw [hr.1]; simp [hb]
  have hlen : (r.1 ++ c.components.drop n).length = c.components.length := by simp [hl]; omega
  have hlen' : (r.1 ++ c'.components.drop n).length = c'.components.length := by simp [hl]; omega
  have hat : ∀ (l : List (CompSet V)) (i : Nat), (r.1 ++ l.drop n)[i]? = if i < n then r.1[i]? else l[i]? := by
    intro l i
    by_cases hi : i < n
    · rw [if_pos hi, List.getElem?_append_left (by omega)]
    · rw [if_neg hi, List.getElem?_append_right (by omega), List.getElem?_drop]
      congr 1
      omega
  refine ⟨rfl, by rw [hlen, hlen', h.len], by rw [hlen]; exact hb, ?_, h.ends.of_stat hr.2, h.absent, ?_,
    by rw [hlen]; exact h.cover, by rw [hlen']; exact h.cover', ?_, ?_⟩
  · dsimp only
    rw [List.take_append_of_le_length (by omega), List.take_append_of_le_length (by omega)]
  · intro t m m' hm hm'
    have ha := h.metas t m m' hm hm'
    refine ⟨ha.ins, ha.del, ha.info, ?_, ha.low⟩
    dsimp only
    rw [hat, hat]
    by_cases hi : m.storageIndex < n ∨ m'.storageIndex < n
    · have := ha.low hi
      rw [this] at hi
      rw [this, if_pos (by omega), if_pos (by omega)]
    · rw [if_neg (by omega), if_neg (by omega)]
      exact ha.set
  · exact h.st.of_shape ⟨rfl, hlen, hr.2⟩
  · refine h.st'.of_shape ⟨rfl, hlen', ?_⟩
    rw [h.groups]
    exact hr.2

end Alike
end ComponentStorage

/-- Two results of the same kind, with related values. -/
def Res.Same {α β : Type} (R : α → β → Prop) : Res α → Res β → Prop
  | .ok a, .ok b => R a b
  | .panic, .panic => True
  | .ub, .ub => True
  | _, _ => False

theorem Res.Same.bind {α β α' β' : Type} {R : α → β → Prop} {S : α' → β' → Prop} {r : Res α} {r' : Res β}
    {f : α → Res α'} {f' : β → Res β'} (h : r.Same R r') (hf : ∀ a b, R a b → (f a).Same S (f' b)) :
    (r >>= f).Same S (r' >>= f') := by
  cases r <;> cases r' <;> first | exact h.elim | exact trivial | exact hf _ _ h

theorem Res.Same.refl {α : Type} {R : α → α → Prop} (hR : ∀ a, R a a) (r : Res α) : r.Same R r := by
  cases r <;> first | exact hR _ | exact trivial

theorem Res.Same.of_eq {α β : Type} {R : α → β → Prop} {r r1 : Res α} {r' : Res β} (h : r.Same R r') (he : r = r1) :
    r1.Same R r' := he ▸ h

/-- Two outcomes of the same kind, with related values and states. -/
def Outcome.Same {σ τ α : Type} (R : σ → τ → Prop) : Outcome σ α → Outcome τ α → Prop
  | .ok a s, .ok b s' => a = b ∧ R s s'
  | .panic s, .panic s' => R s s'
  | .ub, .ub => True
  | _, _ => False

theorem Outcome.Same.bind {σ τ α β : Type} {R : σ → τ → Prop} {r : Outcome σ α} {r' : Outcome τ α}
    {f : α → σ → Outcome σ β} {f' : α → τ → Outcome τ β} (h : r.Same R r')
    (hf : ∀ a s s', R s s' → (f a s).Same R (f' a s')) : (r.bind f).Same R (r'.bind f') := by
  cases r <;> cases r' <;> first | exact h.elim | exact h | (obtain ⟨rfl, h⟩ := h; exact hf _ _ _ h)

theorem Outcome.Same.ofRes {σ τ α α' β : Type} {R : σ → τ → Prop} {Q : α → α' → Prop} {s : σ} {s' : τ} (hs : R s s')
    {r : Res α} {r' : Res α'} (h : r.Same Q r') {f : α → Outcome σ β} {f' : α' → Outcome τ β}
    (hf : ∀ a b, Q a b → (f a).Same R (f' b)) : (Outcome.ofRes s r f).Same R (Outcome.ofRes s' r' f') := by
  cases r <;> cases r' <;> first | exact h.elim | exact hs | exact trivial | exact hf _ _ h


namespace ComponentStorage
namespace Alike
variable {n : Nat} {c c' : ComponentStorage V}

/-- Positions of the set of the same type. -/
def PairAt (md md' : List (TypeId × ComponentMetadata)) (i i' : Nat) : Prop :=
  ∃ t m m', md.lookup t = some m ∧ md'.lookup t = some m' ∧ m.storageIndex = i ∧ m'.storageIndex = i'

theorem onSet (h : Alike n c c') {i i' : Nat} (hi : PairAt c.metadata c'.metadata i i') {α : Type}
    (f : CompSet V → Res (α × CompSet V)) :
    (c.onSet f i).Same (fun p p' => p.1 = p'.1 ∧ Alike n p.2 p'.2 ∧ p.2.metadata = c.metadata ∧ p'.2.metadata = c'.metadata)
      (c'.onSet f i') := by
  obtain ⟨t, m, m', hm, hm', rfl, rfl⟩ := hi
  unfold ComponentStorage.onSet
  rw [(h.metas t m m' hm hm').set]
  cases c.components[m.storageIndex]? with
  | none => exact trivial
  | some s =>
    simp only [Res.unchecked_some, Res.bind_ok]
    cases f s with
    | panic => exact trivial
    | ub => exact trivial
    | ok p => exact ⟨rfl, h.set hm hm' p.2, rfl, rfl⟩

theorem insertAt {e : Entity} : ∀ {l l' : List (Nat × V)} {c c' : ComponentStorage V}, Alike n c c' →
    List.Forall₂ (fun p p' => PairAt c.metadata c'.metadata p.1 p'.1 ∧ p.2 = p'.2) l l' →
    (c.insertAt e l).Same (fun r r' => Alike n r r' ∧ r.metadata = c.metadata ∧ r'.metadata = c'.metadata) (c'.insertAt e l')
  | _, _, c, c', h, .nil => ⟨h, rfl, rfl⟩
  | (i, v) :: l, (i', v') :: l', c, c', h, .cons hp hl => by
    obtain ⟨hp, rfl⟩ := hp
    rw [insertAt_cons, insertAt_cons]
    refine (h.onSet hp _).bind fun a b hab => ?_
    obtain ⟨_, h1, h2, h3⟩ := hab
    rw [← h2, ← h3] at hl ⊢
    exact insertAt h1 hl

theorem deleteEach {e : Entity} : ∀ {l l' : List Nat} {c c' : ComponentStorage V}, Alike n c c' →
    List.Forall₂ (PairAt c.metadata c'.metadata) l l' →
    (c.deleteEach e l).Same (Alike n) (c'.deleteEach e l')
  | _, _, c, c', h, .nil => h
  | i :: l, i' :: l', c, c', h, .cons hp hl => by
    rw [deleteEach_cons, deleteEach_cons]
    refine (h.onSet hp _).bind fun a b hab => ?_
    obtain ⟨_, h1, h2, h3⟩ := hab
    rw [← h2, ← h3] at hl
    exact deleteEach h1 hl

theorem removeEach {e : Entity} : ∀ {l l' : List Nat} {c c' : ComponentStorage V}, Alike n c c' →
    List.Forall₂ (PairAt c.metadata c'.metadata) l l' →
    (c.removeEach e l).Same (fun p p' => p.1 = p'.1 ∧ Alike n p.2 p'.2) (c'.removeEach e l')
  | _, _, c, c', h, .nil => ⟨rfl, h⟩
  | i :: l, i' :: l', c, c', h, .cons hp hl => by
    rw [removeEach_cons, removeEach_cons]
    refine (h.onSet hp _).bind fun a b hab => ?_
    obtain ⟨h0, h1, h2, h3⟩ := hab
    rw [← h2, ← h3] at hl
    refine (removeEach h1 hl).bind fun x y hxy => ?_
    exact ⟨by rw [h0, hxy.1], hxy.2⟩

theorem lookupAll (h : Alike n c c') {f : ComponentMetadata → GroupMask} (hf : ∀ m m', AlikeAt n c c' m m' → f m' = f m) :
    ∀ ts : List TypeId, (c.lookupAll f ts).Same
      (fun p p' => List.Forall₂ (PairAt c.metadata c'.metadata) p.1 p'.1 ∧ p.2 = p'.2) (c'.lookupAll f ts)
  | [] => ⟨.nil, rfl⟩
  | t :: ts => by
    rw [ComponentStorage.lookupAll, ComponentStorage.lookupAll]
    cases hm : c.meta? t with
    | none =>
      rw [(h.absent t).2 hm]
      exact trivial
    | some m =>
      obtain ⟨m', hm', ha⟩ := h.get hm
      rw [hm']
      refine (lookupAll h hf ts).bind fun p p' hp => ?_
      dsimp only
      rw [ha.set]
      cases c.components[m.storageIndex]? with
      | none => exact trivial
      | some s => exact ⟨.cons ⟨t, m, m', hm, hm', rfl, rfl⟩ hp.1, by rw [hf m m' ha, hp.2]⟩

theorem withMask (h : Alike n c c') (mask : GroupMask) {f : Sets V → Res (Sets V)}
    (hm : ∀ b s, EndBy s.1.length s.2 → f (Sets.more b s) = (f s).bind fun s' => .ok (s'.more b))
    (hs : ∀ s s', f s = .ok s' → SetsShape s s') :
    (c.withMask mask f).Same (fun r r' => Alike n r r' ∧ r.metadata = c.metadata ∧ r'.metadata = c'.metadata)
      (c'.withMask mask f) := by
  unfold ComponentStorage.withMask
  split
  · exact ⟨h, rfl, rfl⟩
  · have h1 : (c.components, c.groups) = Sets.more (c.components.drop n) (c.components.take n, c.groups) := by
      simp [Sets.more]
    have h2 : (c'.components, c'.groups) = Sets.more (c'.components.drop n) (c.components.take n, c.groups) := by
      simp [Sets.more, ← h.below, h.groups]
    have hend : EndBy (c.components.take n, c.groups).1.length (c.components.take n, c.groups).2 := by
      have := h.bound
      simpa [Nat.min_eq_left this] using h.ends
    rw [h1, h2, hm _ _ hend, hm _ _ hend]
    cases hf : f (c.components.take n, c.groups) with
    | panic => exact trivial
    | ub => exact trivial
    | ok r => exact ⟨h.sets (hs _ _ hf), rfl, rfl⟩

theorem group (h : Alike n c c') (mask : GroupMask) (e : Entity) :
    (c.withMask mask (Sparsey.group · mask e)).Same (fun r r' => Alike n r r' ∧ r.metadata = c.metadata ∧ r'.metadata = c'.metadata)
      (c'.withMask mask (Sparsey.group · mask e)) :=
  h.withMask mask (fun b s hs => groupLoop_more b 64 mask s hs) (fun s s' => groupLoop_shape 64 mask s s')

theorem ungroup (h : Alike n c c') (mask : GroupMask) (e : Entity) :
    (c.withMask mask (Sparsey.ungroup · mask e)).Same
      (fun r r' => Alike n r r' ∧ r.metadata = c.metadata ∧ r'.metadata = c'.metadata)
      (c'.withMask mask (Sparsey.ungroup · mask e)) :=
  h.withMask mask (fun b s hs => ungroupLoop_more b 64 mask s hs) (fun s s' => ungroupLoop_shape 64 mask s s')

theorem groupEntities (h : Alike n c c') (mask : GroupMask) (es : List Entity) :
    (c.withMask mask (ComponentStorage.groupEntities mask es)).Same
      (fun r r' => Alike n r r' ∧ r.metadata = c.metadata ∧ r'.metadata = c'.metadata)
      (c'.withMask mask (ComponentStorage.groupEntities mask es)) :=
  h.withMask mask (fun b s hs => groupEntities_more b es s hs) (fun s s' => groupEntities_shape es s s')

theorem insertEach {e : Entity} : ∀ (vs : List (TypeId × V)) (mask : GroupMask) {c c' : ComponentStorage V}, Alike n c c' →
    (c.insertEach e vs mask).Same (Alike n) (c'.insertEach e vs mask)
  | [], mask, c, c', h => ⟨rfl, h⟩
  | (t, v) :: vs, mask, c, c', h => by
    cases hm : c.meta? t with
    | none =>
      rw [ComponentStorage.insertEach, ComponentStorage.insertEach, hm, (h.absent t).2 hm]
      exact h
    | some m =>
      obtain ⟨m', hm', ha⟩ := h.get hm
      rw [insertEach_cons hm, insertEach_cons hm', ha.ins]
      refine Outcome.Same.ofRes h (h.onSet ⟨t, m, m', hm, hm', (c.idxOf_eq hm).symm, (c'.idxOf_eq hm').symm⟩ _) fun a b hab => ?_
      exact insertEach vs _ hab.2.1

theorem insert (h : Alike n c c') (e : Entity) (vs : List (TypeId × V)) :
    (c.insert e vs).Same (Alike n) (c'.insert e vs) := by
  refine (insertEach vs 0#64 h).bind fun mask d d' hd => ?_
  exact Outcome.Same.ofRes hd (hd.group mask e) fun a b hab => ⟨rfl, hab.1⟩

theorem remove (h : Alike n c c') (e : Entity) (ts : List TypeId) :
    (c.remove e ts).Same (fun p p' => p.1 = p'.1 ∧ Alike n p.2 p'.2) (c'.remove e ts) := by
  refine (h.lookupAll (fun _ _ ha => ha.del) ts).bind fun p p' hp => ?_
  obtain ⟨i, mask⟩ := p
  obtain ⟨i', mask'⟩ := p'
  obtain ⟨hp, rfl⟩ := hp
  refine (h.ungroup mask e).bind fun d d' hd => ?_
  obtain ⟨h1, h2, h3⟩ := hd
  rw [← h2, ← h3] at hp
  exact removeEach h1 hp

theorem delete (h : Alike n c c') (e : Entity) (ts : List TypeId) :
    (c.delete e ts).Same (Alike n) (c'.delete e ts) := by
  refine (h.lookupAll (fun _ _ ha => ha.del) ts).bind fun p p' hp => ?_
  obtain ⟨i, mask⟩ := p
  obtain ⟨i', mask'⟩ := p'
  obtain ⟨hp, rfl⟩ := hp
  refine (h.ungroup mask e).bind fun d d' hd => ?_
  obtain ⟨h1, h2, h3⟩ := hd
  rw [← h2, ← h3] at hp
  exact deleteEach h1 hp

/-! ### The other functions of the storage -/

theorem strip (h : Alike n c c') (e : Entity) : (c.strip e).Same (Alike n) (c'.strip e) := by
  have h1 : (c.components, c.groups) = Sets.more (c.components.drop n) (c.components.take n, c.groups) := by
    simp [Sets.more]
  have h2 : (c'.components, c'.groups) = Sets.more (c'.components.drop n) (c.components.take n, c.groups) := by
    simp [Sets.more, ← h.below, h.groups]
  have hend : EndBy (c.components.take n, c.groups).1.length (c.components.take n, c.groups).2 := by
    have := h.bound
    simpa [Nat.min_eq_left this] using h.ends
  unfold ComponentStorage.strip ungroupAll
  rw [h1, h2, ungroupAllLoop_more _ _ _ hend, ungroupAllLoop_more _ _ _ hend]
  show Res.Same _ (((ungroupAllLoop e c.groups.length (c.components.take n, c.groups)).bind _) >>= _)
    (((ungroupAllLoop e c.groups.length (c.components.take n, c.groups)).bind _) >>= _)
  cases hu : ungroupAllLoop e c.groups.length (c.components.take n, c.groups) with
  | panic => exact trivial
  | ub => exact trivial
  | ok r =>
    have hd := h.sets (ungroupAllLoop_shape _ _ _ hu)
    simp only [Res.bind, Res.bind_ok, Sets.more]
    have key : ∀ {d d' : ComponentStorage V}, Alike n d d' → ∀ {l : List (CompSet V)},
        deleteAll e d.components = .ok l → ∃ l', deleteAll e d'.components = .ok l' ∧
          Alike n { d with components := l } { d' with components := l' } := by
      intro d d' hd l hl
      have hmem : ∀ (i : Nat) s', d'.components[i]? = some s' → ∃ (j : Nat) (s : CompSet V), d.components[j]? = some s ∧ s' = s := by
        intro i s' hs
        have hi : i < d'.components.length := (List.getElem?_eq_some_iff.1 hs).1
        by_cases hin : i < n
        · have : (d'.components.take n)[i]? = some s' := by rw [List.getElem?_take_of_lt hin]; exact hs
          rw [hd.below, List.getElem?_take_of_lt hin] at this
          exact ⟨i, s', this, rfl⟩
        · obtain ⟨t, m', hm', rfl⟩ := hd.cover' i (by omega) hi
          obtain ⟨m, hm, ha⟩ := hd.symm.get hm'
          exact ⟨m.storageIndex, s', by rw [ha.set]; exact hs, rfl⟩
      obtain ⟨l', hl'⟩ := AgreeOn.deleteAll_total (e := e) d'.components (by
        intro s' hs'
        obtain ⟨i, hi⟩ := List.mem_iff_getElem?.1 hs'
        obtain ⟨j, s, hj, rfl⟩ := hmem i s' hi
        rcases AgreeOn.deleteAll_getElem hl j with ⟨_, hn⟩ | ⟨s1, s2, h1, _, h3⟩
        · rw [hn] at hj; cases hj
        · rw [h1] at hj; cases hj
          exact ⟨s2, h3⟩)
      refine ⟨l', hl', ?_⟩
      have hlen := deleteAll_length _ _ hl
      have hlen' := deleteAll_length _ _ hl'
      have hat : ∀ i i' : Nat, d'.components[i']? = d.components[i]? → l'[i']? = l[i]? := by
        intro i i' hii
        rcases AgreeOn.deleteAll_getElem hl i with ⟨a1, a2⟩ | ⟨s1, s2, a1, a2, a3⟩ <;>
          rcases AgreeOn.deleteAll_getElem hl' i' with ⟨b1, b2⟩ | ⟨s1', s2', b1, b2, b3⟩
        · rw [a1, b1]
        · rw [a2, b1] at hii; cases hii
        · rw [a1, b2] at hii; cases hii
        · rw [a1, b1] at hii
          cases hii
          rw [a3] at b3
          cases b3
          rw [a2, b2]
      refine ⟨hd.groups, by rw [hlen, hlen', hd.len], by rw [hlen]; exact hd.bound, ?_, hd.ends, hd.absent, ?_,
        by rw [hlen]; exact hd.cover, by rw [hlen']; exact hd.cover', hd.st.of_shape ⟨rfl, hlen, rfl⟩,
        hd.st'.of_shape ⟨rfl, hlen', rfl⟩⟩
      · apply List.ext_getElem?
        intro i
        by_cases hi : i < n
        · rw [List.getElem?_take_of_lt hi, List.getElem?_take_of_lt hi]
          refine hat i i ?_
          have := congrArg (·[i]?) hd.below
          simpa only [List.getElem?_take_of_lt hi] using this
        · rw [List.getElem?_take_eq_none (by omega), List.getElem?_take_eq_none (by omega)]
      · intro t m m' hm hm'
        have ha := hd.metas t m m' hm hm'
        exact ⟨ha.ins, ha.del, ha.info, hat _ _ ha.set, ha.low⟩
    cases hl : deleteAll e (r.1 ++ c.components.drop n) with
    | ok l =>
      obtain ⟨l', hl', hA⟩ := key hd hl
      dsimp only at hl'
      rw [hl']
      exact hA
    | panic => exact absurd hl (deleteAll_ne_panic _)
    | ub =>
      cases hl' : deleteAll e (r.1 ++ c'.components.drop n) with
      | ok l' =>
        obtain ⟨l, h3, _⟩ := key hd.symm hl'
        dsimp only at h3
        rw [hl] at h3
        cases h3
      | panic => exact absurd hl' (deleteAll_ne_panic _)
      | ub => exact trivial

theorem clear (h : Alike n c c') : Alike n c.clear c'.clear := by
  have hs : ∀ d : ComponentStorage V, Static d → Static d.clear := fun d hd =>
    ⟨fun t m hm => by simpa [ComponentStorage.clear] using hd.idx t m hm, fun t t' m m' => hd.inj t t' m m'⟩
  refine ⟨by simp [ComponentStorage.clear, h.groups], by simp [ComponentStorage.clear, h.len],
    by simpa [ComponentStorage.clear] using h.bound, by simp [ComponentStorage.clear, ← List.map_take, h.below], ?_, h.absent, ?_,
    ?_, ?_, hs c h.st, hs c' h.st'⟩
  · intro g hg
    obtain ⟨g', h1, rfl⟩ := List.mem_map.1 hg
    exact h.ends g' h1
  · intro t m m' hm hm'
    have ha := h.metas t m m' hm hm'
    exact ⟨ha.ins, ha.del, ha.info, by simp [ComponentStorage.clear, ha.set], ha.low⟩
  · intro i h1 h2
    exact h.cover i h1 (by simpa [ComponentStorage.clear] using h2)
  · intro i h1 h2
    exact h.cover' i h1 (by simpa [ComponentStorage.clear] using h2)

theorem register (h : Alike n c c') (t : TypeId) :
    (c'.register t).1 = (c.register t).1 ∧ Alike n (c.register t).2 (c'.register t).2 := by
  have hst := register_static h.st t
  have hst' := register_static h.st' t
  unfold ComponentStorage.register at hst hst' ⊢
  cases hm : c.meta? t with
  | some m =>
    obtain ⟨m', hm', _⟩ := h.get hm
    rw [hm']
    exact ⟨rfl, h⟩
  | none =>
    have hm' := (h.absent t).2 hm
    rw [hm] at hst
    rw [hm'] at hst' ⊢
    have hb := h.bound
    have hlen := h.len
    refine ⟨rfl, h.groups, by simp [h.len], by simp; omega, ?_, h.ends, ?_, ?_, ?_, ?_, hst, hst'⟩
    · dsimp only
      rw [List.take_append_of_le_length hb, List.take_append_of_le_length (by omega), h.below]
    · intro t2
      simp only [meta?, insertMeta_lookup]
      by_cases ht : t2 = t
      · simp [ht]
      · rw [if_neg ht, if_neg ht]
        exact h.absent t2
    · intro t2 m2 m2' h2 h2'
      simp only [meta?, insertMeta_lookup] at h2 h2'
      by_cases ht : t2 = t
      · rw [if_pos ht] at h2 h2'
        cases h2
        cases h2'
        exact ⟨rfl, rfl, rfl, by simp, fun _ => h.len⟩
      · rw [if_neg ht] at h2 h2'
        have ha := h.metas t2 m2 m2' h2 h2'
        refine ⟨ha.ins, ha.del, ha.info, ?_, ha.low⟩
        dsimp only
        rw [List.getElem?_append_left (h.st.idx _ _ h2), List.getElem?_append_left (h.st'.idx _ _ h2')]
        exact ha.set
    · intro i h1 h2
      simp only [List.length_append, List.length_singleton] at h2
      by_cases hi : i < c.components.length
      · obtain ⟨t2, m2, h3, h4⟩ := h.cover i h1 hi
        refine ⟨t2, m2, ?_, h4⟩
        simp only [meta?, insertMeta_lookup]
        rw [if_neg (by rintro rfl; rw [hm] at h3; cases h3)]
        exact h3
      · exact ⟨t, ⟨c.components.length, 0#64, 0#64, none⟩, by simp [meta?, insertMeta_lookup], by dsimp only; omega⟩
    · intro i h1 h2
      simp only [List.length_append, List.length_singleton] at h2
      by_cases hi : i < c'.components.length
      · obtain ⟨t2, m2, h3, h4⟩ := h.cover' i h1 hi
        refine ⟨t2, m2, ?_, h4⟩
        simp only [meta?, insertMeta_lookup]
        rw [if_neg (by rintro rfl; rw [hm'] at h3; cases h3)]
        exact h3
      · exact ⟨t, ⟨c'.components.length, 0#64, 0#64, none⟩, by simp [meta?, insertMeta_lookup], by dsimp only; omega⟩

end Alike

/-! ### Setting a layout -/

theorem takeSets_comps : ∀ (md : List (TypeId × ComponentMetadata)) (comps comps' : List (CompSet V))
    (sets : List (TypeId × CompSet V)), takeSets md comps = .ok (sets, comps') → ∀ i,
    ((∀ p ∈ md, p.2.storageIndex ≠ i) → comps'[i]? = comps[i]?) ∧
    ((∃ p ∈ md, p.2.storageIndex = i) → i < comps.length → comps'[i]? = some CompSet.new)
  | [], comps, comps', sets, h, i => by
    cases h
    exact ⟨fun _ => rfl, by simp⟩
  | (t, m) :: md, comps, comps', _, h, i => by
    obtain ⟨s, hs, h⟩ := Res.bind_ok' h
    obtain ⟨⟨sets, c1⟩, h1, h⟩ := Res.bind_ok' h
    cases h
    obtain ⟨i1, i2⟩ := takeSets_comps md _ _ _ h1 i
    constructor
    · intro hp
      rw [i1 fun p h => hp p (.tail _ h), List.getElem?_set_ne (hp (t, m) (.head _))]
    · rintro ⟨p, hp, hpi⟩ hi
      by_cases hr : ∃ p ∈ md, p.2.storageIndex = i
      · exact i2 hr (by rw [List.length_set]; exact hi)
      · rw [i1 fun p hp he => hr ⟨p, hp, he⟩]
        rcases List.mem_cons.1 hp with rfl | hp
        · dsimp only at hpi
          rw [hpi, List.getElem?_set_self hi]
        · exact absurd ⟨p, hp, hpi⟩ hr

/-- The same sets, by type. -/
def SameSets (l l' : List (TypeId × CompSet V)) : Prop :=
  (∀ t, l'.lookup t = l.lookup t) ∧ (l.map Prod.fst).Nodup ∧ (l'.map Prod.fst).Nodup

theorem SameSets.remove {l l' : List (TypeId × CompSet V)} (h : SameSets l l') (t : TypeId) :
    (removeSet l' t).1 = (removeSet l t).1 ∧ SameSets (removeSet l t).2 (removeSet l' t).2 := by
  refine ⟨h.1 t, fun t2 => ?_, h.2.1.sublist (List.filter_sublist.map _), h.2.2.sublist (List.filter_sublist.map _)⟩
  simp only [removeSet]
  by_cases ht : t2 = t
  · subst ht
    have hno : ∀ l : List (TypeId × CompSet V), (l.filter (fun p => p.1 != t2)).lookup t2 = none := by
      intro l
      rw [lookup_none]
      simp
    rw [hno, hno]
  · rw [lookup_filter_ne _ _ _ ht, lookup_filter_ne _ _ _ ht, h.1]

/-- The same storage, the same sets that are left. -/
def SameBuilding (b b' : Building V) : Prop := b'.1 = b.1 ∧ SameSets b.2 b'.2

theorem addComponents_same {f : GroupFamily} {x y z : Nat} : ∀ (n idx : Nat) {b b' : Building V}, SameBuilding b b' →
    (addComponents f x y z idx n b).Same SameBuilding (addComponents f x y z idx n b')
  | 0, _, b, b', h => ⟨rfl, h⟩
  | n + 1, idx, (c, sets), (c', sets'), h => by
    obtain ⟨h1, h2⟩ := h
    dsimp only at h1 h2
    subst h1
    rw [addComponents, addComponents]
    refine Outcome.Same.ofRes (Q := Eq) ⟨rfl, h2⟩ (Res.Same.refl (fun _ => rfl) _) fun a b hab => ?_
    subst hab
    obtain ⟨t, m⟩ := a
    obtain ⟨h3, h4⟩ := h2.remove t
    refine addComponents_same n (idx + 1) ⟨?_, h4⟩
    show ({ c' with metadata := _, components := c'.components ++ [(removeSet sets' t).1.getD CompSet.new] } :
      ComponentStorage V) = _
    rw [h3]
    rfl

theorem addGroups_same {f : GroupFamily} {x y z : Nat} : ∀ (l : List Nat) (prev : Nat) {b b' : Building V},
    SameBuilding b b' → (addGroups f x y z prev l b).Same SameBuilding (addGroups f x y z prev l b')
  | [], _, b, b', h => ⟨rfl, h⟩
  | a :: l, prev, (c, sets), (c', sets'), h => by
    obtain ⟨h1, h2⟩ := h
    dsimp only at h1 h2
    subst h1
    rw [addGroups, addGroups]
    refine Outcome.Same.ofRes (Q := Eq) ⟨rfl, h2⟩ (Res.Same.refl (fun _ => rfl) _) fun g g' hg => ?_
    subst hg
    exact (addComponents_same (b := ({ c' with groups := c'.groups ++ [g] }, sets))
      (b' := ({ c' with groups := c'.groups ++ [g] }, sets')) _ _ ⟨rfl, h2⟩).bind fun _ b b' hb => addGroups_same l a hb

theorem addFamilies_same : ∀ (fs : List GroupFamily) {b b' : Building V}, SameBuilding b b' →
    (addFamilies fs b).Same SameBuilding (addFamilies fs b')
  | [], b, b', h => ⟨rfl, h⟩
  | f :: fs, (c, sets), (c', sets'), h => by
    obtain ⟨h1, h2⟩ := h
    dsimp only at h1 h2
    subst h1
    rw [addFamilies, addFamilies]
    exact (addGroups_same (b := (c', sets)) (b' := (c', sets')) _ _ ⟨rfl, h2⟩).bind fun _ b b' hb => addFamilies_same fs hb

theorem addUngrouped_comps : ∀ (l : List (TypeId × CompSet V)) (c : ComponentStorage V),
    (addUngrouped l c).components = c.components ++ l.map Prod.snd ∧ (addUngrouped l c).groups = c.groups
  | [], c => ⟨by simp [addUngrouped], rfl⟩
  | (t, s) :: l, c => by
    rw [addUngrouped]
    obtain ⟨h1, h2⟩ := addUngrouped_comps l
      { c with metadata := insertMeta c.metadata t ⟨c.components.length, 0#64, 0#64, none⟩, components := c.components ++ [s] }
    exact ⟨by rw [h1]; simp, h2⟩

theorem addUngrouped_metas : ∀ (l : List (TypeId × CompSet V)) (c : ComponentStorage V), (l.map Prod.fst).Nodup →
    (∀ t, l.lookup t = none → (addUngrouped l c).meta? t = c.meta? t) ∧
    ∀ k t s, l[k]? = some (t, s) → (addUngrouped l c).meta? t = some ⟨c.components.length + k, 0#64, 0#64, none⟩
  | [], c, _ => ⟨fun _ _ => rfl, by simp⟩
  | (t, s) :: l, c, hn => by
    rw [addUngrouped]
    rw [List.map_cons, List.nodup_cons] at hn
    obtain ⟨h1, h2⟩ := addUngrouped_metas l
      { c with metadata := insertMeta c.metadata t ⟨c.components.length, 0#64, 0#64, none⟩, components := c.components ++ [s] } hn.2
    constructor
    · intro t2 ht2
      have hne : t2 ≠ t := by
        rintro rfl
        simp at ht2
      rw [List.lookup_cons, show (t2 == t) = false from by simpa using hne] at ht2
      rw [h1 t2 ht2]
      simp only [meta?, insertMeta_lookup]
      rw [if_neg hne]
    · intro k t2 s2 hk
      cases k with
      | zero =>
        cases hk
        rw [h1 t ((lookup_none _ _).2 hn.1)]
        simp [meta?, insertMeta_lookup]
      | succ k =>
        have := h2 k t2 s2 (by simpa using hk)
        rw [this]
        simp
        omega

/-- The sets outside of the layout, in two orders. -/
theorem addUngrouped_alike {c : ComponentStorage V} (hc : Static c) (he : EndBy c.components.length c.groups)
    {l l' : List (TypeId × CompSet V)} (h : SameSets l l') :
    Alike c.components.length (addUngrouped l c) (addUngrouped l' c) := by
  obtain ⟨h0, hn, hn'⟩ := h
  obtain ⟨a1, a2⟩ := addUngrouped_comps l c
  obtain ⟨b1, b2⟩ := addUngrouped_comps l' c
  obtain ⟨a3, a4⟩ := addUngrouped_metas l c hn
  obtain ⟨b3, b4⟩ := addUngrouped_metas l' c hn'
  have hs := (addUngrouped_keeps l c).1 hc
  have hs' := (addUngrouped_keeps l' c).1 hc
  have hmem : ∀ (l : List (TypeId × CompSet V)), (l.map Prod.fst).Nodup → ∀ t s, (t, s) ∈ l ↔ l.lookup t = some s :=
    fun l hn t s => (lookup_some hn t s).symm
  have hlen : l'.length = l.length := by
    have : l'.Perm l := (List.perm_ext_iff_of_nodup (List.Nodup.of_map _ hn') (List.Nodup.of_map _ hn)).2 fun p => by
      rw [show p = (p.1, p.2) from rfl, hmem l' hn', hmem l hn, h0]
    exact this.length_eq
  have cov : ∀ (l : List (TypeId × CompSet V)), (l.map Prod.fst).Nodup → ∀ i, c.components.length ≤ i →
      i < (addUngrouped l c).components.length → ∃ t m, (addUngrouped l c).meta? t = some m ∧ m.storageIndex = i := by
    intro l hn i h1 h2
    rw [(addUngrouped_comps l c).1, List.length_append, List.length_map] at h2
    have hlt : i - c.components.length < l.length := by omega
    exact ⟨_, _, (addUngrouped_metas l c hn).2 (i - c.components.length) _ _ (List.getElem?_eq_getElem hlt),
      by dsimp only; omega⟩
  refine ⟨by rw [a2, b2], by rw [a1, b1]; simp [hlen], by rw [a1]; simp, by rw [a1, b1]; simp, by rw [a2]; exact he, ?_, ?_,
    cov l hn, cov l' hn', hs, hs'⟩
  · intro t
    cases hl : l.lookup t with
    | none => rw [a3 t hl, b3 t (by rw [h0, hl])]
    | some s =>
      obtain ⟨k, hk⟩ := List.mem_iff_getElem?.1 ((hmem l hn t s).2 hl)
      obtain ⟨k', hk'⟩ := List.mem_iff_getElem?.1 ((hmem l' hn' t s).2 (by rw [h0, hl]))
      rw [a4 k t s hk, b4 k' t s hk']
      simp
  · intro t m m' hm hm'
    cases hl : l.lookup t with
    | none =>
      rw [a3 t hl] at hm
      rw [b3 t (by rw [h0, hl]), hm] at hm'
      cases hm'
      have hi := hc.idx t m hm
      refine ⟨rfl, rfl, rfl, ?_, fun _ => rfl⟩
      rw [a1, b1, List.getElem?_append_left hi, List.getElem?_append_left hi]
    | some s =>
      obtain ⟨k, hk⟩ := List.mem_iff_getElem?.1 ((hmem l hn t s).2 hl)
      obtain ⟨k', hk'⟩ := List.mem_iff_getElem?.1 ((hmem l' hn' t s).2 (by rw [h0, hl]))
      rw [a4 k t s hk] at hm
      rw [b4 k' t s hk'] at hm'
      cases hm
      cases hm'
      refine ⟨rfl, rfl, rfl, ?_, fun hlow => by dsimp only at hlow; omega⟩
      rw [a1, b1, List.getElem?_append_right (by dsimp only; omega), List.getElem?_append_right (by dsimp only; omega)]
      simp [hk, hk']

theorem setLayout_alike {n : Nat} {c c' : ComponentStorage V} (h : Alike n c c') (hb : BoundsOK c) (hb' : BoundsOK c')
    (hk : (c.metadata.map Prod.fst).Nodup) (hk' : (c'.metadata.map Prod.fst).Nodup) (rank rank' : TypeId → Nat)
    {l : GroupLayout} (hl : FamsOK l.families) (es : List Entity) :
    (c.setLayout rank l es).Same (fun r r' => ∃ n, Alike n r r') (c'.setLayout rank' l es) := by
  have hin : ∀ (d : ComponentStorage V), (d.metadata.map Prod.fst).Nodup → ∀ t m, (t, m) ∈ d.metadata ↔ d.meta? t = some m :=
    fun d hd t m => (lookup_some hd t m).symm
  obtain ⟨sets, comps, e1, e2, _, e4, _, e6⟩ := takeSets_ok c.metadata c.components hk (fun t m hm => hb.metas _ hm)
    (fun t t' m m' hm hm' => h.st.inj t t' m m' ((hin c hk t m).1 hm) ((hin c hk t' m').1 hm'))
  obtain ⟨sets', comps', f1, f2, _, f4, _, f6⟩ := takeSets_ok c'.metadata c'.components hk' (fun t m hm => hb'.metas _ hm)
    (fun t t' m m' hm hm' => h.st'.inj t t' m m' ((hin c' hk' t m).1 hm) ((hin c' hk' t' m').1 hm'))
  have hex : c.extractSparseSets = .ok (sets, ⟨[], [], comps⟩) := by simp [extractSparseSets, e1]
  have hex' : c'.extractSparseSets = .ok (sets', ⟨[], [], comps'⟩) := by simp [extractSparseSets, f1]
  have hsets : SameSets sets sets' := by
    refine ⟨fun t => ?_, by rw [e4]; exact hk, by rw [f4]; exact hk'⟩
    rw [e6, f6]
    cases hm : c.meta? t with
    | none =>
      have hm' := (h.absent t).2 hm
      unfold meta? at hm hm'
      rw [hm, hm']
      rfl
    | some m =>
      obtain ⟨m', hm', ha⟩ := h.get hm
      unfold meta? at hm hm'
      rw [hm, hm']
      exact ha.set
  have hcomps : comps' = comps := by
    apply List.ext_getElem?
    intro i
    by_cases hi : i < c.components.length
    · obtain ⟨i1, i2⟩ := takeSets_comps _ _ _ _ e1 i
      obtain ⟨j1, j2⟩ := takeSets_comps _ _ _ _ f1 i
      by_cases hn : i < n
      · by_cases hx : ∃ p ∈ c.metadata, p.2.storageIndex = i
        · rw [i2 hx hi, j2 ?_ (by rw [h.len]; exact hi)]
          obtain ⟨⟨t, m⟩, hp, hpi⟩ := hx
          obtain ⟨m', hm', ha⟩ := h.get ((hin c hk t m).1 hp)
          exact ⟨(t, m'), (hin c' hk' t m').2 hm', by rw [← hpi]; exact ha.low (.inl (by rw [← hpi] at hn; exact hn))⟩
        · have hx' : ¬ ∃ p ∈ c'.metadata, p.2.storageIndex = i := by
            rintro ⟨⟨t, m'⟩, hp, hpi⟩
            obtain ⟨m, hm, ha⟩ := h.symm.get ((hin c' hk' t m').1 hp)
            exact hx ⟨(t, m), (hin c hk t m).2 hm, by rw [← hpi]; exact ha.low (.inl (by rw [← hpi] at hn; exact hn))⟩
          rw [i1 fun p hp he => hx ⟨p, hp, he⟩, j1 fun p hp he => hx' ⟨p, hp, he⟩]
          have := congrArg (·[i]?) h.below
          simpa only [List.getElem?_take_of_lt hn] using this
      · obtain ⟨t, m, hm, hmi⟩ := h.cover i (by omega) hi
        obtain ⟨t', m', hm', hmi'⟩ := h.cover' i (by omega) (by rw [h.len]; exact hi)
        rw [i2 ⟨(t, m), (hin c hk t m).2 hm, hmi⟩ hi, j2 ⟨(t', m'), (hin c' hk' t' m').2 hm', hmi'⟩ (by rw [h.len]; exact hi)]
    · rw [List.getElem?_eq_none (by rw [f2, h.len]; omega), List.getElem?_eq_none (by rw [e2]; omega)]
  subst hcomps
  have hstart : SameBuilding ((⟨[], [], comps'⟩, sets) : Building V) (⟨[], [], comps'⟩, sets') := ⟨rfl, hsets⟩
  have hsame := addFamilies_same l.families hstart
  have hb0 : BoundsOK (⟨[], [], comps'⟩ : ComponentStorage V) := ⟨by simp, by simp⟩
  have hst0 : Static (⟨[], [], comps'⟩ : ComponentStorage V) := ⟨by simp [meta?], by simp [meta?]⟩
  have hkeep := addFamilies_keeps l.families ((⟨[], [], comps'⟩, sets) : Building V)
  obtain ⟨j1, j2⟩ := addFamilies_bounds l.families ((⟨[], [], comps'⟩, sets) : Building V) hl hb0 (by simp)
  have hbounds : (addFamilies l.families ((⟨[], [], comps'⟩, sets) : Building V)).Leaves (fun y => BoundsOK y.1) := by
    by_cases hf : (∀ f ∈ l.families, f.components.length < 16) ∧
        (⟨[], [], comps'⟩ : ComponentStorage V).groups.length + (l.families.flatMap famGroups).length < 64
    · obtain ⟨y, k1, k2, _⟩ := j1 hf
      rw [k1]
      exact k2
    · obtain ⟨y, k1, k2⟩ := j2 hf
      rw [k1]
      exact k2
  have halike : ∀ d : ComponentStorage V, Static d → BoundsOK d → Alike d.components.length d d := by
    intro d hd hbd
    refine ⟨rfl, rfl, Nat.le_refl _, rfl, fun g hg => (hbd.groups g hg).2.2, fun _ => Iff.rfl, ?_, ?_, ?_, hd, hd⟩
    · intro t m m' hm hm'
      rw [hm] at hm'
      cases hm'
      exact ⟨rfl, rfl, rfl, rfl, fun _ => rfl⟩
    · intro i h1 h2; omega
    · intro i h1 h2; omega
  unfold setLayout
  rw [hex, hex']
  dsimp only
  cases hA : addFamilies l.families ((⟨[], [], comps'⟩, sets) : Building V) with
  | ub =>
    rw [hA] at hsame
    cases hB : addFamilies l.families ((⟨[], [], comps'⟩, sets') : Building V) with
    | ub => exact trivial
    | ok _ _ => rw [hB] at hsame; exact hsame.elim
    | panic _ => rw [hB] at hsame; exact hsame.elim
  | panic b =>
    rw [hA] at hsame hkeep hbounds
    cases hB : addFamilies l.families ((⟨[], [], comps'⟩, sets') : Building V) with
    | ub => rw [hB] at hsame; exact hsame.elim
    | ok _ _ => rw [hB] at hsame; exact hsame.elim
    | panic b' =>
      rw [hB] at hsame
      obtain ⟨d, ss⟩ := b
      obtain ⟨d', ss'⟩ := b'
      obtain ⟨h1, _⟩ := hsame
      dsimp only at h1
      subst h1
      exact ⟨_, halike _ (hkeep.1 hst0) hbounds⟩
  | ok u b =>
    rw [hA] at hsame hkeep hbounds
    cases hB : addFamilies l.families ((⟨[], [], comps'⟩, sets') : Building V) with
    | ub => rw [hB] at hsame; exact hsame.elim
    | panic _ => rw [hB] at hsame; exact hsame.elim
    | ok u' b' =>
      rw [hB] at hsame
      obtain ⟨d, ss⟩ := b
      obtain ⟨d', ss'⟩ := b'
      obtain ⟨_, h1, h2⟩ := hsame
      dsimp only at h1 h2
      subst h1
      dsimp only
      have hss : SameSets (sortByRank rank ss) (sortByRank rank' ss') := by
        have p1 := sortByRank_perm rank ss
        have p2 := sortByRank_perm rank' ss'
        refine ⟨fun t => ?_, (p1.map Prod.fst).nodup_iff.2 h2.2.1, (p2.map Prod.fst).nodup_iff.2 h2.2.2⟩
        rw [lookup_perm p1 h2.2.1, lookup_perm p2 h2.2.2, h2.1]
      have hA := addUngrouped_alike (hkeep.1 hst0) (fun g hg => (BoundsOK.groups hbounds g hg).2.2) hss
      have hgr := hA.groups
      rw [hgr]
      cases hmask : GroupMask.fromTo 0 (addUngrouped (sortByRank rank ss) d').groups.length with
      | panic => exact ⟨_, hA⟩
      | ub => exact trivial
      | ok mask =>
        dsimp only
        set x := addUngrouped (sortByRank rank ss) d'
        set y := addUngrouped (sortByRank rank' ss') d'
        set k := d'.components.length
        have h3 : (x.components, x.groups) = Sets.more (x.components.drop k) (x.components.take k, x.groups) := by
          simp [Sets.more]
        have h4 : (y.components, x.groups) = Sets.more (y.components.drop k) (x.components.take k, x.groups) := by
          simp [Sets.more, ← hA.below]
        have hend : EndBy (x.components.take k, x.groups).1.length (x.components.take k, x.groups).2 := by
          have := hA.bound
          simpa [Nat.min_eq_left this] using hA.ends
        rw [h3, h4, groupEntities_more _ _ _ hend, groupEntities_more _ _ _ hend]
        cases hg : groupEntities mask es (x.components.take k, x.groups) with
        | panic => exact ⟨_, hA⟩
        | ub => exact trivial
        | ok r => exact ⟨rfl, _, hA.sets (groupEntities_shape _ _ _ hg)⟩

end ComponentStorage

/-! ### Worlds -/

/-- Two worlds that differ in the positions of sets outside of groups only. -/
structure AlikeWorlds (w w' : World V) : Prop where
  entities : w'.entities = w.entities
  components : ∃ n, ComponentStorage.Alike n w.components w'.components

namespace AlikeWorlds
variable {w w' : World V}

theorem symm (h : AlikeWorlds w w') : AlikeWorlds w' w := ⟨h.entities.symm, h.components.imp fun _ h => h.symm⟩

theorem insertSet (h : AlikeWorlds w w') (e : Entity) (vs : List (TypeId × V)) :
    (w.insertSet e vs).Same AlikeWorlds (w'.insertSet e vs) := by
  obtain ⟨n, hc⟩ := h.components
  have := hc.insert e vs
  unfold World.insertSet
  revert this
  cases w.components.insert e vs <;> cases w'.components.insert e vs <;> intro this <;>
    first | exact this.elim | exact trivial | exact ⟨rfl, h.entities, _, this.2⟩ | exact ⟨h.entities, _, this⟩

theorem extendEach {n : Nat} : ∀ (items : List (List V)) {idxs idxs' : List Nat} {w w' : World V}, w'.entities = w.entities →
    ComponentStorage.Alike n w.components w'.components →
    List.Forall₂ (ComponentStorage.Alike.PairAt w.components.metadata w'.components.metadata) idxs idxs' →
    (World.extendEach idxs items w).Same (fun w w' => w'.entities = w.entities ∧ ComponentStorage.Alike n w.components w'.components)
      (World.extendEach idxs' items w')
  | [], idxs, idxs', w, w', he, hc, _ => ⟨rfl, he, hc⟩
  | vs :: rest, idxs, idxs', w, w', he, hc, hi => by
    rw [World.extendEach, World.extendEach, he]
    refine Outcome.Same.ofRes (Q := Eq) ⟨he, hc⟩ (Res.Same.refl (fun _ => rfl) _) fun p p' hp => ?_
    subst hp
    obtain ⟨e, es⟩ := p
    dsimp only
    have hz : List.Forall₂ (fun p p' => ComponentStorage.Alike.PairAt w.components.metadata w'.components.metadata p.1 p'.1 ∧
        p.2 = p'.2) (idxs.zip vs) (idxs'.zip vs) := by
      clear hc he
      induction hi generalizing vs with
      | nil => simp
      | cons h1 h2 ih =>
        cases vs with
        | nil => simp
        | cons v vs => exact .cons ⟨h1, rfl⟩ (ih vs)
    refine Outcome.Same.ofRes ⟨rfl, hc⟩ (ComponentStorage.Alike.insertAt hc hz) fun c c' hcc => ?_
    obtain ⟨h1, h2, h3⟩ := hcc
    exact extendEach rest rfl h1 (by rw [h2, h3]; exact hi)

theorem extend (h : AlikeWorlds w w') (ts : List TypeId) (it : Items V) :
    (w.extend ts it).Same AlikeWorlds (w'.extend ts it) := by
  obtain ⟨n, hc⟩ := h.components
  unfold World.extend
  refine Outcome.Same.ofRes h (hc.lookupAll (fun _ _ ha => ha.ins) ts) fun p p' hp => ?_
  obtain ⟨i, mask⟩ := p
  obtain ⟨i', mask'⟩ := p'
  obtain ⟨hp, rfl⟩ := hp
  dsimp only
  have h1 := extendEach it.items h.entities hc hp
  rw [h.entities]
  revert h1
  cases World.extendEach i it.items w <;> cases World.extendEach i' it.items w' <;> intro h1 <;>
    first | exact h1.elim | exact trivial | exact ⟨h1.1, _, h1.2⟩ | skip
  obtain ⟨_, he, hc⟩ := h1
  simp only [Outcome.bind_ok]
  rename_i a w1 a' w1'
  rw [he]
  split
  · exact ⟨he, _, hc⟩
  · split
    · exact trivial
    · refine Outcome.Same.ofRes ⟨he, _, hc⟩ (hc.groupEntities mask _) fun d d' hd => ?_
      exact ⟨rfl, rfl, _, hd.1⟩

theorem create (h : AlikeWorlds w w') (vs : List (TypeId × V)) : (w.create vs).Same AlikeWorlds (w'.create vs) := by
  unfold World.create
  rw [h.entities]
  refine Outcome.Same.ofRes (Q := Eq) h (Res.Same.refl (fun _ => rfl) _) fun p p' hp => ?_
  subst hp
  have h' : AlikeWorlds { w with entities := p.2 } { w' with entities := p.2 } := ⟨rfl, h.components⟩
  exact (h'.insertSet p.1 vs).bind fun _ s s' hs => ⟨rfl, hs⟩

theorem insert (h : AlikeWorlds w w') (e : Entity) (vs : List (TypeId × V)) :
    (w.insert e vs).Same AlikeWorlds (w'.insert e vs) := by
  unfold World.insert
  rw [h.entities]
  split
  · exact ⟨rfl, h⟩
  · exact (h.insertSet e vs).bind fun _ s s' hs => ⟨rfl, hs⟩

theorem destroy (h : AlikeWorlds w w') (e : Entity) :
    (w.destroy e).Same (fun p p' => p.1 = p'.1 ∧ AlikeWorlds p.2 p'.2) (w'.destroy e) := by
  obtain ⟨n, hc⟩ := h.components
  unfold World.destroy
  rw [h.entities]
  refine (Res.Same.refl (R := Eq) (fun _ => rfl) _).bind fun p p' hp => ?_
  subst hp
  obtain ⟨b, es⟩ := p
  dsimp only
  split
  · exact (hc.strip e).bind fun d d' hd => ⟨rfl, rfl, _, hd⟩
  · exact ⟨rfl, rfl, _, hc⟩

theorem onType (h : AlikeWorlds w w') {α : Type} (t : TypeId) (f : CompSet V → Res (α × CompSet V)) :
    (match w.components.meta? t with
      | none => (Res.panic : Res (α × World V))
      | some m => do
        let (a, c) ← w.components.onSet f m.storageIndex
        pure (a, { w with components := c })).Same (fun (p p' : α × World V) => p.1 = p'.1 ∧ AlikeWorlds p.2 p'.2)
    (match w'.components.meta? t with
      | none => (Res.panic : Res (α × World V))
      | some m => do
        let (a, c) ← w'.components.onSet f m.storageIndex
        pure (a, { w' with components := c })) := by
  obtain ⟨n, hc⟩ := h.components
  cases hm : w.components.meta? t with
  | none =>
    rw [(hc.absent t).2 hm]
    exact trivial
  | some m =>
    obtain ⟨m', hm', _⟩ := hc.get hm
    rw [hm']
    exact (hc.onSet ⟨t, m, m', hm, hm', rfl, rfl⟩ f).bind fun p p' hp => ⟨hp.1, h.entities, _, hp.2.1⟩

theorem writeView (h : AlikeWorlds w w') (t : TypeId) (e : Entity) (v : V) :
    (w.writeView t e v).Same (fun p p' => p.1 = p'.1 ∧ AlikeWorlds p.2 p'.2) (w'.writeView t e v) := by
  have key : ∀ w : World V, w.writeView t e v = (match w.components.meta? t with
      | none => (Res.panic : Res (Bool × World V))
      | some m => do
        let (a, c) ← w.components.onSet (·.setMut e v) m.storageIndex
        pure (a, { w with components := c })) := by
    intro w
    unfold World.writeView ComponentStorage.onSet
    cases w.components.meta? t with
    | none => rfl
    | some m =>
      dsimp only
      cases w.components.components[m.storageIndex]? with
      | none => rfl
      | some s =>
        simp only [Res.unchecked_some, Res.bind_ok]
        cases s.setMut e v <;> rfl
  rw [key, key]
  exact h.onType t _

theorem writeAt (h : AlikeWorlds w w') (t : TypeId) (pos : Nat) (v : V) :
    (w.writeAt t pos v).Same AlikeWorlds (w'.writeAt t pos v) := by
  have key : ∀ w : World V, w.writeAt t pos v = (match w.components.meta? t with
      | none => (Res.panic : Res (Unit × World V))
      | some m => do
        let (a, c) ← w.components.onSet (fun s => do let s ← s.setAt pos v; pure ((), s)) m.storageIndex
        pure (a, { w with components := c })) >>= fun p => .ok p.2 := by
    intro w
    unfold World.writeAt ComponentStorage.onSet
    cases w.components.meta? t with
    | none => rfl
    | some m =>
      dsimp only
      cases w.components.components[m.storageIndex]? with
      | none => rfl
      | some s =>
        simp only [Res.unchecked_some, Res.bind_ok]
        cases s.setAt pos v <;> rfl
  rw [key, key]
  exact (h.onType t _).bind fun p p' hp => hp.2

end AlikeWorlds

theorem reachable_layout_alike {h h' : History V} {w w' : World V} (hr : Reach World.empty h w) (hr' : Reach World.empty h' w')
    (ha : AlikeWorlds w w') (rank rank' : TypeId → Nat) (gs : List (List TypeId)) :
    (w.setLayout rank (GroupLayout.build gs).2).Same AlikeWorlds (w'.setLayout rank' (GroupLayout.build gs).2) := by
  obtain ⟨n, hc⟩ := ha.components
  have := ComponentStorage.setLayout_alike hc (reach_bounds hr) (reach_bounds hr') (reach_keys hr) (reach_keys hr') rank rank'
    (build_fams gs) w.entities.asSlice
  unfold World.setLayout
  rw [ha.entities]
  revert this
  cases w.components.setLayout rank (GroupLayout.build gs).2 w.entities.asSlice <;>
    cases w'.components.setLayout rank' (GroupLayout.build gs).2 w.entities.asSlice <;> intro this <;>
    first | exact this.elim | exact trivial | exact ⟨rfl, rfl, this.2⟩ | exact ⟨rfl, this⟩

end Sparsey
