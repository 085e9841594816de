import Verif.Spec.Bombs
import Verif.Proofs.Ledger
import Verif.Proofs.Replaced
import Verif.Proofs.Observe

/-!
Panicking destructors: what is left.
-/

set_option autoImplicit false
set_option linter.unusedSimpArgs false

namespace Sparsey
variable {V : Type}

theorem Outcome.Leaves.mono {σ α : Type} {o : Outcome σ α} {P Q : σ → Prop} (h : o.Leaves P) (hpq : ∀ s, P s → Q s) :
    o.Leaves Q := by
  cases o with
  | ok a s => exact hpq s h
  | panic s => exact hpq s h
  | ub => trivial

/-! ### One set -/

namespace CompSet

/-- The steps of a successful `delete`. -/
theorem delete_cases {s s' : CompSet V} {e : Entity} (h : s.delete e = .ok s') :
    (s.deleteDrops e = [] ∧ s' = s) ∨ ∃ index sv v y last sp, s.sparse.remove e = (some index, sv) ∧
      index < s.entities.length ∧ s.entities[s.entities.length - 1]? = some last ∧ s.components[index]? = some v ∧
      s.components[s.entities.length - 1]? = some y ∧ s.deleteDrops e = [v] ∧
      s' = ⟨sp, (s.entities.set index last).take (s.entities.length - 1),
        (s.components.set index y).take (s.entities.length - 1)⟩ := by
  unfold CompSet.delete at h
  unfold CompSet.deleteDrops
  split at h
  · rename_i sv hs
    cases h
    rw [hs]
    exact .inl ⟨rfl, rfl⟩
  · rename_i index sv hs
    rw [hs]
    obtain ⟨last, hl, hr⟩ := Res.bind_ok' h
    obtain ⟨z, hz, hr⟩ := Res.bind_ok' hr
    right
    dsimp only at hr
    by_cases hlt : index < s.entities.length - 1
    all_goals
      simp only [hlt, if_true, if_false] at hr
      obtain ⟨sp, hsp, hr⟩ := Res.bind_ok' hr
      obtain ⟨x, hx, hr⟩ := Res.bind_ok' hr
      obtain ⟨y, hy, hr⟩ := Res.bind_ok' hr
      cases hr
      have hx := Res.unchecked_ok hx
      exact ⟨index, sv, x, y, last, sp, rfl, (List.getElem?_eq_some_iff.1 (Res.unchecked_ok hz)).1, Res.unchecked_ok hl, hx,
        Res.unchecked_ok hy, by simp [hx], rfl⟩

theorem afterBomb_last {s s' : CompSet V} {e : Entity} {index : Nat} {sv : SparseVec} (h : s.delete e = .ok s')
    (hi : s.sparse.remove e = (some index, sv)) (hl : index + 1 = s.entities.length) : s.afterBomb s' = s' := by
  rcases delete_cases h with ⟨h1, _⟩ | ⟨i, sv', v, y, last, sp, h1, h2, h3, h4, h5, h6, rfl⟩
  · unfold CompSet.deleteDrops at h1
    rw [hi] at h1
    unfold CompSet.delete at h
    rw [hi] at h
    obtain ⟨last, hl, hr⟩ := Res.bind_ok' h
    obtain ⟨z, hz, hr⟩ := Res.bind_ok' hr
    dsimp only at hr
    rw [if_neg (by omega)] at hr
    obtain ⟨sp, hsp, hr⟩ := Res.bind_ok' hr
    obtain ⟨x, hx, hr⟩ := Res.bind_ok' hr
    simp only [Res.unchecked_ok hx] at h1
    cases h1
  · rw [hi] at h1
    cases h1
    unfold afterBomb
    simp only [List.length_take, List.length_set, CompSet.mk.injEq, true_and]
    rw [show min (s.entities.length - 1) s.entities.length = s.entities.length - 1 by omega]
    rw [show s.entities.length - 1 = index by omega]
    rw [List.take_set_of_le (Nat.le_refl _)]

/-- `delete` when a bomb can only be the last component: the contents are the same as without bombs. -/
theorem deleteB_harmless {bomb : V → Bool} {s s' : CompSet V} {e : Entity} (hb : s.Harmless bomb e)
    (h : s.delete e = .ok s') : s.deleteB bomb e = .ok () (s', s.deleteDrops e) ∨
      s.deleteB bomb e = .panic (s', s.deleteDrops e) := by
  unfold deleteB
  rw [h]
  simp only [Outcome.ofRes_ok]
  split
  · rename_i hany
    right
    rcases delete_cases h with ⟨h1, _⟩ | ⟨i, sv', v, y, last, sp, h1, h2, h3, h4, h5, h6, h7⟩
    · rw [h1] at hany; cases hany
    · rw [afterBomb_last h h1 (hb i sv' v h1 h4 (by simpa [h6] using hany))]
  · exact .inl rfl

theorem WF.val_of_remove {s : CompSet V} (h : s.WF) {e : Entity} {d : Nat} (he : s.entities[d]? = some e) :
    s.sparse.remove e = (some d, ⟨s.sparse.slots.set e.index none⟩) := by
  unfold SparseVec.remove
  simp [Entity.sparse, h.rep.fwd d e he]

/-- `delete` interrupted by the destructor: the set is well formed; only the last entity reads something else, namely the
dropped value. -/
theorem WF.afterBomb {s s' : CompSet V} (h : s.WF) {e : Entity} {d : Nat} (he : s.entities[d]? = some e)
    (hs : s.delete e = .ok s') : ∃ last, s.entities[s.entities.length - 1]? = some last ∧ (s.afterBomb s').WF ∧
      (s.afterBomb s').entities = s'.entities ∧ s.deleteDrops e = (s.val e).toList ∧
      ∀ x, (s.afterBomb s').val x = if x = e then none else if x = last then s.val e else s.val x := by
  obtain ⟨s1, _, h1, h2, h3, h4⟩ := h.remove_present he
  rw [hs] at h1
  cases h1
  have hd : d < s.entities.length := (List.getElem?_eq_some_iff.1 he).1
  have hlast : s.entities[s.entities.length - 1]? = some s.entities[s.entities.length - 1] :=
    List.getElem?_eq_getElem (by omega)
  have hlen : s'.entities.length = s.entities.length - 1 := by
    apply Nat.le_antisymm
    · by_contra hc
      have h5 : s'.entities[s.entities.length - 1]? = some s'.entities[s.entities.length - 1] :=
        List.getElem?_eq_getElem (by omega)
      rw [h3, if_neg (by omega)] at h5
      cases h5
    · by_contra hc
      have h5 := h3 s'.entities.length
      rw [if_pos (by omega), List.getElem?_eq_none (Nat.le_refl _)] at h5
      split at h5
      · rw [hlast] at h5; cases h5
      · rw [List.getElem?_eq_getElem (by omega)] at h5; cases h5
  have hwf : (s.afterBomb s').WF := ⟨h2.rep, by
    unfold CompSet.afterBomb
    simp only [List.length_take, hlen, h.len]
    omega⟩
  refine ⟨_, hlast, hwf, rfl, ?_, ?_⟩
  · unfold CompSet.deleteDrops
    rw [h.val_of_remove he, h.val_at he]
  · intro x
    have hmem : x ∈ (s.afterBomb s').entities ↔ x ≠ e ∧ x ∈ s.entities := by
      show x ∈ s'.entities ↔ _
      rw [h2.mem_iff, h4, h.mem_iff]
      split <;> simp_all
    by_cases hx : x ∈ (s.afterBomb s').entities
    · obtain ⟨hxe, hxs⟩ := hmem.1 hx
      rw [if_neg hxe]
      obtain ⟨p, hp⟩ := List.mem_iff_getElem?.1 hx
      rw [hwf.val_at hp]
      have hp' : s'.entities[p]? = some x := hp
      rw [h3] at hp'
      split at hp'
      · rename_i hpl
        have hcomp : (s.afterBomb s').components[p]? = s.components[p]? := by
          unfold CompSet.afterBomb
          simp only [hlen, List.getElem?_take, hpl, if_true]
        rw [hcomp]
        split at hp'
        · rename_i hpd
          rw [hlast] at hp'
          cases hp'
          rw [if_pos rfl, h.val_at he, hpd]
        · rename_i hpd
          have hne : x ≠ s.entities[s.entities.length - 1] := by
            rintro rfl
            have := h.rep.pos_unique hp' hlast rfl
            omega
          rw [if_neg hne, h.val_at hp']
      · cases hp'
    · rw [(hwf.val_eq_none x).2 hx]
      by_cases hxe : x = e
      · rw [if_pos hxe]
      · rw [if_neg hxe]
        have hxs : x ∉ s.entities := fun hc => hx (hmem.2 ⟨hxe, hc⟩)
        have hne : x ≠ s.entities[s.entities.length - 1] := by
          rintro rfl
          exact hxs (List.getElem_mem _)
        rw [if_neg hne, (h.val_eq_none x).2 hxs]

/-- After `delete` there is nothing more to delete. -/
theorem IdxOk.delete_gone {s s' : CompSet V} (h : s.IdxOk) {e : Entity} (hs : s.delete e = .ok s') (bomb : V → Bool) :
    s'.Harmless bomb e := by
  rcases h.rep.remove_cases e with hr | ⟨d, x, hr, hd, hi⟩
  · simp only [CompSet.delete, hr] at hs
    cases hs
    intro index sv v h1
    rw [hr] at h1
    cases h1
  · have hdl : d < s.entities.length := (List.getElem?_eq_some_iff.1 hd).1
    obtain ⟨last, hlast⟩ : ∃ y, s.entities[s.entities.length - 1]? = some y :=
      ⟨_, List.getElem?_eq_getElem (by omega)⟩
    obtain ⟨v, hv⟩ := h.comp_at hd
    obtain ⟨v', hv'⟩ := h.comp_at hlast
    have hls := h.rep.slot_lt hlast
    have hgone : ∀ sl, s'.sparse.slots[e.index]? ≠ some (some sl) := by
      have hes : ∀ sl : Slot, (s.sparse.slots.set e.index none)[e.index]? ≠ some (some sl) := by
        intro sl hc
        rw [List.getElem?_set_self'] at hc
        cases hx : s.sparse.slots[e.index]? <;> rw [hx] at hc <;> simp at hc
      by_cases hlt : d < s.entities.length - 1
      · simp [CompSet.delete, hr, hlast, hd, hlt, SparseVec.setUnchecked, Entity.sparse, hls, hv, hv'] at hs
        subst hs
        intro sl hc
        have hne : last.index ≠ e.index := by
          intro heq
          obtain ⟨v1, h1⟩ := h.rep.fwd _ _ hlast
          obtain ⟨v2, h2⟩ := h.rep.fwd _ _ hd
          rw [heq] at h1
          rw [hi, h1] at h2
          simp at h2
          omega
        simp only at hc
        rw [List.getElem?_set_ne hne] at hc
        exact hes sl hc
      · simp [CompSet.delete, hr, hlast, hd, hlt, SparseVec.setUnchecked, Entity.sparse, hls, hv, hv'] at hs
        subst hs
        exact hes
    intro index sv v h1
    exfalso
    unfold SparseVec.remove at h1
    split at h1
    · rename_i sl hsl
      exact hgone sl hsl
    · cases h1

end CompSet

/-! ### Ledger -/

theorem upToBomb_prefix (bomb : V → Bool) : ∀ l : List V, ∃ rest, l = upToBomb bomb l ++ rest
  | [] => ⟨[], rfl⟩
  | v :: l => by
    unfold upToBomb
    split
    · exact ⟨l, rfl⟩
    · obtain ⟨rest, h⟩ := upToBomb_prefix bomb l
      exact ⟨rest, by rw [List.cons_append, ← h]⟩

namespace CompSet

/-- What `deleteB` leaves and drops. -/
theorem deleteB_ledger (bomb : V → Bool) {s : CompSet V} (hl : LenOk s) (e : Entity) :
    (s.deleteB bomb e).Leaves fun p => (∃ rest, s.components.Perm (p.2 ++ rest)) ∧
      (s.Harmless bomb e → LenOk p.1 ∧ s.components.Perm (p.2 ++ p.1.components)) := by
  cases hd : s.delete e with
  | ub => unfold deleteB; rw [hd]; trivial
  | panic =>
    unfold deleteB; rw [hd]
    exact ⟨⟨_, List.Perm.refl _⟩, fun _ => ⟨hl, List.Perm.refl _⟩⟩
  | ok s' =>
    obtain ⟨k1, k2⟩ := hl.delete hd
    have hx : ∀ p : CompSet V × List V, p.2 = s.deleteDrops e → (s.Harmless bomb e → p.1 = s') →
        (∃ rest, s.components.Perm (p.2 ++ rest)) ∧
          (s.Harmless bomb e → LenOk p.1 ∧ s.components.Perm (p.2 ++ p.1.components)) := by
      intro p h1 h2
      rw [h1]
      exact ⟨⟨_, k2⟩, fun hb => by rw [h2 hb]; exact ⟨k1, k2⟩⟩
    have hh := fun hb => deleteB_harmless (bomb := bomb) hb hd
    unfold deleteB at hh ⊢
    rw [hd] at hh ⊢
    simp only [Outcome.ofRes_ok] at hh ⊢
    split at hh
    · rename_i hany
      simp only [hany, if_true]
      refine hx _ rfl fun hb => ?_
      rcases hh hb with hh | hh
      · cases hh
      · simp only [Outcome.panic.injEq, Prod.mk.injEq] at hh
        exact hh.1
    · rename_i hany
      simp only [hany, if_false]
      exact hx _ rfl fun _ => rfl

/-- Without a panic `deleteB` is `delete`. -/
theorem deleteB_ok {bomb : V → Bool} {s s' : CompSet V} {e : Entity} {u : Unit} {ds : List V}
    (h : s.deleteB bomb e = .ok u (s', ds)) : s.delete e = .ok s' ∧ ds = s.deleteDrops e ∧ ∀ v ∈ ds, bomb v = false := by
  unfold deleteB at h
  cases hd : s.delete e with
  | ub => rw [hd] at h; cases h
  | panic => rw [hd] at h; cases h
  | ok s1 =>
    rw [hd] at h
    simp only [Outcome.ofRes_ok] at h
    split at h
    · cases h
    · rename_i hany
      simp only [Outcome.ok.injEq, Prod.mk.injEq, true_and] at h
      obtain ⟨rfl, rfl⟩ := h
      exact ⟨rfl, rfl, by simpa using hany⟩

/-- A panic of `deleteB` comes from a bomb. -/
theorem deleteB_panic {bomb : V → Bool} {s s1 : CompSet V} {e : Entity} {ds : List V}
    (h : s.deleteB bomb e = .panic (s1, ds)) : ∃ s' v, s.delete e = .ok s' ∧ s1 = s.afterBomb s' ∧
      s.deleteDrops e = [v] ∧ ds = [v] ∧ bomb v = true := by
  unfold deleteB at h
  cases hd : s.delete e with
  | ub => rw [hd] at h; cases h
  | panic => exact absurd hd (ComponentStorage.delete_ne_panic _ _)
  | ok s2 =>
    rw [hd] at h
    simp only [Outcome.ofRes_ok] at h
    split at h
    · rename_i hany
      simp only [Outcome.panic.injEq, Prod.mk.injEq] at h
      obtain ⟨rfl, rfl⟩ := h
      rcases delete_cases hd with ⟨h1, _⟩ | ⟨_, _, v, _, _, _, _, _, _, _, _, h6, _⟩
      · rw [h1] at hany; cases hany
      · exact ⟨s2, v, rfl, rfl, h6, h6, by simpa [h6] using hany⟩
    · cases h

end CompSet

namespace ComponentStorage

theorem deleteEachB_ledger (bomb : V → Bool) {e : Entity} : ∀ (is : List Nat) (c : ComponentStorage V) (ds : List V), c.Lens →
    (deleteEachB bomb e is c ds).Leaves fun p => ∃ d, p.2 = ds ++ d ∧ (∃ rest, c.vals.Perm (d ++ rest)) ∧
      ((AllSets CompSet.IdxOk c.components ∧ ∀ i ∈ is, ∀ s, c.components[i]? = some s → s.Harmless bomb e) →
        c.vals.Perm (d ++ p.1.vals))
  | [], c, ds, hc => ⟨[], by simp, ⟨_, List.Perm.refl _⟩, fun _ => List.Perm.refl _⟩
  | i :: is, c, ds, hc => by
    unfold deleteEachB
    cases hi : c.components[i]? with
    | none => trivial
    | some s =>
      simp only [Res.unchecked_some, Outcome.ofRes_ok]
      have hls := hc s (List.mem_of_getElem? hi)
      have hl := CompSet.deleteB_ledger bomb hls e
      cases hd : s.deleteB bomb e with
      | ub => trivial
      | panic p =>
        obtain ⟨s1, d⟩ := p
        rw [hd] at hl
        obtain ⟨⟨rest, l1⟩, l2⟩ := hl
        refine ⟨d, rfl, ?_, ?_⟩
        · have : s.components.Perm (d ++ rest) := l1
          obtain ⟨l, r, hlr⟩ := List.append_of_mem (List.mem_of_getElem? hi)
          refine ⟨rest ++ (values l ++ values r), cn_perm.2 fun a => ?_⟩
          have h1 := cn_perm.1 this a
          have h2 : c.vals = values l ++ (s.components ++ values r) := by
            unfold vals
            rw [hlr]
            simp [values]
          rw [h2]
          simp only [cn_append] at h1 ⊢
          omega
        · rintro ⟨hidx, hb⟩
          have l3 := (l2 (hb i (.head _) s hi)).2
          refine cn_perm.2 fun a => ?_
          have h1 := cn_perm.1 l3 a
          have h3 := cn_set hi s1 a
          simp only [cn_append] at h1 h3 ⊢
          omega
      | ok u p =>
        obtain ⟨s1, d⟩ := p
        rw [hd] at hl
        obtain ⟨⟨rest, l1⟩, l2⟩ := hl
        obtain ⟨k1, k2, k3⟩ := CompSet.deleteB_ok hd
        obtain ⟨k4, k5⟩ := hls.delete k1
        have ih := deleteEachB_ledger bomb (e := e) is { c with components := c.components.set i s1 } (ds ++ d)
          (AllSets.set hc k4 _)
        refine Outcome.Leaves.mono ih fun p hp => ?_
        obtain ⟨d', h1, ⟨rest', h2⟩, h3⟩ := hp
        refine ⟨d ++ d', by rw [h1, List.append_assoc], ⟨rest', cn_perm.2 fun a => ?_⟩, fun hb => cn_perm.2 fun a => ?_⟩
        · have j1 := cn_perm.1 h2 a
          have j2 := cn_perm.1 k5 a
          have j3 := cn_set hi s1 a
          rw [← k2] at j2
          simp only [cn_append] at j1 j2 j3 ⊢
          omega
        · have hidx := hb.1 s (List.mem_of_getElem? hi)
          have j1 := cn_perm.1 (h3 ⟨AllSets.set hb.1 (stable_idx.delete hidx k1) _, by
            intro j hj s0 hs0
            by_cases hij : j = i
            · subst hij
              rw [List.getElem?_set_self (List.getElem?_eq_some_iff.1 hi).1] at hs0
              cases hs0
              exact hidx.delete_gone k1 bomb
            · rw [List.getElem?_set_ne (Ne.symm hij)] at hs0
              exact hb.2 j (.tail _ hj) s0 hs0⟩) a
          have j2 := cn_perm.1 k5 a
          have j3 := cn_set hi s1 a
          rw [← k2] at j2
          simp only [cn_append] at j1 j2 j3 ⊢
          omega

theorem deleteAllB_ledger (bomb : V → Bool) {e : Entity} : ∀ (l : List (CompSet V)), AllSets LenOk l →
    (deleteAllB bomb e l).Leaves fun p => (∃ rest, (values l).Perm (p.2 ++ rest)) ∧
      ((∀ s ∈ l, s.Harmless bomb e) → (values l).Perm (p.2 ++ values p.1))
  | [], _ => ⟨⟨[], List.Perm.refl _⟩, fun _ => List.Perm.refl _⟩
  | s :: ss, hl => by
    unfold deleteAllB
    have h1 := CompSet.deleteB_ledger bomb (hl s (.head _)) e
    have ih := deleteAllB_ledger bomb (e := e) ss fun s hs => hl s (.tail _ hs)
    have comb : ∀ (s1 : CompSet V) (d : List V) (ss1 : List (CompSet V)) (ds : List V),
        ((∃ rest, s.components.Perm (d ++ rest)) ∧
          (s.Harmless bomb e → LenOk s1 ∧ s.components.Perm (d ++ s1.components))) →
        ((∃ rest, (values ss).Perm (ds ++ rest)) ∧
          ((∀ s ∈ ss, s.Harmless bomb e) → (values ss).Perm (ds ++ values ss1))) →
        (∃ rest, (values (s :: ss)).Perm (d ++ ds ++ rest)) ∧
          ((∀ x ∈ s :: ss, x.Harmless bomb e) → (values (s :: ss)).Perm (d ++ ds ++ values (s1 :: ss1))) := by
      rintro s1 d ss1 ds ⟨⟨r1, a1⟩, a2⟩ ⟨⟨r2, b1⟩, b2⟩
      refine ⟨⟨r1 ++ r2, cn_perm.2 fun a => ?_⟩, fun hb => cn_perm.2 fun a => ?_⟩
      · have j1 := cn_perm.1 a1 a
        have j2 := cn_perm.1 b1 a
        simp only [values_cons, cn_append] at j1 j2 ⊢
        omega
      · have j1 := cn_perm.1 (a2 (hb s (.head _))).2 a
        have j2 := cn_perm.1 (b2 fun x hx => hb x (.tail _ hx)) a
        simp only [values_cons, cn_append] at j1 j2 ⊢
        omega
    cases hd : s.deleteB bomb e with
    | ub => trivial
    | panic p =>
      obtain ⟨s1, d⟩ := p
      rw [hd] at h1
      have := comb s1 d ss [] h1 ⟨⟨_, List.Perm.refl _⟩, fun _ => List.Perm.refl _⟩
      rw [List.append_nil] at this
      exact this
    | ok u p =>
      obtain ⟨s1, d⟩ := p
      rw [hd] at h1
      simp only
      cases hr : deleteAllB bomb e ss with
      | ub => trivial
      | panic q =>
        rw [hr] at ih
        exact comb s1 d q.1 q.2 h1 ih
      | ok u q =>
        rw [hr] at ih
        exact comb s1 d q.1 q.2 h1 ih

theorem clearAllB_ledger (bomb : V → Bool) : ∀ (l : List (CompSet V)),
    (clearAllB bomb l).Leaves fun p => ∃ rest, values l = p.2 ++ rest
  | [] => ⟨[], rfl⟩
  | s :: ss => by
    unfold clearAllB CompSet.clearB
    split
    · rename_i u s1 d h
      split at h
      · cases h
      · cases h
        have ih := clearAllB_ledger bomb ss
        cases hr : clearAllB bomb ss with
        | ub => trivial
        | panic q =>
          rw [hr] at ih
          obtain ⟨rest, h1⟩ := ih
          exact ⟨rest, by simp [values_cons, h1]⟩
        | ok u q =>
          rw [hr] at ih
          obtain ⟨rest, h1⟩ := ih
          exact ⟨rest, by simp [values_cons, h1]⟩
    · rename_i s1 d h
      split at h
      · cases h
        obtain ⟨rest, h1⟩ := upToBomb_prefix bomb s.components
        exact ⟨rest ++ values ss, by rw [values_cons, ← List.append_assoc, ← h1]⟩
      · cases h
    · trivial

theorem clearAllB_calm (bomb : V → Bool) : ∀ (l : List (CompSet V)), (∀ v ∈ values l, bomb v = false) →
    clearAllB bomb l = .ok () (l.map CompSet.clear, values l)
  | [], _ => rfl
  | s :: ss, h => by
    unfold clearAllB CompSet.clearB
    rw [values_cons] at h ⊢
    rw [if_neg (by
      simp only [Bool.not_eq_true, List.any_eq_false]
      exact fun v hv => by simp [h v (List.mem_append_left _ hv)])]
    simp only
    rw [clearAllB_calm bomb ss fun v hv => h v (List.mem_append_right _ hv)]
    rfl

theorem clearB_calm (bomb : V → Bool) (c : ComponentStorage V) (h : ∀ v ∈ c.clearDrops, bomb v = false) :
    c.clearB bomb = .ok () (c.clear, c.clearDrops) := by
  unfold clearB
  rw [clearAllB_calm bomb c.components h]
  rfl

theorem clearB_ledger (bomb : V → Bool) (c : ComponentStorage V) :
    (c.clearB bomb).Leaves fun p => (∃ rest, c.vals = p.2 ++ rest) ∧
      ((∀ v ∈ c.clearDrops, bomb v = false) → c.vals.Perm (p.2 ++ p.1.vals)) := by
  by_cases h : ∀ v ∈ c.clearDrops, bomb v = false
  · rw [clearB_calm bomb c h]
    have := (clear_ledger c).2
    refine ⟨⟨[], by simp [vals, clearDrops, CompSet.clearDrops]; rfl⟩, fun _ => ?_⟩
    show c.vals.Perm (c.clearDrops ++ c.clear.vals)
    rw [this, List.append_nil]
    exact List.Perm.refl _
  · have h1 := clearAllB_ledger bomb c.components
    unfold clearB
    generalize clearAllB bomb c.components = o at h1
    cases o with
    | ub => trivial
    | _ => exact ⟨h1, fun h' => absurd h' h⟩

theorem deleteB_ledger (bomb : V → Bool) (c : ComponentStorage V) (e : Entity) (ts : List TypeId) (hc : c.Lens)
    (hx : AllSets CompSet.IdxOk c.components) :
    (c.deleteB bomb e ts).Leaves fun p => (∃ rest, c.vals.Perm (p.2 ++ rest)) ∧
      ((∀ idxs mask c', c.lookupAll (·.deleteMask) ts = .ok (idxs, mask) →
        c.withMask mask (ungroup · mask e) = .ok c' → ∀ i ∈ idxs, ∀ s, c'.components[i]? = some s → s.Harmless bomb e) →
        c.vals.Perm (p.2 ++ p.1.vals)) := by
  unfold deleteB
  refine Outcome.Leaves.ofRes ⟨⟨_, List.Perm.refl _⟩, fun _ => List.Perm.refl _⟩ fun p hl => ?_
  obtain ⟨idxs, mask⟩ := p
  refine Outcome.Leaves.ofRes ⟨⟨_, List.Perm.refl _⟩, fun _ => List.Perm.refl _⟩ fun c1 hm => ?_
  obtain ⟨m1, m2⟩ := withMask_moves (fun s s' h => ungroupLoop_moves _ _ s s' h) hm hc
  have hx1 : AllSets CompSet.IdxOk c1.components :=
    Stable.withMask (fun s s' hs hr => stable_idx.ungroupLoop _ _ _ _ hs hr) hx hm
  refine Outcome.Leaves.mono (deleteEachB_ledger bomb idxs c1 [] m1) fun q hq => ?_
  obtain ⟨d, h1, ⟨rest, h2⟩, h3⟩ := hq
  rw [List.nil_append] at h1
  rw [h1]
  exact ⟨⟨rest, m2.symm.trans h2⟩, fun hb => m2.symm.trans (h3 ⟨hx1, hb idxs mask c1 hl hm⟩)⟩

theorem stripB_ledger (bomb : V → Bool) (c : ComponentStorage V) (e : Entity) (hc : c.Lens) :
    (c.stripB bomb e).Leaves fun p => (∃ rest, c.vals.Perm (p.2 ++ rest)) ∧
      ((∀ p, ungroupAll (c.components, c.groups) e = .ok p → ∀ s ∈ p.1, s.Harmless bomb e) →
        c.vals.Perm (p.2 ++ p.1.vals)) := by
  unfold stripB
  refine Outcome.Leaves.ofRes ⟨⟨_, List.Perm.refl _⟩, fun _ => List.Perm.refl _⟩ fun p hl => ?_
  obtain ⟨comps, gs⟩ := p
  obtain ⟨m1, m2⟩ := ungroupAllLoop_moves _ _ _ hl hc
  have h1 := deleteAllB_ledger bomb (e := e) comps m1
  simp only
  cases hd : deleteAllB bomb e comps with
  | ub => trivial
  | ok u q =>
    rw [hd] at h1
    obtain ⟨⟨rest, h2⟩, h3⟩ := h1
    exact ⟨⟨rest, m2.symm.trans h2⟩, fun hb => m2.symm.trans (h3 (hb _ hl))⟩
  | panic q =>
    rw [hd] at h1
    obtain ⟨⟨rest, h2⟩, h3⟩ := h1
    exact ⟨⟨rest, m2.symm.trans h2⟩, fun hb => m2.symm.trans (h3 (hb _ hl))⟩

end ComponentStorage

theorem retB_some {α : Type} {o : Outcome (World V × List V) α} {f : α → Ret V} {r : Ret V} {w : World V} {ds : List V}
    {P : World V × List V → Prop} (h : retB o f = some (r, w, ds)) (ho : o.Leaves P) : P (w, ds) := by
  cases o with
  | ok a s => simp only [retB, Option.some.injEq, Prod.mk.injEq] at h; obtain ⟨_, rfl, rfl⟩ := h; exact ho
  | panic s => simp only [retB, Option.some.injEq, Prod.mk.injEq] at h; obtain ⟨_, rfl, rfl⟩ := h; exact ho
  | ub => cases h

theorem retB_returned {α : Type} {o : Outcome (World V × List V) α} {f : α → Ret V} {r : Ret V} {w : World V} {ds : List V}
    (h : retB o f = some (r, w, ds)) (hf : ∀ a, (f a).returned = []) : r.returned = [] := by
  cases o with
  | ok a s => simp only [retB, Option.some.injEq, Prod.mk.injEq] at h; obtain ⟨rfl, _⟩ := h; exact hf a
  | panic s => simp only [retB, Option.some.injEq, Prod.mk.injEq] at h; obtain ⟨rfl, _⟩ := h; rfl
  | ub => cases h

theorem withStorage_leaves {es : EntityStorage} {o : Outcome (ComponentStorage V × List V) Unit}
    {P : ComponentStorage V × List V → Prop} {Q : World V × List V → Prop} (h : o.Leaves P)
    (hpq : ∀ c ds, P (c, ds) → Q (⟨es, c⟩, ds)) : (World.withStorage es o).Leaves Q := by
  cases o with
  | ok a s => exact hpq _ _ h
  | panic s => exact hpq _ _ h
  | ub => trivial

/-- The ledger of a call with bombs. -/
theorem stepB_ledger {bomb : V → Bool} {w w' : World V} {op : Op V} {r : Ret V} {ds : List V} (hw : World.Tidy w)
    (hx : AllSets CompSet.IdxOk w.components.components) (h : stepB bomb w op = some (r, w', ds)) :
    (∃ rest, (op.given ++ w.stored).Perm (r.returned ++ (ds ++ rest))) ∧
      (w.Harmless bomb op → (op.given ++ w.stored).Perm (r.returned ++ (ds ++ w'.stored))) := by
  have others : ∀ (op : Op V), stepCalm w op = some (r, w', ds) →
      (∃ rest, (op.given ++ w.stored).Perm (r.returned ++ (ds ++ rest))) ∧
      (w.Harmless bomb op → (op.given ++ w.stored).Perm (r.returned ++ (ds ++ w'.stored))) := by
    intro op h
    obtain ⟨hs, rfl⟩ := stepCalm_some h
    have := (step_ledger hs hw).2
    exact ⟨⟨_, this⟩, fun _ => this⟩
  have exact' : ∀ {op : Op V}, (op.given ++ w.stored).Perm (r.returned ++ (ds ++ w'.stored)) →
      (∃ rest, (op.given ++ w.stored).Perm (r.returned ++ (ds ++ rest))) ∧
      (w.Harmless bomb op → (op.given ++ w.stored).Perm (r.returned ++ (ds ++ w'.stored))) :=
    fun this => ⟨⟨_, this⟩, fun _ => this⟩
  have writes : ∀ (op : Op V), (stepCalm w op).map (fun (r, w', ds) =>
      (if ds.any bomb then .panicked [] else r, w', ds)) = some (r, w', ds) →
      (∀ r' w', step w op = some (r', w') → r'.returned = []) →
      (∃ rest, (op.given ++ w.stored).Perm (r.returned ++ (ds ++ rest))) ∧
      (w.Harmless bomb op → (op.given ++ w.stored).Perm (r.returned ++ (ds ++ w'.stored))) := by
    intro op h hret
    rw [Option.map_eq_some_iff] at h
    obtain ⟨⟨r1, w1, ds1⟩, h1, h2⟩ := h
    obtain ⟨hs, rfl⟩ := stepCalm_some h1
    simp only [Prod.mk.injEq] at h2
    obtain ⟨rfl, rfl, rfl⟩ := h2
    have h3 := (step_ledger hs hw).2
    have h4 := hret _ _ hs
    rw [h4] at h3
    refine exact' ?_
    split
    · exact h3
    · rw [h4]
      exact h3
  have special : ∀ {P : Prop}, r.returned = [] → op.given = [] →
      ((∃ rest, w.stored.Perm (ds ++ rest)) ∧ (P → w.stored.Perm (ds ++ w'.stored))) →
      (∃ rest, (op.given ++ w.stored).Perm (r.returned ++ (ds ++ rest))) ∧
      (P → (op.given ++ w.stored).Perm (r.returned ++ (ds ++ w'.stored))) := by
    intro P h1 h2 h3
    rw [h1, h2]
    exact h3
  cases op with
  | destroy e =>
    refine special (retB_returned h fun _ => rfl) rfl ?_
    refine retB_some (P := fun p => (∃ rest, w.stored.Perm (p.2 ++ rest)) ∧
      (w.Harmless bomb (.destroy e) → w.stored.Perm (p.2 ++ p.1.stored))) h ?_
    unfold World.destroyB
    refine Outcome.Leaves.ofRes ⟨⟨_, List.Perm.refl _⟩, fun _ => List.Perm.refl _⟩ fun p hl => ?_
    obtain ⟨b, es⟩ := p
    cases b with
    | false => exact ⟨⟨_, List.Perm.refl _⟩, fun _ => List.Perm.refl _⟩
    | true =>
      refine Outcome.Leaves.bind ?_ fun a s hs => hs
      exact withStorage_leaves (ComponentStorage.stripB_ledger bomb w.components e hw.lens) fun c ds hc => hc
  | delete e ts =>
    refine special (retB_returned h fun _ => rfl) rfl ?_
    refine retB_some (P := fun p => (∃ rest, w.stored.Perm (p.2 ++ rest)) ∧
      (w.Harmless bomb (.delete e ts) → w.stored.Perm (p.2 ++ p.1.stored))) h ?_
    exact withStorage_leaves (ComponentStorage.deleteB_ledger bomb w.components e ts hw.lens hx) fun c ds hc => hc
  | clear =>
    refine special (retB_returned h fun _ => rfl) rfl ?_
    refine retB_some (P := fun p => (∃ rest, w.stored.Perm (p.2 ++ rest)) ∧
      (w.Harmless bomb .clear → w.stored.Perm (p.2 ++ p.1.stored))) h ?_
    unfold World.clearB
    refine Outcome.Leaves.ofRes ⟨⟨_, List.Perm.refl _⟩, fun _ => List.Perm.refl _⟩ fun es hl => ?_
    refine withStorage_leaves (ComponentStorage.clearB_ledger bomb w.components) fun c ds hc => ?_
    obtain ⟨⟨rest, h1⟩, h2⟩ := hc
    exact ⟨⟨rest, List.Perm.of_eq h1⟩, h2⟩
  | reset =>
    refine special (retB_returned h fun _ => rfl) rfl ?_
    refine retB_some (P := fun p => (∃ rest, w.stored.Perm (p.2 ++ rest)) ∧
      (w.Harmless bomb .reset → w.stored.Perm (p.2 ++ p.1.stored))) h ?_
    refine withStorage_leaves (ComponentStorage.clearB_ledger bomb w.components) fun c ds hc => ?_
    obtain ⟨⟨rest, h1⟩, h2⟩ := hc
    exact ⟨⟨rest, List.Perm.of_eq h1⟩, h2⟩
  | insert e vs =>
    rw [stepB] at h
    split at h
    · next w1 ds1 hb =>
      simp only [Option.some.injEq, Prod.mk.injEq] at h
      obtain ⟨rfl, rfl, rfl⟩ := h
      refine exact' ?_
      unfold World.insertBomb at hb
      split at hb
      · rw [Option.map_eq_some_iff] at hb
        obtain ⟨⟨c, ds⟩, h1, h2⟩ := hb
        simp only [Prod.mk.injEq] at h2
        obtain ⟨rfl, rfl⟩ := h2
        exact ComponentStorage.insertBomb_ledger hw.lens h1
      · split at hb
        · simp only [Option.some.injEq, Prod.mk.injEq] at hb
          obtain ⟨rfl, rfl⟩ := hb
          exact List.Perm.refl _
        · cases hb
    · exact others _ h
  | create vs =>
    rw [stepB] at h
    split at h
    · next w1 ds1 made hb =>
      simp only [Option.some.injEq, Prod.mk.injEq] at h
      obtain ⟨rfl, rfl, rfl⟩ := h
      refine exact' ?_
      unfold World.createBomb at hb
      split at hb
      · rw [Option.map_eq_some_iff] at hb
        obtain ⟨⟨c, ds⟩, h1, h2⟩ := hb
        simp only [Prod.mk.injEq] at h2
        obtain ⟨rfl, rfl, rfl⟩ := h2
        exact ComponentStorage.insertBomb_ledger hw.lens h1
      · cases hb
    · exact others _ h
  | extend ts it =>
    rw [stepB] at h
    split at h
    · next w1 ds1 made hb =>
      simp only [Option.some.injEq, Prod.mk.injEq] at h
      obtain ⟨rfl, rfl, rfl⟩ := h
      refine exact' ?_
      unfold World.extendBombs at hb
      split at hb
      · next idxs mask hl =>
        have h1 := World.extendBomb_ledger hw.lens hb
        rw [ComponentStorage.lookupAll_length _ _ _ _ _ hl] at h1
        exact h1
      · cases hb
    · exact others _ h
  | write t e v =>
    refine writes _ h fun r' w' hs => ?_
    rcases retRes_cases hs with ⟨_, rfl, _⟩ | ⟨p, _, h2⟩
    · rfl
    · simp only [Prod.mk.injEq] at h2
      rw [← h2.1]
      rfl
  | writeAt t pos v =>
    refine writes _ h fun r' w' hs => ?_
    rcases retRes_cases hs with ⟨_, rfl, _⟩ | ⟨p, _, h2⟩
    · rfl
    · simp only [Prod.mk.injEq] at h2
      rw [← h2.1]
      rfl
  | _ => exact others _ h

/-! ### What is read after an interrupted call -/

theorem CompSet.WF.delete {s : CompSet V} (h : s.WF) (e : Entity) :
    ∃ s', s.delete e = .ok s' ∧ s'.WF ∧ ∀ x, s'.val x = if x = e then none else s.val x := by
  by_cases he : e ∈ s.entities
  · obtain ⟨d, hd⟩ := List.mem_iff_getElem?.1 he
    obtain ⟨s', _, h6, h7, _, h9⟩ := h.remove_present hd
    exact ⟨s', h6, h7, h9⟩
  · refine ⟨s, (h.remove_absent he).2, h, fun x => ?_⟩
    split
    · rename_i hx; rw [hx, (h.val_eq_none e).2 he]
    · rfl

theorem CompSet.WF.deleteDrops {s : CompSet V} (h : s.WF) (e : Entity) : s.deleteDrops e = (s.val e).toList := by
  by_cases he : e ∈ s.entities
  · obtain ⟨d, hd⟩ := List.mem_iff_getElem?.1 he
    obtain ⟨s', h6, _, _⟩ := h.delete e
    obtain ⟨_, _, _, _, h1, _⟩ := h.afterBomb hd h6
    exact h1
  · rw [(h.val_eq_none e).2 he]
    unfold CompSet.deleteDrops
    cases hr : s.sparse.remove e with
    | mk o sv =>
      cases o with
      | none => rfl
      | some d =>
        exfalso
        unfold SparseVec.remove at hr
        split at hr
        · rename_i sl hsl
          split at hr
          · rename_i hv
            have h1 := h.rep.bwd e.index sl.index sl.version hsl
            have h2 : sl.version = e.version := by simpa using hv
            rw [h2] at h1
            exact he (List.mem_of_getElem? h1)
          · cases hr
        · cases hr

theorem CompSet.WF.harmless_none {s : CompSet V} (h : s.WF) {e : Entity} (hv : s.val e = none) (bomb : V → Bool) :
    s.Harmless bomb e := by
  intro index sv v h1 h2 _
  have h3 := h.deleteDrops e
  rw [hv] at h3
  unfold CompSet.deleteDrops at h3
  rw [h1] at h3
  simp [h2] at h3

/-- One deletion: complete, or interrupted by the destructor of the component. -/
theorem CompSet.WF.deleteB {bomb : V → Bool} {s : CompSet V} (h : s.WF) (e : Entity) :
    (∃ s', s.deleteB bomb e = .ok () (s', (s.val e).toList) ∧ s'.WF ∧
      (∀ x, s'.val x = if x = e then none else s.val x) ∧ ∀ v, s.val e = some v → bomb v = false) ∨
    ∃ s' z v, s.deleteB bomb e = .panic (s', [v]) ∧ s'.WF ∧ s.val e = some v ∧ bomb v = true ∧ (s.val z).isSome ∧
      (∀ x, s'.val x = if x = e then none else if x = z then some v else s.val x) ∧ (s.Harmless bomb e → z = e) := by
  obtain ⟨s', h1, h2, h3⟩ := h.delete e
  have h4 := h.deleteDrops e
  unfold CompSet.deleteB
  rw [h1, h4]
  cases hv : s.val e with
  | none => exact .inl ⟨s', rfl, h2, h3, fun v hv' => by cases hv'⟩
  | some v =>
    simp only [Outcome.ofRes, Option.toList, List.any_cons, List.any_nil, Bool.or_false]
    cases hb : bomb v with
    | false => exact .inl ⟨s', rfl, h2, h3, fun v' hv' => by cases hv'; exact hb⟩
    | true =>
      obtain ⟨d, hd⟩ := List.mem_iff_getElem?.1 ((h.mem_iff e).2 (by rw [hv]; rfl))
      obtain ⟨z, hz, h5, _, _, h7⟩ := h.afterBomb hd h1
      refine .inr ⟨_, z, v, rfl, h5, rfl, hb, (h.mem_iff z).1 (List.mem_of_getElem? hz), fun x => ?_, fun hh => ?_⟩
      · rw [h7, hv]
      · have h8 := hh d _ v (h.val_of_remove hd) (by rw [← h.val_at hd]; exact hv) hb
        have h9 : d = s.entities.length - 1 := by omega
        rw [← h9, hd] at hz
        cases hz
        rfl

/-- Sets that can be read: metadata points to different sets, all well formed. -/
structure Readable (c : ComponentStorage V) : Prop where
  static : Static c
  wf : ∀ s ∈ c.components, s.WF

theorem Readable.set_at {c : ComponentStorage V} (h : Readable c) {t : TypeId} {m : ComponentMetadata}
    (hm : c.meta? t = some m) : ∃ s, c.components[m.storageIndex]? = some s ∧ s.WF := by
  have := h.static.idx t m hm
  exact ⟨_, List.getElem?_eq_getElem this, h.wf _ (List.getElem_mem _)⟩

theorem Readable.viewGet {w : World V} (h : Readable w.components) (t : TypeId) (e : Entity) :
    w.viewGet t e = if (w.components.meta? t).isSome then .ok (w.components.value t e) else .panic := by
  cases hm : w.components.meta? t with
  | none => simp [World.viewGet, World.borrow, hm, Res.checked]
  | some m =>
    obtain ⟨s, h1, h2⟩ := h.set_at hm
    rw [w.components.value_eq hm h1]
    simp [World.viewGet, World.borrow, hm, Res.checked, h1, h2.get_eq]

theorem StoreOK.readable {A : Entity → Prop} {c : ComponentStorage V} (h : StoreOK A c) : Readable c :=
  ⟨⟨fun t m => h.mds.idx t m, fun t t' m m' => h.mds.inj t t' m m'⟩, h.sets.wf⟩

theorem Readable.set {c : ComponentStorage V} (h : Readable c) {t : TypeId} {m : ComponentMetadata}
    (hm : c.meta? t = some m) {s' : CompSet V} (hs : s'.WF) :
    Readable { c with components := c.components.set m.storageIndex s' } ∧ ∀ t' x,
      ({ c with components := c.components.set m.storageIndex s' } : ComponentStorage V).value t' x =
        if t' = t then s'.val x else c.value t' x := by
  have hidx := h.static.idx t m hm
  let c2 : ComponentStorage V := { c with components := c.components.set m.storageIndex s' }
  refine ⟨⟨h.static.of_shape (Shape.set c _ _), fun x hx => ?_⟩, fun t' x => ?_⟩
  · rcases List.mem_or_eq_of_mem_set hx with hx | rfl
    · exact h.wf x hx
    · exact hs
  · by_cases ht : t' = t
    · subst ht
      rw [if_pos rfl]
      exact ComponentStorage.value_eq (c := c2) (m := m) (s := s') hm (by simp [c2, hidx]) x
    · rw [if_neg ht]
      cases hm' : c.meta? t' with
      | none => exact (ComponentStorage.value_none (c := c2) hm' x).trans (ComponentStorage.value_none hm' x).symm
      | some m' =>
        have hne : m.storageIndex ≠ m'.storageIndex := fun hc => ht (h.static.inj _ _ _ _ hm hm' hc).symm
        obtain ⟨s, h1, _⟩ := h.set_at hm'
        rw [ComponentStorage.value_eq hm' h1]
        exact ComponentStorage.value_eq (c := c2) (m := m') (s := s) hm' (by simp only [c2, List.getElem?_set_ne hne, h1]) x

/-- The loop of `delete`: complete, or interrupted. -/
theorem deleteEachB_damage {bomb : V → Bool} {e : Entity} : ∀ (ts : List TypeId) (c : ComponentStorage V) (ds : List V),
    Readable c → (∀ t ∈ ts, (c.meta? t).isSome) →
    (∃ c' d, ComponentStorage.deleteEachB bomb e (ts.map c.idxOf) c ds = .ok () (c', ds ++ d) ∧ Readable c' ∧
      c'.metadata = c.metadata ∧ c'.value = c.value.eraseAll e ts ∧ ∀ v ∈ d, bomb v = false) ∨
    ∃ c' d t z v, ComponentStorage.deleteEachB bomb e (ts.map c.idxOf) c ds = .panic (c', ds ++ (d ++ [v])) ∧ Readable c' ∧
      c'.metadata = c.metadata ∧ t ∈ ts ∧ bomb v = true ∧ (∀ v ∈ d, bomb v = false) ∧ Damage c.value c'.value e t z v ∧
      ((∀ t ∈ ts, ∀ s, c.components[c.idxOf t]? = some s → s.Harmless bomb e) → z = e) := by
  intro ts
  induction ts with
  | nil => intro c ds h _; exact .inl ⟨c, [], by simp [ComponentStorage.deleteEachB], h, rfl, rfl, by simp⟩
  | cons t ts ih =>
    intro c ds h hr
    obtain ⟨m, hm⟩ := Option.isSome_iff_exists.1 (hr t (by simp))
    have hidx := c.idxOf_eq hm
    obtain ⟨s, h1, h2⟩ := h.set_at hm
    have hval := c.value_eq hm h1
    rw [List.map_cons, hidx]
    unfold ComponentStorage.deleteEachB
    rw [h1]
    simp only [Res.unchecked_some, Outcome.ofRes]
    rcases h2.deleteB (bomb := bomb) e with ⟨s', h3, h4, h5, h6⟩ | ⟨s', z, v, h3, h4, h5, h6, h7, h8, hzz⟩
    · rw [h3]
      obtain ⟨h7, h8⟩ := h.set hm h4
      have hv : ({ c with components := c.components.set m.storageIndex s' } : ComponentStorage V).value =
          c.value.erase t e := by
        funext t' x
        rw [h8]
        unfold Content.erase
        by_cases ht : t' = t
        · subst ht; rw [if_pos rfl, h5, hval]; simp
        · simp [ht]
      have hcalm : ∀ v ∈ (s.val e).toList, bomb v = false := by
        intro v hv
        exact h6 v (by simpa using hv)
      have hmap : ts.map ({ c with components := c.components.set m.storageIndex s' } : ComponentStorage V).idxOf =
          ts.map c.idxOf := rfl
      rcases ih { c with components := c.components.set m.storageIndex s' } (ds ++ (s.val e).toList) h7
        (fun t' ht' => hr t' (by simp [ht'])) with ⟨c', d, i1, i2, i3, i4, i5⟩ | ⟨c', d, t', z, v, i1, i2, i3, i4, i5, i6, i7, i8⟩
      · rw [hmap] at i1
        refine .inl ⟨c', (s.val e).toList ++ d, ?_, i2, i3, ?_, ?_⟩
        · simp only [i1, List.append_assoc]
        · rw [i4, hv]; rfl
        · intro v hv
          rcases List.mem_append.1 hv with hv | hv
          · exact hcalm v hv
          · exact i5 v hv
      · rw [hmap] at i1
        refine .inr ⟨c', (s.val e).toList ++ d, t', z, v, ?_, i2, i3, by simp [i4], i5, ?_, ?_, fun hh => i8 ?_⟩
        · simp only [i1, List.append_assoc]
        · intro v hv
          rcases List.mem_append.1 hv with hv | hv
          · exact hcalm v hv
          · exact i6 v hv
        · rw [hv] at i7
          refine ⟨fun t'' => ?_, fun t'' x hx => ?_⟩
          · rcases i7.self t'' with h9 | h9
            · rw [h9]
              unfold Content.erase
              split
              · exact .inr rfl
              · exact .inl rfl
            · exact .inr h9
          · have hne : ∀ t3, c.value.erase t e t3 x = c.value t3 x := fun t3 => by
              unfold Content.erase; rw [if_neg (fun hc => hx hc.2)]
            rcases i7.others t'' x hx with h9 | ⟨rfl, rfl, h9, h10, h11⟩
            · exact .inl (by rw [h9, hne])
            · refine .inr ⟨rfl, rfl, by rw [← hne]; exact h9, ?_, h11⟩
              unfold Content.erase at h10
              split at h10
              · cases h10
              · exact h10
        · intro t'' ht'' s0 hs0
          change (c.components.set m.storageIndex s')[c.idxOf t'']? = some s0 at hs0
          by_cases hij : c.idxOf t'' = m.storageIndex
          · rw [hij, List.getElem?_set_self (List.getElem?_eq_some_iff.1 h1).1] at hs0
            cases hs0
            exact h4.harmless_none (by rw [h5, if_pos rfl]) bomb
          · rw [List.getElem?_set_ne (Ne.symm hij)] at hs0
            exact hh t'' (by simp [ht'']) s0 hs0
    · rw [h3]
      obtain ⟨h9, h10⟩ := h.set hm h4
      refine .inr ⟨_, [], t, z, v, rfl, h9, rfl, by simp, h6, by simp, ⟨fun t' => ?_, fun t' x hx => ?_⟩,
        fun hh => hzz (hh t (by simp) s (by rw [hidx]; exact h1))⟩
      · rw [h10]
        split
        · rw [h8, if_pos rfl]; exact .inr rfl
        · exact .inl rfl
      · rw [h10, h10, if_pos rfl]
        by_cases ht : t' = t
        · subst ht
          rw [if_pos rfl, h8, h8, if_neg hx]
          by_cases hz : x = z
          · subst hz
            exact .inr ⟨rfl, rfl, by rw [hval]; exact h7, by rw [hval]; exact h5, by rw [if_neg hx, if_pos rfl]⟩
          · rw [if_neg hz]; exact .inl (hval x).symm
        · rw [if_neg ht]; exact .inl rfl

/-- The loop of `strip`: complete, or interrupted. -/
theorem deleteAllB_damage {bomb : V → Bool} {e : Entity} : ∀ (l : List (CompSet V)), (∀ s ∈ l, s.WF) →
    (∃ l' d, ComponentStorage.deleteAllB bomb e l = .ok () (l', d) ∧ l'.length = l.length ∧ (∀ v ∈ d, bomb v = false) ∧
      ∀ (i : Nat) s, l[i]? = some s → ∃ s', l'[i]? = some s' ∧ s'.WF ∧ ∀ x, s'.val x = if x = e then none else s.val x) ∨
    ∃ l' d j z v, ComponentStorage.deleteAllB bomb e l = .panic (l', d ++ [v]) ∧ l'.length = l.length ∧ bomb v = true ∧
      (∀ v ∈ d, bomb v = false) ∧
      ∀ (i : Nat) s, l[i]? = some s → ∃ s', l'[i]? = some s' ∧ s'.WF ∧ (s'.val e = s.val e ∨ s'.val e = none) ∧
        ∀ x, x ≠ e → s'.val x = s.val x ∨
          (i = j ∧ x = z ∧ (s.val z).isSome ∧ s.val e = some v ∧ s'.val z = some v ∧ (s.Harmless bomb e → z = e)) := by
  intro l
  induction l with
  | nil => intro _; exact .inl ⟨[], [], rfl, rfl, by simp, by simp⟩
  | cons s l ih =>
    intro hw
    have hws := hw s (by simp)
    unfold ComponentStorage.deleteAllB
    rcases hws.deleteB (bomb := bomb) e with ⟨s', h3, h4, h5, h6⟩ | ⟨s', z, v, h3, h4, h5, h6, h7, h8, hzz⟩
    · rw [h3]
      have hcalm : ∀ v ∈ (s.val e).toList, bomb v = false := fun v hv => h6 v (by simpa using hv)
      rcases ih (fun s hs => hw s (by simp [hs])) with ⟨l', d, i1, i2, i3, i4⟩ | ⟨l', d, j, z, v, i1, i2, i3, i4, i5⟩
      · rw [i1]
        refine .inl ⟨s' :: l', (s.val e).toList ++ d, rfl, by simp [i2], ?_, ?_⟩
        · intro v hv
          rcases List.mem_append.1 hv with hv | hv
          · exact hcalm v hv
          · exact i3 v hv
        · intro i a ha
          cases i with
          | zero => simp at ha; subst ha; exact ⟨s', rfl, h4, h5⟩
          | succ i => simp at ha; simpa using i4 i a ha
      · rw [i1]
        refine .inr ⟨s' :: l', (s.val e).toList ++ d, j + 1, z, v, by simp only [List.append_assoc], by simp [i2], i3, ?_, ?_⟩
        · intro v hv
          rcases List.mem_append.1 hv with hv | hv
          · exact hcalm v hv
          · exact i4 v hv
        · intro i a ha
          cases i with
          | zero =>
            simp at ha; subst ha
            exact ⟨s', rfl, h4, .inr (by rw [h5, if_pos rfl]), fun x hx => .inl (by rw [h5, if_neg hx])⟩
          | succ i => simp at ha; simpa using i5 i a ha
    · rw [h3]
      refine .inr ⟨s' :: l, [], 0, z, v, rfl, rfl, h6, by simp, ?_⟩
      intro i a ha
      cases i with
      | zero =>
        simp at ha; subst ha
        refine ⟨s', rfl, h4, .inr (by rw [h8, if_pos rfl]), fun x hx => ?_⟩
        by_cases hz : x = z
        · subst hz
          exact .inr ⟨rfl, rfl, h7, h5, by rw [h8, if_neg hx, if_pos rfl], hzz⟩
        · exact .inl (by rw [h8, if_neg hx, if_neg hz])
      | succ i =>
        simp at ha
        exact ⟨a, by simpa using ha, hw a (by simp [List.mem_of_getElem? ha]), .inl rfl, fun x _ => .inl rfl⟩

/-- A set for each type, read in two storages. -/
theorem Readable.zip {c c' : ComponentStorage V} (h : Readable c) (hm : c'.metadata = c.metadata)
    (hl : c'.components.length = c.components.length)
    (hs : ∀ (i : Nat) s, c.components[i]? = some s → ∃ s', c'.components[i]? = some s' ∧ s'.WF) :
    Readable c' := by
  have hmeta : ∀ t, c'.meta? t = c.meta? t := fun t => by unfold ComponentStorage.meta?; rw [hm]
  refine ⟨⟨fun t m ht => ?_, fun t t' m m' ht ht' => ?_⟩, fun s hs' => ?_⟩
  · rw [hmeta] at ht; rw [hl]; exact h.static.idx t m ht
  · rw [hmeta] at ht ht'; exact h.static.inj t t' m m' ht ht'
  · obtain ⟨i, hi⟩ := List.mem_iff_getElem?.1 hs'
    have hlt := (List.getElem?_eq_some_iff.1 hi).1
    obtain ⟨s'', h1, h2⟩ := hs i _ (List.getElem?_eq_getElem (by omega))
    rw [hi] at h1
    cases h1
    exact h2

section World
variable {w w' : World V} {m : MapWorld V} {bomb : V → Bool} {r : Ret V} {ds : List V}

/-- `delete` with bombs in a good world. -/
theorem deleteB_damage {P : Entity → Nat → Prop} (h : InvX w m P) {e : Entity} {ts : List TypeId} (hv : w.Even (.delete e ts))
    (hr : ∀ t ∈ ts, w.isRegistered t = true) :
    (∃ w' d, w.deleteB bomb e ts = .ok () (w', d) ∧ w'.entities = w.entities ∧ Readable w'.components ∧
      w'.components.metadata = w.components.metadata ∧ w'.components.value = w.components.value.eraseAll e ts ∧
      ∀ v ∈ d, bomb v = false) ∨
    ∃ w' d t z v, w.deleteB bomb e ts = .panic (w', d ++ [v]) ∧ w'.entities = w.entities ∧ Readable w'.components ∧
      w'.components.metadata = w.components.metadata ∧ t ∈ ts ∧ bomb v = true ∧ (∀ v ∈ d, bomb v = false) ∧
      Damage w.components.value w'.components.value e t z v ∧
      (w.Harmless bomb (.delete e ts) → z = e) := by
  have hr' : ∀ t ∈ ts, (w.components.meta? t).isSome := fun t ht => hr t ht
  obtain ⟨mask, h1, h2⟩ := lookupAll_ok h.store (·.deleteMask) ts hr'
  obtain ⟨c1, h3, h4, h5, h6, h7, h8, h9, _⟩ := ungroup_store h.life.idxUniq h.store h.grouped (.ofTypes h.store h2) e
    (fun hm0 => by
      simp only [World.Even, World.swaps, ComponentStorage.removePairs, h1, if_neg hm0] at hv
      exact hv)
  have hmeta : ∀ t, c1.meta? t = w.components.meta? t := fun t => by
    unfold ComponentStorage.meta?; rw [h7]
  have hmap : ts.map c1.idxOf = ts.map w.components.idxOf := by
    apply List.map_congr_left
    intro t _
    unfold ComponentStorage.idxOf; rw [hmeta]
  have hd := deleteEachB_damage (bomb := bomb) (e := e) ts c1 [] h4.readable (fun t ht => by rw [hmeta]; exact hr' t ht)
  rw [hmap] at hd
  unfold World.deleteB ComponentStorage.deleteB
  rw [h1]
  simp only [Outcome.ofRes, h3]
  rcases hd with ⟨c', d, i1, i2, i3, i4, i5⟩ | ⟨c', d, t', z, v, i1, i2, i3, i4, i5, i6, i7, i8⟩
  · rw [i1]
    exact .inl ⟨⟨w.entities, c'⟩, d, rfl, rfl, i2, i3.trans h7, by rw [← h5]; exact i4, i5⟩
  · rw [i1]
    refine .inr ⟨⟨w.entities, c'⟩, d, t', z, v, rfl, rfl, i2, i3.trans h7, i4, i5, i6, by rw [← h5]; exact i7, fun hh => i8 ?_⟩
    intro t ht s hs
    refine hh _ mask c1 h1 h3 (w.components.idxOf t) (List.mem_map.2 ⟨t, ht, rfl⟩) s ?_
    rw [← hs]
    unfold ComponentStorage.idxOf
    rw [hmeta]

/-- `strip` with bombs in a good world. -/
theorem stripB_damage {P : Entity → Nat → Prop} (h : InvX w m P) (e : Entity)
    (hv : EvenPairs (ungroupAllPairs (w.components.components, w.components.groups) e)) :
    (∃ c d, w.components.stripB bomb e = .ok () (c, d) ∧ Readable c ∧ c.metadata = w.components.metadata ∧
      c.value = w.components.value.strip e ∧ ∀ v ∈ d, bomb v = false) ∨
    ∃ c d t z v, w.components.stripB bomb e = .panic (c, d ++ [v]) ∧ Readable c ∧
      c.metadata = w.components.metadata ∧ bomb v = true ∧ (∀ v ∈ d, bomb v = false) ∧
      Damage w.components.value c.value e t z v ∧
      ((∀ p, ungroupAll (w.components.components, w.components.groups) e = .ok p → ∀ s ∈ p.1, s.Harmless bomb e) →
        ∀ t' x, x ≠ e → c.value t' x = w.components.value t' x) := by
  obtain ⟨comps1, gs1, h1, h2, h3, h4⟩ := ungroupAll_ok h.life.idxUniq (e := e) h.store.sets h.store.gstat h.store.packed
    hv
  obtain ⟨h5, h6⟩ := h2.store h.store
  unfold ComponentStorage.stripB
  rw [h1]
  simp only [Outcome.ofRes]
  rcases deleteAllB_damage (bomb := bomb) (e := e) comps1 h2.ok.wf with ⟨l', d, i1, i2, i3, i4⟩ | ⟨l', d, j, z, v, i1, i2, i3, i4, i5⟩
  · rw [i1]
    have hread := h5.readable.zip (c' := ⟨gs1, w.components.metadata, l'⟩) rfl i2 (fun i s hs => by
      obtain ⟨s', j1, j2, _⟩ := i4 i s hs
      exact ⟨s', j1, j2⟩)
    refine .inl ⟨⟨gs1, w.components.metadata, l'⟩, d, rfl, hread, rfl, ?_, i3⟩
    funext t x
    rw [← h6]
    unfold Content.strip
    cases hm : w.components.meta? t with
    | none =>
      rw [ComponentStorage.value_none (c := ⟨gs1, w.components.metadata, l'⟩) hm,
        ComponentStorage.value_none (c := ⟨gs1, w.components.metadata, comps1⟩) hm, ite_self]
    | some md =>
      obtain ⟨s, k1, k2⟩ := h5.readable.set_at (t := t) (m := md) hm
      obtain ⟨s', k3, k4, k5⟩ := i4 _ _ k1
      rw [ComponentStorage.value_eq (c := ⟨gs1, w.components.metadata, l'⟩) hm k3, k5,
        ComponentStorage.value_eq (c := ⟨gs1, w.components.metadata, comps1⟩) hm k1]
  · rw [i1]
    have hread := h5.readable.zip (c' := ⟨gs1, w.components.metadata, l'⟩) rfl i2 (fun i s hs => by
      obtain ⟨s', j1, j2, _⟩ := i5 i s hs
      exact ⟨s', j1, j2⟩)
    have hval : ∀ t md s s', w.components.meta? t = some md → comps1[md.storageIndex]? = some s →
        l'[md.storageIndex]? = some s' → ∀ x, w.components.value t x = s.val x ∧
          (⟨gs1, w.components.metadata, l'⟩ : ComponentStorage V).value t x = s'.val x := by
      intro t md s s' hm k1 k3 x
      rw [← h6]
      exact ⟨ComponentStorage.value_eq (c := ⟨gs1, w.components.metadata, comps1⟩) hm k1 x,
        ComponentStorage.value_eq (c := ⟨gs1, w.components.metadata, l'⟩) hm k3 x⟩
    have hnone : ∀ t, w.components.meta? t = none → ∀ x,
        (⟨gs1, w.components.metadata, l'⟩ : ComponentStorage V).value t x = w.components.value t x := by
      intro t hm x
      rw [ComponentStorage.value_none (c := ⟨gs1, w.components.metadata, l'⟩) hm, ComponentStorage.value_none hm]
    obtain ⟨t, ht⟩ : ∃ t, ∀ t' md, w.components.meta? t' = some md → md.storageIndex = j → t' = t := by
      by_cases hex : ∃ t md, w.components.meta? t = some md ∧ md.storageIndex = j
      · obtain ⟨t, md, k1, k2⟩ := hex
        exact ⟨t, fun t' md' k3 k4 => h.store.mds.inj _ _ _ _ k3 k1 (k4.trans k2.symm)⟩
      · exact ⟨0, fun t' md' k3 k4 => absurd ⟨t', md', k3, k4⟩ hex⟩
    refine .inr ⟨⟨gs1, w.components.metadata, l'⟩, d, t, z, v, rfl, hread, rfl, i3, i4,
      ⟨fun t' => ?_, fun t' x hx => ?_⟩, fun hh t' x hx => ?_⟩
    · cases hm : w.components.meta? t' with
      | none => exact .inl (hnone t' hm e)
      | some md =>
        obtain ⟨s, k1, k2⟩ := h5.readable.set_at (t := t') (m := md) hm
        obtain ⟨s', k3, k4, k5, _⟩ := i5 _ _ k1
        rw [(hval t' md s s' hm k1 k3 e).1, (hval t' md s s' hm k1 k3 e).2]
        exact k5
    · cases hm : w.components.meta? t' with
      | none => exact .inl (hnone t' hm x)
      | some md =>
        obtain ⟨s, k1, k2⟩ := h5.readable.set_at (t := t') (m := md) hm
        obtain ⟨s', k3, k4, _, k5⟩ := i5 _ _ k1
        rcases k5 x hx with k6 | ⟨k6, rfl, k7, k8, k9, k10⟩
        · left; rw [(hval t' md s s' hm k1 k3 x).1, (hval t' md s s' hm k1 k3 x).2]; exact k6
        · obtain rfl := ht t' md hm k6
          right
          refine ⟨rfl, rfl, ?_, ?_, ?_⟩
          · rw [(hval t' md s s' hm k1 k3 x).1]; exact k7
          · rw [(hval t' md s s' hm k1 k3 e).1]; exact k8
          · rw [(hval t' md s s' hm k1 k3 x).2]; exact k9
    · cases hm : w.components.meta? t' with
      | none => exact hnone t' hm x
      | some md =>
        obtain ⟨s, k1, k2⟩ := h5.readable.set_at (t := t') (m := md) hm
        obtain ⟨s', k3, k4, _, k5⟩ := i5 _ _ k1
        rcases k5 x hx with k6 | ⟨k6, rfl, k7, k8, k9, k10⟩
        · rw [(hval t' md s s' hm k1 k3 x).1, (hval t' md s s' hm k1 k3 x).2]; exact k6
        · exact absurd (k10 (hh (comps1, gs1) rfl s (List.mem_of_getElem? k1))) hx

end World
/-! ### Calls that meet no bomb -/

theorem CompSet.deleteB_calm {bomb : V → Bool} {s s' : CompSet V} {e : Entity} (h : s.delete e = .ok s')
    (hb : ∀ v ∈ s.deleteDrops e, bomb v = false) : s.deleteB bomb e = .ok () (s', s.deleteDrops e) := by
  unfold CompSet.deleteB
  rw [h]
  simp only [Outcome.ofRes]
  rw [if_neg]
  simp only [Bool.not_eq_true, List.any_eq_false]
  exact fun v hv => by simp [hb v hv]

namespace ComponentStorage

theorem deleteEachB_calm {bomb : V → Bool} {e : Entity} : ∀ (is : List Nat) (c c' : ComponentStorage V) (ds : List V),
    deleteEach e is c = .ok c' → (∀ v ∈ deleteEachDrops e is c, bomb v = false) →
    deleteEachB bomb e is c ds = .ok () (c', ds ++ deleteEachDrops e is c)
  | [], c, c', ds, h, _ => by
    cases h
    simp [deleteEachB, deleteEachDrops]
  | i :: is, c, c', ds, h, hb => by
    obtain ⟨s, h1, h⟩ := Res.bind_ok' h
    obtain ⟨s', h2, h⟩ := Res.bind_ok' h
    have h3 : c.components[i]? = some s := by
      cases hc : c.components[i]? with
      | none => rw [hc] at h1; cases h1
      | some x => rw [hc] at h1; cases h1; rfl
    unfold deleteEachDrops at hb
    simp only [h3, h2] at hb
    unfold deleteEachB deleteEachDrops
    simp only [h3, h2, Res.unchecked_some, Outcome.ofRes]
    rw [CompSet.deleteB_calm h2 fun v hv => hb v (List.mem_append_left _ hv)]
    simp only
    rw [deleteEachB_calm is _ c' _ h fun v hv => hb v (List.mem_append_right _ hv), List.append_assoc]

theorem deleteB_calm {bomb : V → Bool} {e : Entity} {ts : List TypeId} {c c' : ComponentStorage V}
    (h : c.delete e ts = .ok c') (hb : ∀ v ∈ c.deleteDrops e ts, bomb v = false) :
    c.deleteB bomb e ts = .ok () (c', c.deleteDrops e ts) := by
  obtain ⟨⟨idxs, mask⟩, h1, h⟩ := Res.bind_ok' h
  obtain ⟨c1, h2, h⟩ := Res.bind_ok' h
  unfold deleteDrops at hb ⊢
  simp only [h1, h2] at hb
  unfold deleteB
  simp only [h1, h2, Outcome.ofRes]
  rw [deleteEachB_calm idxs c1 c' [] h hb, List.nil_append]

theorem deleteAllB_calm {bomb : V → Bool} {e : Entity} : ∀ (l l' : List (CompSet V)),
    deleteAll e l = .ok l' → (∀ v ∈ deleteAllDrops e l, bomb v = false) →
    deleteAllB bomb e l = .ok () (l', deleteAllDrops e l)
  | [], _, h, _ => by cases h; rfl
  | s :: l, l', h, hb => by
    obtain ⟨s', h2, h⟩ := Res.bind_ok' h
    obtain ⟨l1, h3, h⟩ := Res.bind_ok' h
    cases h
    unfold deleteAllDrops at hb ⊢
    rw [List.flatMap_cons] at hb ⊢
    unfold deleteAllB
    rw [CompSet.deleteB_calm h2 fun v hv => hb v (List.mem_append_left _ hv)]
    simp only
    rw [deleteAllB_calm l l1 h3 fun v hv => hb v (List.mem_append_right _ hv)]
    rfl

theorem stripB_calm {bomb : V → Bool} {e : Entity} {c c' : ComponentStorage V}
    (h : c.strip e = .ok c') (hb : ∀ v ∈ c.stripDrops e, bomb v = false) :
    c.stripB bomb e = .ok () (c', c.stripDrops e) := by
  obtain ⟨⟨comps, gs⟩, h1, h⟩ := Res.bind_ok' h
  obtain ⟨comps', h2, h⟩ := Res.bind_ok' h
  cases h
  unfold stripDrops at hb ⊢
  simp only [h1] at hb
  unfold stripB
  simp only [h1, Outcome.ofRes]
  rw [deleteAllB_calm comps comps' h2 hb]

end ComponentStorage

/-- A completed call that drops no bomb is not affected by bombs. -/
theorem stepB_calm' {bomb : V → Bool} {w w' : World V} {op : Op V} {r : Ret V} (h : step w op = some (r, w'))
    (hp : r = .panicked [] → op ≠ .clear ∧ (∀ e, op ≠ .destroy e) ∧ ∀ e ts, op ≠ .delete e ts) (hb : ∀ v ∈ w.drops op, bomb v = false) : stepB bomb w op = some (r, w', w.drops op) := by
  have others : ∀ {op}, step w op = some (r, w') → stepCalm w op = some (r, w', w.drops op) := by
    intro op h
    rw [stepCalm, h]
    rfl
  have writes : ∀ {op}, step w op = some (r, w') → (∀ v ∈ w.drops op, bomb v = false) →
      (stepCalm w op).map (fun (r, w', ds) => (if ds.any bomb then .panicked [] else r, w', ds)) =
        some (r, w', w.drops op) := by
    intro op h hb
    rw [others h, Option.map_some]
    have : (w.drops op).any bomb = false := List.any_eq_false.2 fun v hv => by simp [hb v hv]
    simp only [this]
    rfl
  cases op with
  | destroy e =>
    rcases retRes_cases h with ⟨_, h1, _⟩ | ⟨⟨b, w1⟩, h1, h2⟩
    · exact absurd rfl ((hp h1).2.1 e)
    · simp only [Prod.mk.injEq] at h2
      obtain ⟨rfl, rfl⟩ := h2
      rw [World.destroy] at h1
      obtain ⟨⟨b', es⟩, h3, h1⟩ := Res.bind_ok' h1
      show retB (w.destroyB bomb e) _ = _
      unfold World.destroyB
      rw [World.drops_destroy, h3] at hb ⊢
      simp only [Outcome.ofRes]
      cases b' with
      | false => cases h1; rfl
      | true =>
        obtain ⟨c, h4, h1⟩ := Res.bind_ok' h1
        cases h1
        simp only [if_true]
        rw [ComponentStorage.stripB_calm h4 hb]
        rfl
  | delete e ts =>
    rcases retRes_cases h with ⟨_, h1, _⟩ | ⟨w1, h1, h2⟩
    · exact absurd rfl ((hp h1).2.2 e ts)
    · simp only [Prod.mk.injEq] at h2
      obtain ⟨rfl, rfl⟩ := h2
      rw [World.delete] at h1
      obtain ⟨c, h4, h1⟩ := Res.bind_ok' h1
      cases h1
      show retB (w.deleteB bomb e ts) _ = _
      unfold World.deleteB
      rw [ComponentStorage.deleteB_calm h4 hb]
      rfl
  | clear =>
    rcases retRes_cases h with ⟨_, h1, _⟩ | ⟨w1, h1, h2⟩
    · exact absurd rfl (hp h1).1
    · simp only [Prod.mk.injEq] at h2
      obtain ⟨rfl, rfl⟩ := h2
      rw [World.clear] at h1
      obtain ⟨es, h4, h1⟩ := Res.bind_ok' h1
      cases h1
      show retB (w.clearB bomb) _ = _
      unfold World.clearB
      rw [World.drops_clear, h4] at hb ⊢
      simp only [Outcome.ofRes]
      rw [ComponentStorage.clearB_calm bomb _ hb]
      rfl
  | reset =>
    simp only [step, Option.some.injEq, Prod.mk.injEq] at h
    obtain ⟨rfl, rfl⟩ := h
    show retB (w.resetB bomb) _ = _
    unfold World.resetB
    rw [ComponentStorage.clearB_calm bomb _ hb]
    rfl
  | insert e vs =>
    rw [stepB]
    have hn : w.insertBomb bomb e vs = none := by
      unfold World.insertBomb
      rw [World.drops] at hb
      split
      · next hc =>
        rw [hc] at hb
        cases hi : w.components.insertBomb bomb e vs with
        | none => rfl
        | some p =>
          obtain ⟨pre, t, v, post, d, old, mask', _, h2, _, _, _, _, ⟨rest, h3⟩, _⟩ := ComponentStorage.insertBomb_spec 0 hi
          rw [if_neg (by simp), h3] at hb
          rw [hb old (by simp)] at h2
          cases h2
      · next hc =>
        rw [if_pos (by simpa using hc)] at hb
        rw [if_neg]
        rw [List.any_eq_true]
        rintro ⟨v, h1, h2⟩
        rw [hb v h1] at h2
        cases h2
    rw [hn]
    exact others h
  | create vs =>
    rw [stepB]
    have hn : w.createBomb bomb vs = none := by
      unfold World.createBomb
      rw [World.drops] at hb
      cases hc : w.entities.create with
      | panic => rfl
      | ub => rfl
      | ok q =>
        obtain ⟨e, es⟩ := q
        dsimp only
        rw [hc] at hb
        dsimp only at hb
        cases hi : w.components.insertBomb bomb e vs with
        | none => rfl
        | some p =>
          obtain ⟨pre, t, v, post, d, old, mask', _, h2, _, _, _, _, ⟨rest, h3⟩, _⟩ := ComponentStorage.insertBomb_spec 0 hi
          rw [h3] at hb
          rw [hb old (by simp)] at h2
          cases h2
    rw [hn]
    exact others h
  | extend ts it =>
    rw [stepB]
    have hn : w.extendBombs bomb ts it.items = none := by
      unfold World.extendBombs
      rw [World.drops_extend] at hb
      cases hl : w.components.lookupAll (·.insertMask) ts with
      | panic => rfl
      | ub => rfl
      | ok q =>
        obtain ⟨idxs, mask⟩ := q
        dsimp only
        rw [hl] at hb
        dsimp only at hb
        cases hi : World.extendBomb bomb idxs it.items w with
        | none => rfl
        | some p =>
          obtain ⟨a, vs, b, w1, e, es, c', ds', _, _, _, _, _, _, _, h3⟩ := World.extendBomb_spec hi
          obtain ⟨old, h4, h5⟩ := h3 fun hu => by
            simp [step, World.extend, hl, hu, retOutcome] at h
          rw [hb old h4] at h5
          cases h5
    rw [hn]
    exact others h
  | write t e v => exact writes h hb
  | writeAt t pos v => exact writes h hb
  | _ => exact others h

theorem stepB_calm {bomb : V → Bool} {w w' : World V} {op : Op V} {r : Ret V} (h : step w op = some (r, w'))
    (hp : r ≠ .panicked []) (hb : ∀ v ∈ w.drops op, bomb v = false) : stepB bomb w op = some (r, w', w.drops op) :=
  stepB_calm' h (fun h => absurd h hp) hb

/-! ### Calls that run to the end -/

namespace ComponentStorage

theorem deleteEachB_done {bomb : V → Bool} {e : Entity} : ∀ (is : List Nat) (c c' : ComponentStorage V) (ds ds' : List V)
    (u : Unit), deleteEachB bomb e is c ds = .ok u (c', ds') → deleteEach e is c = .ok c'
  | [], c, c', ds, ds', u, h => by cases h; rfl
  | i :: is, c, c', ds, ds', u, h => by
    unfold deleteEachB at h
    unfold deleteEach
    cases hi : c.components[i]? with
    | none => rw [hi] at h; cases h
    | some s =>
      simp only [hi, Res.unchecked_some, Outcome.ofRes] at h
      simp only [Res.unchecked_some, Res.bind_ok]
      cases hd : s.deleteB bomb e with
      | ub => rw [hd] at h; cases h
      | panic p => rw [hd] at h; cases h
      | ok u p =>
        rw [hd] at h
        rw [(CompSet.deleteB_ok hd).1, Res.bind_ok]
        exact deleteEachB_done is _ c' _ ds' _ h

theorem deleteB_done {bomb : V → Bool} {e : Entity} {ts : List TypeId} {c c' : ComponentStorage V} {ds : List V}
    {u : Unit} (h : c.deleteB bomb e ts = .ok u (c', ds)) : c.delete e ts = .ok c' := by
  unfold deleteB at h
  unfold delete
  cases h1 : c.lookupAll (·.deleteMask) ts with
  | ub => rw [h1] at h; cases h
  | panic => rw [h1] at h; cases h
  | ok p =>
    obtain ⟨idxs, mask⟩ := p
    simp only [h1, Outcome.ofRes] at h
    simp only [Res.bind_ok]
    cases h2 : c.withMask mask (ungroup · mask e) with
    | ub => rw [h2] at h; cases h
    | panic => rw [h2] at h; cases h
    | ok c1 =>
      simp only [h2] at h
      rw [Res.bind_ok]
      exact deleteEachB_done idxs c1 c' [] ds _ h

theorem deleteAllB_done {bomb : V → Bool} {e : Entity} : ∀ (l l' : List (CompSet V)) (ds : List V) (u : Unit),
    deleteAllB bomb e l = .ok u (l', ds) → deleteAll e l = .ok l'
  | [], _, _, _, h => by cases h; rfl
  | s :: l, l', ds, u, h => by
    unfold deleteAllB at h
    unfold deleteAll
    cases hd : s.deleteB bomb e with
    | ub => rw [hd] at h; cases h
    | panic p => rw [hd] at h; cases h
    | ok u p =>
      simp only [hd] at h
      cases hl : deleteAllB bomb e l with
      | ub => rw [hl] at h; cases h
      | panic p => rw [hl] at h; cases h
      | ok u q =>
        simp only [hl] at h
        cases h
        rw [(CompSet.deleteB_ok hd).1, Res.bind_ok, deleteAllB_done l q.1 q.2 u hl, Res.bind_ok]
        rfl

theorem stripB_done {bomb : V → Bool} {e : Entity} {c c' : ComponentStorage V} {ds : List V}
    {u : Unit} (h : c.stripB bomb e = .ok u (c', ds)) : c.strip e = .ok c' := by
  unfold stripB at h
  unfold strip
  cases h1 : ungroupAll (c.components, c.groups) e with
  | ub => rw [h1] at h; cases h
  | panic => rw [h1] at h; cases h
  | ok p =>
    simp only [h1, Outcome.ofRes] at h
    rw [Res.bind_ok]
    cases hl : deleteAllB bomb e p.1 with
    | ub => rw [hl] at h; cases h
    | panic p => rw [hl] at h; cases h
    | ok u q =>
      simp only [hl] at h
      cases h
      simp only [deleteAllB_done p.1 q.1 q.2 u hl, Res.bind_ok]
      rfl

end ComponentStorage
end Sparsey
