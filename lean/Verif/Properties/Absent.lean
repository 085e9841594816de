import Verif.Properties.Again
import Verif.Proofs.Rows

/-!
C79, continued: calls on an entity that no component set finds.
-/

set_option autoImplicit false
set_option linter.unusedSimpArgs false

namespace Sparsey
variable {V : Type}

theorem SparseVec.contains_of_get {s : SparseVec} {e : Entity} (h : s.get e = none) : s.contains e = false := by
  unfold SparseVec.get at h
  unfold SparseVec.contains
  cases hs : s.slots[e.sparse]? with
  | none => rfl
  | some o =>
    cases o with
    | none => rfl
    | some sl =>
      rw [hs] at h
      simpa [Option.filter_some] using h

theorem SparseVec.get_of_contains {s : SparseVec} {e : Entity} (h : s.contains e = false) : s.get e = none := by
  unfold SparseVec.contains at h
  unfold SparseVec.get
  cases hs : s.slots[e.sparse]? with
  | none => rfl
  | some o =>
    cases o with
    | none => rfl
    | some sl =>
      rw [hs] at h
      simpa [Option.filter_some] using h

/-- No component set finds the entity. -/
def AbsentIn (e : Entity) (comps : List (CompSet V)) : Prop := ∀ s ∈ comps, s.sparse.get e = none

theorem CompSet.delete_gone {s s' : CompSet V} (h : s.IdxOk) {e : Entity} (hr : s.delete e = .ok s') : s'.sparse.get e = none := by
  refine SparseVec.get_of_contains ?_
  cases hc : s.sparse.contains e with
  | false =>
    have : s.delete e = .ok s := by simp [CompSet.delete, SparseVec.remove_absent hc]
    rw [this] at hr
    cases hr
    exact hc
  | true =>
    rcases h.rep.remove_cases e with hn | ⟨d, x, hr', hd, hi⟩
    · exfalso
      unfold SparseVec.contains at hc
      unfold SparseVec.remove at hn
      split at hc
      · rename_i sl hs
        simp [hs, hc] at hn
      · cases hc
    · have hdl : d < s.entities.length := (List.getElem?_eq_some_iff.1 hd).1
      obtain ⟨last, hlast⟩ : ∃ y, s.entities[s.entities.length - 1]? = some y :=
        ⟨_, List.getElem?_eq_getElem (by omega)⟩
      have hls := h.rep.slot_lt hlast
      obtain ⟨v, hv⟩ := h.comp_at hd
      obtain ⟨vl, hvl⟩ := h.comp_at hlast
      unfold CompSet.delete at hr
      by_cases hlt : d < s.entities.length - 1
      · have hne : last.index ≠ e.index := by
          intro heq
          obtain ⟨v1, h1⟩ := h.rep.fwd _ _ hd
          obtain ⟨v2, h2⟩ := h.rep.fwd _ _ hlast
          rw [heq, ← hi, h1] at h2
          simp only [Option.some.injEq, Slot.mk.injEq] at h2
          omega
        simp [hr', hd, hlast, hv, hvl, hlt, SparseVec.setUnchecked, Entity.sparse, hls] at hr
        subst hr
        simp only [SparseVec.contains, Entity.sparse, List.getElem?_set]
        rw [if_neg hne]
        simp
      · simp [hr', hd, hlast, hv, hvl, hlt] at hr
        subst hr
        simp only [SparseVec.contains, Entity.sparse, List.getElem?_set]
        simp

theorem deleteAll_gone {e : Entity} : ∀ {l l' : List (CompSet V)}, AllSets CompSet.IdxOk l →
    ComponentStorage.deleteAll e l = .ok l' → AbsentIn e l'
  | [], l', _, h => by
    cases h
    exact fun s hs => by cases hs
  | s :: ss, l', ha, h => by
    unfold ComponentStorage.deleteAll at h
    obtain ⟨s1, h1, h⟩ := Res.bind_ok' h
    obtain ⟨ss1, h2, h⟩ := Res.bind_ok' h
    cases h
    intro x hx
    rcases List.mem_cons.1 hx with rfl | hx
    · exact CompSet.delete_gone (ha s (.head _)) h1
    · exact deleteAll_gone (fun x hx => ha x (.tail _ hx)) h2 x hx

theorem ungroupStep_missed {e : Entity} {i : Nat} {comps : List (CompSet V)} {groups : List Group} {s : Sets V}
    (ha : AbsentIn e comps) (h : ungroupStep e i (comps, groups) = .ok s) : s = (comps, groups) := by
  unfold ungroupStep at h
  obtain ⟨g, -, h⟩ := Res.bind_ok' h
  obtain ⟨seg, hseg, h⟩ := Res.bind_ok' h
  obtain ⟨st, hst, h⟩ := Res.bind_ok' h
  have hsub : ∀ x ∈ seg, x ∈ comps := by
    unfold compRange at hseg
    split at hseg
    · cases hseg
      exact fun x hx => List.mem_of_mem_drop (List.mem_of_mem_take hx)
    · cases hseg
  cases seg with
  | nil => cases hst
  | cons f os =>
    unfold getGroupStatus at hst
    simp only [ha f (hsub f (.head _))] at hst
    cases hst
    cases h
    rfl

theorem ungroupLoop_missed {e : Entity} {comps : List (CompSet V)} {groups : List Group} (ha : AbsentIn e comps) :
    ∀ (n : Nat) (m : BitVec 64) {s : Sets V}, ungroupLoop e n m (comps, groups) = .ok s → s = (comps, groups)
  | n, m, s, h => by
    unfold ungroupLoop at h
    cases hb : bitNextBack m with
    | none =>
      rw [hb] at h
      cases h
      rfl
    | some p =>
      rw [hb] at h
      cases n with
      | zero => cases h
      | succ n =>
        obtain ⟨s1, h1, h⟩ := Res.bind_ok' h
        rw [ungroupStep_missed ha h1] at h
        exact ungroupLoop_missed ha n _ h

theorem withMask_missed {c c' : ComponentStorage V} {mask : GroupMask} {e : Entity} (ha : AbsentIn e c.components)
    (h : c.withMask mask (ungroup · mask e) = .ok c') : c' = c := by
  unfold ComponentStorage.withMask at h
  split at h
  · cases h
    rfl
  · obtain ⟨p, h1, h⟩ := Res.bind_ok' h
    rw [ungroupLoop_missed ha 64 mask h1] at h
    cases h
    rfl

theorem removeEach_missed {e : Entity} {c : ComponentStorage V} (ha : AbsentIn e c.components) : ∀ (idxs : List Nat)
    {vs : List (Option V)} {c' : ComponentStorage V}, ComponentStorage.removeEach e idxs c = .ok (vs, c') →
    c' = c ∧ vs = List.replicate idxs.length none
  | [], vs, c', h => by
    cases h
    exact ⟨rfl, rfl⟩
  | i :: is, vs, c', h => by
    unfold ComponentStorage.removeEach at h
    obtain ⟨s, h1, h⟩ := Res.bind_ok' h
    obtain ⟨⟨v, s'⟩, h2, h⟩ := Res.bind_ok' h
    obtain ⟨⟨vs', c''⟩, h3, h⟩ := Res.bind_ok' h
    cases h
    have hs : c.components[i]? = some s := by
      cases hx : c.components[i]? with
      | none => rw [hx] at h1; cases h1
      | some y => rw [hx] at h1; cases h1; rfl
    have h4 : s.remove e = .ok (none, s) := by
      simp [CompSet.remove, SparseVec.remove_absent (SparseVec.contains_of_get (ha s (List.mem_of_getElem? hs)))]
    rw [h4] at h2
    cases h2
    simp only [set_same hs] at h3
    obtain ⟨h5, h6⟩ := removeEach_missed ha is h3
    exact ⟨h5, by rw [h6]; rfl⟩

theorem deleteEach_missed {e : Entity} {c : ComponentStorage V} (ha : AbsentIn e c.components) : ∀ (idxs : List Nat)
    {c' : ComponentStorage V}, ComponentStorage.deleteEach e idxs c = .ok c' → c' = c
  | [], c', h => by
    cases h
    rfl
  | i :: is, c', h => by
    unfold ComponentStorage.deleteEach at h
    obtain ⟨s, h1, h⟩ := Res.bind_ok' h
    obtain ⟨s', h2, h⟩ := Res.bind_ok' h
    have hs : c.components[i]? = some s := by
      cases hx : c.components[i]? with
      | none => rw [hx] at h1; cases h1
      | some y => rw [hx] at h1; cases h1; rfl
    have h4 : s.delete e = .ok s := by
      simp [CompSet.delete, SparseVec.remove_absent (SparseVec.contains_of_get (ha s (List.mem_of_getElem? hs)))]
    rw [h4] at h2
    cases h2
    simp only [set_same hs] at h
    exact deleteEach_missed ha is h

theorem step_remove_absent {w u : World V} {e : Entity} {ts : List TypeId} {r : Ret V} (ha : AbsentIn e w.components.components)
    (hs : step w (.remove e ts) = some (r, u)) : u = w ∧ (r = .values (ts.map fun _ => none) ∨ r = .panicked []) := by
  simp only [step] at hs
  cases hr : w.remove e ts with
  | ub => rw [hr] at hs; cases hs
  | panic =>
    rw [hr] at hs
    cases hs
    exact ⟨rfl, .inr rfl⟩
  | ok p =>
    rw [hr] at hs
    cases hs
    unfold World.remove ComponentStorage.remove at hr
    obtain ⟨⟨vs, c⟩, h1, h2⟩ := Res.bind_ok' hr
    cases h2
    obtain ⟨⟨idxs, m⟩, h3, h4⟩ := Res.bind_ok' h1
    obtain ⟨c', h5, h6⟩ := Res.bind_ok' h4
    rw [withMask_missed ha h5] at h6
    obtain ⟨rfl, rfl⟩ := removeEach_missed ha idxs h6
    refine ⟨rfl, .inl ?_⟩
    rw [ComponentStorage.lookupAll_length _ _ _ _ _ h3, List.map_const']

theorem step_delete_absent {w u : World V} {e : Entity} {ts : List TypeId} {r : Ret V} (ha : AbsentIn e w.components.components)
    (hs : step w (.delete e ts) = some (r, u)) : u = w ∧ (r = .unit ∨ r = .panicked []) := by
  simp only [step] at hs
  cases hr : w.delete e ts with
  | ub => rw [hr] at hs; cases hs
  | panic =>
    rw [hr] at hs
    cases hs
    exact ⟨rfl, .inr rfl⟩
  | ok p =>
    rw [hr] at hs
    cases hs
    unfold World.delete ComponentStorage.delete at hr
    obtain ⟨c, h1, h2⟩ := Res.bind_ok' hr
    cases h2
    obtain ⟨⟨idxs, m⟩, h3, h4⟩ := Res.bind_ok' h1
    obtain ⟨c', h5, h6⟩ := Res.bind_ok' h4
    rw [withMask_missed ha h5] at h6
    rw [deleteEach_missed ha idxs h6]
    exact ⟨rfl, .inl rfl⟩

theorem step_write_absent {w u : World V} {t : TypeId} {e : Entity} {v : V} {r : Ret V} (ha : AbsentIn e w.components.components)
    (hs : step w (.write t e v) = some (r, u)) : u = w ∧ (r = .bool false ∨ r = .panicked []) := by
  simp only [step, World.writeView] at hs
  cases hm : w.components.meta? t with
  | none =>
    rw [hm] at hs
    cases hs
    exact ⟨rfl, .inr rfl⟩
  | some m =>
    rw [hm] at hs
    simp only at hs
    cases hx : w.components.components[m.storageIndex]? with
    | none => rw [hx] at hs; cases hs
    | some s =>
      rw [hx] at hs
      have h1 : s.setMut e v = .ok (false, s) := by simp [CompSet.setMut, ha s (List.mem_of_getElem? hx)]
      simp only [Res.unchecked_some, Res.bind_ok, h1, set_same hx] at hs
      cases hs
      exact ⟨rfl, .inl rfl⟩

theorem clear_missed (c : ComponentStorage V) (e : Entity) : AbsentIn e c.clear.components := by
  intro s hs
  obtain ⟨s', -, rfl⟩ := List.mem_map.1 hs
  rfl

theorem destroy_missed {h : History V} {w w' : World V} (hr : Reach World.empty h w) {e : Entity} {r : Ret V}
    (hs : step w (.destroy e) = some (r, w')) (hb : r = .bool true) : AbsentIn e w'.components.components := by
  obtain ⟨he, hc⟩ := reach_sound hr
  simp only [step] at hs
  cases hd : w.destroy e with
  | ub => rw [hd] at hs; cases hs
  | panic => rw [hd] at hs; cases hs; cases hb
  | ok p =>
    rw [hd] at hs
    cases hs
    unfold World.destroy at hd
    obtain ⟨⟨b, es⟩, h1, h2⟩ := Res.bind_ok' hd
    cases b with
    | false => cases h2; cases hb
    | true =>
      simp only [if_true] at h2
      obtain ⟨c, h3, h4⟩ := Res.bind_ok' h2
      cases h4
      unfold ComponentStorage.strip at h3
      obtain ⟨⟨comps, groups⟩, h5, h6⟩ := Res.bind_ok' h3
      obtain ⟨comps', h7, h8⟩ := Res.bind_ok' h6
      cases h8
      exact deleteAll_gone (stable_idx.ungroupAllLoop _ _ _ hc.sets h5) h7

/-- C79, calls with no component to act on: in every reachable world, after `clear`, `reset` and a `destroy` that returned true,
`remove`, `delete` and writes (of the destroyed entity) answer as the specification says, or panic if they name an unregistered type
(exactly when: C49), and change nothing at all, unless they are undefined behaviour. -/
theorem C79_misses {h : History V} {w w' u : World V} {a b : Op V} {r q x : Ret V} (hr : Reach World.empty h w)
    (hs : step w a = some (r, w')) (hd : ∀ e, a = .destroy e → r = .bool true) (hm : a.misses b = some q)
    (hb : step w' b = some (x, u)) : u = w' ∧ (x = q ∨ x = .panicked []) := by
  cases a <;> cases b <;> simp only [Op.misses, reduceCtorEq, Option.ite_none_right_eq_some, Option.some.injEq] at hm
  case destroy.remove e e' ts =>
    obtain ⟨rfl, rfl⟩ := hm
    exact step_remove_absent (destroy_missed hr hs (hd _ rfl)) hb
  case destroy.delete e e' ts =>
    obtain ⟨rfl, rfl⟩ := hm
    exact step_delete_absent (destroy_missed hr hs (hd _ rfl)) hb
  case destroy.write e t e' v =>
    obtain ⟨rfl, rfl⟩ := hm
    exact step_write_absent (destroy_missed hr hs (hd _ rfl)) hb
  all_goals subst hm
  case clear.remove e ts =>
    obtain ⟨es, al, h1, rfl⟩ := step_clear_some hr hs
    exact step_remove_absent (clear_missed _ e) hb
  case clear.delete e ts =>
    obtain ⟨es, al, h1, rfl⟩ := step_clear_some hr hs
    exact step_delete_absent (clear_missed _ e) hb
  case clear.write t e v =>
    obtain ⟨es, al, h1, rfl⟩ := step_clear_some hr hs
    exact step_write_absent (clear_missed _ e) hb
  all_goals cases hs
  case reset.remove e ts => exact step_remove_absent (clear_missed _ e) hb
  case reset.delete e ts => exact step_delete_absent (clear_missed _ e) hb
  case reset.write t e v => exact step_write_absent (clear_missed _ e) hb

/-- The hypotheses of `C79_misses`, with a first call that removes components. -/
example : ∀ p ∈ ([(.destroy ⟨1, 1⟩, .remove ⟨1, 1⟩ [0, 1]), (.destroy ⟨1, 1⟩, .delete ⟨1, 1⟩ [1]), (.destroy ⟨1, 1⟩, .write 1 ⟨1, 1⟩ 9),
      (.destroy ⟨1, 1⟩, .delete ⟨1, 1⟩ [7]), (.clear, .remove ⟨1, 1⟩ [1, 0]), (.reset, .write 1 ⟨1, 1⟩ 9)] : List (Op Nat × Op Nat)),
    (do let (_, w) ← run World.empty againOps
        let (_, w₁) ← step w p.1
        let (x, u) ← step w₁ p.2
        let q ← p.1.misses p.2
        some (decide (w₁.components ≠ w.components) && decide (u = w₁) && decide (x = q ∨ x = .panicked []))) = some true := by
  decide +kernel

/-- C79, other entities: after `destroy` of one entity, `remove` of another one still finds its component. -/
example : (do let (_, w) ← run World.empty (againOps ++ [.maintain, .insert ⟨0, 2⟩ [(1, 8)], .destroy ⟨1, 1⟩])
              let (x, _) ← step w (.remove ⟨0, 2⟩ [1])
              some x) = some (.values [some 8]) := by decide +kernel

end Sparsey
