import Verif.Proofs.World
import Verif.Proofs.Layout

/-!
The pairs of `Verif/Spec/Hidden.lean` are exactly the entities outside of a group they belong to.
-/

set_option autoImplicit false
set_option linter.unusedSimpArgs false

namespace Sparsey
variable {V : Type}

namespace Table

theorem get_setAll_entity {e x : Entity} (hx : x ≠ e) : ∀ (vs : List (TypeId × V)) (tb : Table V) (t : TypeId),
    (tb.setAll e vs).get t x = tb.get t x := by
  intro vs
  induction vs with
  | nil => intro tb t; rfl
  | cons p vs ih =>
    intro tb t
    obtain ⟨t', v⟩ := p
    show (Table.setAll (tb.set t' e v) e vs).get t x = _
    rw [ih, get_set]
    simp [Content.set, hx]

theorem get_setAll_mono (e x : Entity) : ∀ (vs : List (TypeId × V)) (tb : Table V) (t : TypeId),
    (tb.get t x).isSome → ((tb.setAll e vs).get t x).isSome := by
  intro vs
  induction vs with
  | nil => intro tb t h; exact h
  | cons p vs ih =>
    intro tb t h
    obtain ⟨t', v⟩ := p
    refine ih (tb.set t' e v) t ?_
    rw [get_set]
    unfold Content.set
    split
    · rfl
    · exact h

theorem get_setAll_type {e x : Entity} {t : TypeId} (vs : List (TypeId × V)) (tb : Table V)
    (ht : t ∉ vs.map (·.1)) : (tb.setAll e vs).get t x = tb.get t x := by
  rw [get_setAll, Content.setAll_other]
  intro p hp hc
  exact ht (List.mem_map.2 ⟨p, hp, hc⟩)

theorem get_setItems_entity {ts : List TypeId} {x : Entity} : ∀ (its : List (Entity × List V)) (tb : Table V) (t : TypeId),
    x ∉ its.map (·.1) → (tb.setItems ts its).get t x = tb.get t x := by
  intro its
  induction its with
  | nil => intro tb t _; rfl
  | cons p its ih =>
    intro tb t hx
    obtain ⟨e, vs⟩ := p
    simp only [List.map_cons, List.mem_cons, not_or] at hx
    show (Table.setItems (tb.setAll e (ts.zip vs)) ts its).get t x = _
    rw [ih _ _ hx.2, get_setAll_entity hx.1]

theorem get_setItems_mono {ts : List TypeId} {x : Entity} : ∀ (its : List (Entity × List V)) (tb : Table V) (t : TypeId),
    (tb.get t x).isSome → ((tb.setItems ts its).get t x).isSome := by
  intro its
  induction its with
  | nil => intro tb t h; exact h
  | cons p its ih =>
    intro tb t h
    obtain ⟨e, vs⟩ := p
    exact ih (tb.setAll e (ts.zip vs)) t (get_setAll_mono _ _ _ _ _ h)

end Table

/-- `H` are the entities outside of a group they belong to. -/
def IsHidden (w : World V) (s : MapWorld V) (H : List (Entity × Nat)) : Prop :=
  ∀ x k, (x, k) ∈ H ↔ s.Full x k ∧ ¬ w.components.Shown x k

theorem MapWorld.mem_newlyFull (s s' : MapWorld V) (es : List Entity) (x : Entity) (k : Nat) :
    (x, k) ∈ s.newlyFull s' es ↔ x ∈ es ∧ k < s.groups.length ∧ s'.Full x k ∧ ¬ s.Full x k := by
  unfold MapWorld.newlyFull
  simp only [List.mem_flatMap, List.mem_map, List.mem_filter, List.mem_range, decide_eq_true_eq, Prod.mk.injEq,
    Bool.decide_and, Bool.and_eq_true]
  constructor
  · rintro ⟨e, h1, k', ⟨h2, h3⟩, rfl, rfl⟩
    exact ⟨h1, h2, h3⟩
  · rintro ⟨h1, h2, h3⟩
    exact ⟨x, h1, k, ⟨h2, h3⟩, rfl, rfl⟩

/-- Fullness depends on the groups and the table. -/
theorem MapWorld.full_congr {s s' : MapWorld V} (hg : s'.groups = s.groups) {x : Entity} {k : Nat}
    (ht : ∀ ts, s.groups[k]? = some ts → ∀ t ∈ ts, (s.table.get t x).isSome → (s'.table.get t x).isSome)
    (hf : s.Full x k) : s'.Full x k := by
  obtain ⟨ts, h1, h2⟩ := hf
  exact ⟨ts, by rw [hg]; exact h1, fun t h3 => ht ts h1 t h3 (h2 t h3)⟩

/-- An interrupted call: nothing is grouped. -/
theorem IsHidden.grow {w w' : World V} {s s' : MapWorld V} {H : List (Entity × Nat)} (hH : IsHidden w s H) (hi : InvL w s)
    {es : List Entity} (hg : s'.groups = s.groups)
    (hs : ∀ x k, w'.components.Shown x k ↔ w.components.Shown x k)
    (hm : ∀ t x, (s.table.get t x).isSome → (s'.table.get t x).isSome)
    (he : ∀ t x, x ∉ es → s'.table.get t x = s.table.get t x) :
    IsHidden w' s' (s.newlyFull s' es ++ H) := by
  intro x k
  rw [List.mem_append, MapWorld.mem_newlyFull, hH, hs]
  constructor
  · rintro (⟨_, _, h1, h2⟩ | ⟨h1, h2⟩)
    · exact ⟨h1, fun hc => h2 (hi.shown_full hc)⟩
    · exact ⟨MapWorld.full_congr hg (fun _ _ t _ h => hm t x h) h1, h2⟩
  · rintro ⟨h1, h2⟩
    by_cases hf : s.Full x k
    · exact .inr ⟨hf, h2⟩
    · refine .inl ⟨?_, ?_, h1, hf⟩
      · by_contra hx
        refine hf (MapWorld.full_congr hg.symm (fun _ _ t _ h => ?_) h1)
        rw [← he t x hx]
        exact h
      · obtain ⟨ts, h3, _⟩ := h1
        rw [hg] at h3
        exact (List.getElem?_eq_some_iff.1 h3).1

/-- A call that makes and groups new entities. -/
theorem IsHidden.fresh {w w' : World V} {s s' : MapWorld V} {H : List (Entity × Nat)} (hH : IsHidden w s H) (hi : InvL w s)
    {es : List Entity} (hg : s'.groups = s.groups) (hf : ∀ x ∈ es, x ∉ s.life.alive)
    (hs : ∀ x k, w'.components.Shown x k ↔ w.components.Shown x k ∨ (x ∈ es ∧ s'.Full x k))
    (he : ∀ t x, x ∉ es → s'.table.get t x = s.table.get t x) : IsHidden w' s' H := by
  have heq : ∀ x k, x ∉ es → (s'.Full x k ↔ s.Full x k) := fun x k hx =>
    ⟨MapWorld.full_congr hg.symm fun _ _ t _ h => by rw [← he t x hx]; exact h,
      MapWorld.full_congr hg fun _ _ t _ h => by rw [he t x hx]; exact h⟩
  intro x k
  rw [hH, hs]
  constructor
  · rintro ⟨h1, h2⟩
    have hx : x ∉ es := fun hx => hf x hx (hi.full_alive h1)
    exact ⟨(heq x k hx).2 h1, fun hc => hc.elim h2 fun hc => hx hc.1⟩
  · rintro ⟨h1, h2⟩
    have hx : x ∉ es := fun hx => h2 (.inr ⟨hx, h1⟩)
    exact ⟨(heq x k hx).1 h1, fun hc => h2 (.inl hc)⟩

/-- A call that changes neither groups nor components. -/
theorem IsHidden.same {w w' : World V} {s s' : MapWorld V} {H : List (Entity × Nat)} (hH : IsHidden w s H)
    (hg : s'.groups = s.groups) (hs : ∀ x k, w'.components.Shown x k ↔ w.components.Shown x k)
    (he : ∀ t x, (s'.table.get t x).isSome ↔ (s.table.get t x).isSome) : IsHidden w' s' H := by
  intro x k
  rw [hH, hs]
  refine and_congr_left fun _ => ⟨MapWorld.full_congr hg fun _ _ t _ h => (he t x).2 h,
    MapWorld.full_congr hg.symm fun _ _ t _ h => (he t x).1 h⟩

/-- A call that groups everything. -/
theorem IsHidden.none {w' : World V} {s' : MapWorld V} (hs : ∀ x k, w'.components.Shown x k ↔ s'.Full x k) :
    IsHidden w' s' [] := by
  intro x k
  rw [hs]
  simp

/-- `remove` and `delete`. -/
theorem IsHidden.erase {w w' : World V} {s s' : MapWorld V} {H : List (Entity × Nat)} (hH : IsHidden w s H) {e : Entity}
    {ts : List TypeId} (hg : s'.groups = s.groups) (ht : s'.table = s.table.eraseAll e ts)
    (hs : ∀ x k, w'.components.Shown x k ↔ w.components.Shown x k ∧ ¬ (x = e ∧ s.InGroup ts k)) :
    IsHidden w' s' (H.filter fun p => ¬ (p.1 = e ∧ s.InGroup ts p.2)) := by
  have hget : ∀ t x, s'.table.get t x = if t ∈ ts ∧ x = e then .none else s.table.get t x := by
    intro t x
    rw [ht, Table.get_eraseAll, Content.eraseAll_eq]
  have hfull : ∀ x k, s'.Full x k ↔ s.Full x k ∧ ¬ (x = e ∧ s.InGroup ts k) := by
    intro x k
    constructor
    · intro h1
      refine ⟨MapWorld.full_congr hg.symm (fun _ _ t _ h => ?_) h1, ?_⟩
      · rw [hget] at h
        split at h
        · cases h
        · exact h
      · rintro ⟨rfl, us, h2, t, h3, h4⟩
        obtain ⟨us', h5, h6⟩ := h1
        rw [hg] at h5
        have : us' = us := by
          have h2' : s.groups[k]? = some us := h2
          rw [h2'] at h5
          exact (Option.some.inj h5).symm
        subst this
        have := h6 t h4
        rw [hget, if_pos ⟨h3, rfl⟩] at this
        cases this
    · rintro ⟨h1, h2⟩
      refine MapWorld.full_congr hg (fun us h3 t h4 h => ?_) h1
      rw [hget, if_neg]
      · exact h
      · rintro ⟨h5, rfl⟩
        exact h2 ⟨rfl, us, h3, t, h5, h4⟩
  intro x k
  rw [List.mem_filter, hH, hs, hfull]
  simp only [decide_eq_true_eq]
  tauto

theorem Table.get_setItems_makes {s : MapWorld V} {ts : List TypeId} {it : Items V} (t : TypeId) (x : Entity)
    (hx : x ∉ s.extendMakes ts it) : (s.next (.extend ts it)).table.get t x = s.table.get t x := by
  refine Table.get_setItems_entity _ _ _ fun hc => ?_
  obtain ⟨p, h1, rfl⟩ := List.mem_map.1 hc
  exact hx (List.of_mem_zip h1).1

/-- One call. -/
theorem step_hidden {w w' : World V} {s : MapWorld V} {H : List (Entity × Nat)} (h : InvL w s) {op : Op V} {r : Ret V}
    (hf : s.Fair op) (hv : w.Even op) (hst : step w op = some (r, w')) (hH : IsHidden w s H) :
    IsHidden w' (s.next op) (s.hiddenAfter H op) := by
  obtain ⟨w1, h1, _, h3⟩ := stepX h hf (.inl fun _ _ => trivial) hv
  rw [h1] at hst
  simp only [Option.some.injEq, Prod.mk.injEq] at hst
  obtain ⟨_, rfl⟩ := hst
  cases op with
  | register t => exact hH.same rfl h3 fun _ _ => Iff.rfl
  | setLayout rank gs => exact .none h3
  | create vs =>
    simp only [MapWorld.shownAfter] at h3
    simp only [MapWorld.hiddenAfter]
    by_cases hx : s.life.exhausted
    · have hnext : (s.next (.create vs)).table = s.table := by
        simp [MapWorld.next, MapWorld.tableAfter, hx]
      rw [if_pos (.inl hx)]
      exact hH.same rfl (fun x k => by rw [h3]; simp [hx]) fun t x => by rw [hnext]
    · have hnext : (s.next (.create vs)).table = s.table.setAll s.life.nextEntity (s.known vs) := by
        simp [MapWorld.next, MapWorld.tableAfter, hx]
      by_cases hk : s.knows (vs.map (·.1))
      · rw [if_pos (.inr hk)]
        refine hH.fresh h (es := [s.life.nextEntity]) rfl ?_ (fun x k => ?_) fun t x hne => ?_
        · intro x hxe
          rw [List.mem_singleton] at hxe
          subst hxe
          exact h.life.next_fresh hx
        · rw [h3]
          simp [hx, hk]
        · rw [hnext]
          exact Table.get_setAll_entity (by simpa using hne) _ _ _
      · rw [if_neg (by tauto)]
        refine hH.grow h rfl (fun x k => by rw [h3]; simp [hk]) (fun t x ht => ?_) fun t x hne => ?_
        · rw [hnext]
          exact Table.get_setAll_mono _ _ _ _ _ ht
        · rw [hnext]
          exact Table.get_setAll_entity (by simpa using hne) _ _ _
  | extend ts it =>
    simp only [MapWorld.shownAfter] at h3
    simp only [MapWorld.hiddenAfter]
    by_cases hfull : s.knows ts ∧ (s.extendMakes ts it).length = it.items.length ∧ it.thenPanics = false
    · rw [if_pos hfull]
      refine hH.fresh h (es := s.extendMakes ts it) rfl ?_ (fun x k => ?_) fun t x hne =>
        Table.get_setItems_makes t x hne
      · intro x hxe
        simp only [MapWorld.extendMakes, hfull.1, if_true] at hxe
        exact h.life.makes_fresh _ x hxe
      · rw [h3]
        simp only [hfull, true_and, and_self]
    · rw [if_neg hfull]
      refine hH.grow h rfl (fun x k => by rw [h3]; simp [hfull]) (fun t x ht => ?_) fun t x hne =>
        Table.get_setItems_makes t x hne
      exact Table.get_setItems_mono _ _ _ ht
  | destroy e =>
    simp only [MapWorld.shownAfter] at h3
    intro x k
    have hget : ∀ t y, y ≠ e → (s.next (.destroy e)).table.get t y = s.table.get t y := by
      intro t y hy
      by_cases he : e ∈ s.life.alive
      · have hnext : (s.next (.destroy e)).table = s.table.strip e := by
          simp [MapWorld.next, MapWorld.tableAfter, he]
        rw [hnext, Table.get_strip]
        simp [Content.strip, hy]
      · have hnext : (s.next (.destroy e)).table = s.table := by
          simp [MapWorld.next, MapWorld.tableAfter, he]
        rw [hnext]
    have hfull : ∀ y, y ≠ e → ((s.next (.destroy e)).Full y k ↔ s.Full y k) := fun y hy =>
      ⟨MapWorld.full_congr (s := s.next (.destroy e)) (s' := s) rfl fun _ _ t _ h => by rw [← hget t y hy]; exact h,
        MapWorld.full_congr (s := s) (s' := s.next (.destroy e)) rfl fun _ _ t _ h => by rw [hget t y hy]; exact h⟩
    have hno : ¬ (s.next (.destroy e)).Full e k := by
      rintro ⟨us, h4, h5⟩
      obtain ⟨t, ht⟩ := h.group_type (k := k) h4
      have h6 := h5 t ht
      by_cases he : e ∈ s.life.alive
      · have hnext : (s.next (.destroy e)).table = s.table.strip e := by
          simp [MapWorld.next, MapWorld.tableAfter, he]
        rw [hnext, Table.get_strip] at h6
        simp [Content.strip] at h6
      · have hnext : (s.next (.destroy e)).table = s.table := by
          simp [MapWorld.next, MapWorld.tableAfter, he]
        rw [hnext, ← h.value] at h6
        exact he (h.store.value_sub h6)
    simp only [MapWorld.hiddenAfter]
    rw [List.mem_filter, hH, h3]
    simp only [decide_eq_true_eq, ne_eq]
    by_cases hx : x = e
    · subst hx
      simp [hno]
    · rw [hfull x hx]
      simp [hx]
  | createAtomic => exact hH.same rfl h3 fun _ _ => Iff.rfl
  | maintain => exact hH.same rfl h3 fun _ _ => Iff.rfl
  | insert e vs =>
    simp only [MapWorld.shownAfter] at h3
    simp only [MapWorld.hiddenAfter]
    by_cases he : e ∈ s.life.alive
    · have hnext : (s.next (.insert e vs)).table = s.table.setAll e (s.known vs) := by
        simp [MapWorld.next, MapWorld.tableAfter, he]
      rw [if_neg (by simpa using he)]
      by_cases hk : s.knows (vs.map (·.1))
      · rw [if_pos hk]
        rw [known_all hk] at hnext
        intro x k
        rw [List.mem_filter, hH, h3]
        simp only [decide_eq_true_eq, he, hk, true_and]
        have hmono : s.Full x k → (s.next (.insert e vs)).Full x k :=
          MapWorld.full_congr (s := s) (s' := s.next (.insert e vs)) rfl fun _ _ t _ h => by
            rw [hnext]
            exact Table.get_setAll_mono _ _ _ _ _ h
        have hback : ¬ (x = e ∧ s.InFamily (vs.map (·.1)) k) → (s.next (.insert e vs)).Full x k → s.Full x k := by
          intro hn
          refine MapWorld.full_congr (s := s.next (.insert e vs)) (s' := s) rfl fun us h4 t h5 h6 => ?_
          rw [hnext] at h6
          by_cases hx : x = e
          · rw [Table.get_setAll_type] at h6
            · exact h6
            · intro hc
              exact hn ⟨hx, h.inFamily_of_inGroup ⟨us, h4, t, hc, h5⟩⟩
          · rwa [Table.get_setAll_entity hx] at h6
        tauto
      · rw [if_neg hk]
        refine hH.grow h rfl (fun x k => by rw [h3]; simp [hk]) (fun t x ht => ?_) fun t x hne => ?_
        · rw [hnext]
          exact Table.get_setAll_mono _ _ _ _ _ ht
        · rw [hnext]
          exact Table.get_setAll_entity (by simpa using hne) _ _ _
    · have hnext : (s.next (.insert e vs)).table = s.table := by
        simp [MapWorld.next, MapWorld.tableAfter, he]
      rw [if_pos (by simpa using he)]
      exact hH.same rfl (fun x k => by rw [h3]; simp [he]) fun t x => by rw [hnext]
  | remove e ts =>
    simp only [MapWorld.shownAfter] at h3
    simp only [MapWorld.hiddenAfter]
    by_cases hk : s.knows ts
    · rw [if_pos hk]
      exact hH.erase rfl (by simp [MapWorld.next, MapWorld.tableAfter, hk]) fun x k => by rw [h3]; simp [hk]
    · rw [if_neg hk]
      exact hH.same rfl (fun x k => by rw [h3]; simp [hk]) fun t x => by simp [MapWorld.next, MapWorld.tableAfter, hk]
  | delete e ts =>
    simp only [MapWorld.shownAfter] at h3
    simp only [MapWorld.hiddenAfter]
    by_cases hk : s.knows ts
    · rw [if_pos hk]
      exact hH.erase rfl (by simp [MapWorld.next, MapWorld.tableAfter, hk]) fun x k => by rw [h3]; simp [hk]
    · rw [if_neg hk]
      exact hH.same rfl (fun x k => by rw [h3]; simp [hk]) fun t x => by simp [MapWorld.next, MapWorld.tableAfter, hk]
  | clear => exact .none h3
  | reset => exact .none h3
  | write t e v =>
    refine hH.same rfl h3 fun t' x => ?_
    show (Option.isSome ((if (s.table.get t e).isSome then s.table.set t e v else s.table).get t' x)) = true ↔ _
    split
    · rename_i hs
      rw [Table.get_set]
      unfold Content.set
      split
      · rename_i hc
        obtain ⟨rfl, rfl⟩ := hc
        simpa using hs
      · exact Iff.rfl
    · exact Iff.rfl
  | writeAt t pos v => exact hf.elim

theorem MapWorld.hiddenFrom_append : ∀ (a b : List (Op V)) (s : MapWorld V) (H : List (Entity × Nat)),
    s.hiddenFrom H (a ++ b) = (s.run a).hiddenFrom (s.hiddenFrom H a) b := by
  intro a
  induction a with
  | nil => intro b s H; rfl
  | cons op a ih => intro b s H; exact ih b _ _

theorem hidden_snoc (a : List (Op V)) (op : Op V) : hidden (a ++ [op]) = (mapOf a).hiddenAfter (hidden a) op := by
  unfold hidden
  rw [MapWorld.hiddenFrom_append]
  rfl

/-- The entities outside of a group they belong to, in every world a fair history leads to. -/
theorem reach_hidden {h : History V} {w : World V} (hr : Reach World.empty h w) (hg : Fair (h.map (·.1))) :
    IsHidden w (mapOf (h.map (·.1))) (hidden (h.map (·.1))) := by
  induction hr with
  | nil => exact .none Inv.init.shown_all
  | @snoc h w₁ w₂ op r hr hs ih =>
    rw [List.map_append, List.map_singleton] at hg ⊢
    obtain ⟨hg1, hf, hv⟩ := Fair.snoc hr hg
    rw [mapOf_snoc, hidden_snoc]
    exact step_hidden (reach_fair hr hg1).1 hf hv hs (ih hg1)

/-- A world and a map with exactly the entities in `H` outside of groups they belong to. -/
structure InvH (w : World V) (s : MapWorld V) (H : List (Entity × Nat)) : Prop extends
    InvX w s (fun x k => (x, k) ∈ H) where
  out : ∀ x k, (x, k) ∈ H → ¬ w.components.Shown x k
  two : ∀ g ∈ s.groups, ∀ t, ¬ SameTypes [t] g

theorem InvX.hid {w : World V} {s : MapWorld V} (h : InvL w s) {H : List (Entity × Nat)} (hH : IsHidden w s H)
    (h2 : ∀ g ∈ s.groups, ∀ t, ¬ SameTypes [t] g) : InvH w s H where
  life := h.life
  store := h.store
  grouped k g x hg hc := by
    by_cases hs : w.components.Shown x k
    · obtain ⟨g', h1, h2⟩ := hs
      rw [hg] at h1
      cases h1
      exact .inl h2
    · exact .inr ((hH x k).2 ⟨(h.full_iff x k).1 ⟨g, hg, hc⟩, hs⟩)
  value := h.value
  reg := h.reg
  groups := h.groups
  out x k hx := ((hH x k).1 hx).2
  two := h2

/-- A well formed layout has no group of a single type. -/
theorem LayoutOK.two {l : GroupLayout} (h : LayoutOK l) : ∀ g ∈ layoutGroups l, ∀ t, ¬ SameTypes [t] g := by
  intro g hg t hs
  obtain ⟨f, hf, hg⟩ := List.mem_flatMap.1 hg
  obtain ⟨a, ha, rfl⟩ := List.mem_map.1 hg
  have hF := h.1 f hf
  have h2 := hF.2.1 a ha
  have hle := hF.mem_le ha
  have hn : f.components.Nodup := List.Nodup.sublist (List.sublist_flatten_of_mem (List.mem_map.2 ⟨f, hf, rfl⟩)) h.2
  have h0 : f.components[0]'(by omega) ∈ f.components.take a :=
    List.mem_iff_getElem.2 ⟨0, by simp; omega, by simp⟩
  have h1 : f.components[1]'(by omega) ∈ f.components.take a :=
    List.mem_iff_getElem.2 ⟨1, by simp; omega, by simp⟩
  have e0 := List.mem_singleton.1 ((hs _).2 h0)
  have e1 := List.mem_singleton.1 ((hs _).2 h1)
  have := (List.Nodup.getElem_inj_iff hn).1 (e0.trans e1.symm)
  omega

theorem fair_two {h : History V} {w : World V} (hr : Reach World.empty h w) (hg : Fair (h.map (·.1))) :
    ∀ g ∈ (mapOf (h.map (·.1))).groups, ∀ t, ¬ SameTypes [t] g := by
  induction hr with
  | nil => intro g hg; cases hg
  | @snoc h w₁ w₂ op r hr hs ih =>
    rw [List.map_append, List.map_singleton] at hg ⊢
    obtain ⟨hg1, hf, hv⟩ := Fair.snoc hr hg
    rw [mapOf_snoc]
    cases op with
    | setLayout rank gs => exact hf.1.two
    | _ => exact ih hg1

theorem InvH.inv {w : World V} {s : MapWorld V} (h : InvH w s []) : Inv w s where
  life := h.life
  store := h.store
  grouped k g x hg hc := .inl ((h.grouped k g x hg hc).resolve_right (by simp))
  value := h.value
  reg := h.reg
  groups := h.groups

theorem reach_invH {h : History V} {w : World V} (hr : Reach World.empty h w) (hg : Fair (h.map (·.1))) :
    InvH w (mapOf (h.map (·.1))) (hidden (h.map (·.1))) :=
  (reach_fair hr hg).1.hid (reach_hidden hr hg) (fair_two hr hg)

/-- In a good history nothing is outside of its groups. -/
theorem hidden_good {h : History V} {w : World V} (hr : Reach World.empty h w) (hg : Good (h.map (·.1))) :
    hidden (h.map (·.1)) = [] := by
  rw [List.eq_nil_iff_forall_not_mem]
  rintro ⟨x, k⟩ hx
  have h1 := (reach_hidden hr hg.fair x k).1 hx
  exact h1.2 (((reach_refines hr hg).1.shown_all x k).2 h1.1)

/-- Groups with the same types are the same. -/
theorem InvX.group_unique {w : World V} {s : MapWorld V} {P : Entity → Nat → Prop} (h : InvX w s P) {j k : Nat}
    {ts us : List TypeId} (hj : s.groups[j]? = some ts) (hk : s.groups[k]? = some us) (he : SameTypes ts us) : j = k := by
  have key : ∀ {j k : Nat} {ts us : List TypeId}, s.groups[j]? = some ts → s.groups[k]? = some us → SameTypes ts us →
      ¬ j < k := by
    intro j k ts us hj hk he hlt
    obtain ⟨gj, hgj⟩ : ∃ g, w.components.groups[j]? = some g := by
      have := (List.getElem?_eq_some_iff.1 hj).1
      exact ⟨_, List.getElem?_eq_getElem (by rw [← h.groups.1]; exact this)⟩
    obtain ⟨gk, hgk⟩ : ∃ g, w.components.groups[k]? = some g := by
      have := (List.getElem?_eq_some_iff.1 hk).1
      exact ⟨_, List.getElem?_eq_getElem (by rw [← h.groups.1]; exact this)⟩
    have hb := h.store.gstat.bounds k gk hgk
    have hin : InRange gk gk.newStorageStart := ⟨hb.1, hb.2.1⟩
    obtain ⟨t, m, hm, hi⟩ := h.store.mds.cover k gk gk.newStorageStart hgk hin
    have ht : t ∈ us := (h.groups.2 k gk us hgk hk t).2 ⟨m, hm, by rw [hi]; exact hin⟩
    obtain ⟨m', hm', hr⟩ := (h.groups.2 j gj ts hgj hj t).1 ((he t).2 ht)
    have : m' = m := by
      have h1 : w.components.meta? t = some m := hm
      rw [h1] at hm'
      exact (Option.some.inj hm').symm
    subst this
    rw [hi] at hr
    by_cases hs : gj.storageStart = gk.storageStart
    · have := h.store.gstat.nest j k gj gk hlt hgj hgk hs
      have := hr.2
      omega
    · have := h.store.gstat.sep j k gj gk hlt hgj hgk hs
      have := hr.2
      omega
  rcases Nat.lt_trichotomy j k with hlt | heq | hlt
  · exact absurd hlt (key hj hk he)
  · exact heq
  · exact absurd hlt (key hk hj fun t => (he t).symm)

/-- Being left out of the group with these types. -/
theorem InvX.leftOut_iff {w : World V} {s : MapWorld V} {P : Entity → Nat → Prop} (h : InvX w s P)
    {H : List (Entity × Nat)} {k : Nat} {ts us : List TypeId} (hk : s.groups[k]? = some ts) (he : SameTypes us ts)
    (x : Entity) : s.LeftOut H us x ↔ (x, k) ∈ H := by
  constructor
  · rintro ⟨p, h1, rfl, g, h2, h3⟩
    have := h.group_unique (j := p.2) (k := k) h2 hk (fun t => by rw [← h3 t, he t])
    subst this
    exact h1
  · intro hx
    exact ⟨_, hx, rfl, ts, hk, he⟩

theorem MapWorld.NoneLeftOut.out {s : MapWorld V} {H : List (Entity × Nat)} {g i x : Query} (h : s.NoneLeftOut H g i x)
    (e : Entity) : ¬ s.LeftOut H (required g ++ required i) e ∧
      ((∃ a ∈ s.groups, SameTypes (required g ++ required i) a) →
        ¬ s.LeftOut H (required g ++ required i ++ required x) e) := by
  constructor
  · rintro ⟨p, h1, rfl, h2⟩
    exact (h p h1).1 ⟨p, h1, rfl, h2⟩
  · rintro h0 ⟨p, h1, rfl, h2⟩
    exact (h p h1).2 h0 ⟨p, h1, rfl, h2⟩

theorem MapWorld.noneLeftOut_nil {s : MapWorld V} {g i x : Query} : s.NoneLeftOut [] g i x := fun _ h => by cases h

/-- An entity in a group is in the groups with the same start and fewer types. -/
theorem StoreOK.shown_nested {A : Entity → Prop} {c : ComponentStorage V} (h : StoreOK A c) {j k : Nat} {gj gk : Group}
    (hj : c.groups[j]? = some gj) (hk : c.groups[k]? = some gk) (hlt : j < k) (hs : gj.storageStart = gk.storageStart)
    {x : Entity} (hx : c.Shown x k) : c.Shown x j := by
  obtain ⟨g, h1, i, h2, h3⟩ := hx
  rw [hk] at h1
  cases h1
  have := h.packed.nested j k gj gk hlt hj hk hs
  exact ⟨gj, hj, i, by omega, by rw [hs]; exact h3⟩

end Sparsey
