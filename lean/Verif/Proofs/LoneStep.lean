import Verif.Proofs.Lone
import Verif.Proofs.OneType
import Verif.Proofs.Ledger
import Verif.Spec.Lone
import Verif.Properties.Panics

/-!
A component type outside of all groups follows the map, call by call.
-/

set_option autoImplicit false
set_option linter.unusedSimpArgs false

namespace Sparsey
variable {V : Type}

/-! ### Types of a layout -/

/-- All component types of the families are in `ts`. -/
def TypesIn (ts : List TypeId) (fs : List GroupFamily) : Prop := ∀ f ∈ fs, ∀ t ∈ f.components, t ∈ ts

theorem tryAddGroup_types {ts cs : List TypeId} (hcs : ∀ t ∈ cs, t ∈ ts) {f f' : GroupFamily} {b : Bool}
    (hf : ∀ t ∈ f.components, t ∈ ts) (h : f.tryAddGroup cs = .ok (b, f')) : ∀ t ∈ f'.components, t ∈ ts := by
  unfold GroupFamily.tryAddGroup at h
  split at h
  · cases h; exact hf
  · obtain ⟨r, _, h⟩ := Res.bind_ok' h
    cases r with
    | found => cases h; exact hf
    | insertAt o =>
      cases o with
      | none =>
        cases h
        intro t ht
        rcases (mem_pushMissing t _ _).1 ht with ht | ht
        · exact hf t ht
        · exact hcs t ht
      | some i =>
        simp only at h
        obtain ⟨a, _, h⟩ := Res.bind_ok' h
        obtain ⟨_, _, h⟩ := Res.bind_ok' h
        cases h
        intro t ht
        simp only [GroupFamily.sortByKey, List.mem_append, List.mem_filter] at ht
        rcases ht with (⟨ht, _⟩ | ⟨ht, _⟩) | ht
        · exact hf t (List.mem_of_mem_take ht)
        · exact hf t (List.mem_of_mem_take ht)
        · exact hf t (List.mem_of_mem_drop ht)

theorem TypesIn.cons {ts : List TypeId} {f : GroupFamily} {fs : List GroupFamily} (hf : ∀ t ∈ f.components, t ∈ ts)
    (h : TypesIn ts fs) : TypesIn ts (f :: fs) := fun x hx => by
  rcases List.mem_cons.1 hx with rfl | hx
  · exact hf
  · exact h x hx

theorem tryAll_types {ts cs : List TypeId} (hcs : ∀ t ∈ cs, t ∈ ts) : ∀ (fs : List GroupFamily), TypesIn ts fs →
    (GroupLayout.tryAll cs fs).Leaves (TypesIn ts)
  | [], h => h
  | f :: fs, h => by
    have ih := tryAll_types hcs fs (fun x hx => h x (.tail _ hx))
    have hf := h f (.head _)
    rw [GroupLayout.tryAll]
    cases h1 : f.tryAddGroup cs with
    | panic => exact h
    | ub => trivial
    | ok p =>
      obtain ⟨b, f'⟩ := p
      have h2 := tryAddGroup_types hcs hf h1
      simp only
      cases h3 : GroupLayout.tryAll cs fs with
      | ok n fs' => rw [h3] at ih; exact TypesIn.cons h2 ih
      | panic fs' => rw [h3] at ih; exact TypesIn.cons h2 ih
      | ub => trivial

theorem addGroup_types {ts : List TypeId} {l : GroupLayout} (h : TypesIn ts l.families) {g : List TypeId}
    (hg : ∀ t ∈ g, t ∈ ts) : (l.addGroup g).Leaves (fun l => TypesIn ts l.families) := by
  have hcs : ∀ t ∈ dedupTypes (sortTypes g), t ∈ ts := fun t ht =>
    hg t ((mem_sortTypes t g).1 ((mem_dedupTypes t _).1 ht))
  unfold GroupLayout.addGroup
  simp only
  split
  · exact h
  · split
    · exact h
    · have h1 := tryAll_types hcs l.families h
      cases h2 : GroupLayout.tryAll (dedupTypes (sortTypes g)) l.families with
      | ub => trivial
      | panic fs => rw [h2] at h1; exact h1
      | ok n fs =>
        rw [h2] at h1
        simp only
        split
        · intro f hf
          rcases List.mem_append.1 hf with hf | hf
          · exact h1 f hf
          · rw [List.mem_singleton.1 hf]
            exact hcs
        · split
          · exact h1
          · exact h1

theorem addGroups_types {ts : List TypeId} : ∀ (gs : List (List TypeId)) (l : GroupLayout), TypesIn ts l.families →
    (∀ g ∈ gs, ∀ t ∈ g, t ∈ ts) → TypesIn ts (l.addGroups gs).2.families
  | [], l, h, _ => h
  | g :: gs, l, h, hg => by
    have h1 := addGroup_types h (hg g (.head _))
    rw [GroupLayout.addGroups]
    cases h2 : l.addGroup g with
    | ok u l' => rw [h2] at h1; exact addGroups_types gs l' h1 (fun x hx => hg x (.tail _ hx))
    | panic l' => rw [h2] at h1; exact addGroups_types gs l' h1 (fun x hx => hg x (.tail _ hx))
    | ub => exact addGroups_types gs l h (fun x hx => hg x (.tail _ hx))

/-- A layout has no other types than the groups it was built from. -/
theorem build_types {gs : List (List TypeId)} {t : TypeId} (h : t ∉ gs.flatten) :
    t ∉ layoutTypes (GroupLayout.build gs).2 := by
  intro hc
  obtain ⟨f, hf, ht⟩ := List.mem_flatMap.1 hc
  exact h (addGroups_types (ts := gs.flatten) gs .empty (by simp [TypesIn, GroupLayout.empty])
    (fun g hg t ht => List.mem_flatten.2 ⟨g, hg, ht⟩) f hf t ht)

/-! ### Registration -/

/-- The registered types are those of the map. -/
def SameReg (w : World V) (s : MapWorld V) : Prop := ∀ x, (w.components.meta? x).isSome ↔ x ∈ s.reg

/-- If the call sets a layout it does not panic. -/
def Op.lays : Op V → Ret V → Prop
  | .setLayout _ _, r => r = .unit
  | _, _ => True

theorem Op.SparesAt.lays {t : TypeId} {op : Op V} {r : Ret V} (h : op.SparesAt t r) : op.lays r := by
  cases op <;> first | exact h.2 | trivial

theorem Op.Spares.at {t : TypeId} {op : Op V} {r : Ret V} (h : op.Spares t r) : op.SparesAt t r := by
  cases op <;> first
    | exact ⟨by rw [List.count_eq_zero.2 (build_types h.1)]; exact Nat.zero_le _, h.2⟩
    | exact h
    | trivial

theorem step_sameReg {w w' : World V} {s : MapWorld V} {op : Op V} {r : Ret V} (hc : Static w.components)
    (hk : (w.components.metadata.map Prod.fst).Nodup) (h : SameReg w s)
    (hs : step w op = some (r, w')) (hsp : op.lays r) : SameReg w' (s.next op) := by
  by_cases hop : op.keepsTypes
  · have hsh := step_shape hs hop
    intro x
    rw [hsh.meta?, h x]
    cases op <;> first | exact hop.elim | exact Iff.rfl
  · cases op <;> simp only [Op.keepsTypes, not_true_eq_false, not_false_eq_true] at hop
    · rename_i t'
      simp only [step, Option.some.injEq, Prod.mk.injEq] at hs
      rw [← hs.2]
      obtain ⟨_, h2, _⟩ := register_one hc t' t'
      intro x
      show (((w.components.register t').2).meta? x).isSome ↔ x ∈ t' :: s.reg
      rw [h2, h x, List.mem_cons]
    · rename_i rank gs
      have hr : r = .unit := hsp
      subst hr
      simp only [step, World.setLayout] at hs
      cases hl : w.components.setLayout rank (GroupLayout.build gs).2 w.entities.asSlice with
      | ok u c =>
        rw [hl] at hs
        simp only [retOutcome, Option.some.injEq, Prod.mk.injEq, true_and] at hs
        rw [← hs]
        obtain ⟨c3, _, _, _, rfl, _, _, h1, _⟩ := setLayout_moved hc hk (build_fams gs) hl
        intro x
        show (c3.meta? x).isSome ↔ x ∈ layoutTypes (GroupLayout.build gs).2 ++ s.reg
        rw [h1, h x, List.mem_append]
      | panic c => simp [hl, retOutcome] at hs
      | ub => simp [hl, retOutcome] at hs

/-- All groups end in front of the set of a type that is never put into a group. -/
theorem step_apart {t : TypeId} {w w' : World V} {op : Op V} {r : Ret V} (hc : Static w.components)
    (hb : BoundsOK w.components) (hk : (w.components.metadata.map Prod.fst).Nodup) (h : ApartType w.components t)
    (hs : step w op = some (r, w')) (hsp : op.Spares t r) : ApartType w'.components t := by
  by_cases hop : op.keepsTypes
  · exact h.of_shape (step_shape hs hop)
  · cases op <;> simp only [Op.keepsTypes, not_true_eq_false, not_false_eq_true] at hop
    · rename_i t'
      simp only [step, Option.some.injEq, Prod.mk.injEq] at hs
      rw [← hs.2]
      exact (register_lone hc hb t' t h).2.2.1
    · rename_i rank gs
      obtain ⟨ht, rfl⟩ := hsp
      simp only [step, World.setLayout] at hs
      cases hl : w.components.setLayout rank (GroupLayout.build gs).2 w.entities.asSlice with
      | ok u c =>
        rw [hl] at hs
        simp only [retOutcome, Option.some.injEq, Prod.mk.injEq, true_and] at hs
        rw [← hs]
        exact (setLayout_lone hc hb hk (build_fams gs) (build_types ht) hl).2.2
      | panic c => simp [hl, retOutcome] at hs
      | ub => simp [hl, retOutcome] at hs

/-! ### The map has no components of unregistered types -/

theorem Table.setItems_foreign {t : TypeId} {ts : List TypeId} (ht : t ∉ ts) (e : Entity) : ∀ (l : List (Entity × List V))
    (tb : Table V), (tb.setItems ts l).get t e = tb.get t e
  | [], _ => rfl
  | (x, vs) :: l, tb => by
    show ((tb.setAll x (ts.zip vs)).setItems ts l).get t e = _
    rw [Table.setItems_foreign ht e l, Table.get_setAll, Content.setAll_other]
    rintro p hp rfl
    exact ht (List.of_mem_zip hp).1

theorem MapWorld.next_absent {s : MapWorld V} (h : ∀ t, t ∉ s.reg → ∀ e, s.table.get t e = none) (op : Op V) :
    ∀ t, t ∉ (s.next op).reg → ∀ e, (s.next op).table.get t e = none := by
  intro t ht e
  have hsub : t ∉ s.reg := by
    cases op <;> first | exact ht | (intro hc; apply ht; simp [MapWorld.next, MapWorld.regAfter, hc])
  have h0 := h t hsub
  have hkn : ∀ (x : Entity) (vs : List (TypeId × V)), (s.table.setAll x (s.known vs)).get t e = none := by
    intro x vs
    rw [Table.get_setAll, Content.setAll_other, h0]
    rintro p hp rfl
    exact hsub (known_reg p hp)
  have her : ∀ (x : Entity) (ts : List TypeId), (s.table.eraseAll x ts).get t e = none := by
    intro x ts
    rw [Table.get_eraseAll, Content.eraseAll_eq]
    dsimp only
    split
    · rfl
    · exact h0 e
  cases op with
  | register t' => exact h0 e
  | setLayout rank gs => exact h0 e
  | create vs =>
    show (if s.life.exhausted then s.table else s.table.setAll s.life.nextEntity (s.known vs)).get t e = none
    split
    · exact h0 e
    · exact hkn _ _
  | extend ts it =>
    show (s.table.setItems ts ((s.extendMakes ts it).zip it.items)).get t e = none
    by_cases hk : s.knows ts
    · rw [Table.setItems_foreign (fun hc => hsub (hk t hc)), h0]
    · have : s.extendMakes ts it = [] := by simp [MapWorld.extendMakes, hk]
      rw [this]
      exact h0 e
  | destroy x =>
    show (if x ∈ s.life.alive then s.table.strip x else s.table).get t e = none
    split
    · rw [Table.get_strip]
      unfold Content.strip
      split
      · rfl
      · exact h0 e
    · exact h0 e
  | createAtomic => exact h0 e
  | maintain => exact h0 e
  | insert x vs =>
    show (if x ∈ s.life.alive then s.table.setAll x (s.known vs) else s.table).get t e = none
    split
    · exact hkn _ _
    · exact h0 e
  | remove x ts =>
    show (if s.knows ts then s.table.eraseAll x ts else s.table).get t e = none
    split
    · exact her _ _
    · exact h0 e
  | delete x ts =>
    show (if s.knows ts then s.table.eraseAll x ts else s.table).get t e = none
    split
    · exact her _ _
    · exact h0 e
  | clear => rfl
  | reset => rfl
  | write t' x v =>
    show (if (s.table.get t' x).isSome then s.table.set t' x v else s.table).get t e = none
    split
    · rename_i hs
      rw [Table.get_set]
      unfold Content.set
      rw [if_neg]
      · exact h0 e
      · rintro ⟨rfl, rfl⟩
        rw [h0] at hs
        cases hs
    · exact h0 e
  | writeAt t' pos v => exact h0 e

/-! ### Values -/

/-- Entities and the components of type `t` are those of the map. -/
structure LoneVals (t : TypeId) (w : World V) (s : MapWorld V) : Prop where
  life : LifeInv w.entities s.life
  absent : ∀ x, x ∉ s.reg → ∀ e, s.table.get x e = none
  holds : HoldsOf (· ∈ s.life.alive) w.components t (s.table.get t)

theorem known_eq {w : World V} {s : MapWorld V} (h : ∀ x, (w.components.meta? x).isSome ↔ x ∈ s.reg)
    (vs : List (TypeId × V)) : (vs.takeWhile fun p => (w.components.meta? p.1).isSome) = s.known vs := by
  unfold MapWorld.known
  congr 1
  funext p
  rw [Bool.eq_iff_iff, decide_eq_true_iff]
  exact h p.1

theorem knows_iff_reg {w : World V} {s : MapWorld V} (h : ∀ x, (w.components.meta? x).isSome ↔ x ∈ s.reg)
    (ts : List TypeId) : s.knows ts ↔ ¬ ∃ t ∈ ts, w.isRegistered t = false := by
  unfold MapWorld.knows World.isRegistered ComponentStorage.isRegistered
  simp only [not_exists, not_and, Bool.not_eq_false]
  exact ⟨fun hk t ht => (h t).2 (hk t ht), fun hk t ht => (h t).1 (hk t ht)⟩

theorem SameFor.events {t : TypeId} {op : Op V} {r r' : Ret V} (h : SameFor t op r r') : events op r = events op r' := by
  cases op <;> first | (have h' : r = r' := h; rw [h']) | rfl

theorem createUpTo_makes : ∀ (n : Nat) {s : EntityStorage} {l : Life}, LifeInv s l → s.createUpTo n = l.makes n
  | 0, _, _, _ => rfl
  | n + 1, s, l, h => by
    rw [EntityStorage.createUpTo, Life.makes]
    rcases h.createUpTo_one with ⟨hx, _, h1⟩ | ⟨hx, _, s', h1, h2, _⟩
    · rw [h1, if_pos hx]
    · rw [h1, if_neg hx]
      simp only
      rw [createUpTo_makes n h2]

theorem extendEach_holds {t : TypeId} {ts : List TypeId} {idxs : List Nat} : ∀ (items : List (List V)) (w : World V)
    (l : Life) (tb : Table V), LifeInv w.entities l → Static w.components → idxs = ts.map w.components.idxOf →
    (∀ x ∈ ts, (w.components.meta? x).isSome) → HoldsOf (· ∈ l.alive) w.components t (tb.get t) →
    (World.extendEach idxs items w).Leaves (fun w' =>
      HoldsOf (· ∈ (l.run ((l.makes items.length).map .made)).alive) w'.components t
        ((tb.setItems ts ((l.makes items.length).zip items)).get t) ∧ Shape w.components w'.components)
  | [], w, l, tb, _, _, _, _, h => ⟨h, Shape.refl _⟩
  | vs :: items, w, l, tb, hl, hc, hi, hk, h => by
    rw [World.extendEach]
    rcases hl.createUpTo_one with ⟨hx, _, h1⟩ | ⟨hx, _, es, h1, h2, _⟩
    · rw [h1, List.length_cons, Life.makes, if_pos hx]
      exact ⟨h, Shape.refl _⟩
    · rw [h1, List.length_cons, Life.makes, if_neg hx]
      simp only [Outcome.ofRes_ok]
      have hal := Life.alive_made l l.nextEntity
      subst hi
      cases hc' : w.components.insertAt l.nextEntity ((ts.map w.components.idxOf).zip vs) with
      | ub => trivial
      | panic => exact absurd hc' (ComponentStorage.insertAt_ne_panic _ _)
      | ok c =>
        simp only [Outcome.ofRes_ok]
        obtain ⟨i1, i2⟩ := insertAt_holds h2.idxUniq hal (h2.index_lt hal) ts vs w.components c tb.get hc
          (h.mono (fun x hx => by simp [Life.step, hx])) hk hc'
        rw [← Table.get_setAll] at i1
        have ih := extendEach_holds items ⟨es, c⟩ _ _ h2 (hc.of_shape i2)
          (by rw [ComponentStorage.idxOf_same (c := w.components) (c' := c) i2.md])
          (fun x hx => by rw [i2.meta?]; exact hk x hx) i1
        cases hx : World.extendEach (ts.map w.components.idxOf) items ⟨es, c⟩ with
        | ub => trivial
        | ok u w' =>
          rw [hx] at ih
          exact ⟨ih.1, i2.trans ih.2⟩
        | panic w' =>
          rw [hx] at ih
          exact ⟨ih.1, i2.trans ih.2⟩

/-- A call that sets the components of one entity. -/
theorem insertSet_lone {t : TypeId} {w : World V} {s : MapWorld V} (hc : Static w.components) (h : SameReg w s)
    {l : Life} (hl : LifeInv w.entities l) (hh : HoldsOf (· ∈ l.alive) w.components t (s.table.get t)) {e : Entity}
    (he : e ∈ l.alive) (vs : List (TypeId × V)) (hev : EvenPairs (w.components.insertPairsOf t e vs)) :
    (w.insertSet e vs).Leaves (fun w' =>
      HoldsOf (· ∈ l.alive) w'.components t ((s.table.setAll e (s.known vs)).get t)) := by
  have h1 := insert_one hl.idxUniq he (hl.index_lt he) hc hh vs hev
  rw [known_eq h, ← Table.get_setAll] at h1
  unfold World.insertSet
  cases h2 : w.components.insert e vs with
  | ok u c => rw [h2] at h1; exact h1
  | panic c => rw [h2] at h1; exact h1
  | ub => trivial

theorem insertSet_knows {w : World V} {s : MapWorld V} (hb : BoundsOK w.components)
    (hc : Sound w.components) (h : SameReg w s) {e : Entity} (he : e.index < u32Size) (vs : List (TypeId × V)) :
    (∃ w', w.insertSet e vs = .panic w') ↔ ¬ s.knows (vs.map (·.1)) := by
  rw [insertSet_refuses hb hc e he vs, knows_iff_reg h]
  simp

theorem strip_np {c : ComponentStorage V} (hb : BoundsOK c) (hc : Sound c) (e : Entity) : c.strip e ≠ .panic := by
  unfold ComponentStorage.strip ungroupAll
  cases h2 : ungroupAllLoop e c.groups.length (c.components, c.groups) with
  | panic => exact absurd h2 (ComponentStorage.ungroupAllLoop_np _ _ hb.groups)
  | ub => simp [h2]
  | ok s =>
    obtain ⟨comps, groups⟩ := s
    have h3 : AllSets CompSet.IdxOk comps := stable_idx.ungroupAllLoop _ _ _ hc.sets h2
    obtain ⟨l, h4⟩ := Sound.deleteAll e h3
    simp [h2, h4]

/-- One call: the answer, and what becomes of the components of type `t`. -/
theorem step_holds {t : TypeId} {w w' : World V} {s : MapWorld V} {op : Op V} {r : Ret V} (hst : Static w.components)
    (hb : BoundsOK w.components) (hk : (w.components.metadata.map Prod.fst).Nodup) (he : EntOk w.entities)
    (hso : Sound w.components) (h : SameReg w s) (hv : LoneVals t w s)
    (hs : step w op = some (r, w')) (hsp : op.SparesAt t r) (hev : EvenPairs (w.swapsOf t op)) (hm : op = .maintain → s.life.freshKilled = false) :
    SameFor t op r (s.answer op) ∧ HoldsOf (· ∈ (s.next op).life.alive) w'.components t ((s.next op).table.get t) := by
  have hlife := hv.life
  have hh := hv.holds
  cases op with
  | register t' =>
    simp only [step, Option.some.injEq, Prod.mk.injEq] at hs
    obtain ⟨rfl, rfl⟩ := hs
    obtain ⟨h1, h2, h4, h5⟩ := register_one hst t' t
    refine ⟨?_, ?_⟩
    · show Ret.bool (w.components.register t').1 = Ret.bool (decide (t' ∉ s.reg))
      rw [h1, Ret.bool.injEq, Bool.eq_iff_iff, decide_eq_true_eq, ← h]
      simp
    · show HoldsOf (· ∈ s.life.alive) (w.components.register t').2 t (s.table.get t)
      cases hmt : w.components.meta? t with
      | some m => exact hh.of_setOf (h5 (by simp [hmt]))
      | none =>
        intro x hx
        rw [h4 hmt x hx]
        refine ⟨CompSet.wf_new, by simp [CompSet.new], fun y => ?_⟩
        rw [CompSet.val_new, hv.absent t (by rw [← h, hmt]; simp)]
  | setLayout rank gs =>
    obtain ⟨ht, rfl⟩ := hsp
    refine ⟨rfl, ?_⟩
    simp only [step, World.setLayout] at hs
    cases hl : w.components.setLayout rank (GroupLayout.build gs).2 w.entities.asSlice with
    | ok u c =>
      rw [hl] at hs
      simp only [retOutcome, Option.some.injEq, Prod.mk.injEq, true_and] at hs
      rw [← hs]
      exact setLayout_one hst hk (build_fams gs) ht hev hh
        (fun hn => hv.absent t (by rw [← h, hn]; simp)) hl
    | panic c => simp [hl, retOutcome] at hs
    | ub => simp [hl, retOutcome] at hs
  | create vs =>
    rcases hlife.createUpTo_one with ⟨hx, h1, h2⟩ | ⟨hx, h1, es, h2, h3, _⟩
    · have hans : s.answer (.create vs) = .panicked [] := by simp [MapWorld.answer, hx]
      have hnext : s.next (.create vs) = s := by
        simp [MapWorld.next, hans, events, MapWorld.regAfter, MapWorld.groupsAfter, MapWorld.tableAfter, hx, Life.run_nil]
      simp [step, retOutcome, World.create, h1, h2] at hs
      rw [hnext, hans, ← hs.1, ← hs.2]
      exact ⟨rfl, hh⟩
    · have hnext : (s.next (.create vs)).life = s.life.step (.made s.life.nextEntity) ∧
          (s.next (.create vs)).table = s.table.setAll s.life.nextEntity (s.known vs) := by
        by_cases hk : s.knows (vs.map (·.1)) <;>
        simp [MapWorld.next, MapWorld.answer, events, MapWorld.regAfter, MapWorld.groupsAfter, MapWorld.tableAfter, hx, hk,
          Life.run_cons, Life.run_nil]
      have hal := Life.alive_made s.life s.life.nextEntity
      have i1 := insertSet_lone (w := { w with entities := es }) hst h h3
        (hh.mono (fun x hx => by simp [Life.step, hx])) hal vs (by
          simp only [World.swapsOf, h2] at hev
          exact hev)
      have i2 := insertSet_knows (w := { w with entities := es }) hb hso h (h3.index_lt hal) vs
      rw [hnext.1, hnext.2]
      simp only [step, World.create, h2, Outcome.ofRes_ok, h1] at hs
      cases h4 : World.insertSet { w with entities := es } s.life.nextEntity vs with
      | ok u w1 =>
        have hk : s.knows (vs.map (·.1)) := by
          by_contra hc
          obtain ⟨x, hx⟩ := i2.2 hc
          rw [h4] at hx
          cases hx
        simp [h4, retOutcome] at hs
        rw [h4] at i1
        rw [← hs.1, ← hs.2]
        exact ⟨by simp [SameFor, MapWorld.answer, hx, hk], i1⟩
      | panic w1 =>
        have hk := i2.1 ⟨_, h4⟩
        simp [h4, retOutcome] at hs
        rw [h4] at i1
        rw [← hs.1, ← hs.2]
        exact ⟨by simp [SameFor, MapWorld.answer, hx, hk], i1⟩
      | ub => simp [h4, retOutcome] at hs
  | extend ts it =>
    simp only [step, World.extend, extendMade] at hs
    cases hl : w.components.lookupAll (·.insertMask) ts with
    | ub => simp [hl, retOutcome] at hs
    | panic =>
      have hk : ¬ s.knows ts := by
        rw [knows_iff_reg h, not_not]
        exact (lookupAll_refuses hso _ ts).1 hl
      have hmk : s.extendMakes ts it = [] := by simp [MapWorld.extendMakes, hk]
      have hans : s.answer (.extend ts it) = .panicked [] := by simp [MapWorld.answer, hk, hmk]
      have hnext : s.next (.extend ts it) = s := by
        simp [MapWorld.next, hans, events, MapWorld.regAfter, MapWorld.groupsAfter, MapWorld.tableAfter, hmk, Life.run_nil,
          Table.setItems]
      simp [hl, retOutcome] at hs
      rw [hans, hnext, ← hs.1, ← hs.2]
      exact ⟨rfl, hh⟩
    | ok p =>
      obtain ⟨idxs, mask⟩ := p
      obtain ⟨l1, l2⟩ := lookupAll_idxs ts hl
      have hk : s.knows ts := fun x hx => (h x).1 (l2 x hx)
      have hmk : s.extendMakes ts it = s.life.makes it.items.length := by simp [MapWorld.extendMakes, hk]
      have hnext : (s.next (.extend ts it)).life = s.life.run ((s.life.makes it.items.length).map .made) ∧
          (s.next (.extend ts it)).table = s.table.setItems ts ((s.life.makes it.items.length).zip it.items) := by
        constructor
        · simp only [MapWorld.next, MapWorld.answer]
          split <;> simp [events, hmk]
        · simp [MapWorld.next, MapWorld.tableAfter, hmk]
      rw [hnext.1, hnext.2]
      have hmake := createUpTo_makes it.items.length hlife
      have i1 := extendEach_holds it.items w s.life s.table hlife hst l1 l2 hh
      have i2 := extendEach_panics (idxs := idxs) it.items he hso (by
        rw [l1]
        intro i hi
        obtain ⟨x, hx, rfl⟩ := List.mem_map.1 hi
        obtain ⟨m, hm⟩ := Option.isSome_iff_exists.1 (l2 x hx)
        rw [w.components.idxOf_eq hm]
        exact hst.idx _ _ hm)
      rw [hmake] at i2
      simp only [hl, Outcome.ofRes_ok, hmake] at hs
      cases h3 : World.extendEach idxs it.items w with
      | ub => simp [h3, retOutcome] at hs
      | panic w1 =>
        simp [h3, retOutcome] at hs
        rw [h3] at i1
        rw [← hs.1, ← hs.2]
        have := i2.1.1 ⟨_, h3⟩
        exact ⟨by simp [SameFor, MapWorld.answer, hmk, hk, this], i1.1⟩
      | ok u w1 =>
        have hlen : (s.life.makes it.items.length).length = it.items.length := by
          by_contra hc
          obtain ⟨x, hx⟩ := i2.1.2 hc
          rw [h3] at hx
          cases hx
        rw [h3] at i1
        obtain ⟨j1, j2, j3⟩ := (World.extendEach_entities idxs it.items w w1 s.life hlife).1 u h3
        simp only [h3, Outcome.bind_ok] at hs
        cases htp : it.thenPanics with
        | true =>
          simp [htp, retOutcome] at hs
          rw [← hs.1, ← hs.2]
          exact ⟨by simp [SameFor, MapWorld.answer, hmk, htp], i1.1⟩
        | false =>
          have hdrop : w1.entities.asSlice.drop w.entities.len = s.life.makes it.items.length := by
            rw [EntityStorage.asSlice, j2, hmake]
            simp [EntityStorage.len]
          simp only [htp, Bool.false_eq_true, if_false] at hs
          split at hs
          · simp [retOutcome] at hs
          · rw [hdrop] at hs
            have h8 := ComponentStorage.withMask_np (m := mask) (ComponentStorage.groupEntities_np (m := mask)
              (s.life.makes it.items.length) _ (hb.of_shape i1.2).groups)
            cases h5 : w1.components.withMask mask
                (ComponentStorage.groupEntities mask (s.life.makes it.items.length)) with
            | ub => simp [h5, retOutcome] at hs
            | panic => exact absurd h5 h8
            | ok c =>
              simp [h5, retOutcome] at hs
              rw [← hs.1, ← hs.2]
              refine ⟨by simp [SameFor, MapWorld.answer, hmk, hk, hlen, htp], ?_⟩
              refine withMask_one i1.1 (fun k s' hz hk' hg => ?_) h5
              obtain ⟨md, hk', rfl⟩ := hk'
              simp only [World.swapsOf, World.extendPairsOf, hl, h3, htp, Bool.false_eq_true, if_false, if_neg hz, hdrop,
                ComponentStorage.atType_meta hk'] at hev
              exact ⟨(ComponentStorage.groupEntities_shape _ _ _ hg).1, groupEntities_same _ _ _ hg hev⟩
  | destroy e =>
    by_cases hal : e ∈ s.life.alive
    · have hnext : (s.next (.destroy e)).life = s.life.step (.killed e) ∧ (s.next (.destroy e)).table = s.table.strip e := by
        simp [MapWorld.next, MapWorld.answer, events, MapWorld.regAfter, MapWorld.groupsAfter, MapWorld.tableAfter, hal,
          Life.run_cons, Life.run_nil]
      rw [hnext.1, hnext.2]
      obtain ⟨es, h1, h2, h3⟩ := hlife.remove_present hal
      simp only [step, World.destroy, h1, Res.bind_ok] at hs
      cases h4 : w.components.strip e with
      | ok c =>
        simp [h4, retRes] at hs
        rw [← hs.1, ← hs.2]
        refine ⟨by simp [SameFor, MapWorld.answer, hal], ?_⟩
        rw [Table.get_strip]
        refine (strip_one (by simpa only [World.swapsOf, h1] using hev) hh h4).mono ?_
        intro x hx
        simpa [Life.step] using hx
      | panic => exact absurd h4 (strip_np hb hso e)
      | ub => simp [h4, retRes] at hs
    · have hnext : s.next (.destroy e) = s := by
        simp [MapWorld.next, MapWorld.answer, events, MapWorld.regAfter, MapWorld.groupsAfter, MapWorld.tableAfter, hal,
          Life.run_nil]
      simp [step, retRes, World.destroy, hlife.remove_absent hal] at hs
      rw [hnext, ← hs.1, ← hs.2]
      exact ⟨by simp [SameFor, MapWorld.answer, hal], hh⟩
  | createAtomic =>
    by_cases hx : s.life.exhausted
    · have hnext : s.next .createAtomic = s := by
        simp [MapWorld.next, MapWorld.answer, events, MapWorld.regAfter, MapWorld.groupsAfter, MapWorld.tableAfter, hx,
          Life.run_nil]
      simp [step, retRes, World.createAtomic, (hlife.create_exhausted hx).2] at hs
      rw [hnext, ← hs.1, ← hs.2]
      exact ⟨by simp [SameFor, MapWorld.answer, hx], hh⟩
    · have hnext : s.next .createAtomic = { s with life := s.life.step (.queued s.life.nextEntity) } := by
        simp [MapWorld.next, MapWorld.answer, events, MapWorld.regAfter, MapWorld.groupsAfter, MapWorld.tableAfter, hx,
          Life.run_nil, Life.run_cons]
      obtain ⟨es, h1, h2, h3⟩ := hlife.createAtomic hx
      have hal : (s.life.step (.queued s.life.nextEntity)).alive = s.life.alive := by
        unfold Life.step Life.take
        cases s.life.waiting <;> rfl
      simp [step, retRes, World.createAtomic, h1] at hs
      rw [hnext, ← hs.1, ← hs.2]
      refine ⟨by simp [SameFor, MapWorld.answer, hx], ?_⟩
      simp only [hal]
      exact hh
  | maintain =>
    have hnext : s.next .maintain = { s with life := s.life.step .maintained } := by
      simp [MapWorld.next, MapWorld.answer, events, MapWorld.regAfter, MapWorld.groupsAfter, MapWorld.tableAfter,
        Life.run_nil, Life.run_cons]
    obtain ⟨es, h1, h2⟩ := hlife.maintain (hm rfl)
    simp [step, retRes, World.maintain, h1] at hs
    rw [hnext, ← hs.1, ← hs.2]
    exact ⟨rfl, hh.mono (fun x hx => by simp [Life.step, hx])⟩
  | insert e vs =>
    by_cases hal : e ∈ s.life.alive
    · have hnext : (s.next (.insert e vs)).life = s.life ∧
          (s.next (.insert e vs)).table = s.table.setAll e (s.known vs) := by
        by_cases hk : s.knows (vs.map (·.1)) <;>
        simp [MapWorld.next, MapWorld.answer, events, MapWorld.regAfter, MapWorld.groupsAfter, MapWorld.tableAfter, hal, hk,
          Life.run_nil]
      rw [hnext.1, hnext.2]
      have hc : w.entities.contains e = true := (hlife.contains_iff e).2 hal
      have i1 := insertSet_lone hst h hlife hh hal vs (by simpa only [World.swapsOf, hc, if_true] using hev)
      have i2 := insertSet_knows hb hso h (hlife.index_lt hal) vs
      simp only [step, World.insert, hc, Bool.not_true, Bool.false_eq_true, if_false] at hs
      cases h4 : w.insertSet e vs with
      | ok u w1 =>
        have hk : s.knows (vs.map (·.1)) := by
          by_contra hc
          obtain ⟨x, hx⟩ := i2.2 hc
          rw [h4] at hx
          cases hx
        simp [h4, retOutcome] at hs
        rw [h4] at i1
        rw [← hs.1, ← hs.2]
        exact ⟨by simp [SameFor, MapWorld.answer, hal, hk], i1⟩
      | panic w1 =>
        have hk := i2.1 ⟨_, h4⟩
        simp [h4, retOutcome] at hs
        rw [h4] at i1
        rw [← hs.1, ← hs.2]
        exact ⟨by simp [SameFor, MapWorld.answer, hal, hk], i1⟩
      | ub => simp [h4, retOutcome] at hs
    · have hnext : s.next (.insert e vs) = s := by
        simp [MapWorld.next, MapWorld.answer, events, MapWorld.regAfter, MapWorld.groupsAfter, MapWorld.tableAfter, hal,
          Life.run_nil]
      have hc : w.entities.contains e = false := by
        rw [Bool.eq_false_iff]
        exact fun hc => hal ((hlife.contains_iff e).1 hc)
      simp [step, retOutcome, World.insert, hc] at hs
      rw [hnext, ← hs.1, ← hs.2]
      exact ⟨by simp [SameFor, MapWorld.answer, hal], hh⟩
  | remove e ts =>
    have hp := (remove_refuses hb hso e ts).1
    by_cases hk : s.knows ts
    · have hnext : s.next (.remove e ts) = { s with table := s.table.eraseAll e ts } := by
        simp [MapWorld.next, MapWorld.answer, events, MapWorld.regAfter, MapWorld.groupsAfter, MapWorld.tableAfter, hk,
          Life.run_nil]
      rw [hnext]
      simp only [step] at hs
      cases h1 : w.remove e ts with
      | ub => simp [h1, retRes] at hs
      | panic => exact absurd (hp.1 h1) ((knows_iff_reg h ts).1 hk)
      | ok p =>
        obtain ⟨vs, w1⟩ := p
        rw [h1] at hs
        simp only [retRes, Option.some.injEq, Prod.mk.injEq] at hs
        obtain ⟨⟨vs', c⟩, h2, h3⟩ := Res.bind_ok' h1
        cases h3
        obtain ⟨j1, j2, j3⟩ := remove_one hst hev hh h2
        rw [← hs.1, ← hs.2]
        rw [← Table.removed_eq] at j3
        refine ⟨?_, by rw [Table.get_eraseAll]; exact j1⟩
        simp only [MapWorld.answer, hk, if_true]
        exact ⟨by rw [j2, Table.removed_length], j3⟩
    · have hnext : s.next (.remove e ts) = s := by
        simp [MapWorld.next, MapWorld.answer, events, MapWorld.regAfter, MapWorld.groupsAfter, MapWorld.tableAfter, hk,
          Life.run_nil]
      have h1 := hp.2 (by rw [knows_iff_reg h, not_not] at hk; exact hk)
      simp [step, h1, retRes] at hs
      rw [hnext, ← hs.1, ← hs.2]
      exact ⟨by simp [SameFor, MapWorld.answer, hk], hh⟩
  | delete e ts =>
    have hp := (remove_refuses hb hso e ts).2
    by_cases hk : s.knows ts
    · have hnext : s.next (.delete e ts) = { s with table := s.table.eraseAll e ts } := by
        simp [MapWorld.next, MapWorld.answer, events, MapWorld.regAfter, MapWorld.groupsAfter, MapWorld.tableAfter, hk,
          Life.run_nil]
      rw [hnext]
      simp only [step] at hs
      cases h1 : w.delete e ts with
      | ub => simp [h1, retRes] at hs
      | panic => exact absurd (hp.1 h1) ((knows_iff_reg h ts).1 hk)
      | ok w1 =>
        rw [h1] at hs
        simp only [retRes, Option.some.injEq, Prod.mk.injEq] at hs
        obtain ⟨c, h2, h3⟩ := Res.bind_ok' h1
        cases h3
        rw [← hs.1, ← hs.2]
        exact ⟨by simp [SameFor, MapWorld.answer, hk], by rw [Table.get_eraseAll]; exact delete_one hst hev hh h2⟩
    · have hnext : s.next (.delete e ts) = s := by
        simp [MapWorld.next, MapWorld.answer, events, MapWorld.regAfter, MapWorld.groupsAfter, MapWorld.tableAfter, hk,
          Life.run_nil]
      have h1 := hp.2 (by rw [knows_iff_reg h, not_not] at hk; exact hk)
      simp [step, h1, retRes] at hs
      rw [hnext, ← hs.1, ← hs.2]
      exact ⟨by simp [SameFor, MapWorld.answer, hk], hh⟩
  | clear =>
    obtain ⟨es, h1, h2, h3⟩ := hlife.clear
    simp [step, retRes, World.clear, h1] at hs
    rw [← hs.1, ← hs.2]
    exact ⟨rfl, (clear_holds _ t).mono (fun _ hx => hx.elim)⟩
  | reset =>
    simp [step] at hs
    rw [← hs.1, ← hs.2]
    exact ⟨rfl, (clear_holds _ t).mono (fun _ hx => hx.elim)⟩
  | write t' e v =>
    simp only [step, World.writeView] at hs
    cases hmt : w.components.meta? t' with
    | none =>
      have ht : t' ∉ s.reg := by rw [← h, hmt]; simp
      have hnext : s.next (.write t' e v) = s := by
        simp [MapWorld.next, MapWorld.answer, events, MapWorld.regAfter, MapWorld.groupsAfter, MapWorld.tableAfter,
          Life.run_nil, hv.absent t' ht]
      simp [hmt, retRes] at hs
      rw [hnext, ← hs.1, ← hs.2]
      exact ⟨by simp [SameFor, MapWorld.answer, ht], hh⟩
    | some m =>
      have ht : t' ∈ s.reg := by rw [← h, hmt]; simp
      have hlife' : (s.next (.write t' e v)).life = s.life := by
        simp [MapWorld.next, events, Life.run_nil]
      simp only [hmt] at hs
      cases h1 : w.components.components[m.storageIndex]? with
      | none => simp [h1, retRes] at hs
      | some x =>
        simp only [h1, Res.unchecked_some, Res.bind_ok] at hs
        cases h2 : x.setMut e v with
        | ub => simp [h2, retRes] at hs
        | panic =>
          obtain ⟨_, k1, k2⟩ := hso.at_meta hmt
          rw [h1] at k1
          cases k1
          obtain ⟨_, _, k3, _⟩ := k2.setMut e v
          rw [h2] at k3
          cases k3
        | ok p =>
          obtain ⟨b, x'⟩ := p
          obtain ⟨j1, j2⟩ := setMut_holds hst hh hmt h1 h2
          simp [h2, retRes] at hs
          rw [← hs.1, ← hs.2, hlife']
          simp only [MapWorld.answer, ht, if_true]
          refine ⟨fun hq => ?_, ?_⟩
          · subst hq
            exact (j1 rfl).1
          · show HoldsOf _ _ t ((if (s.table.get t' e).isSome then s.table.set t' e v else s.table).get t)
            by_cases hq : t' = t
            · subst hq
              have h5 := (j1 rfl).2
              split
              · rename_i hsome
                rw [Table.get_set]
                have : Content.set s.table.get t' e v t' =
                    fun x => if x = e ∧ (s.table.get t' e).isSome then some v else s.table.get t' x := by
                  funext y
                  simp [Content.set, hsome]
                rw [this]
                exact h5
              · rename_i hnone
                simpa [hnone] using h5
            · split
              · rw [Table.get_set]
                have : Content.set s.table.get t' e v t = s.table.get t := by
                  funext y
                  simp [Content.set, Ne.symm hq]
                rw [this]
                exact j2 hq
              · exact j2 hq
  | writeAt t' pos v =>
    refine ⟨trivial, ?_⟩
    have hq : t' ≠ t := hsp
    have hlife' : (s.next (.writeAt t' pos v)).life = s.life := by
      simp [MapWorld.next, events, Life.run_nil]
    rw [hlife']
    show HoldsOf _ _ t (s.table.get t)
    simp only [step, World.writeAt] at hs
    cases hmt : w.components.meta? t' with
    | none =>
      simp [hmt, retRes] at hs
      rw [← hs.2]
      exact hh
    | some m =>
      simp only [hmt] at hs
      cases h1 : w.components.components[m.storageIndex]? with
      | none => simp [h1, retRes] at hs
      | some x =>
        simp only [h1, Res.unchecked_some, Res.bind_ok] at hs
        cases h2 : x.setAt pos v with
        | ub => simp [h2, retRes] at hs
        | panic =>
          simp [h2, retRes] at hs
          rw [← hs.2]
          exact hh
        | ok x' =>
          simp [h2, retRes] at hs
          rw [← hs.2]
          refine hh.of_setOf ?_
          rw [setOf_set hst hmt, if_neg (Ne.symm hq)]

/-- One call, all together. -/
theorem step_lone {t : TypeId} {w w' : World V} {s : MapWorld V} {op : Op V} {r : Ret V}
    (hb : BoundsOK w.components) (hk : (w.components.metadata.map Prod.fst).Nodup) (he : EntOk w.entities)
    (hso : Sound w.components) (h : SameReg w s) (hv : LoneVals t w s)
    (hs : step w op = some (r, w')) (hsp : op.SparesAt t r) (hev : EvenPairs (w.swapsOf t op)) (hm : op = .maintain → s.life.freshKilled = false) :
    SameFor t op r (s.answer op) ∧ LoneVals t w' (s.next op) := by
  obtain ⟨h1, h2⟩ := step_holds hso.static hb hk he hso h hv hs hsp hev hm
  refine ⟨h1, ?_, s.next_absent hv.absent op, h2⟩
  have := step_life hv.life hs hm
  rw [h1.events] at this
  exact this

theorem mapOf_absent (ops : List (Op V)) : ∀ x, x ∉ (mapOf ops).reg → ∀ e, (mapOf ops).table.get x e = none := by
  induction ops using List.reverseRecOn with
  | nil => intro _ _ _; rfl
  | append_singleton ops op ih =>
    rw [mapOf_snoc]
    exact (mapOf ops).next_absent ih op

theorem NeverGrouped.snoc {t : TypeId} {h : History V} {op : Op V} {r : Ret V} (hn : NeverGrouped t (h ++ [(op, r)])) :
    NeverGrouped t h ∧ op.Spares t r :=
  ⟨fun p hp => hn p (List.mem_append_left _ hp), hn (op, r) (by simp)⟩

theorem reach_keys {h : History V} {w : World V} (hr : Reach World.empty h w) :
    (w.components.metadata.map Prod.fst).Nodup := by
  obtain ⟨ds, hd⟩ := reach_drops hr
  exact (drops_ledger hd tidy_empty).1.keys

/-- No layout panicked. -/
def Laid (h : History V) : Prop := ∀ p ∈ h, p.1.lays p.2

theorem reach_sameReg {h : History V} {w : World V} (hr : Reach World.empty h w) (hn : Laid h) :
    SameReg w (mapOf (h.map (·.1))) := by
  induction hr with
  | nil => exact fun x => by simp [mapOf, MapWorld.run, MapWorld.init, World.empty, ComponentStorage.empty,
      ComponentStorage.meta?]
  | @snoc h w1 w2 op r hr hs ih =>
    rw [List.map_append, List.map_singleton, mapOf_snoc]
    exact step_sameReg (reach_sound hr).2.static (reach_keys hr) (ih fun p hp => hn p (List.mem_append_left _ hp)) hs
      (hn (op, r) (by simp))

theorem reach_apart {t : TypeId} {h : History V} {w : World V} (hr : Reach World.empty h w) (hn : NeverGrouped t h) :
    ApartType w.components t := by
  induction hr with
  | nil => exact fun m hm => by simp [World.empty, ComponentStorage.empty, ComponentStorage.meta?] at hm
  | snoc hr hs ih =>
    obtain ⟨n1, n2⟩ := hn.snoc
    exact step_apart (reach_sound hr).2.static (reach_bounds hr) (reach_keys hr) (ih n1) hs n2

/-! ### Histories -/

theorem EvenForFrom.split {t : TypeId} {w w' : World V} {a : History V} (hr : Reach w a w') : ∀ (b : History V),
    EvenForFrom t w (a ++ b) ↔ EvenForFrom t w a ∧ EvenForFrom t w' b := by
  induction hr with
  | nil => intro b; simp [EvenForFrom]
  | @snoc h w1 w2 op r hr hs ih =>
    intro b
    rw [List.append_assoc, ih, ih]
    simp only [List.singleton_append, EvenForFrom, hs]
    tauto

theorem EvenFor.laid {t : TypeId} : ∀ {h : History V} {w w' : World V}, Reach w h w' → EvenForFrom t w h → Laid h := by
  intro h w w' hr
  induction hr with
  | nil => intro _ p hp; simp at hp
  | @snoc h w1 w2 op r hr hs ih =>
    intro he p hp
    obtain ⟨h1, h2⟩ := (EvenForFrom.split hr _).1 he
    rcases List.mem_append.1 hp with hp | hp
    · exact ih h1 p hp
    · simp only [List.mem_singleton] at hp
      subst hp
      exact h2.1.lays

/-- Type `t` follows the map through a history, if every call does its part. -/
theorem reach_loneVals' {t : TypeId} {h : History V} {w : World V} (hr : Reach World.empty h w) (hl : Laid h)
    (hq : ∀ (h' : History V) (w1 w2 : World V) (op : Op V) (r : Ret V), Reach World.empty h' w1 →
      step w1 op = some (r, w2) → (h' ++ [(op, r)]) <+: h → op ≠ .reset → Disciplined h' →
      LoneVals t w1 (mapOf (h'.map (·.1))) → op.SparesAt t r ∧ EvenPairs (w1.swapsOf t op)) (hd : Disciplined h) :
    LoneVals t w (mapOf (h.map (·.1))) ∧ (mapOf (h.map (·.1))).life = life h := by
  induction hr with
  | nil =>
    refine ⟨⟨LifeInv.init, mapOf_absent _, ?_⟩, rfl⟩
    intro s hs
    simp [ComponentStorage.setOf, World.empty, ComponentStorage.empty, ComponentStorage.meta?] at hs
  | @snoc h w1 w2 op r hr hs ih =>
    unfold Disciplined at hd
    rw [life_snoc] at hd ⊢
    rw [List.map_append, List.map_singleton, mapOf_snoc]
    by_cases hop : op = .reset
    · subst hop
      simp only [step, Option.some.injEq, Prod.mk.injEq] at hs
      obtain ⟨rfl, rfl⟩ := hs
      exact ⟨⟨LifeInv.reset _, MapWorld.next_absent (mapOf_absent _) _, (clear_holds _ t).mono (fun _ hx => hx.elim)⟩, rfl⟩
    · have hd' := Life.disciplined_run hd (events_no_reset hop)
      have hl' : Laid h := fun p hp => hl p (List.mem_append_left _ hp)
      obtain ⟨i1, i2⟩ := ih hl' (fun h' w1 w2 op' r' a b c => hq h' w1 w2 op' r' a b (c.trans (List.prefix_append _ _))) hd'
      obtain ⟨n1, n2⟩ := hq h w1 w2 op r hr hs (List.prefix_refl _) hop hd' i1
      obtain ⟨he, hso⟩ := reach_sound hr
      have hm : op = .maintain → (mapOf (h.map (·.1))).life.freshKilled = false := by
        rintro rfl
        rw [i2]
        obtain ⟨w', h1⟩ := maintain_safe he
        simp only [step, h1, retRes, Option.some.injEq, Prod.mk.injEq] at hs
        obtain ⟨rfl, _⟩ := hs
        exact (Life.disciplined_step (l := life h) (ev := .maintained) hd (by simp)).2 rfl
      obtain ⟨j1, j2⟩ := step_lone (reach_bounds hr) (reach_keys hr) he hso (reach_sameReg hr hl') i1 hs n1 n2 hm
      refine ⟨j2, ?_⟩
      rw [j1.events, ← i2]
      rfl

theorem reach_loneVals {t : TypeId} {h : History V} {w : World V} (hr : Reach World.empty h w) (hn : EvenFor t h)
    (hd : Disciplined h) : LoneVals t w (mapOf (h.map (·.1))) ∧ (mapOf (h.map (·.1))).life = life h := by
  refine reach_loneVals' hr (EvenFor.laid hr hn) (fun h' w1 w2 op r hr' hs hp _ _ _ => ?_) hd
  obtain ⟨b, rfl⟩ := hp
  rw [List.append_assoc] at hn
  obtain ⟨_, n1, n2, _⟩ := (EvenForFrom.split hr' _).1 hn
  exact ⟨n1, n2⟩

/-- The last answer, if every call does its part. -/
theorem lone_answer {t : TypeId} {h : History V} {op : Op V} {r : Ret V} {w w' : World V} (hr : Reach World.empty h w)
    (hs : step w op = some (r, w')) (hl : Laid h) (hd : Disciplined (h ++ [(op, r)]))
    (hv : Disciplined h → LoneVals t w (mapOf (h.map (·.1))) ∧ (mapOf (h.map (·.1))).life = life h)
    (hq : LoneVals t w (mapOf (h.map (·.1))) → op.SparesAt t r ∧ EvenPairs (w.swapsOf t op)) :
    SameFor t op r ((mapOf (h.map (·.1))).answer op) := by
  unfold Disciplined at hd
  rw [life_snoc] at hd
  by_cases hop : op = .reset
  · subst hop
    simp only [step, Option.some.injEq, Prod.mk.injEq] at hs
    obtain ⟨rfl, rfl⟩ := hs
    rfl
  · obtain ⟨i1, i2⟩ := hv (Life.disciplined_run hd (events_no_reset hop))
    obtain ⟨n1, n2⟩ := hq i1
    obtain ⟨he, hso⟩ := reach_sound hr
    refine (step_lone (reach_bounds hr) (reach_keys hr) he hso (reach_sameReg hr hl) i1 hs n1 n2 ?_).1
    rintro rfl
    rw [i2]
    obtain ⟨w', h1⟩ := maintain_safe he
    simp only [step, h1, retRes, Option.some.injEq, Prod.mk.injEq] at hs
    obtain ⟨rfl, _⟩ := hs
    exact (Life.disciplined_step (l := life h) (ev := .maintained) hd (by simp)).2 rfl

end Sparsey
