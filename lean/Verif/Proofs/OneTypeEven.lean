import Verif.Proofs.LoneStep

/-!
When the exchanges in the set of one type are between entities of the same version: if the type is never in a group, and
if all entities that have a component of the type always have the same version.
-/

set_option autoImplicit false
set_option linter.unusedSimpArgs false

namespace Sparsey
variable {V : Type}

/-! ### Types outside of all groups -/

theorem atType_apart {c : ComponentStorage V} {t : TypeId} (ha : ApartType c t) {f : Nat → List (Entity × Entity)}
    (hf : ∀ k, Apart c.groups k → f k = []) : c.atType t f = [] := by
  unfold ComponentStorage.atType
  cases hm : c.meta? t with
  | none => rfl
  | some m => exact hf _ (ha m hm)

theorem insertPairsOf_apart {c : ComponentStorage V} {t : TypeId} (ha : ApartType c t) (e : Entity)
    (vs : List (TypeId × V)) : c.insertPairsOf t e vs = [] := by
  unfold ComponentStorage.insertPairsOf
  have h2 := ComponentStorage.insertEach_shape (e := e) vs 0#64 c
  cases hi : ComponentStorage.insertEach e vs 0#64 c with
  | ub => rfl
  | panic c1 => rfl
  | ok m c1 =>
    rw [hi] at h2
    dsimp only
    split
    · rfl
    · exact atType_apart (ha.of_shape h2) (fun k hk => (groupLoopPairsAt_in _ _ _ _).2 hk)

theorem removePairsOf_apart {c : ComponentStorage V} {t : TypeId} (ha : ApartType c t) (e : Entity)
    (ts : List TypeId) : c.removePairsOf t e ts = [] := by
  unfold ComponentStorage.removePairsOf
  split
  · split
    · rfl
    · exact atType_apart ha (fun k hk => (ungroupLoopPairsAt_in _ _ _).2 hk)
  · rfl

/-- There are no exchanges in the set of a type that is in no group. -/
theorem swapsOf_apart {t : TypeId} {w w' : World V} {op : Op V} {r : Ret V} (hc : Static w.components)
    (hb : BoundsOK w.components) (hk : (w.components.metadata.map Prod.fst).Nodup) (ha : ApartType w.components t)
    (hs : step w op = some (r, w')) (hsp : op.Spares t r) : w.swapsOf t op = [] := by
  cases op with
  | setLayout rank gs =>
    obtain ⟨ht, rfl⟩ := hsp
    simp only [step, World.setLayout] at hs
    cases hl : w.components.setLayout rank (GroupLayout.build gs).2 w.entities.asSlice with
    | ok u c =>
      have h1 := (setLayout_lone hc hb hk (build_fams gs) (build_types ht) hl).2.2
      obtain ⟨c3, mask, comps, gs', rfl, hg, hp, _⟩ := setLayout_moved hc hk (build_fams gs) hl
      simp only [World.swapsOf, hp]
      refine atType_apart (c := c3) (fun m hm => Apart.of_stat (h1 m hm) ?_) (fun k hk => (groupEntitiesPairsAt_in _ (c3.components, c3.groups)).2 hk)
      exact (ComponentStorage.groupEntities_shape _ _ _ hg).2.symm
    | panic c => simp [hl, retOutcome] at hs
    | ub => simp [hl, retOutcome] at hs
  | create vs =>
    simp only [World.swapsOf]
    split
    · exact insertPairsOf_apart ha _ _
    · rfl
  | extend ts it =>
    simp only [World.swapsOf, World.extendPairsOf]
    split
    · rename_i idxs mask _
      cases hi : World.extendEach idxs it.items w with
      | ub => rfl
      | panic w1 => rfl
      | ok u w1 =>
        have hsh : Shape w.components w1.components := by
          have := extendEach_shape (idxs := idxs) it.items w
          rw [hi] at this
          exact this
        dsimp only
        split
        · rfl
        · split
          · rfl
          · exact atType_apart (ha.of_shape hsh) (fun k hk => (groupEntitiesPairsAt_in _ _).2 hk)
    · rfl
  | destroy e =>
    simp only [World.swapsOf]
    split
    · exact atType_apart ha (fun k hk => (ungroupAllLoopPairsAt_in _ _).2 hk)
    · rfl
  | insert e vs =>
    simp only [World.swapsOf]
    split
    · exact insertPairsOf_apart ha _ _
    · rfl
  | remove e ts => exact removePairsOf_apart ha e ts
  | delete e ts => exact removePairsOf_apart ha e ts
  | _ => rfl

/-- A type that is never put into a group has no exchanges at all. -/
theorem NeverGrouped.evenFor {t : TypeId} {h : History V} {w : World V} (hr : Reach World.empty h w)
    (hn : NeverGrouped t h) : EvenFor t h := by
  induction hr with
  | nil => trivial
  | @snoc h w1 w2 op r hr hs ih =>
    obtain ⟨n1, n2⟩ := hn.snoc
    refine (EvenForFrom.split hr _).2 ⟨ih n1, n2.at, ?_, ?_⟩
    · rw [swapsOf_apart (reach_sound hr).2.static (reach_bounds hr) (reach_keys hr) (reach_apart hr n1) hs n2]
      exact EvenPairs.nil
    · rw [hs]
      trivial

/-! ### Entities of the same version -/

/-- Entities with a value have the same version. -/
def UniformOn (f : Entity → Option V) : Prop := ∀ x y, (f x).isSome → (f y).isSome → x.version = y.version

theorem Table.UniformAt.on {t : TypeId} {tb : Table V} (h : tb.UniformAt t) : UniformOn (tb.get t) := by
  intro x y hx hy
  obtain ⟨v, hv⟩ := Table.mem_of_get hx
  obtain ⟨u, hu⟩ := Table.mem_of_get hy
  exact h _ hv _ hu rfl rfl

theorem atType_even {A : Entity → Prop} {c : ComponentStorage V} {t : TypeId} {f : Entity → Option V}
    (hh : HoldsOf A c t f) (hu : UniformOn f) {g : Nat → List (Entity × Entity)}
    (hg : ∀ k, PairsAt k c.components (g k)) : EvenPairs (c.atType t g) := by
  cases hm : c.meta? t with
  | none => simp only [ComponentStorage.atType, hm]; exact EvenPairs.nil
  | some m =>
    rw [ComponentStorage.atType_meta hm]
    intro pr hpr
    obtain ⟨h1, h2⟩ := hg _ pr hpr
    cases hs : c.components[m.storageIndex]? with
    | none => simp [lists, hs] at h1
    | some s =>
      rw [lists_some hs] at h1 h2
      obtain ⟨i1, _, i3⟩ := hh s (by rw [setOf_meta hm]; exact hs)
      rw [i1.mem_iff, i3] at h1 h2
      exact hu _ _ h1 h2

theorem insertPairsOf_uniform {A : Entity → Prop} (hA : IdxUniq A) {e : Entity} (he : A e) (hu : e.index < u32Size)
    {t : TypeId} {c : ComponentStorage V} {F : Content V} (hc : Static c) (h : HoldsOf A c t (F t))
    (vs : List (TypeId × V)) (hf : UniformOn (F.setAll e (vs.takeWhile fun p => (c.meta? p.1).isSome) t)) :
    EvenPairs (c.insertPairsOf t e vs) := by
  unfold ComponentStorage.insertPairsOf
  have h1 := insertEach_holds hA he hu vs 0#64 c F hc h
  cases hi : ComponentStorage.insertEach e vs 0#64 c with
  | ub => exact EvenPairs.nil
  | panic c1 => exact EvenPairs.nil
  | ok m c1 =>
    rw [hi] at h1
    dsimp only
    split
    · exact EvenPairs.nil
    · exact atType_even h1 hf (fun k => (groupLoopPairsAt_in _ _ _ _).1)

theorem removePairsOf_uniform {A : Entity → Prop} {e : Entity} {t : TypeId} {c : ComponentStorage V}
    {f : Entity → Option V} (h : HoldsOf A c t f) (ts : List TypeId) (hf : UniformOn f) :
    EvenPairs (c.removePairsOf t e ts) := by
  unfold ComponentStorage.removePairsOf
  split
  · split
    · exact EvenPairs.nil
    · exact atType_even h hf (fun k => (ungroupLoopPairsAt_in _ _ _).1)
  · exact EvenPairs.nil

/-- If before and after the call all entities having type `t` have the same version, exchanges in the set of `t` are
between entities of the same version. -/
theorem swapsOf_uniform {t : TypeId} {w w' : World V} {s : MapWorld V} {op : Op V} {r : Ret V} (hc : Static w.components)
    (hk : (w.components.metadata.map Prod.fst).Nodup) (h : SameReg w s) (hv : LoneVals t w s)
    (hs : step w op = some (r, w')) (hsp : op.SparesAt t r) (hu : s.table.UniformAt t)
    (hu' : (s.next op).table.UniformAt t) : EvenPairs (w.swapsOf t op) := by
  have hlife := hv.life
  have hh := hv.holds
  cases op with
  | setLayout rank gs =>
    obtain ⟨ht, rfl⟩ := hsp
    simp only [step, World.setLayout] at hs
    cases hl : w.components.setLayout rank (GroupLayout.build gs).2 w.entities.asSlice with
    | ok u c =>
      obtain ⟨c3, mask, comps, gs', rfl, hg, hp, hreg, hset, _⟩ := setLayout_moved hc hk (build_fams gs) hl
      simp only [World.swapsOf, hp]
      have h3 : HoldsOf (· ∈ s.life.alive) c3 t (s.table.get t) := hh.moved hc
        (fun hn => hv.absent t (by rw [← h, hn]; simp)) (hset t ht)
      exact atType_even h3 hu.on (fun k => (groupEntitiesPairsAt_in _ _).1)
    | panic c => simp [hl, retOutcome] at hs
    | ub => simp [hl, retOutcome] at hs
  | create vs =>
    simp only [World.swapsOf]
    rcases hlife.createUpTo_one with ⟨hx, h1, h2⟩ | ⟨hx, h1, es, h2, h3, _⟩
    · rw [h2]
      exact EvenPairs.nil
    · rw [h2]
      have hnext : (s.next (.create vs)).table = s.table.setAll s.life.nextEntity (s.known vs) := by
        simp [MapWorld.next, MapWorld.tableAfter, hx]
      rw [hnext] at hu'
      have hal := Life.alive_made s.life s.life.nextEntity
      refine insertPairsOf_uniform h3.idxUniq hal (h3.index_lt hal) hc
        (hh.mono (fun x hx => by simp [Life.step, hx])) vs ?_
      rw [known_eq h, ← Table.get_setAll]
      exact hu'.on
  | extend ts it =>
    simp only [World.swapsOf, World.extendPairsOf]
    cases hl : w.components.lookupAll (·.insertMask) ts with
    | ub => exact EvenPairs.nil
    | panic => exact EvenPairs.nil
    | ok p =>
      obtain ⟨idxs, mask⟩ := p
      obtain ⟨l1, l2⟩ := lookupAll_idxs ts hl
      have hkn : s.knows ts := fun x hx => (h x).1 (l2 x hx)
      have hmk : s.extendMakes ts it = s.life.makes it.items.length := by simp [MapWorld.extendMakes, hkn]
      have hnext : (s.next (.extend ts it)).table =
          s.table.setItems ts ((s.life.makes it.items.length).zip it.items) := by
        simp [MapWorld.next, MapWorld.tableAfter, hmk]
      rw [hnext] at hu'
      have i1 := extendEach_holds it.items w s.life s.table hlife hc l1 l2 hh
      dsimp only
      cases h3 : World.extendEach idxs it.items w with
      | ub => exact EvenPairs.nil
      | panic w1 => exact EvenPairs.nil
      | ok u w1 =>
        rw [h3] at i1
        dsimp only
        split
        · exact EvenPairs.nil
        · split
          · exact EvenPairs.nil
          · exact atType_even i1.1 hu'.on (fun k => (groupEntitiesPairsAt_in _ _).1)
  | destroy e =>
    simp only [World.swapsOf]
    split
    · exact atType_even hh hu.on (fun k => (ungroupAllLoopPairsAt_in _ _).1)
    · exact EvenPairs.nil
  | insert e vs =>
    simp only [World.swapsOf]
    split
    · rename_i hcon
      have hal := (hlife.contains_iff e).1 hcon
      have hnext : (s.next (.insert e vs)).table = s.table.setAll e (s.known vs) := by
        simp [MapWorld.next, MapWorld.tableAfter, hal]
      rw [hnext] at hu'
      refine insertPairsOf_uniform hlife.idxUniq hal (hlife.index_lt hal) hc hh vs ?_
      rw [known_eq h, ← Table.get_setAll]
      exact hu'.on
    · exact EvenPairs.nil
  | remove e ts => exact removePairsOf_uniform hh ts hu.on
  | delete e ts => exact removePairsOf_uniform hh ts hu.on
  | _ => exact EvenPairs.nil

theorem MapWorld.UniformFor.split {t : TypeId} : ∀ (a b : History V) (s : MapWorld V),
    s.UniformFor t (a ++ b) ↔ s.UniformFor t a ∧ (s.run (a.map (·.1))).UniformFor t b
  | [], b, s => by simp [MapWorld.UniformFor, MapWorld.run]
  | (op, r) :: a, b, s => by
    simp only [List.cons_append, MapWorld.UniformFor, List.map_cons, MapWorld.run]
    rw [MapWorld.UniformFor.split a b (s.next op)]
    tauto

theorem MapWorld.UniformFor.last {t : TypeId} : ∀ (a : History V) (s : MapWorld V), s.UniformFor t a →
    s.table.UniformAt t → (s.run (a.map (·.1))).table.UniformAt t
  | [], _, _, h => h
  | (op, _) :: a, s, h, _ => MapWorld.UniformFor.last a (s.next op) h.2.2 h.2.1

theorem MapWorld.UniformFor.laid {t : TypeId} : ∀ (h : History V) (s : MapWorld V), s.UniformFor t h → Laid h
  | [], _, _ => by intro p hp; simp at hp
  | (op, r) :: h, s, hu => by
    intro p hp
    rcases List.mem_cons.1 hp with rfl | hp
    · exact hu.1.lays
    · exact MapWorld.UniformFor.laid h _ hu.2.2 p hp

/-- One call of a history during which entities having type `t` have the same version. -/
theorem uniform_part {t : TypeId} {h : History V} {op : Op V} {r : Ret V} {w w' : World V} (hr : Reach World.empty h w)
    (hs : step w op = some (r, w')) (hu : MapWorld.init.UniformFor t (h ++ [(op, r)]))
    (hv : LoneVals t w (mapOf (h.map (·.1)))) : op.SparesAt t r ∧ EvenPairs (w.swapsOf t op) := by
  obtain ⟨u1, u2, u3, _⟩ := (MapWorld.UniformFor.split h _ _).1 hu
  exact ⟨u2, swapsOf_uniform (reach_sound hr).2.static (reach_keys hr) (reach_sameReg hr (u1.laid h _)) hv hs u2
    (u1.last h _ (by simp [MapWorld.init, Table.UniformAt])) u3⟩

theorem reach_uniformVals {t : TypeId} {h : History V} {w : World V} (hr : Reach World.empty h w)
    (hu : MapWorld.init.UniformFor t h) (hd : Disciplined h) :
    LoneVals t w (mapOf (h.map (·.1))) ∧ (mapOf (h.map (·.1))).life = life h := by
  refine reach_loneVals' hr (hu.laid h _) (fun h' w1 w2 op r hr' hs hp _ _ hv => ?_) hd
  obtain ⟨b, rfl⟩ := hp
  exact uniform_part hr' hs ((MapWorld.UniformFor.split _ b _).1 hu).1 hv

end Sparsey
