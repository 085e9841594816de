import Verif.Proofs.World
import Verif.Proofs.Swaps

/-!
When all entities sharing a grouped type have the same version, exchanges are between entities of the same version.
-/

set_option autoImplicit false
set_option linter.unusedSimpArgs false

namespace Sparsey
variable {V : Type}

theorem InvX.uniform_vers {w : World V} {s : MapWorld V} {P : Entity → Nat → Prop} (h : InvX w s P) (hu : s.table.Uniform s.groups) :
    VersOK (lists w.components.components) w.components.groups := by
  refine ContentVers.versOK h.store ?_
  rw [h.value]
  intro t ht
  exact hu.vers t ((h.groups.grouped t).1 ht)

theorem insertPairs_even {w : World V} {s : MapWorld V} {P : Entity → Nat → Prop} (h : InvX w s P) {e : Entity} (he : e ∈ s.life.alive)
    {vs : List (TypeId × V)} (hu : (s.table.setAll e (s.known vs)).Uniform s.groups) :
    EvenPairs (w.components.insertPairs e vs) := by
  have hA := h.life.idxUniq
  have hidx := h.life.index_lt he
  unfold ComponentStorage.insertPairs
  by_cases hk : s.knows (vs.map (·.1))
  · rw [known_all hk] at hu
    obtain ⟨mask, c1, h1, h2, h3, h4, h5, h6, h7, _⟩ := insertEach_ok hA he hidx vs 0#64 w.components h.store (.zero _)
      (fun p hp => (h.reg p.1).2 (hk p.1 (List.mem_map.2 ⟨p, hp, rfl⟩)))
    simp only [h1]
    split
    · exact .nil
    · refine (groupLoopPairs_in 64 mask c1.components c1.groups).even (ContentVers.versOK h2 ?_)
      rw [h3, h.value, ← Table.get_setAll]
      intro t ht
      exact hu.vers t ((h.groups.grouped t).1 ((GroupedType.of_same h5 (by rw [h4]; exact .refl _) t).1 ht))
  · obtain ⟨t, v, post, h0, ht⟩ := known_split hk
    obtain ⟨c1, h1, _⟩ := insertEach_panic hA he hidx (s.known vs) 0#64 w.components h.store (t := t) (v := v)
      (post := post) (fun p hp => (h.reg p.1).2 (known_reg p hp)) (by simpa using (h.reg t).not.2 ht)
    rw [← h0] at h1
    simp only [h1]
    exact .nil

theorem removePairs_even {w : World V} {s : MapWorld V} {P : Entity → Nat → Prop} (h : InvX w s P) (e : Entity) (ts : List TypeId)
    (hu : s.table.Uniform s.groups) : EvenPairs (w.components.removePairs e ts) := by
  unfold ComponentStorage.removePairs
  split
  · split
    · exact .nil
    · exact (ungroupLoopPairs_in 64 _ _ _).even (h.uniform_vers hu)
  · exact .nil

/-- Before and after the call, entities sharing a grouped type have the same version. -/
theorem even_of_uniform {w : World V} {s : MapWorld V} {P : Entity → Nat → Prop} (h : InvX w s P) {op : Op V}
    (hf : s.Fair op)
    (hu : s.table.Uniform s.groups) (hu' : (s.next op).table.Uniform (s.next op).groups) : w.Even op := by
  unfold World.Even World.swaps
  cases op with
  | setLayout rank gs =>
    obtain ⟨c1, mask, j1, hval, j3, hbit, j4, j5, j6⟩ := setLayout_build h.store hf.1 hf.2 rank
    simp only
    rw [j6]
    refine (groupEntitiesPairs_in _ _ _).even (ContentVers.versOK j1 ?_)
    rw [hval, h.value]
    have hu'' : s.table.Uniform (layoutGroups (GroupLayout.build gs).2) := hu'
    intro t ht
    exact hu''.vers t ((j3.grouped t).1 ht)
  | create vs =>
    by_cases hx : s.life.exhausted
    · simp only [(h.life.create_exhausted hx).1]
      exact .nil
    · obtain ⟨es, h1, h2, h3⟩ := h.make hx
      simp only [h1]
      refine insertPairs_even h3 (e := s.life.nextEntity) (Life.alive_made _ _) ?_
      simp only [MapWorld.next, MapWorld.groupsAfter, MapWorld.tableAfter, hx, if_false] at hu'
      exact hu'
  | extend ts it =>
    simp only [World.extendPairs]
    by_cases hk : s.knows ts
    · obtain ⟨mask, l1, l2⟩ := lookupAll_ok h.store (·.insertMask) ts ((h.knows_iff ts).1 hk)
      obtain ⟨w1, j1, j2, j3, j4, j5, j6, j7, _⟩ := extendEach_step (ts := ts) it.items w s P
        ⟨h.life, h.store, h.grouped, h.value, h.reg, h.groups⟩ hk rfl rfl rfl
      simp only [l1, j1]
      split
      · rename_i heq
        have hw : ∀ (b : Prop) [Decidable b] (x : World V) (u : Unit),
            (if b then Outcome.ok () w1 else .panic w1 : Outcome (World V) Unit) = .ok u x → x = w1 := by
          intro b _ x u hx
          split at hx
          · exact ((Outcome.ok.injEq ..).mp hx).2.symm
          · cases hx
        rw [hw _ _ _ heq]
        split
        · exact .nil
        · split
          · exact .nil
          · refine (groupEntitiesPairs_in _ _ _).even (ContentVers.versOK j2.store ?_)
            rw [j2.value]
            intro t ht
            refine Table.Uniform.vers (gl := s.groups) ?_ t ((j2.groups.grouped t).1 ht)
            simpa only [MapWorld.next, MapWorld.groupsAfter, MapWorld.tableAfter, MapWorld.extendMakes, hk, if_true]
              using hu'
      · exact .nil
    · have hp : w.components.lookupAll (·.insertMask) ts = .panic := by
        apply lookupAll_panic
        rcases regs_cases w.components ts with h1 | h1
        · exact absurd ((h.knows_iff ts).2 h1) hk
        · exact h1
      simp only [hp]
      exact .nil
  | destroy e =>
    simp only
    split
    · exact (ungroupAllLoopPairs_in _ _ _).even (h.uniform_vers hu)
    · exact .nil
  | insert e vs =>
    simp only
    split
    · rename_i hc
      have he := (h.life.contains_iff e).1 hc
      refine insertPairs_even h he ?_
      simpa only [MapWorld.next, MapWorld.groupsAfter, MapWorld.tableAfter, he, if_true] using hu'
    · exact .nil
  | remove e ts => exact removePairs_even h e ts hu
  | delete e ts => exact removePairs_even h e ts hu
  | register t => exact .nil
  | createAtomic => exact .nil
  | maintain => exact .nil
  | clear => exact .nil
  | reset => exact .nil
  | write t e v => exact .nil
  | writeAt t pos v => exact .nil

theorem goodFrom_of_uniform : ∀ (ops : List (Op V)) (w : World V) (s : MapWorld V), Inv w s →
    s.table.Uniform s.groups → s.AllFine ops → s.AllUniform ops → GoodFrom w s ops := by
  intro ops
  induction ops with
  | nil => intro _ _ _ _ _ _; trivial
  | cons op ops ih =>
    intro w s h hu hf hu'
    have hv := even_of_uniform h hf.1.fair hu hu'.1
    refine ⟨hf.1, hv, ?_⟩
    obtain ⟨w', h1, h2⟩ := step_refines h hf.1 hv
    simp only [h1]
    exact ih w' _ h2 hu'.1 hf.2 hu'.2

/-- A simple sufficient condition: entities sharing a grouped type always have the same version. -/
theorem good_of_uniform {ops : List (Op V)} (hf : MapWorld.init.AllFine ops) (hu : MapWorld.init.AllUniform ops) :
    Good ops :=
  goodFrom_of_uniform ops _ _ Inv.init (fun _ hp => by simp [MapWorld.init] at hp) hf hu

theorem GoodFrom.allFine : ∀ {ops : List (Op V)} {w : World V} {s : MapWorld V}, Inv w s → GoodFrom w s ops →
    s.AllFine ops := by
  intro ops
  induction ops with
  | nil => intro _ _ _ _; trivial
  | cons op ops ih =>
    intro w s h hg
    obtain ⟨hf, hv, hg⟩ := hg
    obtain ⟨w', h1, h2⟩ := step_refines h hf hv
    simp only [h1] at hg
    exact ⟨hf, ih h2 hg⟩

theorem FairFrom.allFair : ∀ {ops : List (Op V)} {w : World V} {s : MapWorld V}, InvL w s → FairFrom w s ops →
    s.AllFair ops := by
  intro ops
  induction ops with
  | nil => intro _ _ _ _; trivial
  | cons op ops ih =>
    intro w s h hg
    obtain ⟨hf, hv, hg⟩ := hg
    obtain ⟨w', h1, h2⟩ := step_fair h hf hv
    simp only [h1] at hg
    exact ⟨hf, ih h2 hg⟩

theorem Fair.allFair {ops : List (Op V)} (h : Fair ops) : MapWorld.init.AllFair ops :=
  FairFrom.allFair Inv.init.loose h

theorem MapWorld.AllFine.allFair : ∀ {ops : List (Op V)} {s : MapWorld V}, s.AllFine ops → s.AllFair ops
  | [], _, _ => trivial
  | _ :: _, _, h => ⟨h.1.fair, AllFine.allFair h.2⟩

theorem fairFrom_of_uniform : ∀ (ops : List (Op V)) (w : World V) (s : MapWorld V), InvL w s →
    s.table.Uniform s.groups → s.AllFair ops → s.AllUniform ops → FairFrom w s ops := by
  intro ops
  induction ops with
  | nil => intro _ _ _ _ _ _; trivial
  | cons op ops ih =>
    intro w s h hu hf hu'
    have hv := even_of_uniform h hf.1 hu hu'.1
    refine ⟨hf.1, hv, ?_⟩
    obtain ⟨w', h1, h2⟩ := step_fair h hf.1 hv
    simp only [h1]
    exact ih w' _ h2 hu'.1 hf.2 hu'.2

/-- A simple sufficient condition: entities sharing a grouped type always have the same version. -/
theorem fair_of_uniform {ops : List (Op V)} (hf : MapWorld.init.AllFair ops) (hu : MapWorld.init.AllUniform ops) :
    Fair ops :=
  fairFrom_of_uniform ops _ _ Inv.init.loose (fun _ hp => by simp [MapWorld.init] at hp) hf hu

theorem Good.allFine {ops : List (Op V)} (h : Good ops) : MapWorld.init.AllFine ops := GoodFrom.allFine Inv.init h

end Sparsey
