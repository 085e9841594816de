import Verif.Proofs.Static
import Verif.Proofs.Reach
import Verif.Spec.Map

/-!
`reset` leads to the world that the calls of `register` and `set_layout` alone would have built.
-/

set_option autoImplicit false
set_option linter.unusedSimpArgs false

namespace Sparsey
variable {V : Type}

/-- Applies a function to the state that is left behind. -/
def Outcome.mapS {σ α : Type} (g : σ → σ) : Outcome σ α → Outcome σ α
  | .ok a s => .ok a (g s)
  | .panic s => .panic (g s)
  | .ub => .ub

theorem Outcome.mapS_ofRes {σ α β : Type} {g : σ → σ} {s : σ} {r : Res α} {f f' : α → Outcome σ β}
    (h : ∀ a, (f a).mapS g = f' a) : (Outcome.ofRes s r f).mapS g = Outcome.ofRes (g s) r f' := by
  cases r with
  | ok a => exact h a
  | panic => rfl
  | ub => rfl

theorem Outcome.mapS_bind {σ α β : Type} {g : σ → σ} {o : Outcome σ α} {f : α → σ → Outcome σ β}
    (h : ∀ a s, (f a s).mapS g = f a (g s)) : (o.bind f).mapS g = (o.mapS g).bind f := by
  cases o with
  | ok a s => exact h a s
  | panic s => rfl
  | ub => rfl

namespace ComponentStorage

theorem clear_clear (c : ComponentStorage V) : c.clear.clear = c.clear := by
  simp only [clear, List.map_map, Function.comp_def]
  rfl

theorem _root_.Sparsey.Shape.clear {c c' : ComponentStorage V} (h : Shape c c') : c'.clear = c.clear := by
  obtain ⟨h1, h2, h3⟩ := h
  have e1 : c'.groups.map (fun g => { g with len := 0 }) = c.groups.map (fun g => { g with len := 0 }) := h3
  have e2 : c'.components.map CompSet.clear = c.components.map CompSet.clear := by
    refine List.ext_getElem (by simp [h2]) fun i h4 h5 => ?_
    simp [CompSet.clear, SparseVec.clear]
  unfold ComponentStorage.clear
  rw [h1, e1, e2]

/-- The sets of a storage under construction, without their contents. -/
def clearSets (sets : List (TypeId × CompSet V)) : List (TypeId × CompSet V) := sets.map fun p => (p.1, CompSet.new)

/-- A storage under construction, without components. -/
def clearBuilding (b : Building V) : Building V := (b.1.clear, clearSets b.2)

theorem clear_new (s : CompSet V) : s.clear = CompSet.new := rfl

theorem removeSet_clear (sets : List (TypeId × CompSet V)) (t : TypeId) :
    ((removeSet (clearSets sets) t).1.getD CompSet.new) = CompSet.new ∧
      (removeSet (clearSets sets) t).2 = clearSets (removeSet sets t).2 := by
  constructor
  · simp only [removeSet, clearSets]
    cases h : List.lookup t (sets.map fun p => (p.1, (CompSet.new : CompSet V))) with
    | none => rfl
    | some s =>
      have hm : ∀ (l : List (TypeId × CompSet V)), (∀ p ∈ l, p.2 = CompSet.new) → ∀ s, l.lookup t = some s →
          s = CompSet.new := by
        intro l
        induction l with
        | nil => intro _ s h; cases h
        | cons p l ih =>
          intro hl s h
          obtain ⟨t', s'⟩ := p
          rw [List.lookup_cons] at h
          split at h
          · cases h
            exact hl (t', _) (by simp)
          · exact ih (fun q hq => hl q (by simp [hq])) s h
      rw [hm _ (fun p hp => by
        obtain ⟨q, _, rfl⟩ := List.mem_map.1 hp
        rfl) s h]
      rfl
  · simp [removeSet, clearSets, List.filter_map, Function.comp_def]

theorem addComponents_clear {f : GroupFamily} {a b c : Nat} : ∀ (n idx : Nat) (x : Building V),
    (addComponents f a b c idx n x).mapS clearBuilding = addComponents f a b c idx n (clearBuilding x)
  | 0, _, x => rfl
  | n + 1, idx, (st, sets) => by
    rw [clearBuilding]
    unfold addComponents
    simp only [ComponentStorage.clear, List.length_map]
    refine Outcome.mapS_ofRes fun p => ?_
    obtain ⟨t, m⟩ := p
    obtain ⟨h1, h2⟩ := removeSet_clear sets t
    simp only
    rw [addComponents_clear n]
    congr 1
    simp only [clearBuilding, ComponentStorage.clear, h2, h1, List.map_append, List.map_cons, List.map_nil, clear_new]

theorem addGroups_clear {f : GroupFamily} {a b c : Nat} : ∀ (l : List Nat) (prev : Nat) (x : Building V),
    (addGroups f a b c prev l x).mapS clearBuilding = addGroups f a b c prev l (clearBuilding x)
  | [], _, x => rfl
  | n :: l, prev, (st, sets) => by
    rw [clearBuilding]
    unfold addGroups
    simp only [ComponentStorage.clear, List.length_map]
    have key : ∀ r : Res Group, (∀ g, r = .ok g → g.len = 0) → (Outcome.ofRes (st, sets) r fun g =>
        (addComponents f b st.groups.length c prev (n - prev) ({ st with groups := st.groups ++ [g] }, sets)).bind
          fun _ b' => addGroups f a b c n l b').mapS clearBuilding =
        Outcome.ofRes (st.clear, clearSets sets) r fun g =>
        (addComponents f b st.groups.length c prev (n - prev)
          ({ st.clear with groups := st.clear.groups ++ [g] }, clearSets sets)).bind
          fun _ b' => addGroups f a b c n l b' := by
      intro r hr
      cases r with
      | panic => rfl
      | ub => rfl
      | ok g =>
        simp only [Outcome.ofRes]
        rw [Outcome.mapS_bind fun _ y => addGroups_clear l n y, addComponents_clear]
        congr 2
        have hg := hr g rfl
        obtain ⟨_, _, _, _, _, _, len⟩ := g
        subst hg
        simp [clearBuilding, ComponentStorage.clear]
    refine key _ fun g hg => ?_
    obtain ⟨_, _, hg⟩ := Res.bind_ok' hg
    obtain ⟨_, _, hg⟩ := Res.bind_ok' hg
    obtain ⟨_, _, hg⟩ := Res.bind_ok' hg
    cases hg
    rfl

theorem addFamilies_clear : ∀ (fs : List GroupFamily) (x : Building V),
    (addFamilies fs x).mapS clearBuilding = addFamilies fs (clearBuilding x)
  | [], x => rfl
  | f :: fs, (c, sets) => by
    rw [clearBuilding]
    unfold addFamilies
    simp only [ComponentStorage.clear, List.length_map]
    rw [Outcome.mapS_bind fun _ y => addFamilies_clear fs y, addGroups_clear]
    rfl

theorem addUngrouped_clear : ∀ (l : List (TypeId × CompSet V)) (c : ComponentStorage V),
    (addUngrouped l c).clear = addUngrouped (clearSets l) c.clear
  | [], c => rfl
  | (t, s) :: l, c => by
    rw [addUngrouped, addUngrouped_clear l]
    simp only [clearSets, List.map_cons, addUngrouped]
    congr 1
    simp [ComponentStorage.clear, clear_new]

theorem sortByRank_clear (rank : TypeId → Nat) : ∀ l : List (TypeId × CompSet V),
    sortByRank rank (clearSets l) = clearSets (sortByRank rank l)
  | [] => rfl
  | p :: l => by
    have hins : ∀ (p : TypeId × CompSet V) (l : List (TypeId × CompSet V)),
        insertByRank rank (p.1, CompSet.new) (clearSets l) = clearSets (insertByRank rank p l) := by
      intro p l
      induction l with
      | nil => rfl
      | cons q l ih =>
        simp only [clearSets, List.map_cons, insertByRank] at ih ⊢
        split
        · rfl
        · rw [ih]
          rfl
    have : sortByRank rank (clearSets (p :: l)) = insertByRank rank (p.1, CompSet.new) (sortByRank rank (clearSets l)) :=
      rfl
    rw [this, sortByRank_clear rank l, hins]
    rfl

theorem takeSets_clear : ∀ (md : List (TypeId × ComponentMetadata)) (comps : List (CompSet V)),
    takeSets md (comps.map CompSet.clear) = (takeSets md comps).bind fun p =>
      .ok (clearSets p.1, p.2.map CompSet.clear)
  | [], _ => rfl
  | (t, m) :: md, comps => by
    unfold takeSets
    rw [List.getElem?_map]
    cases h : comps[m.storageIndex]? with
    | none => rfl
    | some s =>
      have ih := takeSets_clear md (comps.set m.storageIndex CompSet.new)
      rw [List.map_set] at ih
      simp only [Option.map_some, Res.checked_some, Res.bind_ok]
      rw [show (CompSet.new : CompSet V).clear = CompSet.new from rfl] at ih
      rw [ih]
      cases takeSets md (comps.set m.storageIndex CompSet.new) <;> rfl

theorem extract_clear (c : ComponentStorage V) : c.clear.extractSparseSets =
    c.extractSparseSets.bind fun p => .ok (clearSets p.1, p.2.clear) := by
  unfold extractSparseSets
  have := takeSets_clear c.metadata c.components
  simp only [ComponentStorage.clear]
  rw [this]
  cases takeSets c.metadata c.components <;> rfl

/-- Setting a layout in the empty world leads to the same storage, without components. -/
theorem setLayout_clear (rank : TypeId → Nat) (c : ComponentStorage V) (l : GroupLayout) (es : List Entity) :
    (c.setLayout rank l es).Leaves fun c' => c.clear.setLayout rank l [] = .ok () c'.clear ∨
      c.clear.setLayout rank l [] = .panic c'.clear := by
  unfold setLayout
  rw [extract_clear]
  cases h1 : c.extractSparseSets with
  | ub => trivial
  | panic => exact .inr rfl
  | ok p =>
    obtain ⟨sets, c1⟩ := p
    simp only [Res.bind]
    have h2 := addFamilies_clear l.families (c1, sets)
    rw [clearBuilding] at h2
    simp only at h2
    rw [← h2]
    cases h3 : addFamilies l.families (c1, sets) with
    | ub => trivial
    | panic b => exact .inr rfl
    | ok u b =>
      obtain ⟨c2, sets2⟩ := b
      simp only [Outcome.mapS, clearBuilding, sortByRank_clear, ← addUngrouped_clear]
      have hlen : (addUngrouped (sortByRank rank sets2) c2).clear.groups.length =
          (addUngrouped (sortByRank rank sets2) c2).groups.length := by simp [ComponentStorage.clear]
      rw [hlen]
      cases h4 : GroupMask.fromTo 0 (addUngrouped (sortByRank rank sets2) c2).groups.length with
      | ub => trivial
      | panic => exact .inr rfl
      | ok mask =>
        simp only [groupEntities]
        cases h5 : groupEntities mask es ((addUngrouped (sortByRank rank sets2) c2).components,
            (addUngrouped (sortByRank rank sets2) c2).groups) with
        | ub => trivial
        | panic => exact .inl rfl
        | ok s =>
          obtain ⟨k1, k2⟩ := groupEntities_shape es _ _ h5
          refine .inl ?_
          have : Shape (addUngrouped (sortByRank rank sets2) c2)
            { addUngrouped (sortByRank rank sets2) c2 with components := s.1, groups := s.2 } := ⟨rfl, k1, k2⟩
          rw [this.clear]

theorem register_clear (c : ComponentStorage V) (t : TypeId) :
    c.clear.register t = ((c.register t).1, (c.register t).2.clear) := by
  unfold register
  have : c.clear.meta? t = c.meta? t := rfl
  rw [this]
  cases c.meta? t with
  | some m => rfl
  | none => simp [ComponentStorage.clear, clear_new]

end ComponentStorage

theorem reset_reset (w : World V) : w.reset.reset = w.reset := by
  unfold World.reset
  rw [ComponentStorage.clear_clear]
  rfl

theorem step_reset {w w' : World V} {op : Op V} {r : Ret V} (h : step w op = some (r, w')) :
    if op.isSetup then ∃ r', step w.reset op = some (r', w'.reset) else w'.reset = w.reset := by
  by_cases hop : op.keepsTypes
  · have hs := (step_shape h hop).clear
    have hb : op.isSetup = false := by cases op <;> first | rfl | exact hop.elim
    rw [hb]
    simp only [Bool.false_eq_true, if_false]
    unfold World.reset
    rw [hs]
    rfl
  · cases op with
    | register t =>
      simp only [Op.isSetup, if_true]
      simp only [step, World.register, Option.some.injEq, Prod.mk.injEq] at h
      obtain ⟨_, rfl⟩ := h
      refine ⟨.bool (w.components.register t).1, ?_⟩
      simp only [step, World.register, World.reset, ComponentStorage.register_clear]
    | setLayout rank gs =>
      simp only [Op.isSetup, if_true]
      have h0 := ComponentStorage.setLayout_clear rank w.components (GroupLayout.build gs).2 w.entities.asSlice
      have h1 := retOutcome_some (P := fun w' => (∃ r', step w.reset (.setLayout rank gs) = some (r', w'.reset))) h
        (by
          unfold World.setLayout
          have hstep : ∀ c' : ComponentStorage V,
              (w.components.clear.setLayout rank (GroupLayout.build gs).2 [] = .ok () c'.clear ∨
                w.components.clear.setLayout rank (GroupLayout.build gs).2 [] = .panic c'.clear) →
              ∃ r', step w.reset (.setLayout rank gs) = some (r', (⟨w.entities, c'⟩ : World V).reset) := by
            intro c' hc
            have e1 : w.reset.components = w.components.clear := rfl
            have e2 : w.reset.entities.asSlice = [] := rfl
            rcases hc with hc | hc
            · refine ⟨.unit, ?_⟩
              simp only [step, World.setLayout, e1, e2, hc, retOutcome]
              rfl
            · refine ⟨.panicked [], ?_⟩
              simp only [step, World.setLayout, e1, e2, hc, retOutcome]
              rfl
          cases hc : w.components.setLayout rank (GroupLayout.build gs).2 w.entities.asSlice with
          | ub => trivial
          | ok u c' => rw [hc] at h0; exact hstep c' h0
          | panic c' => rw [hc] at h0; exact hstep c' h0)
      exact h1
    | _ => exact absurd trivial hop

/-- The world after `reset` is reached by the calls of `register` and `set_layout` alone. -/
theorem reach_reset {h : History V} {w : World V} (hr : Reach World.empty h w) :
    ∃ h₀ : History V, h₀.map (·.1) = (h.map (·.1)).filter Op.isSetup ∧ Reach World.empty h₀ w.reset := by
  induction hr with
  | nil => exact ⟨[], rfl, .nil⟩
  | @snoc h w₁ w₂ op r hr hs ih =>
    obtain ⟨h₀, h1, h2⟩ := ih
    have h3 := step_reset hs
    cases hop : op.isSetup with
    | false =>
      rw [hop] at h3
      simp only [Bool.false_eq_true, if_false] at h3
      exact ⟨h₀, by simp [h1, hop], by rw [h3]; exact h2⟩
    | true =>
      rw [hop] at h3
      simp only [if_true] at h3
      obtain ⟨r', h3⟩ := h3
      exact ⟨h₀ ++ [(op, r')], by simp [h1, hop], .snoc h2 h3⟩

end Sparsey
