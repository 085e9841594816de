import Verif.Spec.Rename
import Verif.Proofs.Opaque
import Verif.Properties.Components

/-!
C82: the identifiers of types do not matter, only their order does, and that for layouts only.
-/

set_option autoImplicit false
set_option linter.unusedSimpArgs false

namespace Sparsey
variable {V : Type}

/-- Renaming keeps types apart. -/
theorem inj_of_left {ρ σ : TypeId → TypeId} (h : ∀ t, σ (ρ t) = t) {a b : TypeId} (e : ρ a = ρ b) : a = b := by
  rw [← h a, e, h b]

theorem beq_mapT {ρ : TypeId → TypeId} (h : ∀ a b, ρ a = ρ b → a = b) (a b : TypeId) : (ρ a == ρ b) = (a == b) := by
  by_cases e : a = b
  · subst e; simp
  · have : ρ a ≠ ρ b := fun x => e (h a b x)
    simp [e, this]

theorem lookup_mapT {α : Type} {ρ : TypeId → TypeId} (h : ∀ a b, ρ a = ρ b → a = b) (l : List (TypeId × α)) (t : TypeId) :
    (l.map fun p => (ρ p.1, p.2)).lookup (ρ t) = l.lookup t := by
  induction l with
  | nil => rfl
  | cons p l ih =>
    obtain ⟨t', x⟩ := p
    simp only [List.map_cons, List.lookup_cons, beq_mapT h, ih]

theorem filter_mapT {α : Type} {ρ : TypeId → TypeId} (h : ∀ a b, ρ a = ρ b → a = b) (l : List (TypeId × α)) (t : TypeId) :
    (l.map fun p => (ρ p.1, p.2)).filter (fun p => p.1 != ρ t) =
      (l.filter fun p => p.1 != t).map fun p => (ρ p.1, p.2) := by
  rw [List.filter_map]
  congr 1
  refine List.filter_congr fun p _ => ?_
  simp only [Function.comp, bne, beq_mapT h]

theorem contains_mapT {ρ : TypeId → TypeId} (h : ∀ a b, ρ a = ρ b → a = b) (l : List TypeId) (t : TypeId) :
    (l.map ρ).contains (ρ t) = l.contains t := by
  induction l with
  | nil => rfl
  | cons x l ih => simp only [List.map_cons, List.contains_cons, beq_mapT h, ih]

/-! ### Layouts -/

/-- A family with other names. -/
def GroupFamily.mapT (ρ : TypeId → TypeId) (f : GroupFamily) : GroupFamily := ⟨f.components.map ρ, f.arities⟩

/-- A layout with other names. -/
def GroupLayout.mapT (ρ : TypeId → TypeId) (l : GroupLayout) : GroupLayout := ⟨l.families.map (GroupFamily.mapT ρ)⟩

theorem insertSorted_mapT {ρ : TypeId → TypeId} (hm : ∀ a b, ρ a ≤ ρ b ↔ a ≤ b) (t : TypeId) (l : List TypeId) :
    insertSorted (ρ t) (l.map ρ) = (insertSorted t l).map ρ := by
  induction l with
  | nil => rfl
  | cons x l ih =>
    simp only [List.map_cons, insertSorted, hm, ih]
    split <;> rfl

theorem sortTypes_mapT {ρ : TypeId → TypeId} (hm : ∀ a b, ρ a ≤ ρ b ↔ a ≤ b) (l : List TypeId) :
    sortTypes (l.map ρ) = (sortTypes l).map ρ := by
  induction l with
  | nil => rfl
  | cons x l ih => simp only [List.map_cons, sortTypes, ih, insertSorted_mapT hm]

theorem dedupTypes_mapT {ρ : TypeId → TypeId} (h : ∀ a b, ρ a = ρ b → a = b) (l : List TypeId) :
    dedupTypes (l.map ρ) = (dedupTypes l).map ρ := by
  induction l with
  | nil => rfl
  | cons x l ih =>
    cases l with
    | nil => rfl
    | cons y l =>
      simp only [List.map_cons, dedupTypes] at ih ⊢
      by_cases e : x = y
      · subst e; simpa using ih
      · have : ρ x ≠ ρ y := fun z => e (h x y z)
        simp [e, this, ih]

theorem all_contains_mapT {ρ : TypeId → TypeId} (h : ∀ a b, ρ a = ρ b → a = b) (l m : List TypeId) :
    ((l.map ρ).all fun c => (m.map ρ).contains c) = l.all fun c => m.contains c := by
  rw [List.all_map]
  simp only [Function.comp_def, contains_mapT h]

theorem all_misses_mapT {ρ : TypeId → TypeId} (h : ∀ a b, ρ a = ρ b → a = b) (l m : List TypeId) :
    ((l.map ρ).all fun c => !(m.map ρ).contains c) = l.all fun c => !m.contains c := by
  rw [List.all_map]
  simp only [Function.comp_def, contains_mapT h]

theorem GroupFamily.search_mapT {ρ : TypeId → TypeId} (h : ∀ a b, ρ a = ρ b → a = b) (f : GroupFamily) (cs : List TypeId)
    (l : List Nat) (i prev : Nat) : (f.mapT ρ).search (cs.map ρ) i prev l = f.search cs i prev l := by
  induction l generalizing i prev with
  | nil => rfl
  | cons n l ih =>
    simp only [search, segment, mapT, List.length_map]
    split
    · simp only [Res.bind_ok, ← List.map_drop, ← List.map_take, all_contains_mapT h, all_misses_mapT h]
      have := ih (i + 1) n
      simp only [mapT] at this
      rw [this]
    · rfl

theorem GroupFamily.sortByKey_mapT {ρ : TypeId → TypeId} (h : ∀ a b, ρ a = ρ b → a = b) (cs l : List TypeId) :
    sortByKey (fun c => (cs.map ρ).contains c) (l.map ρ) = (sortByKey (fun c => cs.contains c) l).map ρ := by
  simp only [sortByKey, List.filter_map, Function.comp_def, contains_mapT h, List.map_append]

theorem GroupFamily.pushMissing_mapT {ρ : TypeId → TypeId} (h : ∀ a b, ρ a = ρ b → a = b) (cs l : List TypeId) :
    pushMissing (l.map ρ) (cs.map ρ) = (pushMissing l cs).map ρ := by
  induction cs generalizing l with
  | nil => rfl
  | cons c cs ih =>
    simp only [List.map_cons, pushMissing, contains_mapT h]
    split
    · exact ih l
    · rw [← ih, List.map_append]; rfl

theorem GroupFamily.tryAddGroup_mapT {ρ : TypeId → TypeId} (h : ∀ a b, ρ a = ρ b → a = b) (f : GroupFamily)
    (cs : List TypeId) :
    (f.mapT ρ).tryAddGroup (cs.map ρ) = (f.tryAddGroup cs).mapR fun p => (p.1, p.2.mapT ρ) := by
  unfold tryAddGroup
  rw [show (f.mapT ρ).arities = f.arities from rfl, search_mapT h]
  rw [show (f.mapT ρ).components = f.components.map ρ from rfl, all_misses_mapT h]
  split
  · rfl
  refine Res.bind_mapR_same fun s => ?_
  rcases s with _ | _ | i
  · rfl
  · simp only [Res.mapR, mapT, pushMissing_mapT h, List.length_map, Res.pure_eq]
  · refine Res.bind_mapR_same fun n => ?_
    rw [List.length_map]
    refine Res.bind_mapR_same fun _ => ?_
    simp only [Res.mapR, mapT, List.length_map, Res.pure_eq, ← List.map_take, ← List.map_drop, sortByKey_mapT h,
      List.map_append]

theorem GroupLayout.tryAll_mapT {ρ : TypeId → TypeId} (h : ∀ a b, ρ a = ρ b → a = b) (cs : List TypeId)
    (fs : List GroupFamily) :
    tryAll (cs.map ρ) (fs.map (GroupFamily.mapT ρ)) = (tryAll cs fs).mapO (List.map (GroupFamily.mapT ρ)) id := by
  induction fs with
  | nil => rfl
  | cons f fs ih =>
    simp only [List.map_cons, tryAll, GroupFamily.tryAddGroup_mapT h, ih]
    cases f.tryAddGroup cs with
    | panic => rfl
    | ub => rfl
    | ok p =>
      simp only [Res.mapR]
      cases tryAll cs fs <;> rfl

theorem GroupLayout.addGroup_mapT {ρ : TypeId → TypeId} (h : ∀ a b, ρ a = ρ b → a = b)
    (hm : ∀ a b, ρ a ≤ ρ b ↔ a ≤ b) (l : GroupLayout) (g : List TypeId) :
    (l.mapT ρ).addGroup (g.map ρ) = (l.addGroup g).mapO (mapT ρ) id := by
  unfold addGroup
  simp only [sortTypes_mapT hm, dedupTypes_mapT h, List.length_map]
  split
  · rfl
  split
  · rfl
  rw [show (l.mapT ρ).families = l.families.map (GroupFamily.mapT ρ) from rfl, tryAll_mapT h]
  cases tryAll (dedupTypes (sortTypes g)) l.families with
  | panic fs => rfl
  | ub => rfl
  | ok n fs =>
    simp only [Outcome.mapO, id]
    split
    · simp [mapT, GroupFamily.new, GroupFamily.mapT]
    split <;> rfl

theorem GroupLayout.addGroups_mapT {ρ : TypeId → TypeId} (h : ∀ a b, ρ a = ρ b → a = b)
    (hm : ∀ a b, ρ a ≤ ρ b ↔ a ≤ b) (gs : List (List TypeId)) (l : GroupLayout) :
    (l.mapT ρ).addGroups (gs.map (List.map ρ)) = ((l.addGroups gs).1, (l.addGroups gs).2.mapT ρ) := by
  induction gs generalizing l with
  | nil => rfl
  | cons g gs ih =>
    simp only [List.map_cons, addGroups, addGroup_mapT h hm]
    cases l.addGroup g <;> simp only [Outcome.mapO, ih]

/-! ### Storages -/

namespace ComponentStorage

/-- A storage with other names. -/
def mapT (ρ : TypeId → TypeId) (c : ComponentStorage V) : ComponentStorage V :=
  ⟨c.groups, c.metadata.map fun p => (ρ p.1, p.2), c.components⟩

/-- Sets with other names. -/
def renSets (ρ : TypeId → TypeId) (l : List (TypeId × CompSet V)) : List (TypeId × CompSet V) :=
  l.map fun p => (ρ p.1, p.2)

/-- The state of the layout loops with other names. -/
def renBuilding (ρ : TypeId → TypeId) (b : Building V) : Building V := (b.1.mapT ρ, renSets ρ b.2)

variable {ρ : TypeId → TypeId} (h : ∀ a b, ρ a = ρ b → a = b)
include h

theorem meta?_mapT (c : ComponentStorage V) (t : TypeId) : (c.mapT ρ).meta? (ρ t) = c.meta? t :=
  lookup_mapT h c.metadata t

theorem insertMeta_mapT (md : List (TypeId × ComponentMetadata)) (t : TypeId) (m : ComponentMetadata) :
    insertMeta (md.map fun p => (ρ p.1, p.2)) (ρ t) m = (insertMeta md t m).map fun p => (ρ p.1, p.2) := by
  unfold insertMeta
  rw [filter_mapT h]
  rfl

theorem register_mapT (c : ComponentStorage V) (t : TypeId) :
    (c.mapT ρ).register (ρ t) = ((c.register t).1, (c.register t).2.mapT ρ) := by
  unfold register
  rw [meta?_mapT h]
  cases c.meta? t with
  | some m => rfl
  | none => simp only [mapT, insertMeta_mapT h]

omit h in
theorem takeSets_mapT (md : List (TypeId × ComponentMetadata)) (comps : List (CompSet V)) :
    takeSets (md.map fun p => (ρ p.1, p.2)) comps = (takeSets md comps).mapR fun p => (renSets ρ p.1, p.2) := by
  induction md generalizing comps with
  | nil => rfl
  | cons p md ih =>
    refine Res.bind_mapR_same fun s => ?_
    exact Res.bind_mapR (ih _) fun q => rfl

theorem removeSet_mapT (l : List (TypeId × CompSet V)) (t : TypeId) :
    removeSet (renSets ρ l) (ρ t) = ((removeSet l t).1, renSets ρ (removeSet l t).2) := by
  unfold removeSet renSets
  rw [lookup_mapT h, filter_mapT h]

theorem addComponents_mapT (family : GroupFamily) (a b d : Nat) (n idx : Nat) (x : Building V) :
    addComponents (family.mapT ρ) a b d idx n (renBuilding ρ x) =
      (addComponents family a b d idx n x).mapO (renBuilding ρ) id := by
  induction n generalizing idx x with
  | zero => rfl
  | succ n ih =>
    obtain ⟨c, sets⟩ := x
    refine Outcome.ofRes_mapO (g := fun p => (ρ p.1, p.2)) ?_ rfl fun p => ?_
    · refine Res.bind_mapR (Res.checked_mapR ρ family.components idx) fun t => ?_
      refine Res.bind_mapR_same fun _ => ?_
      refine Res.bind_mapR_same fun _ => ?_
      exact Res.bind_mapR_same fun _ => rfl
    · obtain ⟨t, m⟩ := p
      simp only [renBuilding, removeSet_mapT h]
      rw [← ih]
      simp only [renBuilding, mapT, insertMeta_mapT h]

theorem addGroups_mapT (family : GroupFamily) (a b d : Nat) (l : List Nat) (prev : Nat) (x : Building V) :
    addGroups (family.mapT ρ) a b d prev l (renBuilding ρ x) =
      (addGroups family a b d prev l x).mapO (renBuilding ρ) id := by
  induction l generalizing prev x with
  | nil => rfl
  | cons n l ih =>
    obtain ⟨c, sets⟩ := x
    refine Outcome.ofRes_mapO_same rfl fun g => ?_
    exact Outcome.bind_mapO
      (addComponents_mapT h family b _ d _ _ (⟨c.groups ++ [g], c.metadata, c.components⟩, sets)) fun _ y => ih n y

theorem addFamilies_mapT (fs : List GroupFamily) (x : Building V) :
    addFamilies (fs.map (GroupFamily.mapT ρ)) (renBuilding ρ x) =
      (addFamilies fs x).mapO (renBuilding ρ) id := by
  induction fs generalizing x with
  | nil => rfl
  | cons g fs ih =>
    obtain ⟨c, sets⟩ := x
    exact Outcome.bind_mapO (addGroups_mapT h g _ _ _ _ _ (c, sets)) fun _ y => ih y

omit h in
theorem insertByRank_mapT {σ : TypeId → TypeId} (hs : ∀ t, σ (ρ t) = t) (rank : TypeId → Nat) (p : TypeId × CompSet V)
    (l : List (TypeId × CompSet V)) :
    insertByRank (fun t => rank (σ t)) (ρ p.1, p.2) (renSets ρ l) = renSets ρ (insertByRank rank p l) := by
  induction l with
  | nil => rfl
  | cons q l ih =>
    simp only [renSets, List.map_cons, insertByRank, hs] at ih ⊢
    split
    · rfl
    · rw [ih]; rfl

omit h in
theorem sortByRank_mapT {σ : TypeId → TypeId} (hs : ∀ t, σ (ρ t) = t) (rank : TypeId → Nat)
    (l : List (TypeId × CompSet V)) :
    sortByRank (fun t => rank (σ t)) (renSets ρ l) = renSets ρ (sortByRank rank l) := by
  induction l with
  | nil => rfl
  | cons p l ih =>
    show insertByRank _ (ρ p.1, p.2) (sortByRank _ (renSets ρ l)) = _
    rw [ih, insertByRank_mapT hs]
    rfl

theorem addUngrouped_mapT (l : List (TypeId × CompSet V)) (c : ComponentStorage V) :
    addUngrouped (renSets ρ l) (c.mapT ρ) = (addUngrouped l c).mapT ρ := by
  induction l generalizing c with
  | nil => rfl
  | cons p l ih =>
    simp only [addUngrouped]
    rw [← ih]
    simp only [renSets, List.map_cons, addUngrouped, mapT, insertMeta_mapT h]

omit h in
theorem setLayout_mapT {σ : TypeId → TypeId} (hs : ∀ t, σ (ρ t) = t) (rank : TypeId → Nat) (c : ComponentStorage V)
    (l : GroupLayout) (es : List Entity) :
    (c.mapT ρ).setLayout (fun t => rank (σ t)) (l.mapT ρ) es = (c.setLayout rank l es).mapO (mapT ρ) id := by
  have h : ∀ a b, ρ a = ρ b → a = b := fun _ _ => inj_of_left hs
  unfold setLayout
  rw [show (c.mapT ρ).extractSparseSets = c.extractSparseSets.mapR fun p => (renSets ρ p.1, p.2.mapT ρ) from
    Res.bind_mapR (takeSets_mapT c.metadata c.components) fun _ => rfl]
  cases c.extractSparseSets with
  | panic => rfl
  | ub => rfl
  | ok p =>
    obtain ⟨sets, c₁⟩ := p
    simp only [Res.mapR]
    rw [show (c₁.mapT ρ, renSets ρ sets) = renBuilding ρ (c₁, sets) from rfl,
      show (l.mapT ρ).families = l.families.map (GroupFamily.mapT ρ) from rfl, addFamilies_mapT h]
    rcases addFamilies l.families (c₁, sets) with ⟨_, c₂, sets₂⟩ | ⟨c₂, sets₂⟩ | _
    · simp only [Outcome.mapO, renBuilding]
      rw [sortByRank_mapT hs, addUngrouped_mapT h]
      generalize addUngrouped (sortByRank rank sets₂) c₂ = c₃
      rw [show (c₃.mapT ρ).groups = c₃.groups from rfl, show (c₃.mapT ρ).components = c₃.components from rfl]
      cases GroupMask.fromTo 0 c₃.groups.length with
      | panic => rfl
      | ub => rfl
      | ok mask =>
        simp only
        cases groupEntities mask es (c₃.components, c₃.groups) <;> rfl
    · rfl
    · rfl

theorem insertEach_mapT (e : Entity) (vs : List (TypeId × V)) (mask : GroupMask) (c : ComponentStorage V) :
    insertEach e (vs.map fun p => (ρ p.1, p.2)) mask (c.mapT ρ) = (insertEach e vs mask c).mapO (mapT ρ) id := by
  induction vs generalizing mask c with
  | nil => rfl
  | cons p vs ih =>
    obtain ⟨t, v⟩ := p
    simp only [List.map_cons, insertEach]
    rw [meta?_mapT h]
    cases c.meta? t with
    | none => rfl
    | some m =>
      refine Outcome.ofRes_mapO_same rfl fun s => ?_
      refine Outcome.ofRes_mapO_same rfl fun q => ?_
      exact ih _ { c with components := c.components.set m.storageIndex q.2 }

omit h in
theorem withMask_mapT (c : ComponentStorage V) (mask : GroupMask) (g : Sets V → Res (Sets V)) :
    (c.mapT ρ).withMask mask g = (c.withMask mask g).mapR (mapT ρ) := by
  unfold withMask
  split
  · rfl
  · exact Res.bind_mapR_same fun _ => rfl

theorem insert_mapT (c : ComponentStorage V) (e : Entity) (vs : List (TypeId × V)) :
    (c.mapT ρ).insert e (vs.map fun p => (ρ p.1, p.2)) = (c.insert e vs).mapO (mapT ρ) id := by
  refine Outcome.bind_mapO (insertEach_mapT h e vs _ c) fun mask x => ?_
  exact Outcome.ofRes_mapO (withMask_mapT x mask _) rfl fun _ => rfl

theorem lookupAll_mapT (c : ComponentStorage V) (g : ComponentMetadata → GroupMask) (ts : List TypeId) :
    (c.mapT ρ).lookupAll g (ts.map ρ) = c.lookupAll g ts := by
  induction ts with
  | nil => rfl
  | cons t ts ih =>
    simp only [List.map_cons, lookupAll]
    rw [meta?_mapT h, ih]
    rfl

omit h in
theorem removeEach_mapT (e : Entity) (is : List Nat) (c : ComponentStorage V) :
    removeEach e is (c.mapT ρ) = (removeEach e is c).mapR fun p => (p.1, p.2.mapT ρ) := by
  induction is generalizing c with
  | nil => rfl
  | cons i is ih =>
    refine Res.bind_mapR_same fun s => ?_
    refine Res.bind_mapR_same fun q => ?_
    exact Res.bind_mapR (ih { c with components := c.components.set i q.2 }) fun _ => rfl

omit h in
theorem deleteEach_mapT (e : Entity) (is : List Nat) (c : ComponentStorage V) :
    deleteEach e is (c.mapT ρ) = (deleteEach e is c).mapR (mapT ρ) := by
  induction is generalizing c with
  | nil => rfl
  | cons i is ih =>
    refine Res.bind_mapR_same fun s => ?_
    refine Res.bind_mapR_same fun q => ?_
    exact ih { c with components := c.components.set i q }

theorem remove_mapT (c : ComponentStorage V) (e : Entity) (ts : List TypeId) :
    (c.mapT ρ).remove e (ts.map ρ) = (c.remove e ts).mapR fun p => (p.1, p.2.mapT ρ) := by
  unfold remove
  rw [lookupAll_mapT h]
  refine Res.bind_mapR_same fun q => ?_
  exact Res.bind_mapR (withMask_mapT c q.2 _) fun x => removeEach_mapT e q.1 x

theorem delete_mapT (c : ComponentStorage V) (e : Entity) (ts : List TypeId) :
    (c.mapT ρ).delete e (ts.map ρ) = (c.delete e ts).mapR (mapT ρ) := by
  unfold delete
  rw [lookupAll_mapT h]
  refine Res.bind_mapR_same fun q => ?_
  exact Res.bind_mapR (withMask_mapT c q.2 _) fun x => deleteEach_mapT e q.1 x

omit h in
theorem insertAt_mapT (e : Entity) (l : List (Nat × V)) (c : ComponentStorage V) :
    insertAt e l (c.mapT ρ) = (insertAt e l c).mapR (mapT ρ) := by
  induction l generalizing c with
  | nil => rfl
  | cons p l ih =>
    refine Res.bind_mapR_same fun s => ?_
    refine Res.bind_mapR_same fun q => ?_
    exact ih { c with components := c.components.set p.1 q.2 }

end ComponentStorage

/-! ### Worlds -/

namespace World
variable {ρ : TypeId → TypeId} (h : ∀ a b, ρ a = ρ b → a = b)
include h

theorem insertSet_mapT (w : World V) (e : Entity) (vs : List (TypeId × V)) :
    (w.mapT ρ).insertSet e (vs.map fun p => (ρ p.1, p.2)) = (w.insertSet e vs).mapO (mapT ρ) id := by
  unfold insertSet
  rw [show (w.mapT ρ).components.insert e _ = _ from ComponentStorage.insert_mapT h w.components e vs]
  cases w.components.insert e vs <;> rfl

omit h in
theorem extendEach_mapT (idxs : List Nat) (items : List (List V)) (w : World V) :
    extendEach idxs items (w.mapT ρ) = (extendEach idxs items w).mapO (mapT ρ) id := by
  induction items generalizing w with
  | nil => rfl
  | cons vs items ih =>
    refine Outcome.ofRes_mapO_same rfl fun p => ?_
    exact Outcome.ofRes_mapO (ComponentStorage.insertAt_mapT p.1 (idxs.zip vs) w.components) rfl
      fun c => ih ⟨p.2, c⟩

theorem extend_mapT (w : World V) (ts : List TypeId) (it : Items V) :
    (w.mapT ρ).extend (ts.map ρ) it = (w.extend ts it).mapO (mapT ρ) id := by
  unfold extend
  rw [show (w.mapT ρ).components.lookupAll _ (ts.map ρ) = _ from ComponentStorage.lookupAll_mapT h w.components _ ts]
  refine Outcome.ofRes_mapO_same rfl fun q => ?_
  refine Outcome.bind_mapO (extendEach_mapT q.1 it.items w) fun _ x => ?_
  simp only [show (x.mapT ρ).entities = x.entities from rfl, show (w.mapT ρ).entities = w.entities from rfl]
  split
  · rfl
  split
  · rfl
  exact Outcome.ofRes_mapO (ComponentStorage.withMask_mapT x.components q.2 _) rfl fun _ => rfl

omit h in
theorem strip_mapT (c : ComponentStorage V) (e : Entity) :
    (c.mapT ρ).strip e = (c.strip e).mapR (ComponentStorage.mapT ρ) := by
  refine Res.bind_mapR_same fun p => ?_
  exact Res.bind_mapR_same fun _ => rfl

theorem borrow_mapT (w : World V) (t : TypeId) : (w.mapT ρ).borrow (ρ t) = w.borrow t := by
  unfold borrow
  rw [show (w.mapT ρ).components.meta? (ρ t) = _ from ComponentStorage.meta?_mapT h w.components t]
  rfl

end World

theorem retRes_mapT {α α' : Type} (ρ : TypeId → TypeId) (w : World V) (g : α → α') {r : Res α} {r' : Res α'}
    {k : α → Ret V × World V} {k' : α' → Ret V × World V} (hr : r' = r.mapR g)
    (hk : ∀ a, k' (g a) = ((k a).1, (k a).2.mapT ρ)) :
    retRes (w.mapT ρ) r' k' = (retRes w r k).map fun p => (p.1, p.2.mapT ρ) := by
  subst hr
  cases r with
  | ok a => exact congrArg some (hk a)
  | panic => rfl
  | ub => rfl

theorem retOutcome_mapT {α : Type} (ρ : TypeId → TypeId) (made : List Entity) {o o' : Outcome (World V) α}
    {k : α → Ret V} (ho : o' = o.mapO (World.mapT ρ) id) :
    retOutcome made o' k = (retOutcome made o k).map fun p => (p.1, p.2.mapT ρ) := by
  subst ho
  cases o <;> rfl

theorem step_mapT {ρ σ : TypeId → TypeId} (hs : ∀ t, σ (ρ t) = t) (w : World V) (op : Op V)
    (hm : op.setsLayout = true → ∀ a b, ρ a ≤ ρ b ↔ a ≤ b) :
    step (w.mapT ρ) (op.mapT ρ σ) = (step w op).map fun p => (p.1, p.2.mapT ρ) := by
  have h : ∀ a b, ρ a = ρ b → a = b := fun _ _ => inj_of_left hs
  cases op with
  | register t =>
    simp only [Op.mapT, step, World.register]
    rw [show (w.mapT ρ).components.register (ρ t) = _ from ComponentStorage.register_mapT h w.components t]
    rfl
  | setLayout rank gs =>
    refine retOutcome_mapT ρ [] ?_
    unfold World.setLayout
    rw [show GroupLayout.build (gs.map (List.map ρ)) = _ from GroupLayout.addGroups_mapT h (hm rfl) gs .empty]
    dsimp only
    rw [
      show (w.mapT ρ).components.setLayout _ _ (w.mapT ρ).entities.asSlice = _ from
        ComponentStorage.setLayout_mapT hs rank w.components (GroupLayout.addGroups .empty gs).2 w.entities.asSlice,
      show GroupLayout.build gs = GroupLayout.addGroups .empty gs from rfl]
    cases w.components.setLayout rank (GroupLayout.addGroups .empty gs).2 w.entities.asSlice <;> rfl
  | create vs =>
    refine retOutcome_mapT ρ _ ?_
    refine Outcome.ofRes_mapO_same rfl fun p => ?_
    exact Outcome.bind_mapO (World.insertSet_mapT h ⟨p.2, w.components⟩ p.1 vs) fun _ _ => rfl
  | extend ts it =>
    simp only [Op.mapT, step]
    rw [show extendMade (w.mapT ρ) (ts.map ρ) it = extendMade w ts it by
      unfold extendMade
      rw [show (w.mapT ρ).components.lookupAll _ (ts.map ρ) = _ from
        ComponentStorage.lookupAll_mapT h w.components _ ts]
      rfl]
    exact retOutcome_mapT ρ _ (World.extend_mapT h w ts it)
  | destroy e =>
    refine retRes_mapT ρ w (fun p : Bool × World V => (p.1, p.2.mapT ρ)) ?_ fun _ => rfl
    refine Res.bind_mapR_same fun p => ?_
    obtain ⟨b, es⟩ := p
    cases b with
    | false => rfl
    | true => exact Res.bind_mapR (World.strip_mapT w.components e) fun _ => rfl
  | createAtomic =>
    refine retRes_mapT ρ w (fun p : Entity × World V => (p.1, p.2.mapT ρ)) ?_ fun _ => rfl
    exact Res.bind_mapR_same fun _ => rfl
  | maintain =>
    refine retRes_mapT ρ w (World.mapT ρ) ?_ fun _ => rfl
    exact Res.bind_mapR_same fun _ => rfl
  | insert e vs =>
    refine retOutcome_mapT ρ _ ?_
    unfold World.insert
    rw [show (w.mapT ρ).entities = w.entities from rfl]
    split
    · rfl
    · exact Outcome.bind_mapO (World.insertSet_mapT h w e vs) fun _ _ => rfl
  | remove e ts =>
    refine retRes_mapT ρ w (fun p : List (Option V) × World V => (p.1, p.2.mapT ρ)) ?_ fun _ => rfl
    exact Res.bind_mapR (ComponentStorage.remove_mapT h w.components e ts) fun _ => rfl
  | delete e ts =>
    refine retRes_mapT ρ w (World.mapT ρ) ?_ fun _ => rfl
    exact Res.bind_mapR (ComponentStorage.delete_mapT h w.components e ts) fun _ => rfl
  | clear =>
    refine retRes_mapT ρ w (World.mapT ρ) ?_ fun _ => rfl
    exact Res.bind_mapR_same fun es => rfl
  | reset => rfl
  | write t e v =>
    refine retRes_mapT ρ w (fun p : Bool × World V => (p.1, p.2.mapT ρ)) ?_ fun _ => rfl
    unfold World.writeView
    rw [show (w.mapT ρ).components.meta? (ρ t) = _ from ComponentStorage.meta?_mapT h w.components t]
    cases w.components.meta? t with
    | none => rfl
    | some m =>
      refine Res.bind_mapR_same fun s => ?_
      exact Res.bind_mapR_same fun _ => rfl
  | writeAt t pos v =>
    refine retRes_mapT ρ w (World.mapT ρ) ?_ fun _ => rfl
    unfold World.writeAt
    rw [show (w.mapT ρ).components.meta? (ρ t) = _ from ComponentStorage.meta?_mapT h w.components t]
    cases w.components.meta? t with
    | none => rfl
    | some m =>
      refine Res.bind_mapR_same fun s => ?_
      exact Res.bind_mapR_same fun _ => rfl

/-- C82 (calls): giving the types other identifiers, different ones for different types and in the same order if a layout is
set, changes nothing but the identifiers. -/
theorem C82_calls {ρ σ : TypeId → TypeId} (hs : ∀ t, σ (ρ t) = t) (ops : List (Op V))
    (hm : (∃ op ∈ ops, op.setsLayout = true) → ∀ a b, ρ a < ρ b ↔ a < b) (w : World V) :
    run (w.mapT ρ) (ops.map (Op.mapT ρ σ)) = (run w ops).map fun p => (p.1, p.2.mapT ρ) := by
  induction ops generalizing w with
  | nil => rfl
  | cons op ops ih =>
    have h1 := step_mapT hs w op fun ho a b => by
      have := hm ⟨op, .head _, ho⟩ b a
      rw [← Nat.not_lt, ← Nat.not_lt, this]
    simp only [List.map_cons, run, h1]
    cases step w op with
    | none => rfl
    | some p =>
      have h2 := ih (fun ⟨o, ho, hl⟩ => hm ⟨o, .tail _ ho, hl⟩) p.2
      simp only [Option.map_some, h2]
      cases run p.2 ops <;> rfl

theorem borrowPart_mapT {ρ : TypeId → TypeId} (h : ∀ a b, ρ a = ρ b → a = b) (c : ComponentStorage V) (b : Borrows)
    (p : Part) : borrowPart (c.mapT ρ) b (p.mapT ρ) = borrowPart c b p := by
  have hb : ∀ x t, borrowSet (c.mapT ρ) b x (ρ t) = borrowSet c b x t := fun x t => by
    unfold borrowSet
    rw [ComponentStorage.meta?_mapT h]
    rfl
  cases p <;> simp only [Part.mapT, borrowPart, hb]

theorem borrowParts_mapT {ρ : TypeId → TypeId} (h : ∀ a b, ρ a = ρ b → a = b) (c : ComponentStorage V) (q : Query)
    (b : Borrows) : borrowParts (c.mapT ρ) b (q.map (Part.mapT ρ)) = borrowParts c b q := by
  induction q generalizing b with
  | nil => rfl
  | cons p q ih => simp only [List.map_cons, borrowParts, borrowPart_mapT h, ih]

theorem borrowQuery_mapT {ρ : TypeId → TypeId} (h : ∀ a b, ρ a = ρ b → a = b) (w : World V) (b : Borrows) (q : Query) :
    borrowQuery (w.mapT ρ).components b (q.map (Part.mapT ρ)) = borrowQuery w.components b q := by
  unfold borrowQuery
  rw [show (w.mapT ρ).components = w.components.mapT ρ from rfl, borrowParts_mapT h]

/-- C82 (reads): reads with the other identifiers give the same. -/
theorem C82_reads {ρ : TypeId → TypeId} (h : ∀ a b, ρ a = ρ b → a = b) (w : World V) :
    (∀ t, (w.mapT ρ).isRegistered (ρ t) = w.isRegistered t) ∧
    (∀ t, (w.mapT ρ).borrow (ρ t) = w.borrow t) ∧
    (∀ b g i x, (QueryAll.new (w.mapT ρ) b (g.map (Part.mapT ρ)) (i.map (Part.mapT ρ)) (x.map (Part.mapT ρ)) >>=
        fun q => q.1.items) = (QueryAll.new w b g i x >>= fun q => q.1.items)) ∧
    (∀ b g i x, (QueryAll.new (w.mapT ρ) b (g.map (Part.mapT ρ)) (i.map (Part.mapT ρ)) (x.map (Part.mapT ρ)) >>=
        fun q => q.1.slice) = (QueryAll.new w b g i x >>= fun q => q.1.slice)) ∧
    (∀ b g i x, QueryOne.new (w.mapT ρ) b (g.map (Part.mapT ρ)) (i.map (Part.mapT ρ)) (x.map (Part.mapT ρ)) =
        QueryOne.new w b g i x) := by
  have hnew : ∀ b g i x, QueryAll.new (w.mapT ρ) b (g.map (Part.mapT ρ)) (i.map (Part.mapT ρ)) (x.map (Part.mapT ρ)) =
      (QueryAll.new w b g i x).mapR fun q => ({ q.1 with world := q.1.world.mapT ρ }, q.2) := by
    intro b g i x
    unfold QueryAll.new
    simp only [borrowQuery_mapT h]
    refine Res.bind_mapR_same fun _ => ?_
    refine Res.bind_mapR_same fun _ => ?_
    exact Res.bind_mapR_same fun _ => rfl
  refine ⟨fun t => ?_, World.borrow_mapT h w, fun b g i x => ?_, fun b g i x => ?_, fun b g i x => ?_⟩
  · show ((w.components.mapT ρ).meta? (ρ t)).isSome = _
    rw [ComponentStorage.meta?_mapT h]
    rfl
  · rw [hnew]
    cases QueryAll.new w b g i x <;> rfl
  · rw [hnew]
    cases QueryAll.new w b g i x <;> rfl
  · unfold QueryOne.new
    simp only [borrowQuery_mapT h]

/-- Calls with a layout, a panic and queries over the group; the types 0, 1, 2 become 3, 5, 7. -/
def renameOps : List (Op Nat) :=
  [.register 2, .setLayout (fun t => t) [[1, 0]], .create [(0, 5), (1, 6)], .extend [1, 2] ⟨[[1, 2], [3, 4]], false⟩,
    .insert ⟨1, 1⟩ [(4, 0)], .insert ⟨2, 1⟩ [(0, 7)], .remove ⟨0, 1⟩ [1, 2], .write 2 ⟨1, 1⟩ 9]

example : (∀ t : TypeId, (2 * t + 3 - 3) / 2 = t) ∧ ∀ a b : TypeId, 2 * a + 3 < 2 * b + 3 ↔ a < b :=
  ⟨fun t => by rw [Nat.add_sub_cancel, Nat.mul_div_cancel_left t (by decide)],
    fun a b => by rw [Nat.add_lt_add_iff_right, Nat.mul_lt_mul_left (by decide)]⟩

example : (run World.empty renameOps).map (fun p => (p.1, p.2.components.metadata.map (·.1),
      QueryAll.new p.2 [] [.ref 1, .opt 2] [.ref 0] [] >>= fun q => q.1.items)) =
    some ([.bool true, .unit, .entity ⟨0, 1⟩, .entities [⟨1, 1⟩, ⟨2, 1⟩], .panicked [], .bool true, .values [some 6, none],
      .bool true], [2, 1, 0], .ok [[.ref 2 0 3, .opt (some (3, 1, 4))]]) ∧
    (run World.empty (renameOps.map (Op.mapT (2 * · + 3) fun t => (t - 3) / 2))).map (fun p =>
      (p.1, p.2.components.metadata.map (·.1), QueryAll.new p.2 [] [.ref 5, .opt 7] [.ref 3] [] >>= fun q => q.1.items)) =
    some ([.bool true, .unit, .entity ⟨0, 1⟩, .entities [⟨1, 1⟩, ⟨2, 1⟩], .panicked [], .bool true, .values [some 6, none],
      .bool true], [7, 5, 3], .ok [[.ref 2 0 3, .opt (some (3, 1, 4))]]) := by
  constructor <;> decide +kernel

/-- Exchanges the identifiers of two types. -/
def exchange01 (t : TypeId) : TypeId := if t = 0 then 1 else if t = 1 then 0 else t

/-- An entity comes back (finding 1) and gets a component, then a new entity with its index gets one of another type. -/
def exchangeOps : List (Op Nat) :=
  [.setLayout (fun t => t) [[0, 1]], .create [], .destroy ⟨0, 1⟩, .maintain, .insert ⟨0, 1⟩ [(0, 5)], .create [(1, 6)]]

/-- The order of the identifiers does matter once a layout is set: with two of them exchanged, the same calls give the same
answers, but a query that yielded nothing yields an item. Only the first new set of a group is searched for the version. -/
theorem C82_order_false : (∀ t, exchange01 (exchange01 t) = t) ∧ ∃ (rs : List (Ret Nat)) (w w' : World Nat),
    run World.empty exchangeOps = some (rs, w) ∧
    run World.empty (exchangeOps.map (Op.mapT exchange01 exchange01)) = some (rs, w') ∧
    (QueryAll.new w [] [.ref 0, .ref 1] [] [] >>= fun q => q.1.items) = .ok [] ∧
    ∃ item, (QueryAll.new w' [] [.ref 1, .ref 0] [] [] >>= fun q => q.1.items) = .ok [item] := by
  refine ⟨fun t => ?_, ?_⟩
  · unfold exchange01
    by_cases h0 : t = 0
    · subst h0; rfl
    · by_cases h1 : t = 1
      · subst h1; rfl
      · simp [h0, h1]
  · exact ⟨_, _, _, rfl, rfl, by decide +kernel, [.ref 1 0 5, .ref 0 0 6], by decide +kernel⟩

end Sparsey
