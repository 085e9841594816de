import Verif.Spec.Opaque

/-!
Every function of the model commutes with replacing the values of components (for C81).
-/

set_option autoImplicit false
set_option linter.unusedSimpArgs false

namespace Sparsey
variable {V W : Type}

theorem Res.bind_mapR {α α' β β' : Type} {g : α → α'} {h : β → β'} {x : Res α} {x' : Res α'}
    {k : α → Res β} {k' : α' → Res β'} (hx : x' = x.mapR g) (hk : ∀ a, k' (g a) = (k a).mapR h) :
    (x' >>= k') = (x >>= k).mapR h := by
  subst hx
  cases x with
  | ok a => exact hk a
  | panic => rfl
  | ub => rfl

theorem Res.bind_mapR_same {α β β' : Type} {h : β → β'} {x : Res α}
    {k : α → Res β} {k' : α → Res β'} (hk : ∀ a, k' a = (k a).mapR h) :
    (x >>= k') = (x >>= k).mapR h := by
  cases x with
  | ok a => exact hk a
  | panic => rfl
  | ub => rfl

theorem Res.unchecked_mapR {α β : Type} (g : α → β) (l : List α) (i : Nat) :
    Res.unchecked ((l.map g)[i]?) = (Res.unchecked (l[i]?)).mapR g := by
  rw [List.getElem?_map]
  cases l[i]? <;> rfl

theorem Res.checked_mapR {α β : Type} (g : α → β) (l : List α) (i : Nat) :
    Res.checked ((l.map g)[i]?) = (Res.checked (l[i]?)).mapR g := by
  rw [List.getElem?_map]
  cases l[i]? <;> rfl

/-- An outcome with its value and state replaced. -/
def Outcome.mapO {σ τ α β : Type} (s : σ → τ) (g : α → β) : Outcome σ α → Outcome τ β
  | .ok a x => .ok (g a) (s x)
  | .panic x => .panic (s x)
  | .ub => .ub

theorem Outcome.ofRes_mapO {σ τ α α' β β' : Type} {s : σ → τ} {g : α → α'} {h : β → β'} {x : σ} {y : τ}
    {r : Res α} {r' : Res α'} {k : α → Outcome σ β} {k' : α' → Outcome τ β'}
    (hr : r' = r.mapR g) (hy : y = s x) (hk : ∀ a, k' (g a) = (k a).mapO s h) :
    Outcome.ofRes y r' k' = (Outcome.ofRes x r k).mapO s h := by
  subst hr
  subst hy
  cases r with
  | ok a => exact hk a
  | panic => rfl
  | ub => rfl

theorem Outcome.ofRes_mapO_same {σ τ α β β' : Type} {s : σ → τ} {h : β → β'} {x : σ} {y : τ}
    {r : Res α} {k : α → Outcome σ β} {k' : α → Outcome τ β'}
    (hy : y = s x) (hk : ∀ a, k' a = (k a).mapO s h) :
    Outcome.ofRes y r k' = (Outcome.ofRes x r k).mapO s h := by
  subst hy
  cases r with
  | ok a => exact hk a
  | panic => rfl
  | ub => rfl

theorem Outcome.bind_mapO {σ τ α α' β β' : Type} {s : σ → τ} {g : α → α'} {h : β → β'}
    {o : Outcome σ α} {o' : Outcome τ α'} {k : α → σ → Outcome σ β} {k' : α' → τ → Outcome τ β'}
    (ho : o' = o.mapO s g) (hk : ∀ a x, k' (g a) (s x) = (k a x).mapO s h) :
    o'.bind k' = (o.bind k).mapO s h := by
  subst ho
  cases o with
  | ok a x => exact hk a x
  | panic x => rfl
  | ub => rfl

namespace CompSet

theorem insert_mapV (f : V → W) (s : CompSet V) (e : Entity) (v : V) :
    (s.mapV f).insert e (f v) = (s.insert e v).mapR fun p => (p.1.map f, p.2.mapV f) := by
  unfold insert
  refine Res.bind_mapR_same fun slot => ?_
  cases slot with
  | some sl =>
    refine Res.bind_mapR_same fun _ => ?_
    refine Res.bind_mapR (Res.unchecked_mapR f s.components sl.index) fun old => ?_
    simp [Res.mapR, mapV, List.map_set]
  | none =>
    refine Res.bind_mapR_same fun sp => ?_
    simp [Res.mapR, mapV]

theorem remove_mapV (f : V → W) (s : CompSet V) (e : Entity) :
    (s.mapV f).remove e = (s.remove e).mapR fun p => (p.1.map f, p.2.mapV f) := by
  unfold remove
  rw [show (s.mapV f).sparse = s.sparse from rfl]
  rcases s.sparse.remove e with ⟨_ | index, sparse⟩
  · rfl
  · refine Res.bind_mapR_same fun le => ?_
    refine Res.bind_mapR_same fun _ => ?_
    simp only [show (s.mapV f).entities = s.entities from rfl]
    split
    · refine Res.bind_mapR_same fun sp => ?_
      refine Res.bind_mapR (Res.unchecked_mapR f s.components _) fun c => ?_
      refine Res.bind_mapR (Res.unchecked_mapR f s.components _) fun l => ?_
      simp [Res.mapR, mapV, List.map_set, List.map_take]
    · refine Res.bind_mapR_same fun sp => ?_
      refine Res.bind_mapR (Res.unchecked_mapR f s.components _) fun c => ?_
      refine Res.bind_mapR (Res.unchecked_mapR f s.components _) fun l => ?_
      simp [Res.mapR, mapV, List.map_set, List.map_take]

theorem delete_mapV (f : V → W) (s : CompSet V) (e : Entity) :
    (s.mapV f).delete e = (s.delete e).mapR (mapV f) := by
  unfold delete
  rw [show (s.mapV f).sparse = s.sparse from rfl]
  rcases s.sparse.remove e with ⟨_ | index, sparse⟩
  · rfl
  · refine Res.bind_mapR_same fun le => ?_
    refine Res.bind_mapR_same fun _ => ?_
    simp only [show (s.mapV f).entities = s.entities from rfl]
    split
    · refine Res.bind_mapR_same fun sp => ?_
      refine Res.bind_mapR (Res.unchecked_mapR f s.components _) fun c => ?_
      refine Res.bind_mapR (Res.unchecked_mapR f s.components _) fun l => ?_
      simp [Res.mapR, mapV, List.map_set, List.map_take]
    · refine Res.bind_mapR_same fun sp => ?_
      refine Res.bind_mapR (Res.unchecked_mapR f s.components _) fun c => ?_
      refine Res.bind_mapR (Res.unchecked_mapR f s.components _) fun l => ?_
      simp [Res.mapR, mapV, List.map_set, List.map_take]

theorem get_mapV (f : V → W) (s : CompSet V) (e : Entity) :
    (s.mapV f).get e = (s.get e).mapR (Option.map f) := by
  unfold get
  rw [show (s.mapV f).sparse = s.sparse from rfl]
  cases s.sparse.get e with
  | none => rfl
  | some d => exact Res.bind_mapR (Res.unchecked_mapR f s.components d) fun v => rfl

theorem setMut_mapV (f : V → W) (s : CompSet V) (e : Entity) (v : V) :
    (s.mapV f).setMut e (f v) = (s.setMut e v).mapR fun p => (p.1, p.2.mapV f) := by
  unfold setMut
  rw [show (s.mapV f).sparse = s.sparse from rfl]
  cases s.sparse.get e with
  | none => rfl
  | some d =>
    refine Res.bind_mapR (Res.unchecked_mapR f s.components d) fun _ => ?_
    simp [Res.mapR, mapV, List.map_set]

theorem setAt_mapV (f : V → W) (s : CompSet V) (pos : Nat) (v : V) :
    (s.mapV f).setAt pos (f v) = (s.setAt pos v).mapR (mapV f) := by
  refine Res.bind_mapR (Res.checked_mapR f s.components pos) fun _ => ?_
  simp [Res.mapR, mapV, List.map_set]

theorem swap_mapV (f : V → W) (s : CompSet V) (a b : Nat) :
    (s.mapV f).swap a b = (s.swap a b).mapR (mapV f) := by
  refine Res.bind_mapR_same fun ea => ?_
  refine Res.bind_mapR_same fun eb => ?_
  refine Res.bind_mapR_same fun sp => ?_
  refine Res.bind_mapR (Res.unchecked_mapR f s.components _) fun c => ?_
  refine Res.bind_mapR (Res.unchecked_mapR f s.components _) fun l => ?_
  simp [Res.mapR, mapV, List.map_set]

end CompSet

/-- Sets and groups with the values replaced. -/
def Sets.mapV (f : V → W) (s : Sets V) : Sets W := (s.1.map (CompSet.mapV f), s.2)

theorem compRange_mapV (f : V → W) (comps : List (CompSet V)) (a b : Nat) :
    compRange (comps.map (CompSet.mapV f)) a b = (compRange comps a b).mapR (List.map (CompSet.mapV f)) := by
  unfold compRange
  rw [List.length_map]
  split <;> simp [Res.mapR, List.map_take, List.map_drop]

theorem getGroupStatus_mapV (f : V → W) (comps : List (CompSet V)) (n : Nat) (e : Entity) :
    getGroupStatus (comps.map (CompSet.mapV f)) n e = getGroupStatus comps n e := by
  cases comps with
  | nil => rfl
  | cons s ss =>
    simp only [List.map_cons, getGroupStatus, List.all_map]
    rfl

theorem swapTo_mapV (f : V → W) (s : CompSet V) (i sparse : Nat) :
    swapTo (s.mapV f) i sparse = (swapTo s i sparse).mapR (CompSet.mapV f) := by
  refine Res.bind_mapR_same fun d => ?_
  split
  · exact CompSet.swap_mapV f s _ _
  · rfl

theorem swapAllTo_mapV (f : V → W) (i sparse : Nat) (ss : List (CompSet V)) :
    swapAllTo i sparse (ss.map (CompSet.mapV f)) =
      (swapAllTo i sparse ss).mapR (List.map (CompSet.mapV f)) := by
  induction ss with
  | nil => rfl
  | cons s ss ih =>
    refine Res.bind_mapR (swapTo_mapV f s i sparse) fun s' => ?_
    exact Res.bind_mapR ih fun ss' => rfl

theorem swapRange_mapV (f : V → W) (comps : List (CompSet V)) (a b i sparse : Nat) :
    swapRange (comps.map (CompSet.mapV f)) a b i sparse =
      (swapRange comps a b i sparse).mapR (List.map (CompSet.mapV f)) := by
  refine Res.bind_mapR (compRange_mapV f comps a b) fun seg => ?_
  refine Res.bind_mapR (swapAllTo_mapV f i sparse seg) fun seg' => ?_
  simp [Res.mapR, List.map_take, List.map_drop]

theorem groupComponents_mapV (f : V → W) (comps : List (CompSet V)) (g : Group) (e : Entity) :
    groupComponents (comps.map (CompSet.mapV f)) g e =
      (groupComponents comps g e).mapR fun p => (p.1.map (CompSet.mapV f), p.2) :=
  Res.bind_mapR (swapRange_mapV f comps _ _ _ _) fun _ => rfl

theorem ungroupComponents_mapV (f : V → W) (comps : List (CompSet V)) (g : Group) (e : Entity) :
    ungroupComponents (comps.map (CompSet.mapV f)) g e =
      (ungroupComponents comps g e).mapR fun p => (p.1.map (CompSet.mapV f), p.2) := by
  unfold ungroupComponents
  split
  · rfl
  · exact Res.bind_mapR (swapRange_mapV f comps _ _ _ _) fun _ => rfl

theorem groupLoop_mapV (f : V → W) (e : Entity) (fuel : Nat) (mask : BitVec 64) (s : Sets V) :
    groupLoop e fuel mask (Sets.mapV f s) = (groupLoop e fuel mask s).mapR (Sets.mapV f) := by
  induction fuel generalizing mask s with
  | zero =>
    obtain ⟨comps, groups⟩ := s
    simp only [Sets.mapV]
    unfold groupLoop
    rcases bitNext mask with _ | ⟨i, m⟩ <;> rfl
  | succ fuel ih =>
    obtain ⟨comps, groups⟩ := s
    simp only [Sets.mapV]
    unfold groupLoop
    rcases bitNext mask with _ | ⟨i, m⟩
    · rfl
    refine Res.bind_mapR_same fun g => ?_
    refine Res.bind_mapR (compRange_mapV f comps _ _) fun seg => ?_
    rw [getGroupStatus_mapV]
    refine Res.bind_mapR_same fun st => ?_
    cases st with
    | incomplete => exact ih _ (comps, groups)
    | grouped => exact ih _ (comps, groups)
    | ungrouped =>
      exact Res.bind_mapR (groupComponents_mapV f comps g e) fun p => ih _ (p.1, groups.set i p.2)

theorem ungroupStep_mapV (f : V → W) (e : Entity) (i : Nat) (s : Sets V) :
    ungroupStep e i (Sets.mapV f s) = (ungroupStep e i s).mapR (Sets.mapV f) := by
  obtain ⟨comps, groups⟩ := s
  refine Res.bind_mapR_same fun g => ?_
  refine Res.bind_mapR (compRange_mapV f comps _ _) fun seg => ?_
  rw [getGroupStatus_mapV]
  refine Res.bind_mapR_same fun st => ?_
  cases st with
  | incomplete => rfl
  | ungrouped => rfl
  | grouped => exact Res.bind_mapR (ungroupComponents_mapV f comps g e) fun p => rfl

theorem ungroupLoop_mapV (f : V → W) (e : Entity) (fuel : Nat) (mask : BitVec 64) (s : Sets V) :
    ungroupLoop e fuel mask (Sets.mapV f s) = (ungroupLoop e fuel mask s).mapR (Sets.mapV f) := by
  induction fuel generalizing mask s with
  | zero =>
    unfold ungroupLoop
    rcases bitNextBack mask with _ | ⟨i, m⟩ <;> rfl
  | succ fuel ih =>
    unfold ungroupLoop
    rcases bitNextBack mask with _ | ⟨i, m⟩
    · rfl
    · exact Res.bind_mapR (ungroupStep_mapV f e i s) fun s' => ih m s'

theorem ungroupAllLoop_mapV (f : V → W) (e : Entity) (n : Nat) (s : Sets V) :
    ungroupAllLoop e n (Sets.mapV f s) = (ungroupAllLoop e n s).mapR (Sets.mapV f) := by
  induction n generalizing s with
  | zero => rfl
  | succ n ih => exact Res.bind_mapR (ungroupStep_mapV f e n s) fun s' => ih s'

namespace ComponentStorage

theorem register_mapV (f : V → W) (c : ComponentStorage V) (t : TypeId) :
    (c.mapV f).register t = ((c.register t).1, (c.register t).2.mapV f) := by
  unfold register
  rw [show (c.mapV f).meta? t = c.meta? t from rfl]
  cases c.meta? t with
  | some m => rfl
  | none => simp [mapV, CompSet.new, CompSet.mapV]

theorem deleteAll_mapV (f : V → W) (e : Entity) (ss : List (CompSet V)) :
    deleteAll e (ss.map (CompSet.mapV f)) = (deleteAll e ss).mapR (List.map (CompSet.mapV f)) := by
  induction ss with
  | nil => rfl
  | cons s ss ih =>
    refine Res.bind_mapR (CompSet.delete_mapV f s e) fun s' => ?_
    exact Res.bind_mapR ih fun ss' => rfl

theorem strip_mapV (f : V → W) (c : ComponentStorage V) (e : Entity) :
    (c.mapV f).strip e = (c.strip e).mapR (mapV f) := by
  refine Res.bind_mapR (ungroupAllLoop_mapV f e _ (c.components, c.groups)) fun p => ?_
  exact Res.bind_mapR (deleteAll_mapV f e p.1) fun ss => rfl

theorem clear_mapV (f : V → W) (c : ComponentStorage V) : (c.mapV f).clear = c.clear.mapV f := by
  simp [clear, mapV, CompSet.clear, CompSet.mapV, Function.comp_def]

/-- Named sets with the values replaced. -/
def mapSets (f : V → W) (l : List (TypeId × CompSet V)) : List (TypeId × CompSet W) :=
  l.map fun p => (p.1, p.2.mapV f)

/-- The state of the layout loops with the values replaced. -/
def mapBuilding (f : V → W) (b : Building V) : Building W := (b.1.mapV f, mapSets f b.2)

theorem takeSets_mapV (f : V → W) (md : List (TypeId × ComponentMetadata)) (comps : List (CompSet V)) :
    takeSets md (comps.map (CompSet.mapV f)) =
      (takeSets md comps).mapR fun p => (mapSets f p.1, p.2.map (CompSet.mapV f)) := by
  induction md generalizing comps with
  | nil => rfl
  | cons p md ih =>
    refine Res.bind_mapR (Res.checked_mapR (CompSet.mapV f) comps _) fun s => ?_
    refine Res.bind_mapR (g := fun q => (mapSets f q.1, q.2.map (CompSet.mapV f))) ?_ fun q => rfl
    rw [← ih, List.map_set]
    rfl

theorem extractSparseSets_mapV (f : V → W) (c : ComponentStorage V) :
    (c.mapV f).extractSparseSets = c.extractSparseSets.mapR fun p => (mapSets f p.1, p.2.mapV f) :=
  Res.bind_mapR (takeSets_mapV f c.metadata c.components) fun _ => rfl

theorem lookup_mapSets (f : V → W) (l : List (TypeId × CompSet V)) (t : TypeId) :
    (mapSets f l).lookup t = (l.lookup t).map (CompSet.mapV f) := by
  induction l with
  | nil => rfl
  | cons p l ih =>
    obtain ⟨t', s⟩ := p
    simp only [mapSets, List.map_cons, List.lookup_cons]
    cases t == t' with
    | true => rfl
    | false => exact ih

theorem removeSet_mapV (f : V → W) (l : List (TypeId × CompSet V)) (t : TypeId) :
    removeSet (mapSets f l) t = ((removeSet l t).1.map (CompSet.mapV f), mapSets f (removeSet l t).2) := by
  unfold removeSet
  rw [lookup_mapSets]
  simp [mapSets, List.filter_map, Function.comp_def]

theorem addComponents_mapV (f : V → W) (family : GroupFamily) (a b d : Nat) (n idx : Nat) (x : Building V) :
    addComponents family a b d idx n (mapBuilding f x) =
      (addComponents family a b d idx n x).mapO (mapBuilding f) id := by
  induction n generalizing idx x with
  | zero => rfl
  | succ n ih =>
    obtain ⟨c, sets⟩ := x
    simp only [mapBuilding, addComponents]
    rw [show (c.mapV f).components.length = c.components.length from List.length_map ..]
    refine Outcome.ofRes_mapO_same rfl fun p => ?_
    obtain ⟨t, m⟩ := p
    rw [← ih]
    simp only [removeSet_mapV, mapBuilding, mapV, List.map_append, List.map_cons, List.map_nil]
    congr 6
    cases (removeSet sets t).1 <;> rfl

theorem addGroups_mapV (f : V → W) (family : GroupFamily) (a b d : Nat) (l : List Nat) (prev : Nat)
    (x : Building V) :
    addGroups family a b d prev l (mapBuilding f x) =
      (addGroups family a b d prev l x).mapO (mapBuilding f) id := by
  induction l generalizing prev x with
  | nil => rfl
  | cons n l ih =>
    obtain ⟨c, sets⟩ := x
    refine Outcome.ofRes_mapO_same rfl fun g => ?_
    exact Outcome.bind_mapO (addComponents_mapV f family b _ d _ _ (⟨c.groups ++ [g], c.metadata, c.components⟩, sets))
      fun _ y => ih n y

theorem addFamilies_mapV (f : V → W) (fs : List GroupFamily) (x : Building V) :
    addFamilies fs (mapBuilding f x) = (addFamilies fs x).mapO (mapBuilding f) id := by
  induction fs generalizing x with
  | nil => rfl
  | cons g fs ih =>
    obtain ⟨c, sets⟩ := x
    simp only [mapBuilding, addFamilies]
    rw [show (c.mapV f).components.length = c.components.length from List.length_map ..]
    exact Outcome.bind_mapO (addGroups_mapV f g _ _ _ _ _ (c, sets)) fun _ y => ih y

theorem insertByRank_mapV (f : V → W) (rank : TypeId → Nat) (p : TypeId × CompSet V)
    (l : List (TypeId × CompSet V)) :
    insertByRank rank (p.1, p.2.mapV f) (mapSets f l) = mapSets f (insertByRank rank p l) := by
  induction l with
  | nil => rfl
  | cons q l ih =>
    simp only [mapSets, List.map_cons, insertByRank] at ih ⊢
    split
    · rfl
    · rw [ih]; rfl

theorem sortByRank_mapV (f : V → W) (rank : TypeId → Nat) (l : List (TypeId × CompSet V)) :
    sortByRank rank (mapSets f l) = mapSets f (sortByRank rank l) := by
  induction l with
  | nil => rfl
  | cons p l ih =>
    show insertByRank rank (p.1, p.2.mapV f) (sortByRank rank (mapSets f l)) = _
    rw [ih, insertByRank_mapV]
    rfl

theorem addUngrouped_mapV (f : V → W) (l : List (TypeId × CompSet V)) (c : ComponentStorage V) :
    addUngrouped (mapSets f l) (c.mapV f) = (addUngrouped l c).mapV f := by
  induction l generalizing c with
  | nil => rfl
  | cons p l ih =>
    simp only [addUngrouped]
    rw [← ih]
    simp [mapSets, addUngrouped, mapV]

theorem groupEntities_mapV (f : V → W) (mask : GroupMask) (es : List Entity) (s : Sets V) :
    groupEntities mask es (Sets.mapV f s) = (groupEntities mask es s).mapR (Sets.mapV f) := by
  induction es generalizing s with
  | nil => rfl
  | cons e es ih => exact Res.bind_mapR (groupLoop_mapV f e 64 mask s) fun s' => ih s'

theorem setLayout_mapV (f : V → W) (rank : TypeId → Nat) (c : ComponentStorage V) (l : GroupLayout)
    (es : List Entity) :
    (c.mapV f).setLayout rank l es = (c.setLayout rank l es).mapO (mapV f) id := by
  unfold setLayout
  rw [extractSparseSets_mapV]
  cases c.extractSparseSets with
  | panic => rfl
  | ub => rfl
  | ok p =>
    obtain ⟨sets, c₁⟩ := p
    simp only [Res.mapR]
    rw [show (c₁.mapV f, mapSets f sets) = mapBuilding f (c₁, sets) from rfl, addFamilies_mapV]
    rcases addFamilies l.families (c₁, sets) with ⟨_, c₂, sets₂⟩ | ⟨c₂, sets₂⟩ | _
    · simp only [Outcome.mapO, mapBuilding]
      rw [sortByRank_mapV, addUngrouped_mapV]
      generalize addUngrouped (sortByRank rank sets₂) c₂ = c₃
      rw [show (c₃.mapV f).groups = c₃.groups from rfl]
      cases GroupMask.fromTo 0 c₃.groups.length with
      | panic => rfl
      | ub => rfl
      | ok mask =>
        simp only
        rw [show ((c₃.mapV f).components, c₃.groups) = Sets.mapV f (c₃.components, c₃.groups) from rfl,
          groupEntities_mapV]
        cases groupEntities mask es (c₃.components, c₃.groups) <;> rfl
    · rfl
    · rfl

theorem insertEach_mapV (f : V → W) (e : Entity) (vs : List (TypeId × V)) (mask : GroupMask)
    (c : ComponentStorage V) :
    insertEach e (vs.map fun p => (p.1, f p.2)) mask (c.mapV f) =
      (insertEach e vs mask c).mapO (mapV f) id := by
  induction vs generalizing mask c with
  | nil => rfl
  | cons p vs ih =>
    obtain ⟨t, v⟩ := p
    simp only [List.map_cons, insertEach]
    rw [show (c.mapV f).meta? t = c.meta? t from rfl]
    cases c.meta? t with
    | none => rfl
    | some m =>
      refine Outcome.ofRes_mapO (Res.unchecked_mapR (CompSet.mapV f) c.components _) rfl fun s => ?_
      refine Outcome.ofRes_mapO (CompSet.insert_mapV f s e v) rfl fun q => ?_
      rw [← ih]
      simp [mapV, List.map_set]

theorem withMask_mapV (f : V → W) (c : ComponentStorage V) (mask : GroupMask) {g : Sets V → Res (Sets V)}
    {g' : Sets W → Res (Sets W)} (hg : ∀ s, g' (Sets.mapV f s) = (g s).mapR (Sets.mapV f)) :
    (c.mapV f).withMask mask g' = (c.withMask mask g).mapR (mapV f) := by
  unfold withMask
  split
  · rfl
  · exact Res.bind_mapR (hg (c.components, c.groups)) fun _ => rfl

theorem insert_mapV (f : V → W) (c : ComponentStorage V) (e : Entity) (vs : List (TypeId × V)) :
    (c.mapV f).insert e (vs.map fun p => (p.1, f p.2)) = (c.insert e vs).mapO (mapV f) id := by
  refine Outcome.bind_mapO (insertEach_mapV f e vs _ c) fun mask x => ?_
  exact Outcome.ofRes_mapO (withMask_mapV f x mask fun s => groupLoop_mapV f e 64 mask s) rfl fun _ => rfl

theorem lookupAll_mapV (f : V → W) (c : ComponentStorage V) (g : ComponentMetadata → GroupMask)
    (ts : List TypeId) : (c.mapV f).lookupAll g ts = c.lookupAll g ts := by
  induction ts with
  | nil => rfl
  | cons t ts ih =>
    simp only [lookupAll]
    rw [show (c.mapV f).meta? t = c.meta? t from rfl, ih]
    cases c.meta? t with
    | none => rfl
    | some m =>
      simp only [mapV, List.getElem?_map]
      cases c.components[m.storageIndex]? <;> rfl

theorem removeEach_mapV (f : V → W) (e : Entity) (is : List Nat) (c : ComponentStorage V) :
    removeEach e is (c.mapV f) =
      (removeEach e is c).mapR fun p => (p.1.map (Option.map f), p.2.mapV f) := by
  induction is generalizing c with
  | nil => rfl
  | cons i is ih =>
    refine Res.bind_mapR (Res.unchecked_mapR (CompSet.mapV f) c.components i) fun s => ?_
    refine Res.bind_mapR (CompSet.remove_mapV f s e) fun q => ?_
    refine Res.bind_mapR (g := fun p => (p.1.map (Option.map f), p.2.mapV f)) ?_ fun _ => rfl
    rw [← ih]
    simp [mapV, List.map_set]

theorem deleteEach_mapV (f : V → W) (e : Entity) (is : List Nat) (c : ComponentStorage V) :
    deleteEach e is (c.mapV f) = (deleteEach e is c).mapR (mapV f) := by
  induction is generalizing c with
  | nil => rfl
  | cons i is ih =>
    refine Res.bind_mapR (Res.unchecked_mapR (CompSet.mapV f) c.components i) fun s => ?_
    refine Res.bind_mapR (CompSet.delete_mapV f s e) fun q => ?_
    rw [← ih]
    simp [mapV, List.map_set]

theorem remove_mapV (f : V → W) (c : ComponentStorage V) (e : Entity) (ts : List TypeId) :
    (c.mapV f).remove e ts = (c.remove e ts).mapR fun p => (p.1.map (Option.map f), p.2.mapV f) := by
  unfold remove
  rw [lookupAll_mapV]
  refine Res.bind_mapR_same fun q => ?_
  refine Res.bind_mapR (withMask_mapV f c q.2 fun s => ungroupLoop_mapV f e 64 q.2 s) fun x => ?_
  exact removeEach_mapV f e q.1 x

theorem delete_mapV (f : V → W) (c : ComponentStorage V) (e : Entity) (ts : List TypeId) :
    (c.mapV f).delete e ts = (c.delete e ts).mapR (mapV f) := by
  unfold delete
  rw [lookupAll_mapV]
  refine Res.bind_mapR_same fun q => ?_
  refine Res.bind_mapR (withMask_mapV f c q.2 fun s => ungroupLoop_mapV f e 64 q.2 s) fun x => ?_
  exact deleteEach_mapV f e q.1 x

theorem insertAt_mapV (f : V → W) (e : Entity) (l : List (Nat × V)) (c : ComponentStorage V) :
    insertAt e (l.map fun p => (p.1, f p.2)) (c.mapV f) = (insertAt e l c).mapR (mapV f) := by
  induction l generalizing c with
  | nil => rfl
  | cons p l ih =>
    obtain ⟨i, v⟩ := p
    refine Res.bind_mapR (Res.unchecked_mapR (CompSet.mapV f) c.components i) fun s => ?_
    refine Res.bind_mapR (CompSet.insert_mapV f s e v) fun q => ?_
    rw [← ih]
    simp [mapV, List.map_set]

end ComponentStorage

namespace World

theorem setLayout_mapV (f : V → W) (rank : TypeId → Nat) (w : World V) (l : GroupLayout) :
    (w.mapV f).setLayout rank l = (w.setLayout rank l).mapO (mapV f) id := by
  unfold setLayout
  rw [show (w.mapV f).components.setLayout rank l (w.mapV f).entities.asSlice = _ from
    ComponentStorage.setLayout_mapV f rank w.components l w.entities.asSlice]
  cases w.components.setLayout rank l w.entities.asSlice <;> rfl

theorem insertSet_mapV (f : V → W) (w : World V) (e : Entity) (vs : List (TypeId × V)) :
    (w.mapV f).insertSet e (vs.map fun p => (p.1, f p.2)) = (w.insertSet e vs).mapO (mapV f) id := by
  unfold insertSet
  rw [show (w.mapV f).components.insert e _ = _ from ComponentStorage.insert_mapV f w.components e vs]
  cases w.components.insert e vs <;> rfl

theorem create_mapV (f : V → W) (w : World V) (vs : List (TypeId × V)) :
    (w.mapV f).create (vs.map fun p => (p.1, f p.2)) = (w.create vs).mapO (mapV f) id := by
  refine Outcome.ofRes_mapO_same rfl fun p => ?_
  exact Outcome.bind_mapO (insertSet_mapV f ⟨p.2, w.components⟩ p.1 vs) fun _ _ => rfl

theorem extendEach_mapV (f : V → W) (idxs : List Nat) (items : List (List V)) (w : World V) :
    extendEach idxs (items.map (List.map f)) (w.mapV f) =
      (extendEach idxs items w).mapO (mapV f) id := by
  induction items generalizing w with
  | nil => rfl
  | cons vs items ih =>
    refine Outcome.ofRes_mapO_same rfl fun p => ?_
    refine Outcome.ofRes_mapO (g := ComponentStorage.mapV f) ?_ rfl fun c => ih ⟨p.2, c⟩
    show (w.components.mapV f).insertAt p.1 (idxs.zip (vs.map f)) = _
    rw [List.zip_map_right]
    exact ComponentStorage.insertAt_mapV f p.1 (idxs.zip vs) w.components

theorem extend_mapV (f : V → W) (w : World V) (ts : List TypeId) (it : Items V) :
    (w.mapV f).extend ts ⟨it.items.map (List.map f), it.thenPanics⟩ =
      (w.extend ts it).mapO (mapV f) id := by
  unfold extend
  rw [show (w.mapV f).components.lookupAll _ ts = _ from ComponentStorage.lookupAll_mapV f w.components _ ts]
  refine Outcome.ofRes_mapO_same rfl fun q => ?_
  refine Outcome.bind_mapO (extendEach_mapV f q.1 it.items w) fun _ x => ?_
  simp only [show (x.mapV f).entities = x.entities from rfl, show (w.mapV f).entities = w.entities from rfl]
  split
  · rfl
  split
  · rfl
  exact Outcome.ofRes_mapO (ComponentStorage.withMask_mapV f x.components q.2
    fun s => ComponentStorage.groupEntities_mapV f q.2 _ s) rfl fun _ => rfl

theorem destroy_mapV (f : V → W) (w : World V) (e : Entity) :
    (w.mapV f).destroy e = (w.destroy e).mapR fun p => (p.1, p.2.mapV f) := by
  refine Res.bind_mapR_same fun p => ?_
  obtain ⟨b, es⟩ := p
  cases b with
  | false => rfl
  | true => exact Res.bind_mapR (ComponentStorage.strip_mapV f w.components e) fun _ => rfl

theorem insert_mapV (f : V → W) (w : World V) (e : Entity) (vs : List (TypeId × V)) :
    (w.mapV f).insert e (vs.map fun p => (p.1, f p.2)) = (w.insert e vs).mapO (mapV f) id := by
  unfold insert
  rw [show (w.mapV f).entities = w.entities from rfl]
  split
  · rfl
  · exact Outcome.bind_mapO (insertSet_mapV f w e vs) fun _ _ => rfl

theorem writeView_mapV (f : V → W) (w : World V) (t : TypeId) (e : Entity) (v : V) :
    (w.mapV f).writeView t e (f v) = (w.writeView t e v).mapR fun p => (p.1, p.2.mapV f) := by
  unfold writeView
  rw [show (w.mapV f).components.meta? t = w.components.meta? t from rfl]
  cases w.components.meta? t with
  | none => rfl
  | some m =>
    refine Res.bind_mapR (Res.unchecked_mapR (CompSet.mapV f) w.components.components _) fun s => ?_
    refine Res.bind_mapR (CompSet.setMut_mapV f s e v) fun q => ?_
    simp [Res.mapR, mapV, ComponentStorage.mapV, List.map_set]

theorem writeAt_mapV (f : V → W) (w : World V) (t : TypeId) (pos : Nat) (v : V) :
    (w.mapV f).writeAt t pos (f v) = (w.writeAt t pos v).mapR (mapV f) := by
  unfold writeAt
  rw [show (w.mapV f).components.meta? t = w.components.meta? t from rfl]
  cases w.components.meta? t with
  | none => rfl
  | some m =>
    refine Res.bind_mapR (Res.unchecked_mapR (CompSet.mapV f) w.components.components _) fun s => ?_
    refine Res.bind_mapR (CompSet.setAt_mapV f s pos v) fun q => ?_
    simp [Res.mapR, mapV, ComponentStorage.mapV, List.map_set]

theorem borrow_mapV (f : V → W) (w : World V) (t : TypeId) :
    (w.mapV f).borrow t = (w.borrow t).mapR (CompSet.mapV f) := by
  unfold borrow
  rw [show (w.mapV f).components.meta? t = w.components.meta? t from rfl]
  cases w.components.meta? t with
  | none => rfl
  | some m => exact Res.unchecked_mapR (CompSet.mapV f) w.components.components _

end World

theorem retRes_mapV {α α' : Type} (f : V → W) (w : World V) (g : α → α') {r : Res α} {r' : Res α'}
    {k : α → Ret V × World V} {k' : α' → Ret W × World W} (hr : r' = r.mapR g)
    (hk : ∀ a, k' (g a) = ((k a).1.mapV f, (k a).2.mapV f)) :
    retRes (w.mapV f) r' k' = (retRes w r k).map fun p => (p.1.mapV f, p.2.mapV f) := by
  subst hr
  cases r with
  | ok a => exact congrArg some (hk a)
  | panic => rfl
  | ub => rfl

theorem retOutcome_mapV {α : Type} (f : V → W) (made : List Entity) {o : Outcome (World V) α}
    {o' : Outcome (World W) α} {k : α → Ret V} {k' : α → Ret W} (ho : o' = o.mapO (World.mapV f) id)
    (hk : ∀ a, k' a = (k a).mapV f) :
    retOutcome made o' k' = (retOutcome made o k).map fun p => (p.1.mapV f, p.2.mapV f) := by
  subst ho
  cases o with
  | ok a w => simp [retOutcome, Outcome.mapO, hk]
  | panic w => rfl
  | ub => rfl

/-- One call commutes with replacing the values. -/
theorem step_mapV (f : V → W) (w : World V) (op : Op V) :
    step (w.mapV f) (op.mapV f) = (step w op).map fun p => (p.1.mapV f, p.2.mapV f) := by
  cases op with
  | register t =>
    simp only [Op.mapV, step, World.register]
    rw [show (w.mapV f).components.register t = _ from ComponentStorage.register_mapV f w.components t]
    rfl
  | setLayout rank gs => exact retOutcome_mapV f [] (World.setLayout_mapV f rank w _) fun _ => rfl
  | create vs => exact retOutcome_mapV f _ (World.create_mapV f w vs) fun _ => rfl
  | extend ts it =>
    simp only [Op.mapV, step]
    rw [show extendMade (w.mapV f) ts ⟨it.items.map (List.map f), it.thenPanics⟩ = extendMade w ts it by
      unfold extendMade
      rw [show (w.mapV f).components.lookupAll _ ts = _ from
        ComponentStorage.lookupAll_mapV f w.components _ ts, List.length_map]
      rfl]
    exact retOutcome_mapV f _ (World.extend_mapV f w ts it) fun _ => rfl
  | destroy e => exact retRes_mapV f w _ (World.destroy_mapV f w e) fun _ => rfl
  | createAtomic =>
    refine retRes_mapV f w (fun p : Entity × World V => (p.1, p.2.mapV f)) ?_ fun _ => rfl
    exact Res.bind_mapR_same fun _ => rfl
  | maintain =>
    refine retRes_mapV f w (World.mapV f) ?_ fun _ => rfl
    exact Res.bind_mapR_same fun _ => rfl
  | insert e vs => exact retOutcome_mapV f _ (World.insert_mapV f w e vs) fun _ => rfl
  | remove e ts =>
    refine retRes_mapV f w (fun p : List (Option V) × World V => (p.1.map (Option.map f), p.2.mapV f)) ?_
      fun _ => rfl
    exact Res.bind_mapR (ComponentStorage.remove_mapV f w.components e ts) fun _ => rfl
  | delete e ts =>
    refine retRes_mapV f w (World.mapV f) ?_ fun _ => rfl
    exact Res.bind_mapR (ComponentStorage.delete_mapV f w.components e ts) fun _ => rfl
  | clear =>
    refine retRes_mapV f w (World.mapV f) ?_ fun _ => rfl
    refine Res.bind_mapR_same fun es => ?_
    show Res.ok (⟨es, (w.components.mapV f).clear⟩ : World W) = _
    rw [ComponentStorage.clear_mapV]
    rfl
  | reset =>
    show some (Ret.unit, (⟨w.entities.reset, (w.components.mapV f).clear⟩ : World W)) = _
    rw [ComponentStorage.clear_mapV]
    rfl
  | write t e v => exact retRes_mapV f w _ (World.writeView_mapV f w t e v) fun _ => rfl
  | writeAt t pos v => exact retRes_mapV f w _ (World.writeAt_mapV f w t pos v) fun _ => rfl

end Sparsey
