import Verif.Proofs.Indexes

/-!
Every property of component sets that the operations on sets keep holds of all sets of every reachable world
(`reach_sets`). No assumption about the history is made: panics are included.
-/

set_option autoImplicit false
set_option linter.unusedSimpArgs false

namespace Sparsey
variable {V : Type}

/-- The operations on sets keep `P`, as long as only entities with an index below `N` are inserted. -/
structure StableTo (N : Nat) (P : CompSet V → Prop) : Prop where
  new : P CompSet.new
  insert : ∀ {s s' : CompSet V} {e : Entity} {v : V} {o : Option V}, P s → e.index < N →
    s.insert e v = .ok (o, s') → P s'
  remove : ∀ {s s' : CompSet V} {e : Entity} {o : Option V}, P s → s.remove e = .ok (o, s') → P s'
  delete : ∀ {s s' : CompSet V} {e : Entity}, P s → s.delete e = .ok s' → P s'
  setAt : ∀ {s s' : CompSet V} {pos : Nat} {v : V}, P s → s.setAt pos v = .ok s' → P s'
  setMut : ∀ {s s' : CompSet V} {e : Entity} {v : V} {b : Bool}, P s → s.setMut e v = .ok (b, s') → P s'
  swap : ∀ {s s' : CompSet V} {a b : Nat}, P s → s.swap a b = .ok s' → P s'
  clear : ∀ {s : CompSet V}, P s → P s.clear

/-- The operations on sets keep `P`. -/
abbrev Stable (P : CompSet V → Prop) : Prop := StableTo u32Size P

/-- All sets of a list satisfy `P`. -/
def AllSets (P : CompSet V → Prop) (l : List (CompSet V)) : Prop := ∀ s ∈ l, P s

namespace AllSets
variable {P : CompSet V → Prop}

theorem set {l : List (CompSet V)} (h : AllSets P l) {s : CompSet V} (hs : P s) (i : Nat) : AllSets P (l.set i s) := by
  intro x hx
  rcases List.mem_or_eq_of_mem_set hx with hx | rfl
  · exact h x hx
  · exact hs

theorem append {l l' : List (CompSet V)} (h : AllSets P l) (h' : AllSets P l') : AllSets P (l ++ l') := by
  intro x hx
  rcases List.mem_append.1 hx with hx | hx
  · exact h x hx
  · exact h' x hx

theorem single {s : CompSet V} (h : P s) : AllSets P [s] := by
  intro x hx
  rw [List.mem_singleton] at hx
  subst hx
  exact h

theorem at_unchecked {l : List (CompSet V)} (h : AllSets P l) {i : Nat} {s : CompSet V}
    (hs : Res.unchecked (l[i]?) = .ok s) : P s := h s (List.mem_of_getElem? (Res.unchecked_ok hs))

end AllSets

namespace StableTo
variable {P : CompSet V → Prop}

theorem swapTo {N : Nat} (h : StableTo N P) {s s' : CompSet V} {q x : Nat} (hs : P s) (hr : Sparsey.swapTo s q x = .ok s') : P s' := by
  unfold Sparsey.swapTo at hr
  obtain ⟨d, _, hr⟩ := Res.bind_ok' hr
  by_cases hd : d ≠ q
  · rw [if_pos hd] at hr
    exact h.swap hs hr
  · rw [if_neg hd] at hr
    cases hr
    exact hs

theorem swapAllTo {N : Nat} (h : StableTo N P) {q x : Nat} : ∀ {l l' : List (CompSet V)}, AllSets P l →
    Sparsey.swapAllTo q x l = .ok l' → AllSets P l'
  | [], l', hl, hr => by cases hr; exact hl
  | s :: ss, l', hl, hr => by
    obtain ⟨s1, h1, hr⟩ := Res.bind_ok' hr
    obtain ⟨ss1, h2, hr⟩ := Res.bind_ok' hr
    cases hr
    have h3 := h.swapTo (hl s (.head _)) h1
    have h4 := h.swapAllTo (fun s hs => hl s (.tail _ hs)) h2
    intro x hx
    rcases List.mem_cons.1 hx with rfl | hx
    · exact h3
    · exact h4 x hx

theorem swapRange {N : Nat} (h : StableTo N P) {l l' : List (CompSet V)} {a b q x : Nat} (hl : AllSets P l)
    (hr : Sparsey.swapRange l a b q x = .ok l') : AllSets P l' := by
  unfold Sparsey.swapRange at hr
  obtain ⟨seg, h1, hr⟩ := Res.bind_ok' hr
  obtain ⟨seg', h2, hr⟩ := Res.bind_ok' hr
  cases hr
  have hseg : AllSets P seg := by
    unfold compRange at h1
    split at h1
    · cases h1
      exact fun s hs => hl s (List.mem_of_mem_drop (List.mem_of_mem_take hs))
    · cases h1
  exact ((AllSets.append (fun s hs => hl s (List.mem_of_mem_take hs)) (h.swapAllTo hseg h2)).append
    (fun s hs => hl s (List.mem_of_mem_drop hs)))

theorem groupComponents {N : Nat} (h : StableTo N P) {l l' : List (CompSet V)} {g g' : Group} {e : Entity} (hl : AllSets P l)
    (hr : Sparsey.groupComponents l g e = .ok (l', g')) : AllSets P l' := by
  unfold Sparsey.groupComponents at hr
  obtain ⟨l1, h1, hr⟩ := Res.bind_ok' hr
  cases hr
  exact h.swapRange hl h1

theorem ungroupComponents {N : Nat} (h : StableTo N P) {l l' : List (CompSet V)} {g g' : Group} {e : Entity} (hl : AllSets P l)
    (hr : Sparsey.ungroupComponents l g e = .ok (l', g')) : AllSets P l' := by
  unfold Sparsey.ungroupComponents at hr
  split at hr
  · cases hr
  · obtain ⟨l1, h1, hr⟩ := Res.bind_ok' hr
    cases hr
    exact h.swapRange hl h1

theorem groupLoop {N : Nat} (h : StableTo N P) {e : Entity} : ∀ (fuel : Nat) (m : BitVec 64) (s s' : Sets V), AllSets P s.1 →
    Sparsey.groupLoop e fuel m s = .ok s' → AllSets P s'.1 := by
  intro fuel
  induction fuel with
  | zero =>
    intro m s s' hs hr
    obtain ⟨comps, gs⟩ := s
    unfold Sparsey.groupLoop at hr
    split at hr
    · cases hr; exact hs
    · cases hr
  | succ n ih =>
    intro m s s' hs hr
    obtain ⟨comps, gs⟩ := s
    unfold Sparsey.groupLoop at hr
    split at hr
    · cases hr; exact hs
    · simp only at hr
      obtain ⟨g, _, hr⟩ := Res.bind_ok' hr
      obtain ⟨seg, _, hr⟩ := Res.bind_ok' hr
      obtain ⟨st, _, hr⟩ := Res.bind_ok' hr
      cases st with
      | incomplete => exact ih _ _ _ hs hr
      | grouped => exact ih _ _ _ hs hr
      | ungrouped =>
        obtain ⟨⟨comps', g'⟩, h1, hr⟩ := Res.bind_ok' hr
        exact ih _ (comps', _) _ (h.groupComponents hs h1) hr

theorem ungroupStep {N : Nat} (h : StableTo N P) {e : Entity} {i : Nat} {s s' : Sets V} (hs : AllSets P s.1)
    (hr : Sparsey.ungroupStep e i s = .ok s') : AllSets P s'.1 := by
  obtain ⟨comps, gs⟩ := s
  unfold Sparsey.ungroupStep at hr
  obtain ⟨g, _, hr⟩ := Res.bind_ok' hr
  obtain ⟨seg, _, hr⟩ := Res.bind_ok' hr
  obtain ⟨st, _, hr⟩ := Res.bind_ok' hr
  cases st with
  | incomplete => cases hr; exact hs
  | ungrouped => cases hr; exact hs
  | grouped =>
    obtain ⟨⟨comps', g'⟩, h1, hr⟩ := Res.bind_ok' hr
    cases hr
    exact h.ungroupComponents hs h1

theorem ungroupLoop {N : Nat} (h : StableTo N P) {e : Entity} : ∀ (fuel : Nat) (m : BitVec 64) (s s' : Sets V), AllSets P s.1 →
    Sparsey.ungroupLoop e fuel m s = .ok s' → AllSets P s'.1 := by
  intro fuel
  induction fuel with
  | zero =>
    intro m s s' hs hr
    unfold Sparsey.ungroupLoop at hr
    split at hr
    · cases hr; exact hs
    · cases hr
  | succ n ih =>
    intro m s s' hs hr
    unfold Sparsey.ungroupLoop at hr
    split at hr
    · cases hr; exact hs
    · simp only at hr
      obtain ⟨s1, h1, hr⟩ := Res.bind_ok' hr
      exact ih _ _ _ (h.ungroupStep hs h1) hr

theorem ungroupAllLoop {N : Nat} (h : StableTo N P) {e : Entity} : ∀ (n : Nat) (s s' : Sets V), AllSets P s.1 →
    Sparsey.ungroupAllLoop e n s = .ok s' → AllSets P s'.1
  | 0, s, s', hs, hr => by cases hr; exact hs
  | n + 1, s, s', hs, hr => by
    obtain ⟨s1, h1, hr⟩ := Res.bind_ok' hr
    exact h.ungroupAllLoop n _ _ (h.ungroupStep hs h1) hr

theorem groupEntities {N : Nat} (h : StableTo N P) {m : GroupMask} : ∀ (es : List Entity) (s s' : Sets V), AllSets P s.1 →
    ComponentStorage.groupEntities m es s = .ok s' → AllSets P s'.1
  | [], s, s', hs, hr => by cases hr; exact hs
  | e :: es, s, s', hs, hr => by
    obtain ⟨s1, h1, hr⟩ := Res.bind_ok' hr
    exact h.groupEntities es _ _ (h.groupLoop _ _ _ _ hs h1) hr

theorem withMask {c c' : ComponentStorage V} {m : GroupMask} {f : Sets V → Res (Sets V)}
    (hf : ∀ s s', AllSets P s.1 → f s = .ok s' → AllSets P s'.1) (hc : AllSets P c.components)
    (hr : c.withMask m f = .ok c') : AllSets P c'.components := by
  unfold ComponentStorage.withMask at hr
  split at hr
  · cases hr; exact hc
  · obtain ⟨⟨comps, gs⟩, h1, hr⟩ := Res.bind_ok' hr
    cases hr
    exact hf (c.components, c.groups) _ hc h1

theorem insertEach {N : Nat} (h : StableTo N P) {e : Entity} (he : e.index < N) : ∀ (vs : List (TypeId × V)) (m : GroupMask)
    (c : ComponentStorage V), AllSets P c.components →
    (ComponentStorage.insertEach e vs m c).Leaves (fun c => AllSets P c.components)
  | [], _, c, hc => hc
  | (t, v) :: vs, m, c, hc => by
    rw [ComponentStorage.insertEach]
    split
    · exact hc
    · refine Outcome.Leaves.ofRes hc fun s hs => Outcome.Leaves.ofRes hc fun p hp => ?_
      obtain ⟨o, s'⟩ := p
      exact h.insertEach he vs _ _ (hc.set (h.insert (hc.at_unchecked hs) he hp) _)

theorem insertComps {N : Nat} (h : StableTo N P) {e : Entity} (he : e.index < N) (vs : List (TypeId × V))
    {c : ComponentStorage V} (hc : AllSets P c.components) :
    (c.insert e vs).Leaves (fun c => AllSets P c.components) := by
  unfold ComponentStorage.insert
  refine Outcome.Leaves.bind (h.insertEach he vs _ c hc) fun m c' hc' => ?_
  refine Outcome.Leaves.ofRes hc' fun c'' hw => ?_
  exact withMask (fun s s' hs hr => h.groupLoop _ _ _ _ hs hr) hc' hw

theorem removeEach {N : Nat} (h : StableTo N P) {e : Entity} : ∀ (is : List Nat) {c c' : ComponentStorage V} {vs : List (Option V)},
    AllSets P c.components → ComponentStorage.removeEach e is c = .ok (vs, c') → AllSets P c'.components
  | [], c, c', _, hc, hr => by cases hr; exact hc
  | i :: is, c, c', _, hc, hr => by
    obtain ⟨s, hs, hr⟩ := Res.bind_ok' hr
    obtain ⟨⟨v, s'⟩, hs', hr⟩ := Res.bind_ok' hr
    obtain ⟨⟨vs, c1⟩, h1, hr⟩ := Res.bind_ok' hr
    cases hr
    exact h.removeEach is (c := { c with components := c.components.set i s' })
      (hc.set (h.remove (hc.at_unchecked hs) hs') _) h1

theorem deleteEach {N : Nat} (h : StableTo N P) {e : Entity} : ∀ (is : List Nat) {c c' : ComponentStorage V},
    AllSets P c.components → ComponentStorage.deleteEach e is c = .ok c' → AllSets P c'.components
  | [], c, c', hc, hr => by cases hr; exact hc
  | i :: is, c, c', hc, hr => by
    obtain ⟨s, hs, hr⟩ := Res.bind_ok' hr
    obtain ⟨s', hs', hr⟩ := Res.bind_ok' hr
    exact h.deleteEach is (c := { c with components := c.components.set i s' })
      (hc.set (h.delete (hc.at_unchecked hs) hs') _) hr

theorem insertAt {N : Nat} (h : StableTo N P) {e : Entity} (he : e.index < N) : ∀ (l : List (Nat × V))
    {c c' : ComponentStorage V}, AllSets P c.components → ComponentStorage.insertAt e l c = .ok c' →
    AllSets P c'.components
  | [], c, c', hc, hr => by cases hr; exact hc
  | (i, v) :: l, c, c', hc, hr => by
    obtain ⟨s, hs, hr⟩ := Res.bind_ok' hr
    obtain ⟨⟨_, s'⟩, hs', hr⟩ := Res.bind_ok' hr
    exact h.insertAt he l (c := { c with components := c.components.set i s' })
      (hc.set (h.insert (hc.at_unchecked hs) he hs') _) hr

theorem deleteAll {N : Nat} (h : StableTo N P) {e : Entity} : ∀ {l l' : List (CompSet V)}, AllSets P l →
    ComponentStorage.deleteAll e l = .ok l' → AllSets P l'
  | [], l', hl, hr => by cases hr; exact hl
  | s :: ss, l', hl, hr => by
    obtain ⟨s', h1, hr⟩ := Res.bind_ok' hr
    obtain ⟨ss', h2, hr⟩ := Res.bind_ok' hr
    cases hr
    have h3 := h.delete (hl s (.head _)) h1
    have h4 := h.deleteAll (fun s hs => hl s (.tail _ hs)) h2
    intro x hx
    rcases List.mem_cons.1 hx with rfl | hx
    · exact h3
    · exact h4 x hx

theorem strip {N : Nat} (h : StableTo N P) {c c' : ComponentStorage V} {e : Entity} (hc : AllSets P c.components)
    (hr : c.strip e = .ok c') : AllSets P c'.components := by
  unfold ComponentStorage.strip at hr
  obtain ⟨⟨comps, gs⟩, h1, hr⟩ := Res.bind_ok' hr
  obtain ⟨comps', h2, hr⟩ := Res.bind_ok' hr
  cases hr
  exact h.deleteAll (h.ungroupAllLoop _ _ _ hc h1) h2

theorem clearAll {N : Nat} (h : StableTo N P) {c : ComponentStorage V} (hc : AllSets P c.components) :
    AllSets P c.clear.components := by
  intro s hs
  obtain ⟨s', hs', rfl⟩ := List.mem_map.1 hs
  exact h.clear (hc s' hs')

/-! ### `set_layout` -/

/-- All sets, those still to be placed included. -/
def Built (P : CompSet V → Prop) (b : ComponentStorage.Building V) : Prop := AllSets P b.1.components ∧ ∀ p ∈ b.2, P p.2

theorem takeSets {N : Nat} (h : StableTo N P) : ∀ (md : List (TypeId × ComponentMetadata)) {comps comps' : List (CompSet V)}
    {sets : List (TypeId × CompSet V)}, AllSets P comps → ComponentStorage.takeSets md comps = .ok (sets, comps') →
    AllSets P comps' ∧ ∀ p ∈ sets, P p.2
  | [], _, _, _, hc, hr => by cases hr; exact ⟨hc, by simp⟩
  | (t, m) :: md, comps, comps', _, hc, hr => by
    obtain ⟨s, hs, hr⟩ := Res.bind_ok' hr
    obtain ⟨⟨sets, c1⟩, h1, hr⟩ := Res.bind_ok' hr
    cases hr
    have hs : P s := by
      cases hx : comps[m.storageIndex]? with
      | none => rw [hx] at hs; cases hs
      | some s' =>
        rw [hx] at hs
        cases hs
        exact hc s (List.mem_of_getElem? hx)
    obtain ⟨h2, h3⟩ := h.takeSets md (hc.set h.new _) h1
    refine ⟨h2, fun p hp => ?_⟩
    rcases List.mem_cons.1 hp with rfl | hp
    · exact hs
    · exact h3 p hp

theorem addComponents {N : Nat} (h : StableTo N P) {f : GroupFamily} {a b c : Nat} : ∀ (n idx : Nat) (x : ComponentStorage.Building V), Built P x →
    (ComponentStorage.addComponents f a b c idx n x).Leaves (Built P)
  | 0, _, x, hx => hx
  | n + 1, idx, (st, sets), hx => by
    rw [ComponentStorage.addComponents]
    refine Outcome.Leaves.ofRes hx fun p _ => ?_
    obtain ⟨t, m⟩ := p
    refine h.addComponents n _ _ ⟨hx.1.append (AllSets.single ?_), fun p hp => hx.2 p (List.mem_of_mem_filter hp)⟩
    show P ((sets.lookup t).getD CompSet.new)
    cases hl : sets.lookup t with
    | none => exact h.new
    | some s =>
      obtain ⟨l1, l2, he, _⟩ := List.lookup_eq_some_iff.1 hl
      exact hx.2 (t, s) (by simp [he])

theorem addGroups {N : Nat} (h : StableTo N P) {f : GroupFamily} {a b c : Nat} : ∀ (l : List Nat) (prev : Nat) (x : ComponentStorage.Building V),
    Built P x → (ComponentStorage.addGroups f a b c prev l x).Leaves (Built P)
  | [], _, x, hx => hx
  | n :: l, prev, (st, sets), hx => by
    rw [ComponentStorage.addGroups]
    refine Outcome.Leaves.ofRes hx fun g _ => ?_
    exact Outcome.Leaves.bind (h.addComponents _ _ _ hx) fun _ y hy => h.addGroups l n y hy

theorem addFamilies {N : Nat} (h : StableTo N P) : ∀ (fs : List GroupFamily) (x : ComponentStorage.Building V), Built P x →
    (ComponentStorage.addFamilies fs x).Leaves (Built P)
  | [], x, hx => hx
  | f :: fs, (c, sets), hx => by
    rw [ComponentStorage.addFamilies]
    exact Outcome.Leaves.bind (h.addGroups _ _ _ hx) fun _ y hy => h.addFamilies fs y hy

theorem addUngrouped : ∀ (l : List (TypeId × CompSet V)) (c : ComponentStorage V), AllSets P c.components →
    (∀ p ∈ l, P p.2) → AllSets P (ComponentStorage.addUngrouped l c).components
  | [], c, hc, _ => hc
  | (t, s) :: l, c, hc, hl => by
    rw [ComponentStorage.addUngrouped]
    exact addUngrouped l _ (hc.append (AllSets.single (hl (t, s) (.head _)))) fun p hp => hl p (.tail _ hp)

theorem setLayout {N : Nat} (h : StableTo N P) (rank : TypeId → Nat) {c : ComponentStorage V} (l : GroupLayout) (es : List Entity)
    (hc : AllSets P c.components) : (c.setLayout rank l es).Leaves (fun c => AllSets P c.components) := by
  unfold ComponentStorage.setLayout
  cases h1 : c.extractSparseSets with
  | panic => exact hc
  | ub => trivial
  | ok p =>
    obtain ⟨sets, c1⟩ := p
    unfold ComponentStorage.extractSparseSets at h1
    obtain ⟨⟨sets', comps⟩, h2, h1⟩ := Res.bind_ok' h1
    cases h1
    obtain ⟨h3, h4⟩ := h.takeSets _ hc h2
    have h5 := h.addFamilies l.families ((⟨[], [], comps⟩, sets) : ComponentStorage.Building V) ⟨h3, h4⟩
    simp only
    cases hf : ComponentStorage.addFamilies l.families ((⟨[], [], comps⟩, sets) : ComponentStorage.Building V) with
    | ub => trivial
    | panic b => rw [hf] at h5; exact h5.1
    | ok u b =>
      obtain ⟨c2, sets2⟩ := b
      rw [hf] at h5
      have h6 : AllSets P (ComponentStorage.addUngrouped (ComponentStorage.sortByRank rank sets2) c2).components :=
        addUngrouped _ _ h5.1 fun p hp => h5.2 p ((sortByRank_perm rank _).mem_iff.1 hp)
      simp only
      generalize ComponentStorage.addUngrouped (ComponentStorage.sortByRank rank sets2) c2 = c3 at h6 ⊢
      cases hm : GroupMask.fromTo 0 c3.groups.length with
      | panic => exact h6
      | ub => trivial
      | ok mask =>
        simp only
        cases hg : ComponentStorage.groupEntities mask es (c3.components, c3.groups) with
        | panic => exact h6
        | ub => trivial
        | ok p => exact h.groupEntities es _ _ h6 hg

end StableTo

namespace Stable
variable {P : CompSet V → Prop}

export StableTo (withMask addUngrouped Built)

/-! ### Calls on a world -/

/-- Entities in range and all sets satisfy `P`. -/
structure World (P : CompSet V → Prop) (w : Sparsey.World V) : Prop where
  ents : EntOk w.entities
  sets : AllSets P w.components.components

theorem extendEach (h : Stable P) {idxs : List Nat} : ∀ (items : List (List V)) (w : Sparsey.World V), World P w →
    (World.extendEach idxs items w).Leaves (World P)
  | [], _, hw => hw
  | vs :: items, w, hw => by
    rw [World.extendEach]
    refine Outcome.Leaves.ofRes hw fun p hp => ?_
    obtain ⟨e, es⟩ := p
    rcases hw.ents.create with h1 | ⟨e', es', h1, h2, h3⟩
    · rw [h1] at hp; cases hp
    · rw [h1] at hp
      cases hp
      exact Outcome.Leaves.ofRes ⟨h3, hw.sets⟩ fun c hc => h.extendEach items _ ⟨h3, h.insertAt h2 _ hw.sets hc⟩

theorem extend (h : Stable P) (w : Sparsey.World V) (ts : List TypeId) (it : Items V) (hw : World P w) :
    (w.extend ts it).Leaves (World P) := by
  refine Outcome.Leaves.ofRes hw fun p _ => Outcome.Leaves.bind (h.extendEach _ _ hw) fun _ w' hw' => ?_
  split
  · exact hw'
  · split
    · trivial
    · exact Outcome.Leaves.ofRes hw' fun c hc =>
        ⟨hw'.ents, withMask (fun s s' hs hr => h.groupEntities _ _ _ hs hr) hw'.sets hc⟩

theorem insertSet (h : Stable P) {w : Sparsey.World V} (hw : World P w) {e : Entity} (he : e.index < u32Size)
    (vs : List (TypeId × V)) : (w.insertSet e vs).Leaves (World P) := by
  have := h.insertComps he vs hw.sets
  unfold World.insertSet
  cases hi : w.components.insert e vs <;> rw [hi] at this
  · exact ⟨hw.ents, this⟩
  · exact ⟨hw.ents, this⟩
  · trivial

theorem step (h : Stable P) {w w' : Sparsey.World V} {op : Op V} {r : Ret V} (hw : World P w)
    (hs : Sparsey.step w op = some (r, w')) : World P w' := by
  cases op with
  | register t =>
    simp only [Sparsey.step, Option.some.injEq, Prod.mk.injEq] at hs
    rw [← hs.2]
    refine ⟨hw.ents, ?_⟩
    show AllSets P (w.components.register t).2.components
    unfold ComponentStorage.register
    split
    · exact hw.sets
    · exact hw.sets.append (AllSets.single h.new)
  | setLayout rank gs =>
    refine retOutcome_some (P := World P) hs ?_
    have := h.setLayout rank (GroupLayout.build gs).2 w.entities.asSlice hw.sets
    unfold World.setLayout
    cases hl : w.components.setLayout rank (GroupLayout.build gs).2 w.entities.asSlice <;> rw [hl] at this
    · exact ⟨hw.ents, this⟩
    · exact ⟨hw.ents, this⟩
    · trivial
  | create vs =>
    refine retOutcome_some (P := World P) hs ?_
    refine Outcome.Leaves.ofRes hw fun p hp => ?_
    obtain ⟨e, es⟩ := p
    rcases hw.ents.create with h1 | ⟨e', es', h1, h2, h3⟩
    · rw [h1] at hp; cases hp
    · rw [h1] at hp
      cases hp
      exact Outcome.Leaves.bind (h.insertSet (w := ⟨es, w.components⟩) ⟨h3, hw.sets⟩ h2 vs) fun _ _ h => h
  | extend ts it => exact retOutcome_some hs (h.extend w ts it hw)
  | destroy e =>
    rcases retRes_some hs with rfl | ⟨⟨b, w1⟩, h1, h2⟩
    · exact hw
    · simp only [Prod.mk.injEq] at h2
      rw [← h2.2]
      obtain ⟨b', es', h3, h4⟩ := hw.ents.remove e
      unfold World.destroy at h1
      rw [h3] at h1
      simp only [Res.bind_ok] at h1
      split at h1
      · obtain ⟨c, hc, h1⟩ := Res.bind_ok' h1
        cases h1
        exact ⟨h4, h.strip hw.sets hc⟩
      · cases h1; exact ⟨h4, hw.sets⟩
  | createAtomic =>
    rcases retRes_some hs with rfl | ⟨⟨b, w1⟩, h1, h2⟩
    · exact hw
    · simp only [Prod.mk.injEq] at h2
      rw [← h2.2]
      unfold World.createAtomic at h1
      rcases hw.ents.createAtomic with h3 | ⟨e', es', h3, _, h4⟩
      · rw [h3] at h1; cases h1
      · rw [h3] at h1
        cases h1
        exact ⟨h4, hw.sets⟩
  | maintain =>
    rcases retRes_some hs with rfl | ⟨w1, h1, h2⟩
    · exact hw
    · simp only [Prod.mk.injEq] at h2
      rw [← h2.2]
      obtain ⟨es', h3, h4⟩ := hw.ents.maintain
      unfold World.maintain at h1
      rw [h3] at h1
      cases h1
      exact ⟨h4, hw.sets⟩
  | insert e vs =>
    refine retOutcome_some (P := World P) hs ?_
    unfold World.insert
    split
    · exact hw
    · rename_i hc
      exact Outcome.Leaves.bind (h.insertSet hw (hw.ents.small_of_contains (by simpa using hc)) vs) fun _ _ h => h
  | remove e ts =>
    rcases retRes_some hs with rfl | ⟨⟨vs, w1⟩, h1, h2⟩
    · exact hw
    · simp only [Prod.mk.injEq] at h2
      rw [← h2.2]
      obtain ⟨⟨vs, c⟩, hc, h1⟩ := Res.bind_ok' h1
      cases h1
      obtain ⟨⟨idxs, mask⟩, _, hc⟩ := Res.bind_ok' hc
      obtain ⟨c1, hc1, hc⟩ := Res.bind_ok' hc
      exact ⟨hw.ents, h.removeEach _ (withMask (fun s s' hs hr => h.ungroupLoop _ _ _ _ hs hr) hw.sets hc1) hc⟩
  | delete e ts =>
    rcases retRes_some hs with rfl | ⟨w1, h1, h2⟩
    · exact hw
    · simp only [Prod.mk.injEq] at h2
      rw [← h2.2]
      obtain ⟨c, hc, h1⟩ := Res.bind_ok' h1
      cases h1
      obtain ⟨⟨idxs, mask⟩, _, hc⟩ := Res.bind_ok' hc
      obtain ⟨c1, hc1, hc⟩ := Res.bind_ok' hc
      exact ⟨hw.ents, h.deleteEach _ (withMask (fun s s' hs hr => h.ungroupLoop _ _ _ _ hs hr) hw.sets hc1) hc⟩
  | clear =>
    rcases retRes_some hs with rfl | ⟨w1, h1, h2⟩
    · exact hw
    · simp only [Prod.mk.injEq] at h2
      rw [← h2.2]
      obtain ⟨es', h3, h4⟩ := hw.ents.clear
      unfold World.clear at h1
      rw [h3] at h1
      cases h1
      exact ⟨h4, h.clearAll hw.sets⟩
  | reset =>
    simp only [Sparsey.step, Option.some.injEq, Prod.mk.injEq] at hs
    rw [← hs.2]
    exact ⟨EntOk.reset _, h.clearAll hw.sets⟩
  | writeAt t pos v =>
    rcases retRes_some hs with rfl | ⟨w1, h1, h2⟩
    · exact hw
    · simp only [Prod.mk.injEq] at h2
      rw [← h2.2]
      unfold World.writeAt at h1
      split at h1
      · cases h1
      · obtain ⟨s, hs1, h1⟩ := Res.bind_ok' h1
        obtain ⟨s', hs2, h1⟩ := Res.bind_ok' h1
        cases h1
        exact ⟨hw.ents, hw.sets.set (h.setAt (hw.sets.at_unchecked hs1) hs2) _⟩
  | write t e v =>
    rcases retRes_some hs with rfl | ⟨⟨b, w1⟩, h1, h2⟩
    · exact hw
    · simp only [Prod.mk.injEq] at h2
      rw [← h2.2]
      unfold World.writeView at h1
      split at h1
      · cases h1
      · obtain ⟨s, hs1, h1⟩ := Res.bind_ok' h1
        obtain ⟨⟨b', s'⟩, hs2, h1⟩ := Res.bind_ok' h1
        cases h1
        exact ⟨hw.ents, hw.sets.set (h.setMut (hw.sets.at_unchecked hs1) hs2) _⟩

end Stable

/-- Properties of sets that the operations on sets keep hold in every reachable world. -/
theorem reach_sets {P : CompSet V → Prop} (hP : Stable P) {h : History V} {w : World V} (hr : Reach World.empty h w) :
    Stable.World P w := by
  induction hr with
  | nil => exact ⟨EntOk.empty, fun s hs => by cases hs⟩
  | snoc _ hs ih => exact hP.step ih hs

theorem stable_idx : Stable (CompSet.IdxOk (V := V)) where
  new := CompSet.idx_new
  insert := by
    intro s s' e v o h he hr
    obtain ⟨o', s1, h1, h2⟩ := h.insert e v he
    rw [h1] at hr
    cases hr
    exact h2
  remove := by
    intro s s' e o h hr
    obtain ⟨o', s1, h1, _, h2⟩ := h.remove e
    rw [h1] at hr
    cases hr
    exact h2
  delete := by
    intro s s' e h hr
    obtain ⟨o', s1, _, h1, h2⟩ := h.remove e
    rw [h1] at hr
    cases hr
    exact h2
  setMut := by
    intro s s' e v b h hr
    obtain ⟨b', s1, h1, h2⟩ := h.setMut e v
    rw [h1] at hr
    cases hr
    exact h2
  setAt := fun h hr => h.setAt hr
  swap := fun h hr => h.swap hr
  clear := fun _ => CompSet.idx_clear _

/-- In every reachable world, whatever the history, slots and dense entities agree up to versions. -/
theorem reach_idx {h : History V} {w : World V} (hr : Reach World.empty h w) :
    EntOk w.entities ∧ ∀ s ∈ w.components.components, s.IdxOk :=
  ⟨(reach_sets stable_idx hr).ents, (reach_sets stable_idx hr).sets⟩

end Sparsey
