import Verif.Model.History
import Verif.Proofs.SetLayout

/-!
Facts about the registered types that hold for every history, whatever went wrong before: calls other than `register`
and `set_layout` change neither the metadata nor the number of sets nor the shape of the groups, and metadata always
points to existing, different sets.
-/

set_option autoImplicit false
set_option linter.unusedSimpArgs false

namespace Sparsey
variable {V : Type}

/-- `c'` differs from `c` in the contents of sets and the lengths of groups only. -/
structure Shape (c c' : ComponentStorage V) : Prop where
  md : c'.metadata = c.metadata
  len : c'.components.length = c.components.length
  stat : SameStat c.groups c'.groups

theorem Shape.refl (c : ComponentStorage V) : Shape c c := ⟨rfl, rfl, rfl⟩

theorem Shape.trans {a b c : ComponentStorage V} (h : Shape a b) (h' : Shape b c) : Shape a c :=
  ⟨h'.md.trans h.md, h'.len.trans h.len, h.stat.trans h'.stat⟩

theorem Shape.meta? {c c' : ComponentStorage V} (h : Shape c c') (t : TypeId) : c'.meta? t = c.meta? t := by
  simp [ComponentStorage.meta?, h.md]

theorem Shape.set (c : ComponentStorage V) (i : Nat) (s : CompSet V) :
    Shape c { c with components := c.components.set i s } := ⟨rfl, by simp, rfl⟩

/-- Sets and groups of the same shape. -/
def SetsShape (a b : Sets V) : Prop := b.1.length = a.1.length ∧ SameStat a.2 b.2

theorem SetsShape.refl (a : Sets V) : SetsShape a a := ⟨rfl, rfl⟩

theorem SetsShape.trans {a b c : Sets V} (h : SetsShape a b) (h' : SetsShape b c) : SetsShape a c :=
  ⟨h'.1.trans h.1, h.2.trans h'.2⟩

theorem Res.bind_ok' {α β : Type} {r : Res α} {f : α → Res β} {b : β} (h : (r >>= f) = .ok b) :
    ∃ a, r = .ok a ∧ f a = .ok b := by
  cases r with
  | ok a => exact ⟨a, rfl, h⟩
  | panic => cases h
  | ub => cases h

theorem swapAllTo_length {q x : Nat} : ∀ (l l' : List (CompSet V)), swapAllTo q x l = .ok l' → l'.length = l.length
  | [], l', h => by cases h; rfl
  | s :: ss, l', h => by
    obtain ⟨s', _, h⟩ := Res.bind_ok' h
    obtain ⟨ss', h2, h⟩ := Res.bind_ok' h
    cases h
    simp [swapAllTo_length ss ss' h2]

theorem swapRange_length {comps comps' : List (CompSet V)} {a b q x : Nat} (h : swapRange comps a b q x = .ok comps') :
    comps'.length = comps.length := by
  obtain ⟨seg, h1, h⟩ := Res.bind_ok' h
  obtain ⟨seg', h2, h⟩ := Res.bind_ok' h
  cases h
  have h3 := swapAllTo_length _ _ h2
  unfold compRange at h1
  split at h1
  · rename_i hab
    cases h1
    simp only [List.length_append, List.length_take, List.length_drop, h3]
    omega
  · cases h1

theorem groupComponents_shape {comps comps' : List (CompSet V)} {g g' : Group} {e : Entity}
    (h : groupComponents comps g e = .ok (comps', g')) : comps'.length = comps.length ∧ ∃ n, g' = { g with len := n } := by
  obtain ⟨c, h1, h⟩ := Res.bind_ok' h
  cases h
  exact ⟨swapRange_length h1, _, rfl⟩

theorem ungroupComponents_shape {comps comps' : List (CompSet V)} {g g' : Group} {e : Entity}
    (h : ungroupComponents comps g e = .ok (comps', g')) :
    comps'.length = comps.length ∧ ∃ n, g' = { g with len := n } := by
  unfold ungroupComponents at h
  split at h
  · cases h
  · obtain ⟨c, h1, h⟩ := Res.bind_ok' h
    cases h
    exact ⟨swapRange_length h1, _, rfl⟩

theorem Res.unchecked_ok {α : Type} {o : Option α} {a : α} (h : Res.unchecked o = .ok a) : o = some a := by
  cases o with
  | none => cases h
  | some x => cases h; rfl

theorem groupLoop_shape {e : Entity} : ∀ (fuel : Nat) (m : BitVec 64) (s s' : Sets V), groupLoop e fuel m s = .ok s' →
    SetsShape s s' := by
  intro fuel
  induction fuel with
  | zero =>
    intro m s s' h
    rw [groupLoop] at h
    split at h
    · cases h; exact SetsShape.refl _
    · cases h
  | succ fuel ih =>
    intro m s s' h
    obtain ⟨comps, gs⟩ := s
    rw [groupLoop] at h
    split at h
    · cases h; exact SetsShape.refl _
    · simp only at h
      rename_i i m' _
      obtain ⟨g, hg, h⟩ := Res.bind_ok' h
      obtain ⟨seg, _, h⟩ := Res.bind_ok' h
      obtain ⟨st, _, h⟩ := Res.bind_ok' h
      cases st with
      | incomplete => exact ih _ _ _ h
      | grouped => exact ih _ _ _ h
      | ungrouped =>
        obtain ⟨⟨comps', g'⟩, hc, h⟩ := Res.bind_ok' h
        obtain ⟨hl, n, rfl⟩ := groupComponents_shape hc
        exact SetsShape.trans ⟨hl, SameStat.set (Res.unchecked_ok hg) n⟩ (ih _ _ _ h)

theorem ungroupStep_shape {e : Entity} {i : Nat} {s s' : Sets V} (h : ungroupStep e i s = .ok s') : SetsShape s s' := by
  obtain ⟨comps, gs⟩ := s
  obtain ⟨g, hg, h⟩ := Res.bind_ok' h
  obtain ⟨seg, _, h⟩ := Res.bind_ok' h
  obtain ⟨st, _, h⟩ := Res.bind_ok' h
  cases st with
  | incomplete => cases h; exact SetsShape.refl _
  | ungrouped => cases h; exact SetsShape.refl _
  | grouped =>
    obtain ⟨⟨comps', g'⟩, hc, h⟩ := Res.bind_ok' h
    obtain ⟨hl, n, rfl⟩ := ungroupComponents_shape hc
    cases h
    exact ⟨hl, SameStat.set (Res.unchecked_ok hg) n⟩

theorem ungroupLoop_shape {e : Entity} : ∀ (fuel : Nat) (m : BitVec 64) (s s' : Sets V),
    ungroupLoop e fuel m s = .ok s' → SetsShape s s' := by
  intro fuel
  induction fuel with
  | zero =>
    intro m s s' h
    rw [ungroupLoop] at h
    split at h
    · cases h; exact SetsShape.refl _
    · cases h
  | succ fuel ih =>
    intro m s s' h
    rw [ungroupLoop] at h
    split at h
    · cases h; exact SetsShape.refl _
    · simp only at h
      obtain ⟨s1, h1, h⟩ := Res.bind_ok' h
      exact (ungroupStep_shape h1).trans (ih _ _ _ h)

theorem ungroupAllLoop_shape {e : Entity} : ∀ (n : Nat) (s s' : Sets V), ungroupAllLoop e n s = .ok s' → SetsShape s s'
  | 0, s, s', h => by cases h; exact SetsShape.refl _
  | n + 1, s, s', h => by
    obtain ⟨s1, h1, h⟩ := Res.bind_ok' h
    exact (ungroupStep_shape h1).trans (ungroupAllLoop_shape n _ _ h)

namespace ComponentStorage

theorem groupEntities_shape {m : GroupMask} : ∀ (es : List Entity) (s s' : Sets V),
    groupEntities m es s = .ok s' → SetsShape s s'
  | [], s, s', h => by cases h; exact SetsShape.refl _
  | e :: es, s, s', h => by
    obtain ⟨s1, h1, h⟩ := Res.bind_ok' h
    exact (groupLoop_shape _ _ _ _ h1).trans (groupEntities_shape es _ _ h)

theorem withMask_shape {c c' : ComponentStorage V} {m : GroupMask} {f : Sets V → Res (Sets V)}
    (hf : ∀ s s', f s = .ok s' → SetsShape s s') (h : c.withMask m f = .ok c') : Shape c c' := by
  unfold withMask at h
  split at h
  · cases h; exact Shape.refl _
  · obtain ⟨⟨comps, gs⟩, h1, h⟩ := Res.bind_ok' h
    cases h
    exact ⟨rfl, (hf _ _ h1).1, (hf _ _ h1).2⟩

/-- What an interruptible call leaves behind, if anything. -/
def _root_.Sparsey.Outcome.Leaves {σ α : Type} (o : Outcome σ α) (P : σ → Prop) : Prop :=
  match o with
  | .ok _ s => P s
  | .panic s => P s
  | .ub => True

theorem _root_.Sparsey.Outcome.Leaves.bind {σ α β : Type} {o : Outcome σ α} {f : α → σ → Outcome σ β} {P : σ → Prop}
    (h : o.Leaves P) (hf : ∀ a s, P s → (f a s).Leaves P) : (o.bind f).Leaves P := by
  cases o with
  | ok a s => exact hf a s h
  | panic s => exact h
  | ub => trivial

theorem _root_.Sparsey.Outcome.Leaves.ofRes {σ α β : Type} {s : σ} {r : Res α} {f : α → Outcome σ β} {P : σ → Prop}
    (h : P s) (hf : ∀ a, r = .ok a → (f a).Leaves P) : (Outcome.ofRes s r f).Leaves P := by
  cases r with
  | ok a => exact hf a rfl
  | panic => exact h
  | ub => trivial

theorem insertEach_shape {e : Entity} : ∀ (vs : List (TypeId × V)) (m : GroupMask) (c : ComponentStorage V),
    (insertEach e vs m c).Leaves (Shape c)
  | [], _, c => Shape.refl c
  | (t, v) :: vs, m, c => by
    rw [insertEach]
    split
    · exact Shape.refl c
    · refine Outcome.Leaves.ofRes (Shape.refl c) fun s _ => Outcome.Leaves.ofRes (Shape.refl c) fun p _ => ?_
      obtain ⟨o, p⟩ := p
      simp only
      have := insertEach_shape (e := e) vs (m ||| (by assumption : ComponentMetadata).insertMask)
        { c with components := c.components.set (by assumption : ComponentMetadata).storageIndex p }
      generalize insertEach e vs _ _ = o at this ⊢
      cases o with
      | ok a s => exact (Shape.set ..).trans this
      | panic s => exact (Shape.set ..).trans this
      | ub => trivial

theorem insert_shape (c : ComponentStorage V) (e : Entity) (vs : List (TypeId × V)) : (c.insert e vs).Leaves (Shape c) := by
  refine Outcome.Leaves.bind (insertEach_shape vs _ c) fun m c' hc => Outcome.Leaves.ofRes hc fun c'' h => ?_
  exact hc.trans (withMask_shape (fun s s' => groupLoop_shape _ _ _ _) h)

theorem removeEach_shape {e : Entity} : ∀ (is : List Nat) (c c' : ComponentStorage V) (vs : List (Option V)),
    removeEach e is c = .ok (vs, c') → Shape c c'
  | [], c, c', _, h => by cases h; exact Shape.refl c
  | i :: is, c, c', _, h => by
    obtain ⟨s, _, h⟩ := Res.bind_ok' h
    obtain ⟨⟨v, s'⟩, _, h⟩ := Res.bind_ok' h
    obtain ⟨⟨vs, c1⟩, h1, h⟩ := Res.bind_ok' h
    cases h
    exact (Shape.set ..).trans (removeEach_shape is _ _ _ h1)

theorem deleteEach_shape {e : Entity} : ∀ (is : List Nat) (c c' : ComponentStorage V), deleteEach e is c = .ok c' →
    Shape c c'
  | [], c, c', h => by cases h; exact Shape.refl c
  | i :: is, c, c', h => by
    obtain ⟨s, _, h⟩ := Res.bind_ok' h
    obtain ⟨s', _, h⟩ := Res.bind_ok' h
    exact (Shape.set ..).trans (deleteEach_shape is _ _ h)

theorem insertAt_shape {e : Entity} : ∀ (l : List (Nat × V)) (c c' : ComponentStorage V), insertAt e l c = .ok c' →
    Shape c c'
  | [], c, c', h => by cases h; exact Shape.refl c
  | (i, v) :: l, c, c', h => by
    obtain ⟨s, _, h⟩ := Res.bind_ok' h
    obtain ⟨⟨_, s'⟩, _, h⟩ := Res.bind_ok' h
    exact (Shape.set ..).trans (insertAt_shape l _ _ h)

theorem remove_shape {c c' : ComponentStorage V} {e : Entity} {ts : List TypeId} {vs : List (Option V)}
    (h : c.remove e ts = .ok (vs, c')) : Shape c c' := by
  obtain ⟨⟨idxs, m⟩, _, h⟩ := Res.bind_ok' h
  obtain ⟨c1, h1, h⟩ := Res.bind_ok' h
  exact (withMask_shape (fun s s' => ungroupLoop_shape _ _ _ _) h1).trans (removeEach_shape _ _ _ _ h)

theorem delete_shape {c c' : ComponentStorage V} {e : Entity} {ts : List TypeId} (h : c.delete e ts = .ok c') :
    Shape c c' := by
  obtain ⟨⟨idxs, m⟩, _, h⟩ := Res.bind_ok' h
  obtain ⟨c1, h1, h⟩ := Res.bind_ok' h
  exact (withMask_shape (fun s s' => ungroupLoop_shape _ _ _ _) h1).trans (deleteEach_shape _ _ _ h)

theorem deleteAll_length {e : Entity} : ∀ (l l' : List (CompSet V)), deleteAll e l = .ok l' → l'.length = l.length
  | [], l', h => by cases h; rfl
  | s :: ss, l', h => by
    obtain ⟨s', _, h⟩ := Res.bind_ok' h
    obtain ⟨ss', h2, h⟩ := Res.bind_ok' h
    cases h
    simp [deleteAll_length ss ss' h2]

theorem strip_shape {c c' : ComponentStorage V} {e : Entity} (h : c.strip e = .ok c') : Shape c c' := by
  obtain ⟨⟨comps, gs⟩, h1, h⟩ := Res.bind_ok' h
  obtain ⟨comps', h2, h⟩ := Res.bind_ok' h
  cases h
  have := ungroupAllLoop_shape _ _ _ h1
  exact ⟨rfl, (deleteAll_length _ _ h2).trans this.1, this.2⟩

theorem clear_shape (c : ComponentStorage V) : Shape c c.clear := by
  refine ⟨rfl, by simp [clear], ?_⟩
  show List.map _ (List.map _ _) = _
  rw [List.map_map]
  rfl

end ComponentStorage

theorem extendEach_shape {idxs : List Nat} : ∀ (items : List (List V)) (w : World V),
    (World.extendEach idxs items w).Leaves (fun w' => Shape w.components w'.components)
  | [], w => Shape.refl _
  | vs :: items, w => by
    refine Outcome.Leaves.ofRes (Shape.refl _) fun p _ => Outcome.Leaves.ofRes (Shape.refl _) fun c hc => ?_
    have := extendEach_shape (idxs := idxs) items (⟨p.2, c⟩ : World V)
    have hc := ComponentStorage.insertAt_shape _ _ _ hc
    show (World.extendEach idxs items ⟨p.2, c⟩).Leaves _
    generalize World.extendEach idxs items (⟨p.2, c⟩ : World V) = o at this ⊢
    cases o with
    | ok a s => exact hc.trans this
    | panic s => exact hc.trans this
    | ub => trivial

theorem World.extend_shape (w : World V) (ts : List TypeId) (it : Items V) :
    (w.extend ts it).Leaves (fun w' => Shape w.components w'.components) := by
  refine Outcome.Leaves.ofRes (Shape.refl _) fun p _ => Outcome.Leaves.bind (extendEach_shape _ _) fun _ w' hw => ?_
  split
  · exact hw
  · split
    · trivial
    · exact Outcome.Leaves.ofRes hw fun c hc =>
        hw.trans (ComponentStorage.withMask_shape (fun s s' => ComponentStorage.groupEntities_shape _ _ _) hc)

theorem retRes_some {α : Type} {w w' : World V} {r : Res α} {f : α → Ret V × World V} {x : Ret V}
    (h : retRes w r f = some (x, w')) : w' = w ∨ ∃ a, r = .ok a ∧ f a = (x, w') := by
  cases r with
  | ok a => exact .inr ⟨a, rfl, by simpa [retRes] using h⟩
  | panic => simp [retRes] at h; exact .inl h.2.symm
  | ub => cases h

theorem retOutcome_some {α : Type} {w' : World V} {made : List Entity} {r : Outcome (World V) α} {f : α → Ret V}
    {x : Ret V} {P : World V → Prop} (h : retOutcome made r f = some (x, w')) (hl : r.Leaves P) : P w' := by
  cases r with
  | ok a w => simp [retOutcome] at h; rw [← h.2]; exact hl
  | panic w => simp [retOutcome] at h; rw [← h.2]; exact hl
  | ub => cases h

/-- The calls other than `register` and `set_layout`. -/
def Op.keepsTypes : Op V → Prop
  | .register _ => False
  | .setLayout _ _ => False
  | _ => True

/-- Calls other than `register` and `set_layout` keep the shape of the storage. -/
theorem step_shape {w w' : World V} {op : Op V} {r : Ret V} (h : step w op = some (r, w')) (hop : op.keepsTypes) :
    Shape w.components w'.components := by
  cases op with
  | register t => exact hop.elim
  | setLayout rank gs => exact hop.elim
  | create vs =>
    refine retOutcome_some (P := fun w' => Shape w.components w'.components) h ?_
    refine Outcome.Leaves.ofRes (Shape.refl _) fun p _ => ?_
    refine Outcome.Leaves.bind (P := fun w' : World V => Shape w.components w'.components) ?_ fun _ _ h => h
    unfold World.insertSet
    have := ComponentStorage.insert_shape w.components p.1 vs
    simp only
    generalize w.components.insert p.1 vs = o at this ⊢
    cases o <;> exact this
  | extend ts it => exact retOutcome_some h (World.extend_shape w ts it)
  | destroy e =>
    rcases retRes_some h with rfl | ⟨⟨b, w1⟩, h1, h2⟩
    · exact Shape.refl _
    · simp only [Prod.mk.injEq] at h2
      rw [← h2.2]
      obtain ⟨⟨rem, es⟩, _, h1⟩ := Res.bind_ok' h1
      simp only at h1
      split at h1
      · obtain ⟨c, hc, h1⟩ := Res.bind_ok' h1
        cases h1
        exact ComponentStorage.strip_shape hc
      · cases h1; exact Shape.refl _
  | createAtomic =>
    rcases retRes_some h with rfl | ⟨⟨b, w1⟩, h1, h2⟩
    · exact Shape.refl _
    · simp only [Prod.mk.injEq] at h2
      rw [← h2.2]
      obtain ⟨⟨rem, es⟩, _, h1⟩ := Res.bind_ok' h1
      cases h1; exact Shape.refl _
  | maintain =>
    rcases retRes_some h with rfl | ⟨w1, h1, h2⟩
    · exact Shape.refl _
    · simp only [Prod.mk.injEq] at h2
      rw [← h2.2]
      obtain ⟨es, _, h1⟩ := Res.bind_ok' h1
      cases h1; exact Shape.refl _
  | insert e vs =>
    refine retOutcome_some (P := fun w' => Shape w.components w'.components) h ?_
    unfold World.insert
    split
    · exact Shape.refl _
    · refine Outcome.Leaves.bind (P := fun w' : World V => Shape w.components w'.components) ?_ fun _ _ h => h
      unfold World.insertSet
      have := ComponentStorage.insert_shape w.components e vs
      generalize w.components.insert e vs = o at this ⊢
      cases o <;> exact this
  | remove e ts =>
    rcases retRes_some h with rfl | ⟨⟨vs, w1⟩, h1, h2⟩
    · exact Shape.refl _
    · simp only [Prod.mk.injEq] at h2
      rw [← h2.2]
      obtain ⟨⟨vs, c⟩, hc, h1⟩ := Res.bind_ok' h1
      cases h1; exact ComponentStorage.remove_shape hc
  | delete e ts =>
    rcases retRes_some h with rfl | ⟨w1, h1, h2⟩
    · exact Shape.refl _
    · simp only [Prod.mk.injEq] at h2
      rw [← h2.2]
      obtain ⟨c, hc, h1⟩ := Res.bind_ok' h1
      cases h1; exact ComponentStorage.delete_shape hc
  | clear =>
    rcases retRes_some h with rfl | ⟨w1, h1, h2⟩
    · exact Shape.refl _
    · simp only [Prod.mk.injEq] at h2
      rw [← h2.2]
      obtain ⟨es, _, h1⟩ := Res.bind_ok' h1
      cases h1; exact ComponentStorage.clear_shape _
  | reset =>
    simp only [step, Option.some.injEq, Prod.mk.injEq] at h
    rw [← h.2]
    exact ComponentStorage.clear_shape _
  | writeAt t pos v =>
    rcases retRes_some h with rfl | ⟨w1, h1, h2⟩
    · exact Shape.refl _
    · simp only [Prod.mk.injEq] at h2
      rw [← h2.2]
      unfold World.writeAt at h1
      split at h1
      · cases h1
      · obtain ⟨s, _, h1⟩ := Res.bind_ok' h1
        obtain ⟨s', _, h1⟩ := Res.bind_ok' h1
        cases h1; exact Shape.set ..
  | write t e v =>
    rcases retRes_some h with rfl | ⟨⟨b, w1⟩, h1, h2⟩
    · exact Shape.refl _
    · simp only [Prod.mk.injEq] at h2
      rw [← h2.2]
      unfold World.writeView at h1
      split at h1
      · cases h1
      · obtain ⟨s, _, h1⟩ := Res.bind_ok' h1
        obtain ⟨⟨b', s'⟩, _, h1⟩ := Res.bind_ok' h1
        cases h1
        exact Shape.set ..

/-! ### Metadata -/

/-- Metadata points to existing, different sets. -/
structure Static (c : ComponentStorage V) : Prop where
  idx : ∀ t m, c.meta? t = some m → m.storageIndex < c.components.length
  inj : ∀ t t' m m', c.meta? t = some m → c.meta? t' = some m' → m.storageIndex = m'.storageIndex → t = t'

theorem Static.of_shape {c c' : ComponentStorage V} (h : Static c) (hs : Shape c c') : Static c' where
  idx t m hm := by rw [hs.len]; exact h.idx t m (by rw [← hs.meta?]; exact hm)
  inj t t' m m' hm hm' := h.inj t t' m m' (by rw [← hs.meta?]; exact hm) (by rw [← hs.meta?]; exact hm')

theorem Static.push {c : ComponentStorage V} (h : Static c) (t : TypeId) (m : ComponentMetadata)
    (hm : m.storageIndex = c.components.length) (s : CompSet V) (gs : List Group) :
    Static ⟨gs, ComponentStorage.insertMeta c.metadata t m, c.components ++ [s]⟩ where
  idx t' m' h' := by
    simp only [ComponentStorage.meta?, insertMeta_lookup] at h'
    simp only [List.length_append, List.length_singleton]
    split at h'
    · cases h'; omega
    · have := h.idx t' m' h'; omega
  inj t1 t2 m1 m2 h1 h2 he := by
    simp only [ComponentStorage.meta?, insertMeta_lookup] at h1 h2
    split at h1 <;> split at h2
    · simp_all
    · cases h1; have := h.idx _ _ h2; omega
    · cases h2; have := h.idx _ _ h1; omega
    · exact h.inj _ _ _ _ h1 h2 he

theorem Static.regroup {c : ComponentStorage V} (h : Static c) (gs : List Group) : Static { c with groups := gs } :=
  ⟨h.idx, h.inj⟩

namespace ComponentStorage

/-- Type `t` is registered or its set waits to be placed. -/
def Pending (b : Building V) (t : TypeId) : Prop := (b.1.meta? t).isSome ∨ t ∈ b.2.map (·.1)

/-- What the loops of `set_layout` keep. -/
def Keeps (b b' : Building V) : Prop :=
  (Static b.1 → Static b'.1) ∧ ∀ t, Pending b t → Pending b' t

theorem Keeps.refl (b : Building V) : Keeps b b := ⟨id, fun _ => id⟩

theorem Keeps.trans {a b c : Building V} (h : Keeps a b) (h' : Keeps b c) : Keeps a c :=
  ⟨h'.1 ∘ h.1, fun t ht => h'.2 t (h.2 t ht)⟩

theorem Keeps.leaves {α : Type} {a b : Building V} {o : Outcome (Building V) α} (h : Keeps a b)
    (ho : o.Leaves (Keeps b)) : o.Leaves (Keeps a) := by
  cases o with
  | ok x s => exact h.trans ho
  | panic s => exact h.trans ho
  | ub => trivial

theorem Keeps.push {c : ComponentStorage V} {sets : List (TypeId × CompSet V)} (t : TypeId) (m : ComponentMetadata)
    (hm : m.storageIndex = c.components.length) (s : CompSet V) :
    Keeps (c, sets) ({ c with metadata := insertMeta c.metadata t m, components := c.components ++ [s] },
      sets.filter (fun p => p.1 != t)) := by
  refine ⟨fun h => h.push t m hm s _, fun t' ht => ?_⟩
  unfold Pending at ht ⊢
  simp only [meta?, insertMeta_lookup]
  by_cases h : t' = t
  · left; simp [h]
  · rw [if_neg h]
    rcases ht with ht | ht
    · exact .inl ht
    · right
      obtain ⟨p, hp, rfl⟩ := List.mem_map.1 ht
      exact List.mem_map.2 ⟨p, List.mem_filter.2 ⟨hp, by simpa using h⟩, rfl⟩

theorem addComponents_keeps {f : GroupFamily} {a b c : Nat} : ∀ (n idx : Nat) (x : Building V),
    (addComponents f a b c idx n x).Leaves (Keeps x)
  | 0, _, x => Keeps.refl x
  | n + 1, idx, (st, sets) => by
    rw [addComponents]
    refine Outcome.Leaves.ofRes (Keeps.refl _) fun p hp => ?_
    obtain ⟨t, m⟩ := p
    have hm : m.storageIndex = st.components.length := by
      obtain ⟨t', _, hp⟩ := Res.bind_ok' hp
      obtain ⟨im, _, hp⟩ := Res.bind_ok' hp
      obtain ⟨dm, _, hp⟩ := Res.bind_ok' hp
      obtain ⟨sm, _, hp⟩ := Res.bind_ok' hp
      cases hp
      rfl
    exact (Keeps.push t m hm _).leaves (addComponents_keeps n (idx + 1) _)

theorem addGroups_keeps {f : GroupFamily} {a b c : Nat} : ∀ (l : List Nat) (prev : Nat) (x : Building V),
    (addGroups f a b c prev l x).Leaves (Keeps x)
  | [], _, x => Keeps.refl x
  | n :: l, prev, (st, sets) => by
    rw [addGroups]
    refine Outcome.Leaves.ofRes (Keeps.refl _) fun g _ => ?_
    have h0 : Keeps (st, sets) ({ st with groups := st.groups ++ [g] }, sets) := ⟨fun h => h.regroup _, fun _ h => h⟩
    refine h0.leaves (Outcome.Leaves.bind (addComponents_keeps _ _ _) fun _ y hy => ?_)
    exact hy.leaves (addGroups_keeps l n y)

theorem addFamilies_keeps : ∀ (fs : List GroupFamily) (x : Building V), (addFamilies fs x).Leaves (Keeps x)
  | [], x => Keeps.refl x
  | f :: fs, (c, sets) => by
    rw [addFamilies]
    exact Outcome.Leaves.bind (addGroups_keeps _ _ _) fun _ y hy => hy.leaves (addFamilies_keeps fs y)

theorem addUngrouped_keeps : ∀ (l : List (TypeId × CompSet V)) (c : ComponentStorage V),
    (Static c → Static (addUngrouped l c)) ∧
    ∀ t, ((c.meta? t).isSome ∨ t ∈ l.map (·.1)) → ((addUngrouped l c).meta? t).isSome
  | [], c => ⟨id, fun t h => by simpa [addUngrouped] using h⟩
  | (t, s) :: l, c => by
    rw [addUngrouped]
    obtain ⟨h1, h2⟩ := addUngrouped_keeps l
      { c with metadata := insertMeta c.metadata t ⟨c.components.length, 0#64, 0#64, none⟩,
               components := c.components ++ [s] }
    refine ⟨fun h => h1 (h.push t _ rfl s _), fun t' h => h2 t' ?_⟩
    simp only [meta?, insertMeta_lookup]
    by_cases ht : t' = t
    · left; simp [ht]
    · rw [if_neg ht]
      rcases h with h | h
      · exact .inl h
      · right; simpa [ht] using h

theorem takeSets_fst : ∀ (md : List (TypeId × ComponentMetadata)) (comps comps' : List (CompSet V))
    (sets : List (TypeId × CompSet V)), takeSets md comps = .ok (sets, comps') → sets.map (·.1) = md.map (·.1)
  | [], _, _, _, h => by cases h; rfl
  | (t, m) :: md, comps, comps', _, h => by
    obtain ⟨s, _, h⟩ := Res.bind_ok' h
    obtain ⟨⟨sets, c1⟩, h1, h⟩ := Res.bind_ok' h
    cases h
    simp [takeSets_fst md _ _ _ h1]

/-- Whatever happens, metadata stays sound; without a panic no type is unregistered. -/
theorem setLayout_keeps (rank : TypeId → Nat) (c : ComponentStorage V) (l : GroupLayout) (es : List Entity) :
    (Static c → (c.setLayout rank l es).Leaves Static) ∧
    ∀ c', c.setLayout rank l es = .ok () c' → ∀ t, (c.meta? t).isSome → (c'.meta? t).isSome := by
  unfold setLayout
  cases hx : c.extractSparseSets with
  | panic => exact ⟨id, fun c' h => by simp at h⟩
  | ub => exact ⟨fun _ => trivial, fun c' h => by simp at h⟩
  | ok p =>
    obtain ⟨sets, c1⟩ := p
    obtain ⟨⟨sets', comps⟩, h1, hx⟩ := Res.bind_ok' hx
    cases hx
    have hk := addFamilies_keeps l.families ((⟨[], [], comps⟩, sets) : Building V)
    have hs0 : Static (⟨[], [], comps⟩ : ComponentStorage V) := by
      constructor <;> intros <;> simp_all [meta?]
    have hp0 : ∀ t, (c.meta? t).isSome → Pending ((⟨[], [], comps⟩, sets) : Building V) t := by
      intro t ht
      right
      rw [takeSets_fst _ _ _ _ h1]
      cases hm : c.meta? t with
      | none => rw [hm] at ht; cases ht
      | some m =>
        obtain ⟨l1, l2, he, _⟩ := List.lookup_eq_some_iff.1 hm
        simp [he]
    cases hf : addFamilies l.families ((⟨[], [], comps⟩, sets) : Building V) with
    | ub => simp only [hf]; exact ⟨fun _ => trivial, fun c' h => by simp at h⟩
    | panic b =>
      rw [hf] at hk
      simp only [hf]
      exact ⟨fun _ => hk.1 hs0, fun c' h => by simp at h⟩
    | ok u b =>
      obtain ⟨c2, sets2⟩ := b
      rw [hf] at hk
      have hu := addUngrouped_keeps (sortByRank rank sets2) c2
      have hst := hu.1 (hk.1 hs0)
      simp only [hf]
      generalize hc3 : addUngrouped (sortByRank rank sets2) c2 = c3 at *
      have hreg : ∀ t, (c.meta? t).isSome → (c3.meta? t).isSome := by
        intro t ht
        refine hu.2 t ?_
        rcases hk.2 t (hp0 t ht) with h | h
        · exact .inl h
        · right
          obtain ⟨p, hp, rfl⟩ := List.mem_map.1 h
          exact List.mem_map.2 ⟨p, (sortByRank_perm rank _).mem_iff.2 hp, rfl⟩
      cases hm : GroupMask.fromTo 0 c3.groups.length with
      | panic => exact ⟨fun _ => hst, fun c' h => by simp at h⟩
      | ub => exact ⟨fun _ => trivial, fun c' h => by simp at h⟩
      | ok mask =>
        simp only
        cases hg : groupEntities mask es (c3.components, c3.groups) with
        | panic => exact ⟨fun _ => hst, fun c' h => by simp at h⟩
        | ub => exact ⟨fun _ => trivial, fun c' h => by simp at h⟩
        | ok p =>
          obtain ⟨comps', gs'⟩ := p
          have hsh := groupEntities_shape _ _ _ hg
          have : Shape c3 { c3 with components := comps', groups := gs' } := ⟨rfl, hsh.1, hsh.2⟩
          refine ⟨fun _ => hst.of_shape this, fun c' h t ht => ?_⟩
          simp only [Outcome.ok.injEq, true_and] at h
          rw [← h, this.meta?]
          exact hreg t ht

theorem register_static {c : ComponentStorage V} (h : Static c) (t : TypeId) : Static (c.register t).2 := by
  unfold register
  split
  · exact h
  · exact h.push t _ rfl _ _

end ComponentStorage

/-- Metadata is sound in every reachable world. -/
theorem step_static {w w' : World V} {op : Op V} {r : Ret V} (h : step w op = some (r, w'))
    (hw : Static w.components) : Static w'.components := by
  by_cases hop : op.keepsTypes
  · exact hw.of_shape (step_shape h hop)
  · cases op <;> simp only [Op.keepsTypes, not_true_eq_false, not_false_eq_true] at hop
    · simp only [step, Option.some.injEq, Prod.mk.injEq] at h
      rw [← h.2]
      exact ComponentStorage.register_static hw _
    · rename_i rank gs
      refine retOutcome_some (P := fun w' : World V => Static w'.components) h ?_
      have := (ComponentStorage.setLayout_keeps rank w.components (GroupLayout.build gs).2 w.entities.asSlice).1 hw
      unfold World.setLayout
      cases hs : w.components.setLayout rank (GroupLayout.build gs).2 w.entities.asSlice <;> rw [hs] at this
      · exact this
      · exact this
      · trivial

theorem reach_static {h : History V} {w : World V} (hr : Reach World.empty h w) : Static w.components := by
  induction hr with
  | nil => constructor <;> intros <;> simp_all [World.empty, ComponentStorage.empty, ComponentStorage.meta?]
  | snoc _ hs ih => exact step_static hs ih

/-- Only a panicking `set_layout` unregisters types. -/
theorem step_registered {w w' : World V} {op : Op V} {r : Ret V} (h : step w op = some (r, w'))
    (hp : ∀ rank gs, op = .setLayout rank gs → r = .unit) {t : TypeId} (ht : w.isRegistered t = true) :
    w'.isRegistered t = true := by
  by_cases hop : op.keepsTypes
  · simpa [World.isRegistered, ComponentStorage.isRegistered, (step_shape h hop).meta?] using ht
  · cases op <;> simp only [Op.keepsTypes, not_true_eq_false, not_false_eq_true] at hop
    · rename_i t'
      simp only [step, Option.some.injEq, Prod.mk.injEq] at h
      rw [← h.2]
      simp only [World.isRegistered, ComponentStorage.isRegistered, World.register, ComponentStorage.register] at ht ⊢
      split
      · exact ht
      · simp only [ComponentStorage.meta?, insertMeta_lookup]
        split
        · rfl
        · exact ht
    · rename_i rank gs
      obtain rfl := hp rank gs rfl
      have := (ComponentStorage.setLayout_keeps rank w.components (GroupLayout.build gs).2 w.entities.asSlice).2
      simp only [step, World.setLayout] at h
      cases hs : w.components.setLayout rank (GroupLayout.build gs).2 w.entities.asSlice with
      | ok u c =>
        rw [hs] at h
        simp only [retOutcome, Option.some.injEq, Prod.mk.injEq, true_and] at h
        rw [← h]
        exact this c hs t ht
      | panic c => simp [hs, retOutcome] at h
      | ub => simp [hs, retOutcome] at h

end Sparsey
