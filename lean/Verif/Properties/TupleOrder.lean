import Verif.Proofs.Order
import Verif.Properties.Components

/-!
C59: the order of the types in a tuple does not matter.
-/

set_option autoImplicit false
set_option linter.unusedSimpArgs false

namespace Sparsey
variable {V : Type}

theorem insertSet_perm {w : World V} (hc : Static w.components) (e : Entity) {vs vs' : List (TypeId × V)}
    (hp : vs.Perm vs') (hn : (vs.map (·.1)).Nodup) (hk : ∀ p ∈ vs, (w.components.meta? p.1).isSome) :
    w.insertSet e vs = w.insertSet e vs' := by
  unfold World.insertSet ComponentStorage.insert
  rw [ComponentStorage.insertEach_perm hc hp hn hk]

/-- `insert`: values of different, registered types may be given in any order: same answer, same world, and undefined
behaviour in the same cases. -/
theorem C59_insert {h : History V} {w : World V} (hr : Reach World.empty h w) (e : Entity) {vs vs' : List (TypeId × V)}
    (hp : vs.Perm vs') (hn : (vs.map (·.1)).Nodup) (hk : ∀ p ∈ vs, w.isRegistered p.1 = true) :
    step w (.insert e vs) = step w (.insert e vs') := by
  rw [step, step, World.insert, World.insert, insertSet_perm (reach_static hr) e hp hn hk]

/-- `create`: likewise. -/
theorem C59_create {h : History V} {w : World V} (hr : Reach World.empty h w) {vs vs' : List (TypeId × V)}
    (hp : vs.Perm vs') (hn : (vs.map (·.1)).Nodup) (hk : ∀ p ∈ vs, w.isRegistered p.1 = true) :
    step w (.create vs) = step w (.create vs') := by
  have hc := reach_static hr
  have : w.create vs = w.create vs' := by
    unfold World.create
    refine congrArg _ (funext fun p => ?_)
    obtain ⟨e, es⟩ := p
    dsimp only
    rw [insertSet_perm (w := { w with entities := es }) hc e hp hn hk]
  rw [step, step, this]

/-- The two argument lists of `extend` give every row the same values for the types. -/
def SameRows (ts ts' : List TypeId) (it it' : Items V) : Prop :=
  it.thenPanics = it'.thenPanics ∧
  List.Forall₂ (fun vs vs' => vs.length = ts.length ∧ vs'.length = ts'.length ∧ (ts.zip vs).Perm (ts'.zip vs'))
    it.items it'.items

theorem extendEach_perm {ts ts' : List TypeId} (f : TypeId → Nat) (hn : (ts.map f).Nodup) {l l' : List (List V)}
    (h : List.Forall₂ (fun vs vs' => vs.length = ts.length ∧ vs'.length = ts'.length ∧ (ts.zip vs).Perm (ts'.zip vs'))
      l l') : ∀ w : World V, World.extendEach (ts.map f) l w = World.extendEach (ts'.map f) l' w := by
  induction h with
  | nil => intro w; rfl
  | @cons vs vs' l l' h1 _ ih =>
    intro w
    obtain ⟨h1, _, h2⟩ := h1
    rw [World.extendEach, World.extendEach]
    refine congrArg _ (funext fun p => ?_)
    obtain ⟨e, es⟩ := p
    have h3 := ComponentStorage.insertAt_perm (e := e) (h2.map fun p : TypeId × V => (f p.1, p.2)) (by
      rw [List.map_map, show (fun p : Nat × V => p.1) ∘ (fun p : TypeId × V => (f p.1, p.2)) = f ∘ fun p => p.1 from rfl,
        ← List.map_map, List.map_fst_zip (by omega)]
      exact hn) w.components
    dsimp only
    rw [List.zip_map_left, List.zip_map_left]
    exact (congrArg (fun r => Outcome.ofRes _ r _) h3).trans (congrArg _ (funext fun c => ih _))

/-- `extend`: likewise. If a type is not registered, both calls panic and leave the same world. -/
theorem C59_extend {h : History V} {w : World V} (hr : Reach World.empty h w) {ts ts' : List TypeId} {it it' : Items V}
    (hp : ts.Perm ts') (hn : ts.Nodup) (hrow : SameRows ts ts' it it') :
    step w (.extend ts it) = step w (.extend ts' it') := by
  have hs := reach_static hr
  have h1 := ComponentStorage.lookupAll_eq hs (·.insertMask) ts
  have h2 := ComponentStorage.lookupAll_eq hs (·.insertMask) ts'
  rw [← ComponentStorage.all_perm hp, ← ComponentStorage.masks_perm hp] at h2
  have hlen : it.items.length = it'.items.length := hrow.2.length_eq
  by_cases hk : ts.all fun t => (w.components.meta? t).isSome
  · rw [if_pos hk] at h1 h2
    have hnd := ComponentStorage.nodup_idx hs hn (fun t ht => by simpa using List.all_eq_true.1 hk t ht)
    have h3 : w.extend ts it = w.extend ts' it' := by
      unfold World.extend
      rw [h1, h2]
      simp only [Outcome.ofRes]
      rw [extendEach_perm _ hnd hrow.2, hrow.1]
    rw [step, step, extendMade, extendMade, h3, h1, h2, hlen]
  · rw [if_neg hk] at h1 h2
    rw [step, step, extendMade, extendMade, World.extend, World.extend, h1, h2]
    rfl

/-- `delete`: any types, in any order. -/
theorem C59_delete {h : History V} {w : World V} (hr : Reach World.empty h w) (e : Entity) {ts ts' : List TypeId}
    (hp : ts.Perm ts') : step w (.delete e ts) = step w (.delete e ts') := by
  have hs := reach_static hr
  have h1 : w.components.delete e ts = w.components.delete e ts' := by
    unfold ComponentStorage.delete
    rw [ComponentStorage.lookupAll_eq hs, ComponentStorage.lookupAll_eq hs, ← ComponentStorage.all_perm hp,
      ← ComponentStorage.masks_perm hp]
    by_cases hk : ts.all fun t => (w.components.meta? t).isSome
    · rw [if_pos hk, if_pos hk]
      simp only [Res.bind_ok]
      exact congrArg _ (funext fun c => ComponentStorage.deleteEach_perm (hp.map _) c)
    · simp only [if_neg hk, Res.bind_panic]
  rw [step, step, World.delete, World.delete, h1]

/-- `remove`: any types, in any order; the same values come back, each at the place of its type. Applied both ways, this
also says that undefined behaviour happens in the same cases. -/
theorem C59_remove {h : History V} {w w' : World V} {r : Ret V} (hr : Reach World.empty h w) (e : Entity)
    {ts ts' : List TypeId} (hp : ts.Perm ts') (hs : step w (.remove e ts) = some (r, w')) :
    ∃ r', step w (.remove e ts') = some (r', w') ∧
      ((r = .panicked [] ∧ r' = .panicked []) ∨
        ∃ vs vs', r = .values vs ∧ r' = .values vs' ∧ vs.length = ts.length ∧ vs'.length = ts'.length ∧
          (ts.zip vs).Perm (ts'.zip vs')) := by
  have hst := reach_static hr
  have h1 : w.components.remove e ts = if ts.all fun t => (w.components.meta? t).isSome then (do
      let c ← w.components.withMask (w.components.masks (·.deleteMask) ts)
        (ungroup · (w.components.masks (·.deleteMask) ts) e)
      ComponentStorage.removeEach e (ts.map w.components.idxOf) c) else .panic := by
    unfold ComponentStorage.remove
    rw [ComponentStorage.lookupAll_eq hst]
    split <;> rfl
  have h2 : w.components.remove e ts' = if ts.all fun t => (w.components.meta? t).isSome then (do
      let c ← w.components.withMask (w.components.masks (·.deleteMask) ts)
        (ungroup · (w.components.masks (·.deleteMask) ts) e)
      ComponentStorage.removeEach e (ts'.map w.components.idxOf) c) else .panic := by
    unfold ComponentStorage.remove
    rw [ComponentStorage.lookupAll_eq hst, ← ComponentStorage.all_perm hp, ← ComponentStorage.masks_perm hp]
    split <;> rfl
  by_cases hk : ts.all fun t => (w.components.meta? t).isSome
  · rw [if_pos hk] at h1 h2
    have hinj : ∀ t ∈ ts, ∀ t' ∈ ts, w.components.idxOf t = w.components.idxOf t' → t = t' := by
      intro t ht t' ht' hh
      obtain ⟨m, hm⟩ := Option.isSome_iff_exists.1 (List.all_eq_true.1 hk t ht)
      obtain ⟨m', hm'⟩ := Option.isSome_iff_exists.1 (List.all_eq_true.1 hk t' ht')
      rw [w.components.idxOf_eq hm, w.components.idxOf_eq hm'] at hh
      exact hst.inj t t' m m' hm hm' hh
    rw [step, World.remove, h1] at hs
    rw [step, World.remove, h2]
    cases hu : w.components.withMask (w.components.masks (·.deleteMask) ts)
        (ungroup · (w.components.masks (·.deleteMask) ts) e) with
    | ub => rw [hu] at hs; cases hs
    | panic =>
      rw [hu] at hs
      cases hs
      exact ⟨_, rfl, .inl ⟨rfl, rfl⟩⟩
    | ok c =>
      rw [hu] at hs
      simp only [Res.bind_ok] at hs ⊢
      have h3 := ComponentStorage.removeEach_perm (e := e) w.components.idxOf hp hinj c
      cases h4 : ComponentStorage.removeEach e (ts.map w.components.idxOf) c with
      | ub => rw [h4] at hs; cases hs
      | panic =>
        rw [h4] at hs h3
        cases hs
        rw [show ComponentStorage.removeEach e _ c = .panic from h3]
        exact ⟨_, rfl, .inl ⟨rfl, rfl⟩⟩
      | ok p =>
        rw [h4] at hs h3
        obtain ⟨vs, c1⟩ := p
        obtain ⟨⟨vs', c1'⟩, h5, h6, h7⟩ := h3
        cases h6
        cases hs
        rw [h5]
        refine ⟨_, rfl, .inr ⟨vs, vs', rfl, rfl, ?_, ?_, h7⟩⟩
        · have := ComponentStorage.removeEach_length _ _ h4
          rwa [List.length_map] at this
        · have := ComponentStorage.removeEach_length _ _ h5
          rwa [List.length_map] at this
  · rw [if_neg hk] at h1 h2
    rw [step, World.remove, h1] at hs
    rw [step, World.remove, h2]
    cases hs
    exact ⟨_, rfl, .inl ⟨rfl, rfl⟩⟩

/-- A world with a group, and values outside of it. -/
def tupleOps : List (Op Nat) :=
  [.setLayout anyOrder [[0, 1]], .register 2, .create [(0, 10), (1, 11)], .create [(1, 21), (2, 22)], .create [(0, 30)]]

/-- The calls of C59 with the types in two orders, in a world with groups. The values arrive where they belong. -/
example : holdsAfter tupleOps (fun _ w =>
    decide ((∀ t ∈ ([0, 1, 2] : List TypeId), w.isRegistered t = true) ∧
      step w (.insert ⟨1, 1⟩ [(2, 5), (0, 6)]) = step w (.insert ⟨1, 1⟩ [(0, 6), (2, 5)]) ∧
      step w (.insert ⟨1, 1⟩ [(2, 5), (0, 6)]) ≠ step w (.insert ⟨1, 1⟩ [(2, 6), (0, 5)]) ∧
      (step w (.remove ⟨1, 1⟩ [2, 0, 1])).map (·.1) = some (.values [some 22, none, some 21]) ∧
      (step w (.remove ⟨1, 1⟩ [1, 2, 0])).map (·.1) = some (.values [some 21, some 22, none]) ∧
      (step w (.remove ⟨1, 1⟩ [1, 2, 0])).map (·.2) = (step w (.remove ⟨1, 1⟩ [2, 0, 1])).map (·.2) ∧
      (step w (.extend [0, 1] ⟨[[7, 8], [9, 10]], false⟩)).map (·.1) = some (.entities [⟨3, 1⟩, ⟨4, 1⟩]) ∧
      step w (.extend [0, 1] ⟨[[7, 8], [9, 10]], false⟩) = step w (.extend [1, 0] ⟨[[8, 7], [10, 9]], false⟩)) &&
    (match step w (.insert ⟨1, 1⟩ [(2, 5), (0, 6)]) with
      | some (.bool true, w') => decide (w'.viewGet 2 ⟨1, 1⟩ = .ok (some 5) ∧ w'.viewGet 0 ⟨1, 1⟩ = .ok (some 6))
      | _ => false)) = true := by
  decide +kernel

example : SameRows [0, 1] [1, 0] (⟨[[7, 8], [9, 10]], false⟩ : Items Nat) ⟨[[8, 7], [10, 9]], false⟩ :=
  ⟨rfl, .cons ⟨rfl, rfl, by decide⟩ (.cons ⟨rfl, rfl, by decide⟩ .nil)⟩

/-- C59 needs different types: of two values for one type, the last stays. -/
theorem C59_repeated : ∃ (h : History Nat) (w : World Nat), Reach World.empty h w ∧ w.isRegistered 0 = true ∧
    step w (.create [(0, 1), (0, 2)]) ≠ step w (.create [(0, 2), (0, 1)]) := by
  obtain ⟨rs, w, h1, h2⟩ := reach_witness (V := Nat) (ops := [.register 0]) (f := fun (_ : List (Ret Nat)) w =>
    decide (w.isRegistered 0 = true ∧ step w (.create [(0, 1), (0, 2)]) ≠ step w (.create [(0, 2), (0, 1)])))
    (by decide +kernel)
  exact ⟨_, w, h1, of_decide_eq_true h2⟩

/-- C59 needs registered types: a panicking call leaves the values in front of the type that is not registered. -/
theorem C59_unregistered : ∃ (h : History Nat) (w : World Nat), Reach World.empty h w ∧ w.isRegistered 0 = true ∧
    step w (.create [(0, 1), (9, 2)]) ≠ step w (.create [(9, 2), (0, 1)]) := by
  obtain ⟨rs, w, h1, h2⟩ := reach_witness (V := Nat) (ops := [.register 0]) (f := fun (_ : List (Ret Nat)) w =>
    decide (w.isRegistered 0 = true ∧ step w (.create [(0, 1), (9, 2)]) ≠ step w (.create [(9, 2), (0, 1)])))
    (by decide +kernel)
  exact ⟨_, w, h1, of_decide_eq_true h2⟩

end Sparsey
