import Verif.Spec.Quiet
import Verif.Model.QueryBuild
import Verif.Model.View
import Verif.Properties.Components

/-!
C80: `create_atomic` does not interfere with calls that neither make nor destroy entities.
-/

set_option autoImplicit false
set_option linter.unusedSimpArgs false

namespace Sparsey
variable {V : Type}

/-- The world with another allocator. -/
def World.withAlloc (w : World V) (a : EntityAllocator) : World V := ⟨⟨a, w.entities.entities⟩, w.components⟩

theorem World.withAlloc_self (w : World V) : w.withAlloc w.entities.allocator = w := rfl

theorem retOutcome_alloc {α : Type} {o o' : Outcome (World V) α} {f : α → Ret V} (a : EntityAllocator)
    (h : match o with
      | .ok x w => o' = .ok x (w.withAlloc a)
      | .panic w => o' = .panic (w.withAlloc a)
      | .ub => o' = .ub) :
    retOutcome [] o' f = (retOutcome [] o f).map fun p => (p.1, p.2.withAlloc a) := by
  cases o <;> simp only at h <;> rw [h] <;> rfl

theorem step_quiet (w : World V) (a : EntityAllocator) {op : Op V} (hq : op.isQuiet = true) :
    step (w.withAlloc a) op = (step w op).map fun p => (p.1, p.2.withAlloc a) := by
  cases op <;> simp only [Op.isQuiet, Bool.false_eq_true] at hq
  case register t => rfl
  case setLayout rank gs =>
    refine retOutcome_alloc a ?_
    unfold World.setLayout
    rw [show (w.withAlloc a).components = w.components from rfl,
      show (w.withAlloc a).entities.asSlice = w.entities.asSlice from rfl]
    cases w.components.setLayout rank (GroupLayout.build gs).2 w.entities.asSlice <;> rfl
  case insert e vs =>
    refine retOutcome_alloc a ?_
    unfold World.insert World.insertSet
    rw [show (w.withAlloc a).components = w.components from rfl,
      show (w.withAlloc a).entities.contains e = w.entities.contains e from rfl]
    cases w.entities.contains e
    · rfl
    · cases w.components.insert e vs <;> rfl
  case remove e ts =>
    simp only [step, World.remove]
    rw [show (w.withAlloc a).components = w.components from rfl]
    cases w.components.remove e ts <;> rfl
  case delete e ts =>
    simp only [step, World.delete]
    rw [show (w.withAlloc a).components = w.components from rfl]
    cases w.components.delete e ts <;> rfl
  case write t e v =>
    simp only [step, World.writeView]
    rw [show (w.withAlloc a).components = w.components from rfl]
    cases w.components.meta? t with
    | none => rfl
    | some m =>
      simp only
      cases w.components.components[m.storageIndex]? with
      | none => rfl
      | some s =>
        simp only [Res.unchecked_some, Res.bind_ok]
        cases s.setMut e v <;> rfl
  case writeAt t pos v =>
    simp only [step, World.writeAt]
    rw [show (w.withAlloc a).components = w.components from rfl]
    cases w.components.meta? t with
    | none => rfl
    | some m =>
      simp only
      cases w.components.components[m.storageIndex]? with
      | none => rfl
      | some s =>
        simp only [Res.unchecked_some, Res.bind_ok]
        cases s.setAt pos v <;> rfl

theorem step_quiet_keeps {w w' : World V} {op : Op V} {r : Ret V} (hq : op.isQuiet = true) (hs : step w op = some (r, w')) :
    w'.entities.allocator = w.entities.allocator := by
  have h1 := step_quiet w w.entities.allocator hq
  rw [World.withAlloc_self, hs] at h1
  simp only [Option.map_some, Option.some.injEq, Prod.mk.injEq, true_and] at h1
  rw [h1]
  rfl

theorem step_atomic (w : World V) : ∃ r a, ∀ u : World V, u.entities.allocator = w.entities.allocator →
    step u .createAtomic = some (r, u.withAlloc a) := by
  cases ha : w.entities.allocator.allocateAtomic with
  | ub =>
    exfalso
    unfold EntityAllocator.allocateAtomic EntityAllocator.incrementRecycledSinceMaintain
      EntityAllocator.incrementNextIndexToAllocate at ha
    split at ha
    · rename_i r a' _
      cases hx : w.entities.allocator.recycled[w.entities.allocator.recycled.length - r - 1]? <;> rw [hx] at ha <;> cases ha
    · split at ha <;> cases ha
  | panic =>
    refine ⟨.panicked [], w.entities.allocator, fun u hu => ?_⟩
    simp only [step, World.createAtomic, EntityStorage.createAtomic, hu, ha]
    rw [← hu]
    rfl
  | ok p =>
    obtain ⟨o, a⟩ := p
    cases o with
    | none =>
      refine ⟨.panicked [], w.entities.allocator, fun u hu => ?_⟩
      simp only [step, World.createAtomic, EntityStorage.createAtomic, hu, ha]
      rw [← hu]
      rfl
    | some e =>
      refine ⟨.entity e, a, fun u hu => ?_⟩
      simp only [step, World.createAtomic, EntityStorage.createAtomic, hu, ha]
      rfl

theorem run_quiet (a : EntityAllocator) : ∀ (ops : List (Op V)) (w : World V), (∀ op ∈ ops, op.isQuiet = true) →
    run (w.withAlloc a) ops = (run w ops).map fun p => (p.1, p.2.withAlloc a)
  | [], _, _ => rfl
  | op :: ops, w, h => by
    simp only [run, step_quiet w a (h op (.head _))]
    cases step w op with
    | none => rfl
    | some p =>
      simp only [Option.map_some, run_quiet a ops p.2 fun o ho => h o (.tail _ ho)]
      cases run p.2 ops <;> rfl

theorem run_atomics : ∀ (ops : List (Op V)) (w : World V), (∀ op ∈ ops, op.isAtomic = true) →
    ∃ rs a, ∀ u : World V, u.entities.allocator = w.entities.allocator → run u ops = some (rs, u.withAlloc a)
  | [], w, _ => ⟨[], w.entities.allocator, fun u hu => by rw [← hu]; rfl⟩
  | op :: ops, w, h => by
    have ho : op = .createAtomic := by
      have := h op (.head _)
      cases op <;> first | rfl | cases this
    subst ho
    obtain ⟨r, a, h1⟩ := step_atomic w
    obtain ⟨rs, a', h2⟩ := run_atomics ops (w.withAlloc a) fun o ho => h o (.tail _ ho)
    refine ⟨r :: rs, a', fun u hu => ?_⟩
    simp only [run, h1 u hu, h2 (u.withAlloc a) rfl]
    rfl

theorem Op.atomic_not_quiet {op : Op V} (h : op.isAtomic = true) : op.isQuiet = false := by
  cases op <;> first | rfl | cases h

theorem Op.quiet_not_atomic {op : Op V} (h : op.isQuiet = true) : op.isAtomic = false := by
  cases op <;> first | rfl | cases h

theorem run_apart : ∀ (ops : List (Op V)) (w : World V), (∀ op ∈ ops, op.isAtomic = true ∨ op.isQuiet = true) →
    match run w (ops.filter Op.isQuiet) with
    | none => run w ops = none
    | some (rq, wq) => ∃ rs a, run w ops = some (rs, wq.withAlloc a) ∧ answersTo Op.isQuiet ops rs = rq ∧
        run w (ops.filter Op.isAtomic) = some (answersTo Op.isAtomic ops rs, w.withAlloc a)
  | [], w, _ => ⟨[], w.entities.allocator, rfl, rfl, rfl⟩
  | op :: ops, w, h => by
    have h' : ∀ o ∈ ops, o.isAtomic = true ∨ o.isQuiet = true := fun o ho => h o (.tail _ ho)
    rcases h op (.head _) with hop | hop
    · have hnq := Op.atomic_not_quiet hop
      have ho : op = .createAtomic := by cases op <;> first | rfl | cases hop
      obtain ⟨r, a, h1⟩ := step_atomic w
      have ih := run_apart ops (w.withAlloc a) h'
      rw [run_quiet a _ w (by simp)] at ih
      rw [List.filter_cons_of_neg (by simp [hnq]), List.filter_cons_of_pos hop]
      cases hq : run w (ops.filter Op.isQuiet) with
      | none =>
        rw [hq] at ih
        simp only [Option.map_none] at ih
        simp only [run, ho, h1 w rfl, ih]
      | some p =>
        rw [hq] at ih
        obtain ⟨rs, a', h2, h3, h4⟩ := ih
        refine ⟨r :: rs, a', ?_, ?_, ?_⟩
        · simp only [run, ho, h1 w rfl, h2]
          rfl
        · simp [answersTo, hnq, h3]
        · simp only [run, ho, h1 w rfl, h4]
          simp [answersTo, ← ho, hop]
          rfl
    · have hna := Op.quiet_not_atomic hop
      rw [List.filter_cons_of_pos hop, List.filter_cons_of_neg (by simp [hna])]
      cases hs : step w op with
      | none => simp only [run, hs]
      | some p =>
        obtain ⟨r, w1⟩ := p
        have ih := run_apart ops w1 h'
        simp only [run, hs]
        cases hq : run w1 (ops.filter Op.isQuiet) with
        | none =>
          rw [hq] at ih
          simp only at ih ⊢
          rw [ih]
        | some p =>
          rw [hq] at ih
          obtain ⟨rs, a', h2, h3, h4⟩ := ih
          refine ⟨r :: rs, a', by rw [h2], by simp [answersTo, hop, h3], ?_⟩
          obtain ⟨ra, a2, h5⟩ := run_atomics (ops.filter Op.isAtomic) w (by simp)
          have h6 := h5 w1 (step_quiet_keeps hop hs)
          rw [h4] at h6
          simp only [Option.some.injEq, Prod.mk.injEq] at h6
          have h7 : a' = a2 := congrArg (fun u : World V => u.entities.allocator) h6.2
          rw [h5 w rfl]
          simp [answersTo, hna, h6.1, h7]

/-- C80: among calls that neither make nor destroy entities, it does not matter when `create_atomic` is called. Two sequences of
the same such calls in the same order, with as many calls of `create_atomic` anywhere between them, are both undefined behaviour or
both lead to the same world, with the same answers to these calls, and to those of `create_atomic`, in order. -/
theorem C80 (w : World V) (ops ops' : List (Op V)) (h : ∀ op ∈ ops, op.isAtomic = true ∨ op.isQuiet = true)
    (h' : ∀ op ∈ ops', op.isAtomic = true ∨ op.isQuiet = true) (hq : ops.filter Op.isQuiet = ops'.filter Op.isQuiet)
    (ha : (ops.filter Op.isAtomic).length = (ops'.filter Op.isAtomic).length) :
    (run w ops = none ∧ run w ops' = none) ∨
    ∃ rs rs' w', run w ops = some (rs, w') ∧ run w ops' = some (rs', w') ∧
      answersTo Op.isQuiet ops rs = answersTo Op.isQuiet ops' rs' ∧
      answersTo Op.isAtomic ops rs = answersTo Op.isAtomic ops' rs' := by
  have hall : ∀ l : List (Op V), l.filter Op.isAtomic = List.replicate (l.filter Op.isAtomic).length .createAtomic := by
    intro l
    refine List.eq_replicate_iff.2 ⟨rfl, fun op ho => ?_⟩
    have := (List.mem_filter.1 ho).2
    cases op <;> first | rfl | cases this
  have ha' : ops.filter Op.isAtomic = ops'.filter Op.isAtomic := by rw [hall ops, hall ops', ha]
  have h1 := run_apart ops w h
  have h2 := run_apart ops' w h'
  rw [← hq] at h2
  cases hr : run w (ops.filter Op.isQuiet) with
  | none =>
    rw [hr] at h1 h2
    exact .inl ⟨h1, h2⟩
  | some p =>
    rw [hr] at h1 h2
    obtain ⟨rs, a, h3, h4, h5⟩ := h1
    obtain ⟨rs', a', h6, h7, h8⟩ := h2
    rw [← ha', h5] at h8
    simp only [Option.some.injEq, Prod.mk.injEq] at h8
    have h9 : a = a' := congrArg (fun u : World V => u.entities.allocator) h8.2
    subst h9
    exact .inr ⟨rs, rs', _, h3, h6, h4.trans h7.symm, h8.1⟩

/-- C80, reads: `create_atomic` is never undefined behaviour, and whatever is read gives the same before and after it: entities,
views, queries of one entity, and iterators and slices of queries over all entities. -/
theorem C80_reads (w : World V) : ∃ r w', step w .createAtomic = some (r, w') ∧
    w'.entitiesSlice = w.entitiesSlice ∧ w'.isEmpty = w.isEmpty ∧ (∀ e, w'.containsEntity e = w.containsEntity e) ∧
    (∀ t, w'.isRegistered t = w.isRegistered t) ∧ (∀ t, w'.borrow t = w.borrow t) ∧ (∀ t e, w'.viewGet t e = w.viewGet t e) ∧
    (∀ b g i x, QueryOne.new w' b g i x = QueryOne.new w b g i x) ∧
    (∀ b g i x, (QueryAll.new w' b g i x >>= fun q => q.1.iter) = (QueryAll.new w b g i x >>= fun q => q.1.iter)) ∧
    (∀ b g i x, (QueryAll.new w' b g i x >>= fun q => q.1.slice) = (QueryAll.new w b g i x >>= fun q => q.1.slice)) := by
  obtain ⟨r, a, h1⟩ := step_atomic w
  have hnew : ∀ b g i x, QueryAll.new (w.withAlloc a) b g i x =
      (QueryAll.new w b g i x >>= fun q => .ok ({ q.1 with world := w.withAlloc a }, q.2)) := by
    intro b g i x
    unfold QueryAll.new
    rw [show (w.withAlloc a).components = w.components from rfl]
    cases borrowQuery w.components b g with
    | ok p =>
      simp only [Res.bind_ok]
      cases borrowQuery w.components p.2.2 i with
      | ok p' =>
        simp only [Res.bind_ok]
        cases borrowQuery w.components p'.2.2 x <;> rfl
      | _ => rfl
    | _ => rfl
  have hw : ∀ b g i x q, QueryAll.new w b g i x = .ok q → q.1.world = w := by
    intro b g i x q hq
    unfold QueryAll.new at hq
    obtain ⟨_, -, hq⟩ := Res.bind_ok' hq
    obtain ⟨_, -, hq⟩ := Res.bind_ok' hq
    obtain ⟨_, -, hq⟩ := Res.bind_ok' hq
    cases hq
    rfl
  refine ⟨r, _, h1 w rfl, rfl, rfl, fun _ => rfl, fun _ => rfl, fun _ => rfl, fun _ _ => rfl, fun _ _ _ _ => rfl,
    fun b g i x => ?_, fun b g i x => ?_⟩
  all_goals
    rw [hnew]
    cases hq : QueryAll.new w b g i x with
    | ok q =>
      have := hw b g i x q hq
      obtain ⟨⟨u, q1, q2, q3, q4, q5, q6⟩, b'⟩ := q
      simp only at this
      subst this
      rfl
    | _ => rfl

/-- Two orders: the answers differ in their order only; `insert` and `set_layout` are among the calls. -/
def quietOps : List (Op Nat) × List (Op Nat) :=
  ([.createAtomic, .insert ⟨1, 1⟩ [(0, 5)], .createAtomic, .setLayout anyOrder [[0, 1]], .delete ⟨1, 1⟩ [1], .createAtomic],
   [.insert ⟨1, 1⟩ [(0, 5)], .setLayout anyOrder [[0, 1]], .createAtomic, .createAtomic, .createAtomic, .delete ⟨1, 1⟩ [1]])

example : (∀ op ∈ quietOps.1 ++ quietOps.2, op.isAtomic = true ∨ op.isQuiet = true) ∧
    (quietOps.1.filter Op.isAtomic).length = (quietOps.2.filter Op.isAtomic).length ∧
    quietOps.1.filter Op.isQuiet = quietOps.2.filter Op.isQuiet := ⟨by decide, by decide, rfl⟩

example : holdsAfter [.register 0, .register 1, .create [(1, 2)], .create [(1, 3)], .destroy ⟨0, 1⟩] (fun _ w => decide (
      (run w quietOps.1).map (·.1) = some [.entity ⟨0, 2⟩, .bool true, .entity ⟨2, 1⟩, .unit, .unit, .entity ⟨3, 1⟩] ∧
      (run w quietOps.2).map (·.1) = some [.bool true, .unit, .entity ⟨0, 2⟩, .entity ⟨2, 1⟩, .entity ⟨3, 1⟩, .unit] ∧
      (run w quietOps.1).map (·.2) = (run w quietOps.2).map (·.2))) = true := by decide +kernel

/-- Other calls are not quiet: `destroy` and `create_atomic` do not commute. -/
theorem C80_destroy_false : ∃ (h : History Nat) (w : World Nat), Reach World.empty h w ∧
    (run w [.createAtomic, .destroy ⟨0, 1⟩]).map (·.2) ≠ (run w [.destroy ⟨0, 1⟩, .createAtomic]).map (·.2) := by
  obtain ⟨rs, w, h1, h2⟩ := reach_witness (V := Nat) (ops := [.create []]) (f := fun (_ : List (Ret Nat)) w =>
    decide ((run w [.createAtomic, .destroy ⟨0, 1⟩]).map (·.2) ≠ (run w [.destroy ⟨0, 1⟩, .createAtomic]).map (·.2)))
    (by decide +kernel)
  exact ⟨_, w, h1, of_decide_eq_true h2⟩

end Sparsey
