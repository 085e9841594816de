import Verif.Proofs.Leftover
import Verif.Properties.Views

/-!
C61: the number of component sets of a world.
-/

set_option autoImplicit false
set_option linter.unusedSimpArgs false

namespace Sparsey
variable {V : Type}

/-- `ts` are the registered types. -/
def World.TypesAre (w : World V) (ts : List TypeId) : Prop := ts.Nodup ∧ ∀ t, t ∈ ts ↔ w.isRegistered t = true

theorem World.TypesAre.length {w : World V} {ts : List TypeId} (h : w.TypesAre ts)
    (hk : (w.components.metadata.map Prod.fst).Nodup) : ts.length = w.components.metadata.length := by
  have : ts.Perm (w.components.metadata.map Prod.fst) := by
    refine (List.perm_ext_iff_of_nodup h.1 hk).2 fun t => ?_
    rw [h.2 t, World.isRegistered, ComponentStorage.isRegistered, ComponentStorage.meta?, List.mem_map]
    constructor
    · intro ht
      obtain ⟨m, hm⟩ := Option.isSome_iff_exists.1 ht
      obtain ⟨l1, l2, he, _⟩ := List.lookup_eq_some_iff.1 hm
      exact ⟨(t, m), by simp [he], rfl⟩
    · rintro ⟨p, hp, rfl⟩
      cases hl : w.components.metadata.lookup p.1 with
      | some m => rfl
      | none =>
        rw [List.lookup_eq_none_iff] at hl
        simpa using hl p hp
  rw [this.length_eq, List.length_map]

/-- **C61** `set_layout` keeps all sets and adds a new one for every type (also for the types that had one before). -/
theorem C61_layout {h : History V} {w w' : World V} (hr : Reach World.empty h w) {rank : TypeId → Nat}
    {gs : List (List TypeId)} (hs : step w (.setLayout rank gs) = some (.unit, w')) {ts : List TypeId} (ht : w'.TypesAre ts) :
    w.components.components.length + ts.length ≤ w'.components.components.length ∧
    (LayoutOK (GroupLayout.build gs).2 → w.components.components.length + ts.length = w'.components.components.length) := by
  rw [ht.length (reach_keys (hr.snoc hs))]
  simp only [step, World.setLayout] at hs
  cases hc : w.components.setLayout rank (GroupLayout.build gs).2 w.entities.asSlice with
  | ub => rw [hc] at hs; cases hs
  | panic c => rw [hc] at hs; cases hs
  | ok u c =>
    rw [hc] at hs
    cases hs
    exact ComponentStorage.setLayout_count rank (reach_keys hr) _ _ hc

/-- **C61** `register` adds one set for a new type. -/
theorem C61_register {w w' : World V} {t : TypeId} {b : Bool} (hs : step w (.register t) = some (.bool b, w')) :
    b = !w.isRegistered t ∧
    w'.components.components.length = w.components.components.length + (if w.isRegistered t then 0 else 1) := by
  simp only [step, Option.some.injEq, Prod.mk.injEq, Ret.bool.injEq] at hs
  obtain ⟨rfl, rfl⟩ := hs
  simp only [World.register, ComponentStorage.register, World.isRegistered, ComponentStorage.isRegistered]
  split <;> rename_i hm <;> simp [hm]

/-- **C61** No other call adds or removes a set. -/
theorem C61_other {w w' : World V} {op : Op V} {r : Ret V} (hs : step w op = some (r, w'))
    (h1 : ∀ t, op ≠ .register t) (h2 : ∀ rank gs, op ≠ .setLayout rank gs) :
    w'.components.components.length = w.components.components.length := by
  refine (step_shape hs ?_).len
  cases op <;> first
    | trivial
    | exact absurd rfl (h1 _)
    | exact absurd rfl (h2 _ _)

/-- **C61 (partial)** There is one set for each registered type as long as the layout is only set at the beginning.
Missing: histories that set the layout later (`C61_false`). -/
theorem C61_partial {h : History V} {w : World V} (hr : Reach World.empty h w)
    (hl : ∀ a p b, h = a ++ p :: b → ∀ gs, p.1.layout = some gs → a = [] ∧ p.2 = .unit ∧ LayoutOK (GroupLayout.build gs).2)
    {ts : List TypeId} (ht : w.TypesAre ts) : w.components.components.length = ts.length := by
  rw [ht.length (reach_keys hr)]
  clear ht ts
  induction hr with
  | nil => rfl
  | @snoc h w1 w2 op r hr hs ih =>
    have ih := ih fun a p b he gs hg => hl a p (b ++ [(op, r)]) (by rw [he]; simp) gs hg
    by_cases hop : op.keepsTypes
    · have := step_shape hs hop
      rw [this.len, this.md, ih]
    · cases op <;> simp only [Op.keepsTypes, not_true_eq_false, not_false_eq_true] at hop
      · simp only [step, Option.some.injEq, Prod.mk.injEq] at hs
        rw [← hs.2]
        simp only [World.register, ComponentStorage.register]
        split
        · exact ih
        · rename_i t _ hm
          have hn : t ∉ w1.components.metadata.map Prod.fst := by
            intro hx
            obtain ⟨p, hp, rfl⟩ := List.mem_map.1 hx
            rw [ComponentStorage.meta?, List.lookup_eq_none_iff] at hm
            simpa using hm p hp
          simp [ComponentStorage.insertMeta_length_new hn, ih]
      · rename_i rank gs
        obtain ⟨h1, h2, h3⟩ := hl h (.setLayout rank gs, r) [] (by simp) gs rfl
        subst h1
        cases h2
        simp only [step, World.setLayout] at hs
        cases hc : w1.components.setLayout rank (GroupLayout.build gs).2 w1.entities.asSlice with
        | ub => rw [hc] at hs; cases hs
        | panic c => rw [hc] at hs; cases hs
        | ok u c =>
          rw [hc] at hs
          cases hs
          have h0 : w1 = World.empty := by
            generalize hh : ([] : History V) = h at hr
            cases hr with
            | nil => rfl
            | snoc _ _ => simp at hh
          subst h0
          have := (ComponentStorage.setLayout_count rank (reach_keys hr) _ _ hc).2 h3
          simpa [World.empty, ComponentStorage.empty] using this.symm

/-- A world with a layout and a further type: three sets. -/
example : holdsAfter (V := Nat) [.setLayout anyOrder [[0, 1]], .register 2, .create [(0, 10), (1, 11), (2, 12)]] (fun _ w =>
    decide (w.components.components.length = 3 ∧ ∀ t ∈ ([0, 1, 2] : List TypeId), w.isRegistered t = true)) = true := by
  decide +kernel

/-- The layout set once more: three further sets. The first three have become empty. -/
example : holdsAfter (V := Nat) [.setLayout anyOrder [[0, 1]], .register 2, .create [(0, 10), (1, 11), (2, 12)],
    .setLayout anyOrder [[0, 1]]] (fun _ w => decide (w.components.components.length = 6 ∧
      w.components.components.take 3 = List.replicate 3 CompSet.new ∧ w.viewGet 2 ⟨0, 1⟩ = .ok (some 12))) = true := by
  decide +kernel

/-- The world after `register 0` and `n` calls of `set_layout` without groups. -/
def leftWorld (V : Type) (n : Nat) : World V :=
  { (World.empty : World V) with
    components := ⟨[], [(0, ⟨n, 0#64, 0#64, none⟩)], List.replicate (n + 1) CompSet.new⟩ }

theorem leftWorld_step (n : Nat) :
    step (leftWorld V n) (.setLayout anyOrder []) = some (.unit, leftWorld V (n + 1)) := by
  have h1 : (List.replicate (n + 1) (CompSet.new : CompSet V))[n]? = some CompSet.new := by
    rw [List.getElem?_replicate]
    simp
  have h2 : (List.replicate (n + 1) (CompSet.new : CompSet V)).set n CompSet.new = List.replicate (n + 1) CompSet.new := by
    refine List.ext_getElem? fun i => ?_
    rw [List.getElem?_set]
    split
    · subst i; simp
    · rfl
  have h3 : (leftWorld V n).components.extractSparseSets =
      .ok ([(0, CompSet.new)], ⟨[], [], List.replicate (n + 1) CompSet.new⟩) := by
    simp [ComponentStorage.extractSparseSets, ComponentStorage.takeSets, leftWorld, h1, h2, Res.checked]
  have h4 : GroupMask.fromTo 0 0 = .ok 0#64 := by decide
  simp only [step, World.setLayout, ComponentStorage.setLayout, h3, GroupLayout.build, GroupLayout.addGroups,
    GroupLayout.empty, ComponentStorage.addFamilies, ComponentStorage.sortByRank, ComponentStorage.insertByRank,
    ComponentStorage.addUngrouped, ComponentStorage.insertMeta, List.length_nil, h4, List.filter_nil]
  have h5 : (leftWorld V n).entities.asSlice = [] := by rfl
  rw [h5]
  simp only [ComponentStorage.groupEntities, retOutcome, leftWorld, List.length_replicate]
  simp [List.replicate_succ']

theorem leftWorld_reach : ∀ n, ∃ h : History V, Reach World.empty h (leftWorld V n)
  | 0 => ⟨_, .snoc (op := .register 0) (r := .bool true) .nil rfl⟩
  | n + 1 => by
    obtain ⟨h, hr⟩ := leftWorld_reach n
    exact ⟨_, hr.snoc (leftWorld_step n)⟩

/-- **C61 fails without the guard**: a world with one registered type and no entities can have any number of sets. -/
theorem C61_false (n : Nat) : ∃ (h : History V) (w : World V), Reach World.empty h w ∧ w.TypesAre [0] ∧
    w.components.components.length = n + 1 := by
  obtain ⟨h, hr⟩ := leftWorld_reach (V := V) n
  refine ⟨h, _, hr, ⟨by simp, fun t => ?_⟩, by simp [leftWorld]⟩
  by_cases ht : t = 0
  · simp [World.isRegistered, ComponentStorage.isRegistered, ComponentStorage.meta?, leftWorld, List.lookup, ht]
  · have : (t == 0) = false := by simpa using ht
    simp [World.isRegistered, ComponentStorage.isRegistered, ComponentStorage.meta?, leftWorld, List.lookup, this, ht]

end Sparsey
