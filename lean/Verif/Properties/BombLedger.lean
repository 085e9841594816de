import Verif.Proofs.BombLedger
import Verif.Properties.Bombs
import Verif.Properties.Panics

/-!
C75: what a panicking destructor costs.
-/

set_option autoImplicit false
set_option linter.unusedSimpArgs false

namespace Sparsey
variable {V : Type}

/-- C75, one call after any calls, of which some may have been interrupted: the books balance up to `twice` and `lost`
(`Toll`), both within the limits of the call. Values are left `twice` only by calls that panic, and by each `clear` or
`reset` that panics in a destructor. -/
theorem C75 {bomb : V → Bool} {ops : List (Op V)} {rs : List (Ret V)} {w w' : World V} {ds₀ ds : List V}
    (h₀ : runB bomb World.empty ops = some (rs, w, ds₀)) {op : Op V} {r : Ret V}
    (h : stepB bomb w op = some (r, w', ds)) :
    ∃ twice lost, Toll bomb (op.given ++ w.stored) ds (r.returned ++ w'.stored) twice lost ∧ op.Limits twice lost ∧
      (twice ≠ [] → r = .panicked []) ∧ (op = .clear ∨ op = .reset → r = .panicked [] → ds ≠ [] → twice ≠ []) :=
  (stepB_toll (runB_toll tidy_empty h₀).1 h).toll

/-- C75, any calls: everything given is returned, dropped or stored, once, except that `twice` is in the books a second
time and `lost` is missing. There are no more `lost` values than interrupted calls of `delete` and `destroy`; without
a panic there are neither. -/
theorem C75_run {bomb : V → Bool} {ops : List (Op V)} {rs : List (Ret V)} {w : World V} {ds : List V}
    (h : runB bomb World.empty ops = some (rs, w, ds)) :
    ∃ twice lost, (ops.flatMap Op.given ++ twice).Perm (ds ++ (rs.flatMap Ret.returned ++ w.stored ++ lost)) ∧
      twice.Sublist ds ∧ lost.length ≤ interrupted ops rs ∧
      ((∀ r ∈ rs, r ≠ .panicked []) → twice = [] ∧ lost = []) := by
  obtain ⟨_, twice, lost, h1, h2⟩ := runB_toll tidy_empty h
  refine ⟨twice, lost, ?_, h2⟩
  simpa [World.stored, World.empty, ComponentStorage.empty] using h1

/-- The limits are met: `delete` keeps 10 and loses 30 for it; the interrupted `clear` drops 10 again and keeps both;
the next `delete` finds nothing. -/
example : ∃ (w₁ w₂ : World Nat) (rs₁ rs₂ : List (Ret Nat)) (ds₁ ds₂ : List Nat),
    runB (· == 10) World.empty [.register 0, .create [(0, 10)], .create [(0, 20)], .create [(0, 30)],
      .delete ⟨0, 1⟩ [0]] = some (rs₁, w₁, ds₁) ∧ ds₁ = [10] ∧ w₁.stored = [10, 20] ∧
    runB (· == 10) w₁ [.clear, .delete ⟨1, 1⟩ [0]] = some (rs₂, w₂, ds₂) ∧ rs₂ = [.panicked [], .unit] ∧ ds₂ = [10] ∧
    w₂.stored = [10, 20] := by
  obtain ⟨rs₁, w₁, ds₁, h1, h2⟩ := runB_witness (bomb := (· == 10)) (ops := ([.register 0, .create [(0, 10)],
    .create [(0, 20)], .create [(0, 30)], .delete ⟨0, 1⟩ [0]] : List (Op Nat))) (f := fun _ w ds => decide (ds = [10] ∧
      w.stored = [10, 20]) && (match runB (· == 10) w [.clear, .delete ⟨1, 1⟩ [0]] with
        | some (rs₂, w₂, ds₂) => decide (rs₂ = [.panicked [], .unit] ∧ ds₂ = [10] ∧ w₂.stored = [10, 20])
        | none => false)) (by decide)
  rw [Bool.and_eq_true, decide_eq_true_eq] at h2
  obtain ⟨⟨h2, h3⟩, h4⟩ := h2
  cases h5 : runB (· == 10) w₁ [.clear, .delete ⟨1, 1⟩ [0]] with
  | none => rw [h5] at h4; cases h4
  | some q =>
    rw [h5] at h4
    exact ⟨w₁, _, rs₁, _, ds₁, _, h1, h2, h3, h5, of_decide_eq_true h4⟩

/-! ### Calls that meet no bomb -/

theorem ComponentStorage.deleteB_refused {bomb : V → Bool} {c : ComponentStorage V} {e : Entity} {ts : List TypeId}
    (h : c.delete e ts = .panic) : c.deleteB bomb e ts = .panic (c, []) ∧ c.deleteDrops e ts = [] := by
  unfold ComponentStorage.delete at h
  unfold ComponentStorage.deleteB ComponentStorage.deleteDrops
  cases hl : c.lookupAll (·.deleteMask) ts with
  | ub => rw [hl] at h; cases h
  | panic => exact ⟨rfl, rfl⟩
  | ok p =>
    obtain ⟨idxs, mask⟩ := p
    rw [hl] at h
    rw [Outcome.ofRes_ok]
    dsimp only
    have h : (c.withMask mask (ungroup · mask e)).bind (fun c => deleteEach e idxs c) = .panic := h
    cases hm : c.withMask mask (ungroup · mask e) with
    | ub => rw [hm] at h; cases h
    | panic => exact ⟨rfl, rfl⟩
    | ok c1 =>
      rw [hm] at h
      exact absurd h (deleteEach_ne_panic _ _)

/-- C37, any call in any reachable world: if it drops no bomb it is not affected by them, also if it panics for another
reason. -/
theorem C37_unaffected {bomb : V → Bool} {h : History V} {w w' : World V} (hr : Reach World.empty h w) {op : Op V} {r : Ret V}
    (hs : step w op = some (r, w')) (hb : ∀ v ∈ w.drops op, bomb v = false) :
    stepB bomb w op = some (r, w', w.drops op) := by
  by_cases hp : r = .panicked []
  · subst hp
    have hn : w.Refuses op := (C49 hr op).1.1 ⟨_, _, hs⟩
    cases op with
    | destroy e => exact absurd hn id
    | clear => exact absurd hn id
    | delete e ts =>
      obtain ⟨_, hw⟩ := (C49 hr (.delete e ts)).2 trivial _ _ hs
      rcases retRes_cases hs with ⟨h1, _, _⟩ | ⟨w1, _, h2⟩
      · have h1 : (w.components.delete e ts).bind (fun c => Res.ok { w with components := c }) = .panic := h1
        have h3 : w.components.delete e ts = .panic := by
          cases hd : w.components.delete e ts with
          | panic => rfl
          | ub => rw [hd] at h1; cases h1
          | ok c => rw [hd] at h1; cases h1
        obtain ⟨h4, h5⟩ := ComponentStorage.deleteB_refused (bomb := bomb) h3
        show retB (World.withStorage w.entities (w.components.deleteB bomb e ts)) _ = _
        rw [h4, show w.drops (.delete e ts) = [] from h5, hw]
        rfl
      · cases h2
    | _ => exact stepB_calm' hs (fun _ => ⟨by simp, by simp, by simp⟩) hb
  · exact stepB_calm hs hp hb

/-- C37, any calls: if no dropped value is a bomb the calls are not affected by them. -/
theorem C37_unaffected_run {bomb : V → Bool} : ∀ {ops : List (Op V)} {h : History V} {w w' : World V} {rs : List (Ret V)}
    {ds : List V}, Reach World.empty h w → runDrops w ops = some (rs, ds, w') → (∀ v ∈ ds, bomb v = false) →
    runB bomb w ops = some (rs, w', ds)
  | [], _, _, _, _, _, _, h, _ => by cases h; rfl
  | op :: ops, _, w, w', rs, ds, hr, h, hb => by
    rw [runDrops] at h
    cases h1 : step w op with
    | none => rw [h1] at h; cases h
    | some p =>
      obtain ⟨r, w1⟩ := p
      rw [h1] at h
      dsimp only at h
      cases h2 : runDrops w1 ops with
      | none => rw [h2] at h; cases h
      | some q =>
        obtain ⟨rs2, d2, w2⟩ := q
        rw [h2] at h
        cases h
        rw [runB, C37_unaffected hr h1 fun v hv => hb v (List.mem_append_left _ hv)]
        dsimp only
        rw [C37_unaffected_run (hr.snoc h1) h2 fun v hv => hb v (List.mem_append_right _ hv)]

/-! ### What an interrupted `clear` leaves -/

theorem ComponentStorage.clearAllB_panic {bomb : V → Bool} : ∀ {l l' : List (CompSet V)} {ds : List V},
    clearAllB bomb l = .panic (l', ds) → ∃ a s b, l = a ++ s :: b ∧ (∀ x ∈ a, ∀ v ∈ x.components, bomb v = false) ∧
      s.components.any bomb = true ∧ l' = a.map CompSet.clear ++ { s with sparse := s.sparse.clear } :: b ∧
      ds = a.flatMap (·.components) ++ upToBomb bomb s.components
  | [], _, _, h => by cases h
  | s :: ss, l', ds, h => by
    unfold clearAllB CompSet.clearB at h
    by_cases hb : s.components.any bomb = true
    · rw [if_pos hb] at h
      cases h
      exact ⟨[], s, ss, rfl, by simp, hb, rfl, by simp⟩
    · rw [if_neg hb] at h
      dsimp only at h
      cases hr : clearAllB bomb ss with
      | ub => rw [hr] at h; cases h
      | ok u q => rw [hr] at h; cases h
      | panic q =>
        obtain ⟨l1, d1⟩ := q
        rw [hr] at h
        cases h
        obtain ⟨a, s0, b, h1, h2, h3, h4, h5⟩ := clearAllB_panic hr
        refine ⟨s :: a, s0, b, by rw [h1]; rfl, ?_, h3, by rw [h4]; rfl, by rw [h5]; simp⟩
        intro x hx
        rcases List.mem_cons.1 hx with rfl | hx
        · simpa using hb
        · exact h2 x hx

/-- C75, an interrupted `clear` or `reset` in any reachable world: the entities and groups are as after a completed one. The
sets before that of the bomb are empty, without having met one; this set still lists all its rows but finds none; the sets
after it are as before. -/
theorem C75_clear {bomb : V → Bool} {h : History V} {w w' : World V} (hr : Reach World.empty h w) {op : Op V}
    (hop : op = .clear ∨ op = .reset) {ds : List V} (hs : stepB bomb w op = some (.panicked [], w', ds)) :
    ∃ w₁, step w op = some (.unit, w₁) ∧ w'.entities = w₁.entities ∧ w'.components.groups = w₁.components.groups ∧
    ∃ k s₀, w.components.components[k]? = some s₀ ∧ s₀.components.any bomb = true ∧
      (∀ s ∈ w.components.components.take k, ∀ v ∈ s.components, bomb v = false) ∧
      ds = (w.components.components.take k).flatMap (·.components) ++ upToBomb bomb s₀.components ∧
      (∀ t, w.components.meta? t = none → w'.borrow t = .panic) ∧
      ∀ t m s, w.components.meta? t = some m → w.borrow t = .ok s → w'.borrow t = .ok
        (if m.storageIndex < k then CompSet.new
         else if m.storageIndex = k then ⟨SparseVec.new, s.entities, s.components⟩ else s) := by
  have key : ∀ {es es₁ : EntityStorage}, es = es₁ →
      retB (World.withStorage es (w.components.clearB bomb)) (fun _ => Ret.unit) = some (.panicked [], w', ds) →
      w'.entities = es₁ ∧ w'.components.groups = w.components.clear.groups ∧
      ∃ k s₀, w.components.components[k]? = some s₀ ∧ s₀.components.any bomb = true ∧
      (∀ s ∈ w.components.components.take k, ∀ v ∈ s.components, bomb v = false) ∧
      ds = (w.components.components.take k).flatMap (·.components) ++ upToBomb bomb s₀.components ∧
      (∀ t, w.components.meta? t = none → w'.borrow t = .panic) ∧
      ∀ t m s, w.components.meta? t = some m → w.borrow t = .ok s → w'.borrow t = .ok
        (if m.storageIndex < k then CompSet.new
         else if m.storageIndex = k then ⟨SparseVec.new, s.entities, s.components⟩ else s) := by
    rintro es _ rfl hs
    unfold ComponentStorage.clearB at hs
    dsimp only at hs
    cases hc : ComponentStorage.clearAllB bomb w.components.components with
    | ub => rw [hc] at hs; cases hs
    | ok u q => rw [hc] at hs; cases hs
    | panic q =>
      obtain ⟨l', d⟩ := q
      rw [hc] at hs
      cases hs
      obtain ⟨a, s0, b, h1, h2, h3, h4, h5⟩ := ComponentStorage.clearAllB_panic hc
      have htake : w.components.components.take a.length = a := by rw [h1]; simp
      refine ⟨rfl, rfl, a.length, s0, by rw [h1]; simp, h3, by rw [htake]; exact h2, by rw [htake]; exact h5,
        fun t ht => ?_, fun t m s ht hb => ?_⟩
      · unfold World.borrow
        dsimp only [ComponentStorage.meta?] at ht ⊢
        rw [ht]
      · unfold World.borrow at hb ⊢
        rw [ht] at hb
        have hb := Res.unchecked_ok hb
        dsimp only [ComponentStorage.meta?] at ht ⊢
        rw [ht]
        dsimp only
        rw [h1] at hb
        rw [h4]
        by_cases hlt : m.storageIndex < a.length
        · rw [if_pos hlt, List.getElem?_append_left (by simpa using hlt)]
          rw [List.getElem?_append_left hlt] at hb
          rw [List.getElem?_map, hb]
          rfl
        · rw [if_neg hlt, List.getElem?_append_right (by simp; omega)]
          rw [List.getElem?_append_right (by omega)] at hb
          rw [List.length_map]
          by_cases heq : m.storageIndex = a.length
          · rw [if_pos heq]
            rw [heq, Nat.sub_self, List.getElem?_cons_zero] at hb ⊢
            cases hb
            rfl
          · rw [if_neg heq]
            obtain ⟨j, hj⟩ : ∃ j, m.storageIndex - a.length = j + 1 := ⟨m.storageIndex - a.length - 1, by omega⟩
            rw [hj, List.getElem?_cons_succ] at hb ⊢
            rw [hb]
            rfl
  rcases hop with rfl | rfl
  · rw [stepB] at hs
    unfold World.clearB at hs
    have hn : ¬ ∃ made w', step w .clear = some (.panicked made, w') := fun h => (C49 hr .clear).1.1 h
    cases he : w.entities.clear with
    | ub => rw [he] at hs; cases hs
    | panic => exact absurd ⟨[], w, by simp only [step, World.clear, he]; rfl⟩ hn
    | ok es =>
      rw [he, Outcome.ofRes_ok] at hs
      exact ⟨⟨es, w.components.clear⟩, by simp only [step, World.clear, he]; rfl, key rfl hs⟩
  · exact ⟨w.reset, rfl, key rfl hs⟩

/-- After an interrupted `reset` the rows left behind may have an index that the emptied table does not reach: a later
`create` exchanges such a row with the new one to group it, which is undefined behaviour. -/
theorem C75_ub_false : ∃ (rs : List (Ret Nat)) (w : World Nat) (ds : List Nat),
    runB (· == 11) World.empty [.setLayout anyOrder [[0, 1]], .create [], .create [], .create [], .create [],
      .create [(0, 10), (1, 11)], .reset] = some (rs, w, ds) ∧ rs.getLast? = some (.panicked []) ∧
    stepB (· == 11) w (.create [(0, 20), (1, 21)]) = none := by
  obtain ⟨rs, w, ds, h1, h2⟩ := runB_witness (bomb := (· == 11)) (ops := ([.setLayout anyOrder [[0, 1]], .create [],
    .create [], .create [], .create [], .create [(0, 10), (1, 11)], .reset] : List (Op Nat))) (f := fun rs w _ =>
      decide (rs.getLast? = some (.panicked [])) && (stepB (· == 11) w (.create [(0, 20), (1, 21)])).isNone) (by decide +kernel)
  rw [Bool.and_eq_true, decide_eq_true_eq] at h2
  exact ⟨rs, w, ds, h1, h2.1, by simpa using h2.2⟩

end Sparsey
