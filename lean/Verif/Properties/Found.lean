import Verif.Proofs.FoundStep
import Verif.Proofs.Settled
import Verif.Properties.OneType
import Verif.Properties.Uneven

/-!
C70: a view follows the map as long as all of its rows are found. The rows of a view (C65) are found or not after each call
(C68); that is something a program can watch, and it is exactly what keeps a view from going astray. Unlike C51 and C56 nothing
is asked of the exchanges made by a call: they may mix up labels if they put them right again.
-/

set_option autoImplicit false
set_option linter.unusedSimpArgs false

namespace Sparsey
variable {V : Type}

theorem World.ShowsAs.found {t : TypeId} {w : World V} {s : MapWorld V} (h : w.ShowsAs t s) : w.FindsAll t := by
  intro p hp
  unfold World.rows at hp
  split at hp
  · next x hx =>
    have hreg : w.isRegistered t = true := by
      unfold World.borrow at hx
      show (w.components.meta? t).isSome = true
      cases hm : w.components.meta? t with
      | none => rw [hm] at hx; cases hx
      | some m => rfl
    obtain ⟨y, h1, h2, _, h3, _, h4⟩ := h hreg
    rw [hx] at h1
    cases h1
    obtain ⟨i, hi⟩ := List.mem_iff_getElem?.1 hp
    rw [List.getElem?_zip_eq_some] at hi
    rw [h2, ← h4 i _ hi.1, hi.2]
  · cases hp

/-- **C70.** If after every call all rows of the view of `t` were found, the world has the entities of the map and shows type
`t` as the map has it. -/
theorem C70 {t : TypeId} {h : History V} {w : World V} (hr : Reach World.empty h w) (hh : HandledFor t h)
    (hd : Disciplined h) (hf : FoundAlong t h) :
    (∀ e, w.containsEntity e = true ↔ e ∈ (mapOf (calls h)).life.alive) ∧ w.ShowsAs t (mapOf (calls h)) :=
  (reach_foundVals hr hh hf hd).1.shows hr

/-- **C70.** All rows of a view are found after every call if and only if the view shows the map after every call. -/
theorem C70_exact {t : TypeId} {h : History V} {w : World V} (hr : Reach World.empty h w) (hh : HandledFor t h)
    (hd : ∀ a, a <+: h → Disciplined a) : FoundAlong t h ↔ ShownAlong t h := by
  constructor
  · intro hf a w' ha hra
    obtain ⟨b, rfl⟩ := ha
    have hha : HandledFor t a := ((HandledFrom.split hra _ _).1 hh).1
    exact (C70 hra hha (hd _ (List.prefix_append _ _)) fun a' w1 ha' => hf a' w1 (ha'.trans (List.prefix_append _ _))).2
  · exact fun hs a w' ha hra => (hs a w' ha hra).found

/-- **C70.** Answers: every call answers as the map does, as far as type `t` is concerned. -/
theorem C70_answers {t : TypeId} {h : History V} {op : Op V} {r : Ret V} {w : World V}
    (hr : Reach World.empty (h ++ [(op, r)]) w) (hh : HandledFor t (h ++ [(op, r)]))
    (hd : Disciplined (h ++ [(op, r)])) (hf : FoundAlong t (h ++ [(op, r)])) :
    SameFor t op r ((mapOf (calls h)).answer op) := by
  have hr0 := hr
  generalize hq : h ++ [(op, r)] = q at hr
  cases hr with
  | nil => simp at hq
  | snoc hr' hs =>
    obtain ⟨h1, h2⟩ := List.append_inj' hq rfl
    subst h1
    simp only [List.cons.injEq, Prod.mk.injEq, and_true] at h2
    obtain ⟨rfl, rfl⟩ := h2
    obtain ⟨n1, n2, n3⟩ := hh.snoc hr'
    exact (found_snoc hr' hs (n1.laid hr') n2 n3 (hf _ _ (List.prefix_refl _) hr0) hd
      (reach_foundVals hr' n1 fun a w1 ha => hf a w1 (ha.trans (List.prefix_append _ _)))).1

/-! ### All types together -/

theorem MapWorld.AllFair.split : ∀ (a : List (Op V)) {s : MapWorld V} {b : List (Op V)},
    s.AllFair (a ++ b) ↔ s.AllFair a ∧ (s.run a).AllFair b
  | [], s, b => by simp [MapWorld.AllFair, MapWorld.run]
  | op :: a, s, b => by
    simp only [List.cons_append, MapWorld.AllFair, MapWorld.AllFair.split a, MapWorld.run, List.foldl_cons, and_assoc]

theorem ungroupStep_none {e : Entity} {i : Nat} {comps : List (CompSet V)} {gs : List Group}
    (hn : ∀ (j : Nat) (g : Group) (s : CompSet V), gs[j]? = some g → comps[g.newStorageStart]? = some s → s.sparse.get e = none)
    (k : Nat) : ungroupStepPairsAt k e i (comps, gs) = [] ∧
      ∀ s, ungroupStep e i (comps, gs) = .ok s → s = (comps, gs) := by
  cases hg : gs[i]? with
  | none => simp [ungroupStepPairsAt, ungroupStep, hg, Res.unchecked]
  | some g =>
    simp only [ungroupStepPairsAt, ungroupStep, hg, Res.unchecked_some, Res.bind_ok]
    unfold compRange
    by_cases hb : g.newStorageStart ≤ g.storageEnd ∧ g.storageEnd ≤ comps.length
    · rw [if_pos hb]
      simp only [Res.bind_ok]
      cases hseg : (comps.drop g.newStorageStart).take (g.storageEnd - g.newStorageStart) with
      | nil => simp [getGroupStatus]
      | cons first rest =>
        have h0 : comps[g.newStorageStart]? = some first := by
          have h1 : ((comps.drop g.newStorageStart).take (g.storageEnd - g.newStorageStart))[0]? = some first := by
            rw [hseg]; rfl
          rw [List.getElem?_take] at h1
          split at h1
          · simpa using h1
          · cases h1
        have := hn i g first hg h0
        simp only [getGroupStatus, this, Res.bind_ok]
        exact ⟨trivial, fun s hs => by cases hs; rfl⟩
    · rw [if_neg hb]
      exact ⟨rfl, fun s hs => by cases hs⟩

theorem ungroupLoop_none {e : Entity} {comps : List (CompSet V)} {gs : List Group}
    (hn : ∀ (j : Nat) (g : Group) (s : CompSet V), gs[j]? = some g → comps[g.newStorageStart]? = some s → s.sparse.get e = none)
    (k : Nat) : ∀ (fuel : Nat) (mask : BitVec 64), ungroupLoopPairsAt k e fuel mask (comps, gs) = []
  | 0, mask => by
    unfold ungroupLoopPairsAt
    cases bitNextBack mask <;> rfl
  | fuel + 1, mask => by
    unfold ungroupLoopPairsAt
    cases bitNextBack mask with
    | none => rfl
    | some p =>
      obtain ⟨i, mask'⟩ := p
      obtain ⟨h1, h2⟩ := ungroupStep_none (i := i) hn k
      simp only [h1, List.nil_append]
      cases hs : ungroupStep e i (comps, gs) with
      | ok s => rw [h2 s hs]; exact ungroupLoop_none hn k fuel mask'
      | panic => rfl
      | ub => rfl

/-- Removing components of a dead entity exchanges nothing. -/
theorem dead_swaps {w : World V} {s : MapWorld V} {gl : List (List TypeId)} (hlay : LayStat w.components gl)
    (hv : ∀ t, LoneVals t w s) {e : Entity} (he : e ∉ s.life.alive) (t : TypeId) (ts : List TypeId) :
    w.components.removePairsOf t e ts = [] := by
  have hn : ∀ (j : Nat) (g : Group) (x : CompSet V), w.components.groups[j]? = some g →
      w.components.components[g.newStorageStart]? = some x → x.sparse.get e = none := by
    intro j g x hg hx
    obtain ⟨b1, b2, b3⟩ := hlay.store.gstat.bounds j g hg
    obtain ⟨t', m, h1, h2⟩ := hlay.store.mds.cover j g g.newStorageStart hg ⟨b1, b2⟩
    obtain ⟨i1, i2, _⟩ := (hv t').holds x (by
      rw [setOf_meta (show w.components.meta? t' = some m from h1), h2]; exact hx)
    cases hget : x.sparse.get e with
    | none => rfl
    | some d => exact absurd (i2 e (List.mem_of_getElem? ((i1.rep.get_eq_some e d).1 hget))) he
  unfold ComponentStorage.removePairsOf
  split
  · split
    · rfl
    · unfold ComponentStorage.atType
      split
      · exact ungroupLoop_none hn _ _ _
      · rfl
  · rfl

theorem MapWorld.Fair.sparesAt {h : History V} {w w' : World V} {op : Op V} {r : Ret V} {s : MapWorld V}
    (hr : Reach World.empty h w) (hs : step w op = some (r, w')) (hf : s.Fair op) (t : TypeId) : op.SparesAt t r := by
  cases op <;> try trivial
  · rename_i rank gs
    obtain ⟨h1, h2⟩ := hf
    refine ⟨List.nodup_iff_count_le_one.1 h1.2 t, ?_⟩
    have hp := (ComponentStorage.setLayout_bounds rank (reach_bounds hr) (build_fams gs) w.entities.asSlice).2.2 h2
    simp only [step] at hs
    unfold World.setLayout at hs
    cases hx : w.components.setLayout rank (GroupLayout.build gs).2 w.entities.asSlice with
    | ub => rw [hx] at hs; cases hs
    | panic c => exact absurd hx (hp c)
    | ok u c =>
      rw [hx] at hs
      cases hs
      rfl

/-- A history of fair calls after each of which all rows of all views are found follows the map. -/
theorem reach_allFound {h : History V} {w : World V} (hr : Reach World.empty h w) (ha : MapWorld.init.AllFair (calls h))
    (hf : ∀ t, FoundAlong t h) :
    (∀ t, LoneVals t w (mapOf (calls h))) ∧ Laid h ∧ (∀ t, HandledFor t h) := by
  induction hr with
  | nil =>
    refine ⟨fun t => ⟨LifeInv.init, mapOf_absent _, ?_⟩, fun p hp => by simp at hp, fun t => trivial⟩
    intro s hs
    simp [ComponentStorage.setOf, World.empty, ComponentStorage.empty, ComponentStorage.meta?] at hs
  | @snoc h w1 w2 op r hr hs ih =>
    have hcalls : calls (h ++ [(op, r)]) = calls h ++ [op] := by simp [calls]
    rw [hcalls, MapWorld.AllFair.split] at ha
    obtain ⟨ha1, ha2, _⟩ := ha
    obtain ⟨i1, i2, i3⟩ := ih ha1 fun t a w ha => hf t a w (ha.trans (List.prefix_append _ _))
    have hset : Settled (calls h) := by
      intro gs hgs
      obtain ⟨op, ho, hop⟩ := List.exists_of_findSome?_eq_some hgs
      exact ha1.layouts op (List.mem_reverse.1 ho) gs hop
    have hsp := fun t => MapWorld.Fair.sparesAt hr hs ha2 t
    have hhd : ∀ t, w1.Handled t (mapOf (calls h)) op := by
      intro t
      have hdead : ∀ (e : Entity) (ts : List TypeId), e ∈ (mapOf (calls h)).life.alive ∨
          EvenPairs (w1.components.removePairsOf t e ts) := by
        intro e ts
        by_cases he : e ∈ (mapOf (calls h)).life.alive
        · exact .inl he
        · rw [dead_swaps (reach_lay hr hset) i1 he t ts]
          exact .inr (by simp [EvenPairs])
      cases op with
      | remove e ts => exact .inr (hdead e ts)
      | delete e ts => exact .inr (hdead e ts)
      | _ => trivial
    refine ⟨fun t => ?_, ?_, fun t => ?_⟩
    · rw [hcalls, mapOf_snoc]
      refine (step_found hr hs (reach_sameReg hr i2) (i1 t) (hsp t) ?_ (hf t _ _ (List.prefix_refl _) (hr.snoc hs)) (hhd t)).2
      rintro rfl
      exact ha2
    · intro p hp
      rcases List.mem_append.1 hp with hp | hp
      · exact i2 p hp
      · simp only [List.mem_singleton] at hp
        subst hp
        exact (hsp 0).lays
    · refine (HandledFrom.split hr _ _).2 ⟨i3 t, hsp t, hhd t, ?_⟩
      rw [hs]
      trivial

/-- **C70.** All types, and any handles: if after every call all rows of all views were found, the world is the map. -/
theorem C70_all {h : History V} {w : World V} (hr : Reach World.empty h w) (ha : MapWorld.init.AllFair (calls h))
    (hf : ∀ t, FoundAlong t h) :
    (∀ e, w.containsEntity e = true ↔ e ∈ (mapOf (calls h)).life.alive) ∧
    (∀ t, w.isRegistered t = true ↔ t ∈ (mapOf (calls h)).reg) ∧ ∀ t, w.ShowsAs t (mapOf (calls h)) := by
  obtain ⟨h1, h2, _⟩ := reach_allFound hr ha hf
  exact ⟨((h1 0).shows hr).1, reach_sameReg hr h2, fun t => ((h1 t).shows hr).2⟩

/-- **C70.** All rows of all views are found after every call if and only if all views show the map after every call. -/
theorem C70_all_exact {h : History V} {w : World V} (hr : Reach World.empty h w) (ha : MapWorld.init.AllFair (calls h)) :
    (∀ t, FoundAlong t h) ↔ ∀ t, ShownAlong t h := by
  constructor
  · intro hf t a w' hp hra
    obtain ⟨b, rfl⟩ := hp
    have : calls (a ++ b) = calls a ++ calls b := by simp [calls]
    rw [this, MapWorld.AllFair.split] at ha
    exact (C70_all hra ha.1 fun t a' w1 ha' => hf t a' w1 (ha'.trans (List.prefix_append _ _))).2.2 t
  · exact fun hs t a w' hp hra => (hs t a w' hp hra).found

/-- **C70.** Every call then answers exactly as the map does. -/
theorem C70_all_answers {h : History V} {op : Op V} {r : Ret V} {w : World V}
    (hr : Reach World.empty (h ++ [(op, r)]) w) (ha : MapWorld.init.AllFair (calls (h ++ [(op, r)])))
    (hf : ∀ t, FoundAlong t (h ++ [(op, r)])) : r = (mapOf (calls h)).answer op := by
  have hr0 := hr
  generalize hq : h ++ [(op, r)] = q at hr
  cases hr with
  | nil => simp at hq
  | @snoc h' w1 _ op' r' hr' hs =>
    obtain ⟨h1, h2⟩ := List.append_inj' hq rfl
    subst h1
    simp only [List.cons.injEq, Prod.mk.injEq, and_true] at h2
    obtain ⟨rfl, rfl⟩ := h2
    obtain ⟨_, _, n3⟩ := reach_allFound hr0 ha hf
    have hcalls : calls (h ++ [(op, r)]) = calls h ++ [op] := by simp [calls]
    rw [hcalls, MapWorld.AllFair.split] at ha
    obtain ⟨ha1, ha2, _⟩ := ha
    obtain ⟨i1, i2, _⟩ := reach_allFound hr' ha1 fun t a w ha => hf t a w (ha.trans (List.prefix_append _ _))
    have hm : op = .maintain → (mapOf (calls h)).life.freshKilled = false := by
      rintro rfl
      exact ha2
    have hall : ∀ t, SameFor t op r ((mapOf (calls h)).answer op) := by
      intro t
      obtain ⟨_, n4, n5⟩ := (n3 t).snoc hr'
      exact (step_found hr' hs (reach_sameReg hr' i2) (i1 t) n4 hm (hf t _ _ (List.prefix_refl _) hr0) n5).1
    cases op with
    | remove e ts =>
      simp only [MapWorld.answer] at hall ⊢
      by_cases hk : (mapOf (calls h)).knows ts
      · simp only [if_pos hk] at hall ⊢
        cases r with
        | values vs =>
          have hl := (hall 0).1
          congr 1
          refine List.ext_getElem? fun i => ?_
          cases hti : ts[i]? with
          | some t => exact (hall t).2 i hti
          | none =>
            have h1 := Table.removed_length e ts (mapOf (calls h)).table
            rw [List.getElem?_eq_none_iff] at hti
            rw [List.getElem?_eq_none_iff.2 (by omega), List.getElem?_eq_none_iff.2 (by omega)]
        | _ => cases hall 0
      · simp only [if_neg hk] at hall ⊢
        cases r <;> exact hall 0
    | write t e v =>
      have := hall t
      simp only [MapWorld.answer] at this ⊢
      by_cases hk : t ∈ (mapOf (calls h)).reg
      · simp only [if_pos hk] at this ⊢
        cases r with
        | bool b => rw [this rfl]
        | _ => cases this
      · simp only [if_neg hk] at this ⊢
        cases r <;> exact this
    | writeAt t i v => exact (ha2 : False).elim
    | _ => exact hall 0

/-! ### Examples -/

/-- Every row is found, of one type or of all types. -/
def World.findsAllOf [DecidableEq V] (w : World V) (t : TypeId) : Bool :=
  (w.rows t).all fun p => decide (w.viewGet t p.1 = .ok (some p.2))

/-- `f` holds before and after every call. -/
def alongRun (f : World V → Bool) : World V → List (Op V) → Bool
  | w, [] => f w
  | w, op :: ops => f w &&
    match step w op with
    | some (_, w') => alongRun f w' ops
    | none => true

theorem alongRun_here {f : World V → Bool} {w : World V} {ops : List (Op V)} (h : alongRun f w ops = true) : f w = true := by
  cases ops with
  | nil => exact h
  | cons op ops =>
    simp only [alongRun, Bool.and_eq_true] at h
    exact h.1

theorem alongRun_reach {f : World V → Bool} {w w' : World V} {a : History V} (hr : Reach w a w') :
    ∀ rest : List (Op V), alongRun f w (calls a ++ rest) = true → alongRun f w' rest = true := by
  induction hr with
  | nil => exact fun _ h => h
  | @snoc h w1 w2 op r hr hs ih =>
    intro rest hc
    have : calls (h ++ [(op, r)]) ++ rest = calls h ++ (op :: rest) := by simp [calls]
    rw [this] at hc
    have := ih _ hc
    simp only [alongRun, hs, Bool.and_eq_true] at this
    exact this.2

theorem foundAlong_of [DecidableEq V] {t : TypeId} {h : History V}
    (hf : alongRun (fun w => w.findsAllOf t) World.empty (calls h) = true) : FoundAlong t h := by
  rintro a w ⟨b, rfl⟩ hr p hp
  have hc : calls (a ++ b) = calls a ++ calls b := by simp [calls]
  rw [hc] at hf
  have := alongRun_here (alongRun_reach hr _ hf)
  exact of_decide_eq_true (List.all_eq_true.1 this p hp)

theorem foundAlong_all_of [DecidableEq V] {h : History V}
    (hf : alongRun (fun w => (w.components.metadata.map Prod.fst).all w.findsAllOf) World.empty (calls h) = true) (t : TypeId) :
    FoundAlong t h := by
  rintro a w ⟨b, rfl⟩ hr p hp
  have hc : calls (a ++ b) = calls a ++ calls b := by simp [calls]
  rw [hc] at hf
  have h1 := alongRun_here (alongRun_reach hr _ hf)
  have ht : t ∈ w.components.metadata.map Prod.fst := by
    cases hm : w.components.meta? t with
    | none =>
      have : w.rows t = [] := by simp [World.rows, World.borrow, hm]
      rw [this] at hp
      cases hp
    | some m => exact List.mem_map.2 ⟨(t, m), by
        obtain ⟨l1, l2, h2, _⟩ := List.lookup_eq_some_iff.1 (show w.components.metadata.lookup t = some m from hm)
        rw [h2]; simp, rfl⟩
  exact of_decide_eq_true (List.all_eq_true.1 (List.all_eq_true.1 h1 t ht) p hp)

/-- The exchanges of one `set_layout` cancel each other, then come calls on single entities. -/
def cancelledOps : List (Op Nat) :=
  cancelOps ++ [.setLayout anyOrder [[0, 1], [0, 1, 2]], .write 0 ⟨0, 2⟩ 11, .remove ⟨0, 1⟩ [0, 2], .insert ⟨1, 1⟩ [(0, 25)]]

/-- A history that meets the conditions of C70, for one type and for all, though its exchanges are uneven. -/
example : ∃ (h : History Nat) (w : World Nat), Reach World.empty h w ∧ calls h = cancelledOps ∧ HandledFor 0 h ∧
    Disciplined h ∧ MapWorld.init.AllFair (calls h) ∧ (∀ t, FoundAlong t h) ∧ ¬ EvenFor 0 h ∧
    (w.rows 0).length = 3 := by
  obtain ⟨rs, w, hr, hf⟩ := reach_witness (ops := cancelledOps) (f := fun rs w =>
      decide (cancelledOps.length ≤ rs.length ∧ HandledFor 0 (cancelledOps.zip rs) ∧ Disciplined (cancelledOps.zip rs) ∧
        MapWorld.init.AllFair cancelledOps ∧ ¬ EvenFor 0 (cancelledOps.zip rs) ∧ (w.rows 0).length = 3 ∧
        alongRun (fun w => (w.components.metadata.map Prod.fst).all w.findsAllOf) World.empty cancelledOps = true))
      (by decide +kernel)
  obtain ⟨h1, h2, h3, h4, h5, h6, h7⟩ := of_decide_eq_true hf
  replace h1 : calls (cancelledOps.zip rs) = cancelledOps := List.map_fst_zip h1
  exact ⟨_, w, hr, h1, h2, h3, by rwa [h1], foundAlong_all_of (by rwa [h1]), h5, h6⟩

/-- Types 0 and 1 form a group. The set of type 0 is mixed up so that the dead `0v1` is found in it; removing type 1 from this
dead entity takes the component of the living `0v3`. -/
def deadTakesOps : List (Op Nat) :=
  [.setLayout anyOrder [[0, 1]], .create [], .create [(0, 10)], .destroy ⟨0, 1⟩, .create [(0, 20), (1, 21)], .create [(1, 31)],
    .destroy ⟨0, 2⟩, .create [(1, 41)], .remove ⟨0, 1⟩ [1]]

/-- C70 needs its condition on handles: if another view is mixed up, a call with a dead entity can take the component of a living
one without leaving a trace in the view. -/
theorem C70_handles_false : ∃ (h : History Nat) (w : World Nat), Reach World.empty h w ∧ MapWorld.init.AllFair (calls h) ∧
    Disciplined h ∧ (∀ p ∈ h, p.1.SparesAt 1 p.2) ∧ FoundAlong 1 h ∧ ¬ w.ShowsAs 1 (mapOf (calls h)) ∧
    (mapOf (calls h)).table.get 1 ⟨0, 3⟩ = some 41 ∧ w.containsEntity ⟨0, 3⟩ = true ∧ w.viewGet 1 ⟨0, 3⟩ = .ok none := by
  obtain ⟨rs, w, hr, hf⟩ := reach_witness (ops := deadTakesOps) (f := fun rs w =>
      decide (deadTakesOps.length ≤ rs.length ∧ Disciplined (deadTakesOps.zip rs) ∧
        MapWorld.init.AllFair deadTakesOps ∧ (∀ p ∈ deadTakesOps.zip rs, p.1.SparesAt 1 p.2) ∧
        alongRun (fun w => w.findsAllOf 1) World.empty deadTakesOps = true ∧
        (mapOf deadTakesOps).table.get 1 ⟨0, 3⟩ = some 41 ∧ w.containsEntity ⟨0, 3⟩ = true ∧
        w.viewGet 1 ⟨0, 3⟩ = .ok none ∧ w.isRegistered 1 = true)) (by decide +kernel)
  obtain ⟨h1, h2, h3, h4, h5, h6, h7, h8, h9⟩ := of_decide_eq_true hf
  replace h1 : calls (deadTakesOps.zip rs) = deadTakesOps := List.map_fst_zip h1
  refine ⟨_, w, hr, by rwa [h1], h2, h4, foundAlong_of (by rwa [h1]), ?_, by rwa [h1], h7, h8⟩
  intro hs
  obtain ⟨_, _, hg, _⟩ := hs h9
  have := hg ⟨0, 3⟩
  rw [h8, h1, h6] at this
  cases this

end Sparsey
