import Verif.Proofs.UnevenCalls
import Verif.Properties.Components

/-!
Exchanges of entities of different versions are exactly what loses components (C51).
-/

set_option autoImplicit false
set_option linter.unusedSimpArgs false

namespace Sparsey
variable {V : Type}

/-- Every component of the map is found by the view of its type. -/
def World.Shows (w : World V) (tb : Table V) : Prop := ∀ t x v, tb.get t x = some v → w.viewGet t x = .ok (some v)

theorem World.Misses.not_shows {w : World V} {tb : Table V} (h : w.Misses tb) : ¬ w.Shows tb := by
  obtain ⟨t, x, v, h1, h2⟩ := h
  intro hs
  have := hs t x v h1
  rw [h2] at this
  cases this

theorem InvX.shows {w : World V} {s : MapWorld V} {P : Entity → Nat → Prop} (h : InvX w s P) : w.Shows s.table := by
  intro t x v hv
  have ht : t ∈ s.reg := by
    rw [← h.reg]
    rw [← h.value] at hv
    unfold ComponentStorage.value at hv
    cases hm : w.components.meta? t with
    | none => rw [hm] at hv; cases hv
    | some m => rfl
  rw [h.viewGet, if_pos ht, hv]

/-- In a world that agrees with the map, a call that adds or removes components of one entity has a result, and afterwards
all components of the map are found if and only if the call exchanged only entities of the same version. -/
theorem C51_partial {h : History V} {w : World V} (hr : Reach World.empty h w) (hg : Fair (calls h)) {op : Op V}
    (hf : (mapOf (calls h)).Fair op) (hs : SingleCall op) :
    ∃ r w', step w op = some (r, w') ∧ (w.Even op ↔ w'.Shows (mapOf (calls h ++ [op])).table) := by
  rw [mapOf_snoc]
  by_cases hv : w.Even op
  · obtain ⟨w', h1, h2⟩ := reach_nextL hr hg hf hv
    exact ⟨_, w', h1, by simp [hv, h2.shows]⟩
  · obtain ⟨r, w', h1, h2⟩ := uneven_step (reach_invL hr hg) hs hv
    exact ⟨r, w', h1, by simp [hv, h2.not_shows]⟩

/-- The lost component is there, but the view does not find it. -/
theorem C51_lost_partial {h : History V} {w : World V} (hr : Reach World.empty h w) (hg : Fair (calls h)) {op : Op V}
    (hs : SingleCall op) (hv : ¬ w.Even op) :
    ∃ r w' t x v, step w op = some (r, w') ∧ (mapOf (calls h ++ [op])).table.get t x = some v ∧
      w'.viewGet t x = .ok none := by
  rw [mapOf_snoc]
  obtain ⟨r, w', h1, t, x, v, h2, h3⟩ := uneven_step (reach_invL hr hg) hs hv
  exact ⟨r, w', t, x, v, h1, h2, h3⟩

theorem even_empty (op : Op V) : (World.empty : World V).Even op := by
  unfold World.Even
  have hnil : EvenPairs [] := by simp [EvenPairs]
  have hl : ∀ f t, (ComponentStorage.empty : ComponentStorage V).lookupAll f t =
      if t = [] then .ok ([], 0#64) else .panic := by
    intro f t
    cases t <;> rfl
  cases op with
  | setLayout rank gs =>
    simp only [World.swaps, ComponentStorage.setLayoutPairs]
    have : (World.empty : World V).entities.asSlice = [] := rfl
    rw [this]
    split
    · split
      · split
        · exact hnil
        · exact hnil
      · exact hnil
    · exact hnil
  | extend ts it =>
    simp only [World.swaps, World.extendPairs, World.empty, hl]
    by_cases ht : ts = []
    · simp only [ht, if_true]
      split
      · split
        · exact hnil
        · exact hnil
      · exact hnil
    · simp only [ht, if_false]
      exact hnil
  | create vs =>
    cases vs with
    | nil =>
      simp only [World.swaps, ComponentStorage.insertPairs, ComponentStorage.insertEach]
      split <;> exact hnil
    | cons p vs =>
      simp only [World.swaps, ComponentStorage.insertPairs, ComponentStorage.insertEach]
      split
      · have : (World.empty : World V).components.meta? p.1 = none := rfl
        rw [this]
        exact hnil
      · exact hnil
  | insert e vs =>
    have : (World.empty : World V).entities.contains e = false := rfl
    simp only [World.swaps, this]
    exact hnil
  | remove e ts =>
    simp only [World.swaps, ComponentStorage.removePairs, World.empty, hl]
    by_cases ht : ts = [] <;> simp [ht, hnil]
  | delete e ts =>
    simp only [World.swaps, ComponentStorage.removePairs, World.empty, hl]
    by_cases ht : ts = [] <;> simp [ht, hnil]
  | destroy e =>
    simp only [World.swaps]
    split
    · exact hnil
    · exact hnil
  | _ => exact hnil

/-- Whole histories: when no call after the first sets a layout or extends, and all calls are fine for the map, the calls
keep clear of the defects if and only if after every one of them all components of the map are found. -/
theorem C51_history_partial {h : History V} {w : World V} (hr : Reach World.empty h w)
    (hf : MapWorld.init.AllFair (calls h)) (hb : ∀ op ∈ (calls h).tail, ¬ BulkCall op) :
    Fair (calls h) ↔ ∀ a w₁, a <+: h → Reach World.empty a w₁ → w₁.Shows (mapOf (calls a)).table := by
  constructor
  · rintro hg a w₁ ⟨b, rfl⟩ hr₁
    have : Fair (calls a) := by
      unfold calls at hg ⊢
      rw [List.map_append] at hg
      exact ((FairFrom.split _ _ hr₁.run).1 hg).1
    exact (reach_invL hr₁ this).shows
  · intro hall
    induction hr with
    | nil => trivial
    | @snoc h w₁ w₂ op r hr hs ih =>
      have hc : calls (h ++ [(op, r)]) = calls h ++ [op] := by simp [calls]
      rw [hc] at hf hb ⊢
      have hf' := (MapWorld.allFair_append _ _ _).1 hf
      have hg : Fair (calls h) := by
        refine ih hf'.1 (fun o ho => hb o ?_) (fun a w hp => hall a w (hp.trans (List.prefix_append _ _)))
        cases hh : calls h with
        | nil => rw [hh] at ho; cases ho
        | cons x xs => rw [hh] at ho; simpa using .inl ho
      refine Fair.of_fair hr hg hf'.2.1 ?_
      by_cases he : h = []
      · subst he
        cases hr.run
        exact even_empty op
      have hop : ¬ BulkCall op := by
        refine hb op ?_
        cases h with
        | nil => exact absurd rfl he
        | cons x xs => simp [calls]
      by_cases hsc : SingleCall op
      · obtain ⟨r', w', h1, h2⟩ := C51_partial hr hg hf'.2.1 hsc
        rw [hs] at h1
        cases h1
        have h3 := hall _ w₂ (List.prefix_refl _) (hr.snoc hs)
        rw [hc] at h3
        exact h2.2 h3
      · cases op with
        | setLayout _ _ => exact absurd trivial hop
        | extend _ _ => exact absurd trivial hop
        | create _ => exact absurd trivial hsc
        | insert _ _ => exact absurd trivial hsc
        | remove _ _ => exact absurd trivial hsc
        | delete _ _ => exact absurd trivial hsc
        | destroy _ => exact absurd trivial hsc
        | _ => simp [World.Even, World.swaps, EvenPairs]

/-- After the first five calls of `mixOps`, an `insert` that exchanges entities of versions 2 and 1, and calls that
exchange entities of the same version only. -/
example : Fair (mixOps.take 5) ∧ holdsAfter (mixOps.take 5) (fun _ w =>
    decide ((mapOf (mixOps.take 5)).Fair (.insert ⟨1, 1⟩ [(1, 30)]) ∧ ¬ w.Even (.insert ⟨1, 1⟩ [(1, 30)]) ∧
      w.Even (.insert ⟨0, 2⟩ [(1, 30)]) ∧ w.Even (.destroy ⟨0, 2⟩))) = true := by
  decide +kernel

/-- A history of the form of `C51_history_partial` that is not `Fair`, and one that is. -/
example : MapWorld.init.AllFair mixOps ∧ (∀ op ∈ mixOps.tail, ¬ BulkCall op) ∧ ¬ Fair mixOps ∧
    (let ops := mixOps.take 5 ++ [.insert ⟨0, 2⟩ [(1, 30)], .insert ⟨1, 1⟩ [(2, 3)]]
     MapWorld.init.AllFair ops ∧ (∀ op ∈ ops.tail, ¬ BulkCall op) ∧ Fair ops) := by
  decide +kernel

/-- Three types, no groups; entities 0 and 2 of version 2, entity 1 of version 1. -/
def cancelOps : List (Op Nat) :=
  [.register 0, .register 1, .register 2, .create [], .destroy ⟨0, 1⟩, .create [(0, 10)], .create [(0, 20)], .create [], .destroy ⟨2, 1⟩,
    .create [(0, 30), (1, 31), (2, 32)], .insert ⟨1, 1⟩ [(1, 21)]]

/-- Like `cancelOps`, with the groups of the layout; the next entities are of version 2 and 1. -/
def cancelExtendOps : List (Op Nat) :=
  [.setLayout anyOrder [[0, 1], [0, 1, 2]], .create [], .destroy ⟨0, 1⟩, .create [(0, 10), (1, 11)], .create [(0, 20)],
    .create [(1, 31)], .create [], .destroy ⟨3, 1⟩]

theorem Table.get_mem {tb : Table V} {t : TypeId} {x : Entity} {v : V} (h : tb.get t x = some v) : ((t, x), v) ∈ tb := by
  unfold Table.get at h
  induction tb with
  | nil => cases h
  | cons p tb ih =>
    obtain ⟨k, y⟩ := p
    rw [List.lookup_cons] at h
    split at h
    · rename_i hk
      cases h
      simp [beq_iff_eq.1 hk]
    · exact .tail _ (ih h)

/-- The claim of C51 after `ops`, for a call that shows everything in spite of an uneven exchange. -/
theorem cancels {ops : List (Op Nat)} {op : Op Nat} (hd : holdsAfter ops (fun rs w =>
      decide (ops.length ≤ rs.length ∧ Fair ops ∧ (mapOf ops).Fair op ∧ ¬ w.Even op) &&
      ((step w op).any fun p => (mapOf (ops ++ [op])).table.all fun q =>
        decide (p.2.viewGet q.1.1 q.1.2 = .ok (some q.2)))) = true) :
    ∃ (h : History Nat) (w : World Nat), Reach World.empty h w ∧ Fair (calls h) ∧ (mapOf (calls h)).Fair op ∧
      ¬ ∃ r w', step w op = some (r, w') ∧ (w.Even op ↔ w'.Shows (mapOf (calls h ++ [op])).table) := by
  obtain ⟨rs, w, hr, hf⟩ := reach_witness hd
  simp only [Bool.and_eq_true, decide_eq_true_eq, Option.any_eq_true] at hf
  obtain ⟨⟨h1, h2, h3, h4⟩, ⟨r, w'⟩, h5, h6⟩ := hf
  replace h1 : calls (ops.zip rs) = ops := List.map_fst_zip h1
  refine ⟨_, w, hr, by rwa [h1], by rwa [h1], ?_⟩
  rintro ⟨r', w'', h7, h8⟩
  rw [h5] at h7
  cases h7
  rw [h1] at h8
  refine h4 (h8.2 ?_)
  intro t x v hv
  simpa using List.all_eq_true.1 h6 _ (Table.get_mem hv)

/-- C51 does not hold for `set_layout` and `extend`: the exchanges of several entities can cancel each other. -/
theorem C51_layout_false : ∃ (h : History Nat) (w : World Nat) (op : Op Nat), (∃ rank gs, op = .setLayout rank gs) ∧
    Reach World.empty h w ∧ Fair (calls h) ∧ (mapOf (calls h)).Fair op ∧
    ¬ ∃ r w', step w op = some (r, w') ∧ (w.Even op ↔ w'.Shows (mapOf (calls h ++ [op])).table) := by
  obtain ⟨h, w, h1⟩ := cancels (ops := cancelOps) (op := .setLayout anyOrder [[0, 1], [0, 1, 2]]) (by decide +kernel)
  exact ⟨h, w, _, ⟨_, _, rfl⟩, h1⟩

theorem C51_extend_false : ∃ (h : History Nat) (w : World Nat) (op : Op Nat), (∃ ts it, op = .extend ts it) ∧
    Reach World.empty h w ∧ Fair (calls h) ∧ (mapOf (calls h)).Fair op ∧
    ¬ ∃ r w', step w op = some (r, w') ∧ (w.Even op ↔ w'.Shows (mapOf (calls h ++ [op])).table) := by
  obtain ⟨h, w, h1⟩ := cancels (ops := cancelExtendOps)
    (op := .extend [0, 1, 2] ⟨[[40, 41, 42], [50, 51, 52]], false⟩) (by decide +kernel)
  exact ⟨h, w, _, ⟨_, _, rfl⟩, h1⟩

end Sparsey
