import Verif.Proofs.Observe
import Mathlib.Data.List.TakeWhile
import Verif.Spec.Erase

/-!
The map of what is left of a history on some component types: the components of these types.
-/

set_option autoImplicit false
set_option linter.unusedSimpArgs false

namespace Sparsey
variable {V : Type}

/-- The rows of the types in `K`. -/
abbrev Table.on (K : List TypeId) (tb : Table V) : Table V := tb.filter fun p => decide (p.1.1 ∈ K)

namespace Table
variable {K : List TypeId}

theorem on_set_in {tb : Table V} {t : TypeId} {e : Entity} {v : V} (h : t ∈ K) : (tb.set t e v).on K = (tb.on K).set t e v := by
  unfold Table.on Table.set
  rw [List.filter_cons, if_pos (by simpa using h), List.filter_filter, List.filter_filter]
  simp only [Bool.and_comm]

theorem on_set_out {tb : Table V} {t : TypeId} {e : Entity} {v : V} (h : t ∉ K) : (tb.set t e v).on K = tb.on K := by
  unfold Table.on Table.set
  rw [List.filter_cons, if_neg (by simpa using h), List.filter_filter]
  refine List.filter_congr fun p _ => ?_
  by_cases hp : p.1.1 ∈ K
  · have : p.1 ≠ (t, e) := fun hc => h (by rw [hc] at hp; exact hp)
    simp [hp, this]
  · simp [hp]

theorem on_erase (tb : Table V) (t : TypeId) (e : Entity) : (tb.erase t e).on K = (tb.on K).erase t e := by
  unfold Table.on Table.erase
  rw [List.filter_filter, List.filter_filter]
  simp only [Bool.and_comm]

theorem on_erase_out {tb : Table V} {t : TypeId} {e : Entity} (h : t ∉ K) : (tb.on K).erase t e = tb.on K := by
  unfold Table.on Table.erase
  rw [List.filter_filter]
  refine List.filter_congr fun p _ => ?_
  by_cases hp : p.1.1 ∈ K
  · have : p.1 ≠ (t, e) := fun hc => h (by rw [hc] at hp; exact hp)
    simp [hp, this]
  · simp [hp]

theorem on_strip (tb : Table V) (e : Entity) : (tb.strip e).on K = (tb.on K).strip e := by
  unfold Table.on Table.strip
  rw [List.filter_filter, List.filter_filter]
  simp only [Bool.and_comm]

theorem on_get {tb : Table V} {t : TypeId} (h : t ∈ K) (e : Entity) : (tb.on K).get t e = tb.get t e := by
  unfold Table.on Table.get
  induction tb with
  | nil => rfl
  | cons p tb ih =>
    rw [List.filter_cons]
    obtain ⟨⟨t', e'⟩, v⟩ := p
    by_cases hp : t' ∈ K
    · rw [if_pos (by simpa using hp)]
      simp only [List.lookup_cons, ih]
    · rw [if_neg (by simpa using hp), List.lookup_cons, ih]
      have : ((t, e) == (t', e')) = false := by
        rw [beq_eq_false_iff_ne]
        intro hc
        cases hc
        exact hp h
      rw [this]

theorem on_get_out {tb : Table V} {t : TypeId} (h : t ∉ K) (e : Entity) : (tb.on K).get t e = none := by
  unfold Table.on Table.get
  induction tb with
  | nil => rfl
  | cons p tb ih =>
    rw [List.filter_cons]
    obtain ⟨⟨t', e'⟩, v⟩ := p
    by_cases hp : t' ∈ K
    · rw [if_pos (by simpa using hp)]
      have : ((t, e) == (t', e')) = false := by
        rw [beq_eq_false_iff_ne]
        intro hc
        cases hc
        exact h hp
      simp only [List.lookup_cons, ih, this]
    · rw [if_neg (by simpa using hp), ih]

theorem on_setAll {reg : List TypeId} {keep : TypeId → Bool} (hk : ∀ t, keep t = true ↔ t ∈ K ∨ t ∉ reg) (e : Entity) :
    ∀ (vs : List (TypeId × V)) (tb : Table V), (∀ p ∈ vs, p.1 ∈ reg) →
    (tb.setAll e vs).on K = (tb.on K).setAll e (vs.filter fun p => keep p.1)
  | [], _, _ => rfl
  | (t, v) :: vs, tb, h => by
    have ih := on_setAll hk e vs (tb.set t e v) fun p hp => h p (List.mem_cons_of_mem _ hp)
    have hr : t ∈ reg := h (t, v) List.mem_cons_self
    rw [Table.setAll, ih, List.filter_cons]
    by_cases ht : t ∈ K
    · rw [if_pos ((hk t).2 (.inl ht)), Table.setAll, on_set_in ht]
    · rw [if_neg (fun hc => ((hk t).1 hc).elim ht (· hr)), on_set_out ht]

theorem on_eraseAll {reg : List TypeId} {keep : TypeId → Bool} (hk : ∀ t, keep t = true ↔ t ∈ K ∨ t ∉ reg) (e : Entity) :
    ∀ (ts : List TypeId) (tb : Table V), (∀ t ∈ ts, t ∈ reg) →
    (tb.eraseAll e ts).on K = (tb.on K).eraseAll e (ts.filter keep)
  | [], _, _ => rfl
  | t :: ts, tb, h => by
    have ih := on_eraseAll hk e ts (tb.erase t e) fun p hp => h p (List.mem_cons_of_mem _ hp)
    have hr : t ∈ reg := h t List.mem_cons_self
    rw [Table.eraseAll, ih, List.filter_cons, on_erase]
    by_cases ht : t ∈ K
    · rw [if_pos ((hk t).2 (.inl ht)), Table.eraseAll]
    · rw [if_neg (fun hc => ((hk t).1 hc).elim ht (· hr)), on_erase_out ht]

theorem on_removed {reg : List TypeId} {keep : TypeId → Bool} (hk : ∀ t, keep t = true ↔ t ∈ K ∨ t ∉ reg) (e : Entity) :
    ∀ (ts : List TypeId) (tb : Table V), (∀ t ∈ ts, t ∈ reg) →
    (tb.on K).removed e (ts.filter keep) = ((ts.zip (tb.removed e ts)).filter fun p => keep p.1).map (·.2)
  | [], _, _ => rfl
  | t :: ts, tb, h => by
    have ih := on_removed hk e ts (tb.erase t e) fun p hp => h p (List.mem_cons_of_mem _ hp)
    have hr : t ∈ reg := h t List.mem_cons_self
    rw [Table.removed, List.zip_cons_cons, List.filter_cons, List.filter_cons]
    rw [on_erase] at ih
    by_cases ht : t ∈ K
    · rw [if_pos ((hk t).2 (.inl ht)), if_pos ((hk t).2 (.inl ht)), Table.removed, List.map_cons, ih, on_get ht]
    · rw [if_neg (fun hc => ((hk t).1 hc).elim ht (· hr)), if_neg (fun hc => ((hk t).1 hc).elim ht (· hr)), ← ih,
        on_erase_out ht]

theorem on_setItems {reg : List TypeId} {keep : TypeId → Bool} (hk : ∀ t, keep t = true ↔ t ∈ K ∨ t ∉ reg) {ts : List TypeId}
    (ht : ∀ t ∈ ts, t ∈ reg) : ∀ (es : List Entity) (items : List (List V)) (tb : Table V),
    (tb.setItems ts (es.zip items)).on K = (tb.on K).setItems (ts.filter keep)
      (es.zip (items.map fun vs => ((ts.zip vs).filter fun p => keep p.1).map (·.2)))
  | [], _, _ => by simp [Table.setItems]
  | _ :: _, [], _ => by simp [Table.setItems]
  | e :: es, vs :: items, tb => by
    have hz : ∀ (ts : List TypeId) (vs : List V), (ts.filter keep).zip (((ts.zip vs).filter fun p => keep p.1).map (·.2)) =
        (ts.zip vs).filter fun p => keep p.1 := by
      intro ts
      induction ts with
      | nil => simp
      | cons t ts ih =>
        intro vs
        cases vs with
        | nil => simp
        | cons v vs =>
          by_cases h : keep t
          · simp [List.filter_cons, h, ih]
          · simp [List.filter_cons, h, ih]
    rw [List.zip_cons_cons, Table.setItems, List.map_cons, List.zip_cons_cons, Table.setItems, on_setItems hk ht,
      on_setAll hk e _ _ (fun p hp => ht _ (List.of_mem_zip hp).1), hz]

end Table

namespace MapWorld
variable {K : List TypeId}

theorem keeps_iff (s : MapWorld V) (t : TypeId) : s.keeps K t = true ↔ t ∈ K ∨ t ∉ s.reg := by
  unfold keeps
  rw [decide_eq_true_eq]

theorem knows_keeps (s : MapWorld V) (ts : List TypeId) : (s.onTypes K).knows (ts.filter (s.keeps K)) ↔ s.knows ts := by
  constructor
  · intro h t ht
    by_contra hc
    exact hc (h t (List.mem_filter.2 ⟨ht, (s.keeps_iff t).2 (.inr hc)⟩))
  · exact fun h t ht => h t (List.mem_filter.1 ht).1

theorem knows_kept (s : MapWorld V) (vs : List (TypeId × V)) :
    (s.onTypes K).knows ((s.kept K vs).map (·.1)) ↔ s.knows (vs.map (·.1)) := by
  rw [← s.knows_keeps (K := K) (vs.map (·.1)), kept, List.filter_map]
  rfl

theorem known_kept (s : MapWorld V) : ∀ (vs : List (TypeId × V)), (s.onTypes K).known (s.kept K vs) = s.kept K (s.known vs)
  | [] => rfl
  | (t, v) :: vs => by
    have ih := known_kept s vs
    unfold known kept at ih ⊢
    by_cases hr : t ∈ s.reg
    · by_cases ht : s.keeps K t = true
      · rw [List.filter_cons, if_pos ht, List.takeWhile_cons, if_pos (decide_eq_true (p := t ∈ (s.onTypes K).reg) hr), ih, List.takeWhile_cons,
          if_pos (by simpa using hr), List.filter_cons, if_pos ht]
      · rw [List.filter_cons, if_neg ht, ih, List.takeWhile_cons, if_pos (by simpa using hr), List.filter_cons, if_neg ht]
    · have ht : s.keeps K t = true := (s.keeps_iff t).2 (.inr hr)
      rw [List.filter_cons, if_pos ht, List.takeWhile_cons, if_neg (fun hc => hr (of_decide_eq_true (p := t ∈ (s.onTypes K).reg) hc)), List.takeWhile_cons,
        if_neg (by simpa using hr)]
      rfl

theorem known_reg (s : MapWorld V) (vs : List (TypeId × V)) : ∀ p ∈ s.known vs, p.1 ∈ s.reg := by
  intro p hp
  have := List.mem_takeWhile_imp hp
  simpa using this

theorem setAll_kept (s : MapWorld V) (e : Entity) (vs : List (TypeId × V)) :
    ((s.onTypes K).table.setAll e ((s.onTypes K).known (s.kept K vs))) = (s.table.setAll e (s.known vs)).on K := by
  rw [known_kept, Table.on_setAll s.keeps_iff e _ _ (s.known_reg vs)]
  rfl

theorem extendMakes_kept (s : MapWorld V) (ts : List TypeId) (it : Items V) :
    (s.onTypes K).extendMakes (ts.filter (s.keeps K)) ⟨it.items.map fun vs => (s.kept K (ts.zip vs)).map (·.2), it.thenPanics⟩ =
      s.extendMakes ts it := by
  unfold extendMakes
  by_cases h : s.knows ts
  · rw [if_pos h, if_pos (s.knows_keeps ts |>.2 h), List.length_map]
    rfl
  · rw [if_neg h, if_neg (fun hc => h (s.knows_keeps ts |>.1 hc))]

/-- What the map answers and how it changes. -/
def EraseSim (s : MapWorld V) (K : List TypeId) (op : Op V) : Prop :=
  match s.eraseOp K op with
  | some op' => (s.onTypes K).answer op' = s.eraseRet K op (s.answer op) ∧ (s.onTypes K).next op' = (s.next op).onTypes K
  | none => s.onTypes K = (s.next op).onTypes K

theorem next_of {s : MapWorld V} {op op' : Op V} (hl : (s.onTypes K).life.run (events op' ((s.onTypes K).answer op')) = (s.life.run (events op (s.answer op))))
    (hr : (s.onTypes K).regAfter op' = s.regAfter op) (hg : (s.onTypes K).groupsAfter op' = s.groupsAfter op)
    (ht : (s.onTypes K).tableAfter op' = (s.tableAfter op).on K) : (s.onTypes K).next op' = (s.next op).onTypes K := by
  unfold MapWorld.next
  rw [hl, hr, hg, ht]
  rfl

theorem eraseSim (s : MapWorld V) (K : List TypeId) (op : Op V) : s.EraseSim K op := by
  have hsame : ∀ op' : Op V, (s.onTypes K).answer op' = s.answer op →
      (∀ r, events op' r = events op r) →
      (s.onTypes K).regAfter op' = s.regAfter op → (s.onTypes K).groupsAfter op' = s.groupsAfter op →
      (s.onTypes K).tableAfter op' = (s.tableAfter op).on K →
      (s.onTypes K).answer op' = s.answer op ∧ (s.onTypes K).next op' = (s.next op).onTypes K := by
    intro op' h1 h2 h3 h4 h5
    refine ⟨h1, next_of ?_ h3 h4 h5⟩
    rw [h1, h2]
    rfl
  cases op with
  | register t => exact hsame (.register t) rfl (fun _ => rfl) rfl rfl rfl
  | setLayout rank gs => exact hsame (.setLayout rank gs) rfl (fun _ => rfl) rfl rfl rfl
  | create vs =>
    refine hsame (.create (s.kept K vs)) ?_ (fun r => by cases r <;> rfl) rfl rfl ?_
    · simp only [answer, s.knows_kept]
      rfl
    · show (if s.life.exhausted then _ else _) = Table.on K (if s.life.exhausted then _ else _)
      split
      · rfl
      · exact s.setAll_kept _ vs
  | extend ts it =>
    refine hsame (.extend (ts.filter (s.keeps K)) ⟨it.items.map fun vs => (s.kept K (ts.zip vs)).map (·.2), it.thenPanics⟩)
      ?_ (fun r => by cases r <;> rfl) rfl rfl ?_
    · simp only [answer, s.knows_keeps, s.extendMakes_kept, List.length_map]
    · simp only [tableAfter, s.extendMakes_kept]
      by_cases h : s.knows ts
      · exact (Table.on_setItems s.keeps_iff h _ _ _).symm
      · have : s.extendMakes ts it = [] := by
          unfold extendMakes
          rw [if_neg h]
        rw [this, List.zip_nil_left, List.zip_nil_left]
        rfl
  | destroy e =>
    refine hsame (.destroy e) rfl (fun _ => rfl) rfl rfl ?_
    show (if e ∈ s.life.alive then _ else _) = Table.on K (if e ∈ s.life.alive then _ else _)
    split
    · exact (Table.on_strip _ e).symm
    · rfl
  | createAtomic => exact hsame .createAtomic rfl (fun _ => rfl) rfl rfl rfl
  | maintain => exact hsame .maintain rfl (fun _ => rfl) rfl rfl rfl
  | insert e vs =>
    refine hsame (.insert e (s.kept K vs)) ?_ (fun r => by cases r <;> rfl) rfl rfl ?_
    · simp only [answer, s.knows_kept]
      rfl
    · show (if e ∈ s.life.alive then _ else _) = Table.on K (if e ∈ s.life.alive then _ else _)
      split
      · exact s.setAll_kept e vs
      · rfl
  | remove e ts =>
    show (s.onTypes K).answer (.remove e (ts.filter (s.keeps K))) = s.eraseRet K (.remove e ts) (s.answer (.remove e ts)) ∧ _
    by_cases h : s.knows ts
    · have h' := (s.knows_keeps (K := K) ts).2 h
      constructor
      · simp only [answer, if_pos h, if_pos h', eraseRet, kept]
        rw [← Table.on_removed s.keeps_iff e ts s.table h]
        rfl
      · refine next_of ?_ rfl rfl ?_
        · simp only [answer, if_pos h, if_pos h']
          rfl
        · simp only [tableAfter, if_pos h, if_pos h']
          exact (Table.on_eraseAll s.keeps_iff e ts s.table h).symm
    · have h' : ¬ (s.onTypes K).knows (ts.filter (s.keeps K)) := fun hc => h ((s.knows_keeps ts).1 hc)
      constructor
      · simp only [answer, if_neg h, if_neg h', eraseRet]
      · refine next_of ?_ rfl rfl ?_
        · simp only [answer, if_neg h, if_neg h']
          rfl
        · simp only [tableAfter, if_neg h, if_neg h']
          rfl
  | delete e ts =>
    refine hsame (.delete e (ts.filter (s.keeps K))) ?_ (fun r => by cases r <;> rfl) rfl rfl ?_
    · simp only [answer, s.knows_keeps]
    · simp only [tableAfter, s.knows_keeps]
      split
      · rename_i h
        exact (Table.on_eraseAll s.keeps_iff e ts s.table h).symm
      · rfl
  | clear => exact hsame .clear rfl (fun _ => rfl) rfl rfl rfl
  | reset => exact hsame .reset rfl (fun _ => rfl) rfl rfl rfl
  | write t e v =>
    unfold EraseSim
    simp only [eraseOp]
    by_cases hk : s.keeps K t = true
    · rw [if_pos hk]
      by_cases ht : t ∈ K
      · refine hsame (.write t e v) ?_ (fun r => rfl) rfl rfl ?_
        · show (if t ∈ s.reg then Ret.bool ((s.table.on K).get t e).isSome else _) = (if t ∈ s.reg then _ else _)
          rw [Table.on_get ht]
        · show (if ((s.table.on K).get t e).isSome then _ else _) = Table.on K (if (s.table.get t e).isSome then _ else _)
          rw [Table.on_get ht]
          split
          · exact (Table.on_set_in ht).symm
          · rfl
      · have hr : t ∉ s.reg := ((s.keeps_iff t).1 hk).resolve_left ht
        refine hsame (.write t e v) ?_ (fun r => rfl) rfl rfl ?_
        · show (if t ∈ s.reg then _ else _) = (if t ∈ s.reg then _ else _)
          rw [if_neg hr, if_neg hr]
        · show (if ((s.table.on K).get t e).isSome then _ else _) = Table.on K (if (s.table.get t e).isSome then _ else _)
          rw [Table.on_get_out ht]
          split
          · rename_i hc
            cases hc
          · split
            · exact (Table.on_set_out ht).symm
            · rfl
    · rw [if_neg hk]
      have ht : t ∉ K := fun hc => hk ((s.keeps_iff t).2 (.inl hc))
      show s.onTypes K = MapWorld.mk _ _ _ _
      unfold onTypes
      congr 1
      · show s.table.on K = Table.on K (if (s.table.get t e).isSome then _ else _)
        split
        · exact (Table.on_set_out ht).symm
        · rfl
  | writeAt t pos v =>
    unfold EraseSim
    simp only [eraseOp]
    by_cases hk : s.keeps K t = true
    · rw [if_pos hk]
      exact hsame (.writeAt t pos v) rfl (fun _ => rfl) rfl rfl rfl
    · rw [if_neg hk]
      rfl

theorem erase_append (K : List TypeId) : ∀ (h h2 : History V) (s : MapWorld V),
    s.erase K (h ++ h2) = s.erase K h ++ (s.run (calls h)).erase K h2
  | [], _, _ => rfl
  | (op, r) :: h, h2, s => by
    rw [List.cons_append, erase, erase, erase_append K h h2, List.append_assoc]
    rfl

end MapWorld

theorem erase_snoc (K : List TypeId) (h : History V) (op : Op V) (r : Ret V) :
    erase K (h ++ [(op, r)]) = erase K h ++
      ((mapOf (calls h)).eraseOp K op).toList.map (fun op' => (op', (mapOf (calls h)).eraseRet K op r)) := by
  unfold erase mapOf
  rw [MapWorld.erase_append, MapWorld.erase, MapWorld.erase, List.append_nil]

theorem calls_snoc (h : History V) (op : Op V) (r : Ret V) : calls (h ++ [(op, r)]) = calls h ++ [op] := by simp [calls]

theorem zip_kept {α β : Type} (p : α → Bool) : ∀ (ts : List α) (vs : List β),
    (ts.filter p).zip (((ts.zip vs).filter fun q => p q.1).map (·.2)) = (ts.zip vs).filter fun q => p q.1
  | [], _ => by simp
  | _ :: _, [] => by simp
  | t :: ts, v :: vs => by
    have ih := zip_kept p ts vs
    by_cases h : p t
    · simp [List.filter_cons, h, ih]
    · simp [List.filter_cons, h, ih]

/-- Leaving out the types once more changes nothing. -/
theorem MapWorld.eraseOp_twice {K : List TypeId} {s : MapWorld V} {op op' : Op V} (h : s.eraseOp K op = some op') :
    (s.onTypes K).eraseOp K op' = some op' := by
  have hk : (s.onTypes K).keeps K = s.keeps K := rfl
  have hf : ∀ l : List (TypeId × V), (s.onTypes K).kept K (s.kept K l) = s.kept K l := by
    intro l
    unfold kept
    rw [hk, List.filter_filter]
    simp
  have ht : ∀ l : List TypeId, (l.filter (s.keeps K)).filter (s.keeps K) = l.filter (s.keeps K) := by
    intro l
    rw [List.filter_filter]
    simp
  cases op with
  | create vs => cases h; simp only [eraseOp, hf]
  | insert e vs => cases h; simp only [eraseOp, hf]
  | remove e ts => cases h; simp only [eraseOp, hk, ht]
  | delete e ts => cases h; simp only [eraseOp, hk, ht]
  | extend ts it =>
    cases h
    simp only [eraseOp, hk, ht, List.map_map]
    congr 3
    refine List.map_congr_left fun vs _ => ?_
    simp only [Function.comp_apply]
    rw [show (s.kept K (ts.zip vs)) = (ts.zip vs).filter fun q => s.keeps K q.1 from rfl, zip_kept]
    unfold kept
    rw [hk, List.filter_filter]
    simp
  | write t e v =>
    simp only [eraseOp] at h
    split at h
    · rename_i hc
      cases h
      simp only [eraseOp, hk, hc, if_true]
    · cases h
  | writeAt t pos v =>
    simp only [eraseOp] at h
    split at h
    · rename_i hc
      cases h
      simp only [eraseOp, hk, hc, if_true]
    · cases h
  | _ => cases h; rfl

/-- The map of what is left of a history. -/
theorem mapOf_erase (K : List TypeId) (h : History V) : mapOf (calls (erase K h)) = (mapOf (calls h)).onTypes K := by
  induction h using List.reverseRecOn with
  | nil => rfl
  | append_singleton h p ih =>
    obtain ⟨op, r⟩ := p
    rw [erase_snoc, calls_snoc, mapOf_snoc]
    have hs := (mapOf (calls h)).eraseSim K op
    unfold MapWorld.EraseSim at hs
    cases ho : (mapOf (calls h)).eraseOp K op with
    | none =>
      rw [ho] at hs
      simp only [Option.toList_none, List.map_nil, List.append_nil]
      rw [ih, hs]
    | some op' =>
      rw [ho] at hs
      simp only [Option.toList_some, List.map_cons, List.map_nil]
      rw [calls_snoc, mapOf_snoc, ih, hs.2]

theorem calls_erase_twice (K : List TypeId) (h : History V) : calls (erase K (erase K h)) = calls (erase K h) := by
  induction h using List.reverseRecOn with
  | nil => rfl
  | append_singleton h p ih =>
    obtain ⟨op, r⟩ := p
    rw [erase_snoc]
    cases ho : (mapOf (calls h)).eraseOp K op with
    | none =>
      simp only [Option.toList_none, List.map_nil, List.append_nil]
      exact ih
    | some op' =>
      simp only [Option.toList_some, List.map_cons, List.map_nil]
      rw [erase_snoc, mapOf_erase, MapWorld.eraseOp_twice ho]
      simp only [Option.toList_some, List.map_cons, List.map_nil]
      rw [calls_snoc, calls_snoc, ih]

end Sparsey
