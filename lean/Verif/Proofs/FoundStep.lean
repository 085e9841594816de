import Verif.Proofs.Found
import Verif.Spec.Found

/-!
A view of which every row is found after a call follows the map through the call.
-/

set_option autoImplicit false
set_option linter.unusedSimpArgs false

namespace Sparsey
variable {V : Type}

theorem Life.alive_mades : ∀ (es : List Entity) (l : Life) (x : Entity),
    x ∈ (l.run (es.map .made)).alive ↔ x ∈ es ∨ x ∈ l.alive
  | [], _, _ => by simp [Life.run]
  | e :: es, l, x => by
    have := Life.alive_mades es (l.step (.made e)) x
    simp only [Life.run, List.map_cons, List.foldl_cons] at this ⊢
    rw [this]
    simp only [Life.step, List.mem_cons]
    tauto

/-- What `n` removals of the same component give back. -/
def givenOf {α : Type} (x : Option α) : Nat → List (Option α)
  | 0 => []
  | n + 1 => x :: List.replicate n none

theorem givenOf_none {α : Type} : ∀ n, givenOf (none : Option α) n = List.replicate n none
  | 0 => rfl
  | n + 1 => by rw [givenOf, List.replicate_succ]

theorem partFor_cons {α : Type} (t t' : TypeId) (a : α) (l : List (TypeId × α)) :
    partFor t ((t', a) :: l) = if t' = t then a :: partFor t l else partFor t l := by
  unfold partFor
  by_cases h : t' = t <;> simp [h]

theorem partFor_removed (t : TypeId) (e : Entity) : ∀ (ts : List TypeId) (F : Content V),
    partFor t (ts.zip (F.removed e ts)) = givenOf (F t e) (ts.count t)
  | [], F => rfl
  | t' :: ts, F => by
    rw [Content.removed, List.zip_cons_cons, partFor_cons, partFor_removed t e ts, List.count_cons]
    by_cases h : t' = t
    · subst h
      have : (F.erase t' e) t' e = none := by simp [Content.erase]
      rw [if_pos rfl, this, givenOf_none]
      simp [givenOf]
    · have h2 : (F.erase t' e) t e = F t e := by
        have : t ≠ t' := fun hc => h hc.symm
        simp [Content.erase, this]
      rw [if_neg h, h2]
      simp [h]

theorem partFor_pos {α : Type} (t : TypeId) : ∀ (ts : List TypeId) (a b : List α), a.length = ts.length → b.length = ts.length →
    partFor t (ts.zip a) = partFor t (ts.zip b) → ∀ i : Nat, ts[i]? = some t → a[i]? = b[i]?
  | [], _, _, _, _, _, i, hi => by simp at hi
  | t' :: ts, x :: a, y :: b, ha, hb, h, i, hi => by
    rw [List.zip_cons_cons, List.zip_cons_cons, partFor_cons, partFor_cons] at h
    have ha' : a.length = ts.length := by simpa using ha
    have hb' : b.length = ts.length := by simpa using hb
    cases i with
    | zero =>
      simp only [List.getElem?_cons_zero, Option.some.injEq] at hi
      rw [if_pos hi, if_pos hi] at h
      simpa using (List.cons.inj h).1
    | succ i =>
      simp only [List.getElem?_cons_succ] at hi ⊢
      refine partFor_pos t ts a b ha' hb' ?_ i hi
      by_cases ht : t' = t
      · rw [if_pos ht, if_pos ht] at h
        exact (List.cons.inj h).2
      · rwa [if_neg ht, if_neg ht] at h

theorem Sheet.given_eq {s : Sheet V} {e : Entity} : ∀ n, s.given e n = givenOf (s.get e) n
  | 0 => rfl
  | _ + 1 => rfl

/-- The rows for puts of living entities. -/
theorem rows_puts {t : TypeId} {h : History V} {w w' : World V} {s : MapWorld V} {op : Op V} {r : Ret V}
    (hr : Reach World.empty h w) (hs : step w op = some (r, w')) (hreg : SameReg w s) (hv : LoneVals t w s)
    (hf : w'.FindsAll t) {l' : Life} (hl : LifeInv w'.entities l') (hmono : ∀ x ∈ s.life.alive, x ∈ l'.alive)
    (hp : ∀ p ∈ w.puts t op, p.1 ∈ l'.alive) (hrows : (w'.rows t).Perm (putRows (w.rows t) (w.puts t op)))
    {f : Entity → Option V} (hfold : f = (w.puts t op).foldl upd (s.table.get t)) :
    HoldsOf (· ∈ l'.alive) w'.components t f := by
  have h0 := rows_of_holds hr hv.holds fun hm e => hv.absent t (by rw [← hreg t, hm]; simp) e
  subst hfold
  exact holds_of_rows (hr.snoc hs) hf (((h0.mono hmono).puts hl.idxUniq _ hp).perm hrows)

theorem step_found {t : TypeId} {h : History V} {w w' : World V} {s : MapWorld V} {op : Op V} {r : Ret V}
    (hr : Reach World.empty h w) (hs : step w op = some (r, w')) (hreg : SameReg w s) (hv : LoneVals t w s)
    (hsp : op.SparesAt t r) (hm : op = .maintain → s.life.freshKilled = false) (hf : w'.FindsAll t)
    (hh : w.Handled t s op) : SameFor t op r (s.answer op) ∧ LoneVals t w' (s.next op) := by
  obtain ⟨he, hso⟩ := reach_sound hr
  by_cases hev : EvenPairs (w.swapsOf t op)
  · exact step_lone (reach_bounds hr) (reach_keys hr) he hso hreg hv hs hsp hev hm
  obtain ⟨t₀, ha⟩ := answer_any hr hs hreg hv hsp hm
  have hlife : LifeInv w'.entities (s.next op).life := by
    have := step_life hv.life hs hm
    rw [ha.events] at this
    exact this
  have habs := MapWorld.next_absent hv.absent op
  have hrows := rows_of_holds hr hv.holds fun hm e => hv.absent t (by rw [← hreg t, hm]; simp) e
  have hturn := step_turns he hso (reach_keys hr) hs t
  have hlab := C68 hr hs t
  have hlab' := (C68_all (hr.snoc hs) t).1 hf
  have hr1 := (C68_found hr t).1
  have hr1' := (C68_found (hr.snoc hs) t).1
  -- a component of a living entity is taken
  have htake : ∀ {e : Entity} {s1 : Sheet V}, e ∈ s.life.alive → (w.sheet t).Shuffled s1 → w'.sheet t = s1.take e →
      (w'.rows t).Perm (others e (w.rows t)) ∧ s1.get e = s.table.get t e := by
    intro e s1 hal hsh heq
    have hp : s1.rows.Perm (w.rows t) := by rw [← hr1]; exact hsh.1
    obtain ⟨k1, k2⟩ := take_found hv.life.idxUniq hal (s1 := s1) (hrows.perm hp)
      (by rw [← heq, hlab', hr1'])
    refine ⟨?_, k2⟩
    rw [← hr1', heq]
    exact k1.trans (hp.filter _)
  cases op with
  | register _ | createAtomic | maintain | clear | reset | write _ _ _ | writeAt _ _ _ =>
    exact absurd (by simp [World.swapsOf, EvenPairs]) hev
  | setLayout rank gs =>
    obtain ⟨hc, rfl⟩ := hsp
    simp only [World.Turns, if_pos hc] at hturn
    exact ⟨rfl, hlife, habs, holds_of_rows (hr.snoc hs) hf (hrows.perm hturn)⟩
  | create vs =>
    have ha' : r = s.answer (.create vs) := ha
    refine ⟨ha', hlife, habs, ?_⟩
    have hup : w.upcoming 1 = s.life.makes 1 := by
      rw [upcoming_eq 1 w w.entities rfl he he, createUpTo_makes 1 hv.life]
    have hkn : vs.takeWhile (fun p => w.isRegistered p.1) = s.known vs := known_eq hreg vs
    by_cases hx : s.life.exhausted
    · have hpu : w.puts t (.create vs) = [] := by simp [World.puts, hup, Life.makes, hx]
      refine rows_puts hr hs hreg hv hf hlife ?_ (by simp [hpu]) hturn ?_
      · intro x hx'
        simp [MapWorld.next, MapWorld.answer, hx, events, Life.run, hx']
      · simp [hpu, MapWorld.next, MapWorld.tableAfter, hx]
    · have hpu : w.puts t (.create vs) = (partFor t (s.known vs)).map fun v => (s.life.nextEntity, v) := by
        simp [World.puts, hup, Life.makes, hx, hkn]
      have hal : ∀ x, x ∈ (s.next (.create vs)).life.alive ↔ x = s.life.nextEntity ∨ x ∈ s.life.alive := by
        intro x
        simp only [MapWorld.next, MapWorld.answer, hx, if_false]
        split <;> simp [events, Life.run, Life.step]
      refine rows_puts hr hs hreg hv hf hlife (fun x hx' => (hal x).2 (.inr hx')) ?_ hturn ?_
      · intro p hp
        rw [hpu] at hp
        obtain ⟨v, _, rfl⟩ := List.mem_map.1 hp
        exact (hal _).2 (.inl rfl)
      · rw [hpu, ← Content.setAll_fold, ← Table.get_setAll]
        simp [MapWorld.next, MapWorld.tableAfter, hx]
  | insert e vs =>
    have ha' : r = s.answer (.insert e vs) := ha
    refine ⟨ha', hlife, habs, ?_⟩
    have hkn : vs.takeWhile (fun p => w.isRegistered p.1) = s.known vs := known_eq hreg vs
    have hnl : (s.next (.insert e vs)).life = s.life := by
      simp only [MapWorld.next, MapWorld.answer]
      split
      · rfl
      · split <;> rfl
    have hce : w.containsEntity e = true ↔ e ∈ s.life.alive := hv.life.contains_iff e
    refine rows_puts hr hs hreg hv hf hlife (fun x hx' => by rw [hnl]; exact hx') ?_ hturn ?_
    · intro p hp
      rw [hnl]
      simp only [World.puts] at hp
      split at hp
      · obtain ⟨v, _, rfl⟩ := List.mem_map.1 hp
        exact hce.1 (by assumption)
      · cases hp
    · by_cases hal : e ∈ s.life.alive
      · simp only [World.puts, hce.2 hal, if_true, hkn, MapWorld.next, MapWorld.tableAfter, hal]
        rw [Table.get_setAll, Content.setAll_fold]
      · have : ¬ w.containsEntity e = true := fun hc => hal (hce.1 hc)
        simp [World.puts, this, MapWorld.next, MapWorld.tableAfter, hal]
  | extend ts it =>
    have ha' : r = s.answer (.extend ts it) := ha
    refine ⟨ha', hlife, habs, ?_⟩
    have hup : w.upcoming it.items.length = s.life.makes it.items.length := by
      rw [upcoming_eq _ w w.entities rfl he he, createUpTo_makes _ hv.life]
    have hal : ∀ x, x ∈ (s.next (.extend ts it)).life.alive ↔ x ∈ s.extendMakes ts it ∨ x ∈ s.life.alive := by
      intro x
      have : (s.next (.extend ts it)).life = s.life.run ((s.extendMakes ts it).map .made) := by
        simp only [MapWorld.next, MapWorld.answer]
        split <;> rfl
      rw [this, Life.alive_mades]
    have hkn : (ts.all w.isRegistered = true) ↔ s.knows ts := by
      rw [List.all_eq_true]
      exact forall₂_congr fun x _ => hreg x
    have hpu : w.puts t (.extend ts it) =
        ((s.extendMakes ts it).zip it.items).flatMap fun p => (partFor t (ts.zip p.2)).map fun v => (p.1, v) := by
      simp only [World.puts, MapWorld.extendMakes, hup]
      by_cases hk : s.knows ts
      · rw [if_pos (hkn.2 hk), if_pos hk]
      · rw [if_neg (fun hc => hk (hkn.1 hc)), if_neg hk]
        rfl
    refine rows_puts hr hs hreg hv hf hlife (fun x hx' => (hal x).2 (.inr hx')) ?_ hturn ?_
    · intro p hp
      rw [hpu] at hp
      obtain ⟨q, hq, hp⟩ := List.mem_flatMap.1 hp
      obtain ⟨v, _, rfl⟩ := List.mem_map.1 hp
      exact (hal _).2 (.inl (List.of_mem_zip hq).1)
    · rw [hpu, ← Table.setItems_fold]
      rfl
  | destroy e =>
    have ha' : r = s.answer (.destroy e) := ha
    refine ⟨ha', hlife, habs, ?_⟩
    by_cases hal : e ∈ s.life.alive
    · have hrt : r = .bool true := by rw [ha']; simp [MapWorld.answer, hal]
      subst hrt
      simp only [World.Relabels] at hlab
      obtain ⟨s1, q1, q2⟩ := hlab
      obtain ⟨k1, _⟩ := htake hal q1 q2
      have hb := (hrows.others hv.life.idxUniq hal).perm k1
      have hnl : (s.next (.destroy e)).life = s.life.step (.killed e) := by
        simp [MapWorld.next, MapWorld.answer, hal, events, Life.run]
      have hnt : (s.next (.destroy e)).table.get t = fun x => if x = e then none else s.table.get t x := by
        simp only [MapWorld.next, MapWorld.tableAfter, hal, if_true]
        rw [Table.get_strip]
        rfl
      rw [hnl, hnt]
      refine holds_of_rows (hr.snoc hs) hf (hb.mono fun x hx => ?_)
      simp [Life.step, hx.1, hx.2]
    · exact absurd (by simp [World.swapsOf, hv.life.remove_absent hal, EvenPairs]) hev
  | remove e ts =>
    have hk : s.knows ts := by
      by_contra hk
      simp only [World.swapsOf, ComponentStorage.removePairsOf] at hev
      split at hev
      · next hc => exact hk fun x hx => (hreg x).1 ((lookupAll_idxs ts hc).2 x hx)
      · exact hev (by simp [EvenPairs])
    have hans : s.answer (.remove e ts) = .values (s.table.removed e ts) := by simp [MapWorld.answer, hk]
    have hnl : (s.next (.remove e ts)).life = s.life := by simp [MapWorld.next, hans, events, Life.run]
    have hnt : (s.next (.remove e ts)).table.get t = fun x => if t ∈ ts ∧ x = e then none else s.table.get t x := by
      simp only [MapWorld.next, MapWorld.tableAfter, hk, if_true]
      rw [Table.get_eraseAll, Content.eraseAll_eq]
    rw [hans] at ha ⊢
    have hval : ∃ vs, r = .values vs ∧ vs.length = (s.table.removed e ts).length := by
      cases r with
      | values vs => exact ⟨vs, rfl, ha.1⟩
      | _ => cases ha
    obtain ⟨vs, rfl, hvl⟩ := hval
    simp only [World.Relabels] at hlab
    obtain ⟨s1, q1, q2, q3⟩ := hlab
    by_cases ht : t ∈ ts
    · have hal : e ∈ s.life.alive := by
        rcases hh with hh | hh | hh
        · exact absurd ht hh
        · exact hh
        · exact absurd hh hev
      rw [if_pos ht] at q2
      obtain ⟨k1, k2⟩ := htake hal q1 q2
      have hlts := Table.removed_length e ts s.table
      refine ⟨⟨hvl, fun i hi => partFor_pos t ts _ _ (by rw [hvl, hlts]) hlts ?_ i hi⟩, hlife, habs, ?_⟩
      · rw [q3, Sheet.given_eq, k2, Table.removed_eq, partFor_removed]
      · have hb := (hrows.others hv.life.idxUniq hal).perm k1
        rw [hnl, hnt]
        simp only [ht, true_and]
        exact holds_of_rows (hr.snoc hs) hf (hb.mono fun x hx => hx.1)
    · rw [if_neg ht] at q2
      refine ⟨⟨hvl, fun i hi => absurd (List.mem_of_getElem? hi) ht⟩, hlife, habs, ?_⟩
      rw [hnl, hnt]
      simp only [ht, false_and, if_false]
      refine holds_of_rows (hr.snoc hs) hf (hrows.perm ?_)
      rw [← hr1', q2, ← hr1]
      exact q1.1
  | delete e ts =>
    have ha' : r = s.answer (.delete e ts) := ha
    refine ⟨ha', ?_⟩
    have hk : s.knows ts := by
      by_contra hk
      simp only [World.swapsOf, ComponentStorage.removePairsOf] at hev
      split at hev
      · next hc => exact hk fun x hx => (hreg x).1 ((lookupAll_idxs ts hc).2 x hx)
      · exact hev (by simp [EvenPairs])
    have hans : s.answer (.delete e ts) = .unit := by simp [MapWorld.answer, hk]
    have hnl : (s.next (.delete e ts)).life = s.life := by simp [MapWorld.next, hans, events, Life.run]
    have hnt : (s.next (.delete e ts)).table.get t = fun x => if t ∈ ts ∧ x = e then none else s.table.get t x := by
      simp only [MapWorld.next, MapWorld.tableAfter, hk, if_true]
      rw [Table.get_eraseAll, Content.eraseAll_eq]
    rw [hans] at ha'
    subst ha'
    simp only [World.Relabels] at hlab
    obtain ⟨s1, q1, q2⟩ := hlab
    by_cases ht : t ∈ ts
    · have hal : e ∈ s.life.alive := by
        rcases hh with hh | hh | hh
        · exact absurd ht hh
        · exact hh
        · exact absurd hh hev
      rw [if_pos ht] at q2
      obtain ⟨k1, _⟩ := htake hal q1 q2
      refine ⟨hlife, habs, ?_⟩
      have hb := (hrows.others hv.life.idxUniq hal).perm k1
      rw [hnl, hnt]
      simp only [ht, true_and]
      exact holds_of_rows (hr.snoc hs) hf (hb.mono fun x hx => hx.1)
    · rw [if_neg ht] at q2
      refine ⟨hlife, habs, ?_⟩
      rw [hnl, hnt]
      simp only [ht, false_and, if_false]
      refine holds_of_rows (hr.snoc hs) hf (hrows.perm ?_)
      rw [← hr1', q2, ← hr1]
      exact q1.1

/-! ### Histories -/

theorem HandledFrom.split {t : TypeId} {w w' : World V} {a : History V} (hr : Reach w a w') :
    ∀ (s : MapWorld V) (b : History V),
    HandledFrom t w s (a ++ b) ↔ HandledFrom t w s a ∧ HandledFrom t w' (s.run (a.map (·.1))) b := by
  induction hr with
  | nil => intro s b; simp [HandledFrom, MapWorld.run]
  | @snoc h w1 w2 op r hr hs ih =>
    intro s b
    rw [List.append_assoc, ih, ih]
    simp only [List.singleton_append, HandledFrom, hs, List.map_append, List.map_cons, List.map_nil, MapWorld.run,
      List.foldl_append, List.foldl_cons, List.foldl_nil]
    tauto

theorem HandledFor.snoc {t : TypeId} {h : History V} {w : World V} {op : Op V} {r : Ret V} (hr : Reach World.empty h w)
    (hh : HandledFor t (h ++ [(op, r)])) :
    HandledFor t h ∧ op.SparesAt t r ∧ w.Handled t (mapOf (h.map (·.1))) op := by
  obtain ⟨h1, h2, h3, _⟩ := (HandledFrom.split hr _ _).1 hh
  exact ⟨h1, h2, h3⟩

theorem HandledFor.laid {t : TypeId} {h : History V} {w : World V} (hr : Reach World.empty h w) : HandledFor t h → Laid h := by
  induction hr with
  | nil => intro _ p hp; simp at hp
  | @snoc h w1 w2 op r hr hs ih =>
    intro hh p hp
    obtain ⟨h1, h2, _⟩ := hh.snoc hr
    rcases List.mem_append.1 hp with hp | hp
    · exact ih h1 p hp
    · simp only [List.mem_singleton] at hp
      subst hp
      exact h2.lays

/-- One more call of a history. -/
theorem found_snoc {t : TypeId} {h : History V} {w w' : World V} {op : Op V} {r : Ret V} (hr : Reach World.empty h w)
    (hs : step w op = some (r, w')) (hl : Laid h) (hsp : op.SparesAt t r) (hh : w.Handled t (mapOf (h.map (·.1))) op)
    (hf : w'.FindsAll t) (hd : Disciplined (h ++ [(op, r)]))
    (ih : Disciplined h → LoneVals t w (mapOf (h.map (·.1))) ∧ (mapOf (h.map (·.1))).life = life h) :
    SameFor t op r ((mapOf (h.map (·.1))).answer op) ∧
      LoneVals t w' ((mapOf (h.map (·.1))).next op) ∧ ((mapOf (h.map (·.1))).next op).life = (life h).run (events op r) := by
  unfold Disciplined at hd
  rw [life_snoc] at hd
  by_cases hop : op = .reset
  · subst hop
    simp only [step, Option.some.injEq, Prod.mk.injEq] at hs
    obtain ⟨rfl, rfl⟩ := hs
    exact ⟨rfl, ⟨LifeInv.reset _, MapWorld.next_absent (mapOf_absent _) _, (clear_holds _ t).mono (fun _ hx => hx.elim)⟩, rfl⟩
  · have hd' := Life.disciplined_run hd (events_no_reset hop)
    obtain ⟨i1, i2⟩ := ih hd'
    obtain ⟨he, hso⟩ := reach_sound hr
    have hm : op = .maintain → (mapOf (h.map (·.1))).life.freshKilled = false := by
      rintro rfl
      rw [i2]
      obtain ⟨w', h1⟩ := maintain_safe he
      simp only [step, h1, retRes, Option.some.injEq, Prod.mk.injEq] at hs
      obtain ⟨rfl, _⟩ := hs
      exact (Life.disciplined_step (l := life h) (ev := .maintained) hd (by simp)).2 rfl
    obtain ⟨j1, j2⟩ := step_found hr hs (reach_sameReg hr hl) i1 hsp hm hf hh
    refine ⟨j1, j2, ?_⟩
    rw [j1.events, ← i2]
    rfl

theorem reach_foundVals {t : TypeId} {h : History V} {w : World V} (hr : Reach World.empty h w) (hh : HandledFor t h)
    (hf : FoundAlong t h) (hd : Disciplined h) :
    LoneVals t w (mapOf (h.map (·.1))) ∧ (mapOf (h.map (·.1))).life = life h := by
  induction hr with
  | nil =>
    refine ⟨⟨LifeInv.init, mapOf_absent _, ?_⟩, rfl⟩
    intro s hs
    simp [ComponentStorage.setOf, World.empty, ComponentStorage.empty, ComponentStorage.meta?] at hs
  | @snoc h w1 w2 op r hr hs ih =>
    obtain ⟨h1, h2, h3⟩ := hh.snoc hr
    have hf' : FoundAlong t h := fun a w ha => hf a w (ha.trans (List.prefix_append _ _))
    obtain ⟨_, j⟩ := found_snoc hr hs (h1.laid hr) h2 h3 (hf _ _ (List.prefix_refl _) (hr.snoc hs)) hd (ih h1 hf')
    rw [life_snoc, List.map_append, List.map_singleton, mapOf_snoc]
    exact j

end Sparsey
