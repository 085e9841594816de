import Verif.Properties.Uses
import Verif.Properties.Found
import Verif.Proofs.AlignedQuery

/-!
C71: undefined behaviour is preceded by a call that visibly leaves a row behind.
-/

set_option autoImplicit false
set_option linter.unusedSimpArgs false

namespace Sparsey
variable {V : Type}

/-- C71: after a history in which no call leaves a row behind (except before the sets were sorted or emptied), no call is
undefined, whatever entities it names. The layout set last is proper, and so is one that the call sets. -/
theorem C71 {h : History V} {w : World V} (hr : Reach World.empty h w) (hn : Settled (calls h)) (hcl : Clean h) (op : Op V)
    (hop : Settled (calls h ++ [op])) : ∃ r w', step w op = some (r, w') := by
  obtain ⟨he, hc⟩ := reach_sound hr
  obtain ⟨r, w', h1, _⟩ := step_aligned he hc (reach_keys hr) (reach_aligned hr hn hcl) op hop.snoc.1
  exact ⟨r, w', h1⟩

/-- C71, the other way round: whenever a call is undefined, an earlier one left a row behind, and no later call sorted or
emptied the sets. -/
theorem C71_cause {h : History V} {w : World V} (hr : Reach World.empty h w) (hn : Settled (calls h)) {op : Op V}
    (hop : Settled (calls h ++ [op])) (hub : step w op = none) :
    ∃ (a : History V) (op' : Op V) (r' : Ret V) (b : History V) (w' : World V), h = a ++ (op', r') :: b ∧
      Reach World.empty a w' ∧ w'.Misplaces op' ∧ ∀ x ∈ b, ¬ x.1.Rebuilds := by
  have hcl : ¬ Clean h := fun hcl => by
    obtain ⟨r, w', h1⟩ := C71 hr hn hcl op hop
    rw [hub] at h1
    cases h1
  exact not_cleanFrom hr hcl

/-- C71, queries: after such a history queries are built, iterated in all ways, sliced and asked for single entities without
undefined behaviour, and once built without panic. -/
theorem C71_query {h : History V} {w : World V} (hr : Reach World.empty h w) (hn : Settled (calls h)) (hcl : Clean h)
    (b : Borrows) (g i x : Query) :
    QueryAll.new w b g i x ≠ .ub ∧ QueryOne.new w b g i x ≠ .ub ∧
    (∀ q b', QueryOne.new w b g i x = .ok (q, b') → ∀ e, ∃ r, q.getItem e = .ok r) ∧
    ∀ q b', QueryAll.new w b g i x = .ok (q, b') → (∃ r, q.slice = .ok r) ∧ ∃ it, q.iter = .ok it ∧
      (∃ xs, it.fold = .ok xs) ∧ (∀ n, ∃ r, it.nexts n = .ok r) ∧ ∀ t, ∃ r, it.par t = .ok r := by
  have ha := reach_aligned hr hn hcl
  have hc := (reach_sound hr).2
  obtain ⟨h1, h2, h3, _⟩ := C31_query_safe hr b g i x
  refine ⟨h1, h2, h3, fun q b' hq => ?_⟩
  obtain ⟨⟨it, hit, p1, p2, p3⟩, p4⟩ := C66 hr hq
  have hd : ∀ d, it = .dense d → d.start ≤ d.stop ∧ ∀ t ∈ required g ++ required i, d.stop ≤ (w.rows t).length := by
    rintro d rfl
    obtain ⟨_, _, pre, h5, rfl, rfl⟩ := dense_range ha (QueryAll.new_ok hq) hit
    exact ⟨h5.le, (h5.rows hc).1⟩
  have hfold : it.fold ≠ .ub := by
    intro hub
    obtain ⟨d, hd1, _, t, ht, hlt⟩ := (C66_reads hr hq hit).1 hub
    have := (hd d hd1).2 t (by
      unfold neededBy at ht
      split at ht
      · exact List.mem_append_right _ ht
      · exact List.mem_append_left _ ht)
    omega
  have hslice : q.slice ≠ .ub := by
    intro hub
    obtain ⟨d, hd1, hbad⟩ := (C66_slice hr hq hit).1 hub
    obtain ⟨h6, h7⟩ := hd d hd1
    rcases hbad with ⟨t, ht, hbad⟩ | ⟨_, hbad | ⟨t, ht, hlt⟩⟩
    · have := h7 t (List.mem_append_left _ ht)
      omega
    · omega
    · have := h7 t (by
        split at ht
        · exact List.mem_append_right _ ht
        · exact List.mem_append_left _ (List.mem_of_mem_take ht))
      omega
  obtain ⟨h8, h9⟩ := C66_ways it
  have hok : ∀ {α : Type} (r : Res α), r ≠ .panic → r ≠ .ub → ∃ a, r = .ok a := by
    intro α r h10 h11
    cases r with
    | ok a => exact ⟨a, rfl⟩
    | panic => exact absurd rfl h10
    | ub => exact absurd rfl h11
  exact ⟨hok _ p4 hslice, it, hit, hok _ p2 hfold, fun n => hok _ (p1 n) fun hub => hfold (h8.1 ⟨n, hub⟩),
    fun t => hok _ (p3 t) fun hub => hfold ((h9 t).1 hub)⟩

/-- C71, contents: a query that iterates over a group reads, at each position, rows of one index from all required types. -/
theorem C71_rows {h : History V} {w : World V} (hr : Reach World.empty h w) (hn : Settled (calls h)) (hcl : Clean h)
    {b b' : Borrows} {g i x : Query} {q : QueryAll V} (hq : QueryAll.new w b g i x = .ok (q, b')) {d : DenseIter V}
    (hit : q.iter = .ok (.dense d)) :
    d.start ≤ d.stop ∧ ∀ p < d.stop, ∃ ix, ∀ t ∈ required g ++ required i, ∃ row, (w.rows t)[p]? = some row ∧
      row.1.index = ix := by
  obtain ⟨_, _, pre, h5, rfl, rfl⟩ := dense_range (reach_aligned hr hn hcl) (QueryAll.new_ok hq) hit
  exact ⟨h5.le, (h5.rows (reach_sound hr).2).2⟩

/-- C71, repair: `set_layout`, `clear` and `reset` make any history clean, whatever was done before. -/
theorem C71_repair (h : History V) {op : Op V} (r : Ret V) (hop : op.Rebuilds) : Clean (h ++ [(op, r)]) := by
  have key : ∀ (h : History V) (w : World V), CleanFrom w (h ++ [(op, r)]) := by
    intro h
    induction h with
    | nil =>
      intro w
      refine ⟨.inr ?_, ?_⟩
      · rintro ⟨e, he, _⟩
        cases op <;> first | exact hop | cases he
      · split <;> trivial
    | cons y h ih =>
      intro w
      refine ⟨.inl ⟨(op, r), List.mem_append_right _ (.head _), hop⟩, ?_⟩
      split
      · exact ih _
      · trivial
  exact key h _

/-- Every row belongs to a living entity and is found, and only living entities are found. -/
structure RowsAlive (w : World V) (A : List Entity) : Prop where
  row : ∀ t, ∀ p ∈ w.rows t, p.1 ∈ A ∧ w.Finds t p.1
  found : ∀ t e, w.Finds t e → e ∈ A

theorem RowsAlive.of {w : World V} {A : List Entity} (hc : Sound w.components)
    (h : ∀ t m s, w.components.meta? t = some m → w.components.components[m.storageIndex]? = some s →
      s.WF ∧ ∀ e ∈ s.entities, e ∈ A) : RowsAlive w A where
  row t p hp := by
    unfold World.rows World.borrow at hp
    cases hm : w.components.meta? t with
    | none => rw [hm] at hp; cases hp
    | some m =>
      obtain ⟨s, h1, h2⟩ := hc.at_meta hm
      simp only [hm, h1, Res.unchecked_some] at hp
      have hpe : p.1 ∈ s.entities := (List.of_mem_zip (a := p.1) (b := p.2) hp).1
      obtain ⟨h3, h4⟩ := h t m s hm h1
      refine ⟨h4 _ hpe, (IdxOk.finds hm h1 h2).2 fun hn => (h3.rep.get_eq_none p.1).1 hn hpe⟩
  found t e he := by
    cases hm : w.components.meta? t with
    | none =>
      unfold World.Finds World.viewGet World.borrow at he
      simp [hm] at he
    | some m =>
      obtain ⟨s, h1, h2⟩ := hc.at_meta hm
      obtain ⟨h3, h4⟩ := h t m s hm h1
      have h5 := (IdxOk.finds hm h1 h2).1 he
      refine h4 e ?_
      by_contra hn
      exact h5 ((h3.rep.get_eq_none e).2 hn)

theorem RowsAlive.not_misplaces {w : World V} {A : List Entity} (h : RowsAlive w A)
    (hA : ∀ x ∈ A, ∀ y ∈ A, x.index = y.index → x = y) {op : Op V}
    (hs : ∀ r w', step w op = some (r, w') → ∃ A', RowsAlive w' A' ∧ (op.takesOf.isSome → ∀ x ∈ A', x ∈ A)) :
    ¬ w.Misplaces op := by
  rintro ⟨e, he, ⟨t, ht⟩, hm⟩
  cases hst : step w op with
  | none => rw [hst] at hm; exact hm
  | some p =>
    obtain ⟨r, w'⟩ := p
    obtain ⟨A', h1, h2⟩ := hs r w' hst
    have key : ∃ t, w'.Overlooks t e := by
      rw [hst] at hm
      cases r with
      | panicked l => exact hm.elim
      | bool b => cases b with
        | false => exact hm.elim
        | true => exact hm
      | _ => exact hm
    obtain ⟨t', ⟨p, hp, hpi⟩, hn⟩ := key
    obtain ⟨h3, h4⟩ := h1.row t' p hp
    have : p.1 = e := hA _ (h2 (by rw [he]; rfl) _ h3) _ (h.found t e ht) hpi
    rw [this] at h4
    exact hn h4

theorem LifeInv.alive_inj {s : EntityStorage} {l : Life} (h : LifeInv s l) :
    ∀ x ∈ l.alive, ∀ y ∈ l.alive, x.index = y.index → x = y := by
  intro x hx y hy hxy
  have hn := h.nodup
  rw [List.map_append, List.nodup_append] at hn
  exact List.inj_on_of_nodup_map hn.2.1 ((h.alive x).2 hx) ((h.alive y).2 hy) hxy

theorem alive_takes (s : MapWorld V) {op : Op V} (h : op.takesOf.isSome) :
    ∀ x ∈ (s.next op).life.alive, x ∈ s.life.alive := by
  intro x hx
  unfold MapWorld.next at hx
  cases op with
  | remove e ts => exact hx
  | delete e ts => exact hx
  | destroy e =>
    simp only [MapWorld.answer] at hx
    by_cases he : e ∈ s.life.alive
    · simp only [he, decide_true, events, Life.run, List.foldl_cons, List.foldl_nil, Life.step] at hx
      exact (List.mem_filter.1 hx).1
    · simpa only [he, decide_false, events, Life.run, List.foldl_nil] using hx
  | _ => cases h

theorem step_last {w m m1 : World V} {a : History V} {op : Op V} {r : Ret V} (h1 : Reach w a m)
    (h2 : Reach w (a ++ [(op, r)]) m1) : step m op = some (r, m1) := by
  obtain ⟨m', x1, x2⟩ := h2.split a _ rfl
  have h3 := x1.run
  rw [h1.run] at h3
  cases h3
  exact x2.step_of_single

/-- C71, comparison: if every row of every view is found after every call (as in C70), no row is left behind. -/
theorem C71_found {h : History V} {w : World V} (hr : Reach World.empty h w) (ha : MapWorld.init.AllFair (calls h))
    (hf : ∀ t, FoundAlong t h) : Clean h := by
  by_contra hcl
  obtain ⟨a, op, r, b, m, rfl, h2, h3, _⟩ := not_cleanFrom hr hcl
  obtain ⟨m1, h4, h5⟩ := hr.split (a ++ [(op, r)]) b (by simp)
  have hpre : ∀ {c d : History V} {u : World V}, a ++ (op, r) :: b = c ++ d → Reach World.empty c u →
      RowsAlive u (mapOf (calls c)).life.alive ∧ LifeInv u.entities (mapOf (calls c)).life := by
    intro c d u hcd hru
    rw [hcd] at ha hf
    have hcalls : calls (c ++ d) = calls c ++ calls d := by simp [calls]
    rw [hcalls, MapWorld.AllFair.split] at ha
    have hv := (reach_allFound hru ha.1 fun t x u' hx => hf t x u' (hx.trans (List.prefix_append _ _))).1
    refine ⟨RowsAlive.of (reach_sound hru).2 fun t m s hm hs => ?_, (hv 0).life⟩
    obtain ⟨h6, h7, _⟩ := (hv t).holds s (by simp [ComponentStorage.setOf, hm, hs])
    exact ⟨h6, h7⟩
  obtain ⟨p1, p2⟩ := hpre rfl h2
  obtain ⟨p3, _⟩ := hpre (d := b) (by simp) h4
  have hst := step_last h2 h4
  refine p1.not_misplaces p2.alive_inj (fun r' w' hs =>
    ⟨(mapOf (calls (a ++ [(op, r)]))).life.alive, ?_, ?_⟩) h3
  · rw [hst] at hs
    cases hs
    exact p3
  · have hcalls : calls (a ++ [(op, r)]) = calls a ++ [op] := by simp [calls]
    rw [hcalls, mapOf_snoc]
    exact alive_takes _

/-- C71, comparison: `Fair` histories, of which most theorems speak, are clean. -/
theorem C71_fair {h : History V} {w : World V} (hr : Reach World.empty h w) (hg : Fair (calls h)) : Clean h := by
  by_contra hcl
  obtain ⟨a, op, r, b, m, rfl, h2, h3, _⟩ := not_cleanFrom hr hcl
  obtain ⟨m1, h4, h5⟩ := hr.split (a ++ [(op, r)]) b (by simp)
  have hpre : ∀ {c d : History V} {u : World V}, a ++ (op, r) :: b = c ++ d → Reach World.empty c u →
      RowsAlive u (mapOf (calls c)).life.alive ∧ LifeInv u.entities (mapOf (calls c)).life := by
    intro c d u hcd hru
    rw [hcd] at hg
    have hcalls : calls (c ++ d) = calls c ++ calls d := by simp [calls]
    rw [hcalls] at hg
    have hv := reach_invL hru ((FairFrom.split _ _ hru.run).1 hg).1
    refine ⟨RowsAlive.of (reach_sound hru).2 fun t m s hm hs => ?_, hv.life⟩
    have h6 := hv.viewAt ⟨m, hm, rfl, hs⟩
    exact ⟨h6.wf, h6.alive⟩
  obtain ⟨p1, p2⟩ := hpre rfl h2
  obtain ⟨p3, _⟩ := hpre (d := b) (by simp) h4
  have hst := step_last h2 h4
  refine p1.not_misplaces p2.alive_inj (fun r' w' hs =>
    ⟨(mapOf (calls (a ++ [(op, r)]))).life.alive, ?_, ?_⟩) h3
  · rw [hst] at hs
    cases hs
    exact p3
  · have hcalls : calls (a ++ [(op, r)]) = calls a ++ [op] := by simp [calls]
    rw [hcalls, mapOf_snoc]
    exact alive_takes _

/-- C71 for lists of calls: a list of calls runs to its end without undefined behaviour if every layout in it is proper and
none of its calls, made in the world it is made in, leaves a row behind. -/
theorem C71_run : ∀ (ops : List (Op V)), (∀ a, a <+: ops → Settled a) →
    (∀ (a : List (Op V)) (op : Op V) (rs : List (Ret V)) (w : World V), a ++ [op] <+: ops →
      run World.empty a = some (rs, w) → ¬ w.Misplaces op) →
    ∃ (h : History V) (w : World V), calls h = ops ∧ Reach World.empty h w ∧ Clean h ∧
      run World.empty ops = some (h.map (·.2), w) := by
  intro ops
  induction ops using List.reverseRecOn with
  | nil => exact fun _ _ => ⟨[], World.empty, rfl, .nil, trivial, rfl⟩
  | append_singleton ops op ih =>
    intro hs hm
    have hp : ops <+: ops ++ [op] := List.prefix_append _ _
    obtain ⟨h, w, rfl, hr, hcl, hrun⟩ := ih (fun a ha => hs a (ha.trans hp))
      fun a o rs w ha => hm a o rs w (ha.trans hp)
    obtain ⟨r, w', hst⟩ := C71 hr (hs _ hp) hcl op (hs _ (List.prefix_refl _))
    have hr' := hr.snoc hst
    have hcalls : calls (h ++ [(op, r)]) = calls h ++ [op] := by simp [calls]
    refine ⟨h ++ [(op, r)], w', hcalls, hr', ?_, ?_⟩
    · by_contra hn
      obtain ⟨a, o, r', b, m, h1, h2, h3, _⟩ := not_cleanFrom hr' hn
      refine hm (calls a) o _ m ?_ h2.run h3
      rw [← hcalls, h1]
      exact ⟨calls b, by simp [calls]⟩
    · rw [← hcalls]
      exact hr'.run

/-- A history that is `Clean` but not `Fair`: rows of different versions are exchanged, and a dead entity takes a component
of its successor. -/
def cleanOps : List (Op Nat) :=
  [.setLayout anyOrder [[0, 1]], .create [], .destroy ⟨0, 1⟩, .create [(0, 10)], .create [(0, 20), (1, 30)],
    .insert ⟨0, 2⟩ [(1, 40)], .create [(1, 50), (0, 60)], .remove ⟨0, 1⟩ [0], .create [(0, 70), (1, 80)],
    .delete ⟨2, 1⟩ [0], .insert ⟨2, 1⟩ [(0, 90)]]

/-- `cleanOps` meets the hypotheses of `C71_run`, spelled out for every prefix. -/
example : (∀ a ∈ cleanOps.inits, Settled a) ∧ (∀ k < cleanOps.length,
    (match run World.empty (cleanOps.take k), cleanOps[k]? with
      | some (_, w), some op => decide (¬ w.Misplaces op)
      | _, _ => false) = true) := by decide +kernel

example : Settled cleanOps ∧ Settled (cleanOps ++ [.destroy ⟨0, 2⟩]) ∧ ¬ Fair cleanOps ∧ holdsAfter cleanOps (fun rs w =>
    decide (Clean (cleanOps.zip rs)) &&
    (match QueryAll.new w [] [.entity, .ref 0, .ref 1] [] [] with
      | .ok (q, _) => (match q.iter with
        | .ok (.dense d) => d.start == 0 && d.stop == 3 &&
          (w.rows 0).map (·.1.index) == [1, 3, 2] && (w.rows 1).map (·.1.index) == [1, 3, 2, 0]
        | _ => false)
      | _ => false)) = true := by decide +kernel

/-- The calls of `C31_false`: the last but one leaves a row of index 1 behind, and the last one is undefined. -/
def uncleanOps : List (Op Nat) :=
  [.setLayout anyOrder [[0, 1]], .create [], .destroy ⟨0, 1⟩, .create [(0, 10)], .create [(0, 20), (1, 30)],
    .delete ⟨1, 1⟩ [1]]

example : Settled uncleanOps ∧ Settled (uncleanOps ++ [.create [(0, 50), (1, 60)]]) ∧
    holdsAfter uncleanOps (fun rs w => decide (¬ Clean (uncleanOps.zip rs)) && (step w (.create [(0, 50), (1, 60)])).isNone &&
      (w.rows 0).map (·.1.index) == [1, 0] && decide (¬ w.Finds 0 ⟨1, 1⟩) && decide (w.Overlooks 0 ⟨1, 1⟩)) = true ∧
    holdsAfter uncleanOps.dropLast (fun rs w => decide (Clean (uncleanOps.dropLast.zip rs)) &&
      decide (w.Misplaces (.delete ⟨1, 1⟩ [1])) && decide (w.Finds 1 ⟨1, 1⟩)) = true := by decide +kernel

/-- After the same calls, setting the layout again makes the world safe. -/
def mendedOps : List (Op Nat) := uncleanOps ++ [.setLayout anyOrder [[0, 1]]]

example : Settled mendedOps ∧ holdsAfter mendedOps (fun rs w => decide (Clean (mendedOps.zip rs)) &&
    (step w (.create [(0, 50), (1, 60)])).isSome) = true := by decide +kernel

/-- A fair history with removals through dead and living handles of one index. -/
def tidyOps : List (Op Nat) := cleanOps.take 4 ++
  [.insert ⟨0, 2⟩ [(1, 40)], .create [(1, 50)], .remove ⟨0, 1⟩ [0, 1], .remove ⟨0, 2⟩ [0], .destroy ⟨0, 2⟩]

example : Fair tidyOps ∧ MapWorld.init.AllFair tidyOps ∧ holdsAfter tidyOps (fun rs w => decide (Clean (tidyOps.zip rs)) &&
    rs == [.unit, .entity ⟨0, 1⟩, .bool true, .entity ⟨0, 2⟩, .bool true, .entity ⟨1, 1⟩, .values [none, none],
      .values [some 10], .bool true] && (w.rows 1).length == 1) = true := by decide +kernel

end Sparsey
