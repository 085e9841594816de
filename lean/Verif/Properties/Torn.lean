import Verif.Proofs.Torn
import Verif.Properties.BombLedger
import Verif.Properties.Grouped
import Verif.Properties.Replaced

/-!
C76: calls interrupted by panicking destructors leave a map behind, unless they empty something.
-/

set_option autoImplicit false
set_option linter.unusedSimpArgs false

namespace Sparsey
variable {V : Type}

/-- The world stands for the map `s`, with the entities of `H` outside of groups they belong to. -/
structure InvT (w : World V) (s : MapWorld V) (H : List (Entity × Nat)) : Prop where
  inv : InvL w s
  hid : IsHidden w s H
  two : ∀ g ∈ s.groups, ∀ t, ¬ SameTypes [t] g

theorem InvT.out {w : World V} {s : MapWorld V} {H : List (Entity × Nat)} (h : InvT w s H) : InvH w s H :=
  InvX.hid h.inv h.hid h.two

theorem InvT.step {w : World V} {s : MapWorld V} {H : List (Entity × Nat)} (h : InvT w s H) {op : Op V} (hf : s.Fair op)
    (hv : w.Even op) : ∃ w', step w op = some (s.answer op, w') ∧ InvT w' (s.next op) (s.hiddenAfter H op) := by
  obtain ⟨w', h1, h2⟩ := step_fair h.inv hf hv
  refine ⟨w', h1, h2, step_hidden h.inv hf hv h1 h.hid, ?_⟩
  cases op with
  | setLayout rank gs => exact hf.1.two
  | _ => exact h.two

/-- A call on a world that represents a map, with bombs. -/
theorem stepB_fair {bomb : V → Bool} {w : World V} {s : MapWorld V} {H : List (Entity × Nat)} (hT : InvT w s H) {op : Op V}
    (hf : s.Fair op) (hv : w.Even op) (hb : op.tears = false → ∀ v ∈ w.drops op, bomb v = false) :
    ∃ r w' ds s' H', stepB bomb w op = some (r, w', ds) ∧ s.NextB bomb H op r ds s' H' ∧ InvT w' s' H' := by
  have h := hT.inv
  obtain ⟨w1, h1, h2⟩ := hT.step hf hv
  have calm : ∀ {r w' ds}, stepB bomb w op = some (r, w', ds) → step w op = some (r, w') →
      ((∃ es, r = .panicked es) ∨ ∀ v ∈ ds, bomb v = false) →
        ∃ r w' ds s' H', stepB bomb w op = some (r, w', ds) ∧ s.NextB bomb H op r ds s' H' ∧ InvT w' s' H' := by
    intro r w' ds i1 i2 i3
    rw [h1] at i2
    cases i2
    exact ⟨_, _, _, _, _, i1, .inl ⟨rfl, rfl, rfl, i3⟩, h2⟩
  have hcalm : stepCalm w op = some (s.answer op, w1, w.drops op) := by
    rw [stepCalm, h1]; rfl
  have hreg : ∀ t₀, t₀ ∉ s.reg → w.isRegistered t₀ = false := fun t₀ ht => by
    rw [h.registered_eq]; simpa using ht
  obtain ⟨t₀, ht₀⟩ := exists_unregistered s.reg
  cases op with
  | destroy e =>
    have h3 := stepB_calm (bomb := bomb) h1 (by simp only [MapWorld.answer]; simp) (hb rfl)
    exact calm h3 h1 (.inr (hb rfl))
  | clear =>
    have h3 := stepB_calm (bomb := bomb) h1 (by simp only [MapWorld.answer]; simp) (hb rfl)
    exact calm h3 h1 (.inr (hb rfl))
  | reset =>
    have h3 := stepB_calm (bomb := bomb) h1 (by simp only [MapWorld.answer]; simp) (hb rfl)
    exact calm h3 h1 (.inr (hb rfl))
  | delete e ts =>
    by_cases hk : s.knows ts
    · cases hd : w.deleteB bomb e ts with
      | ub =>
        rcases deleteB_damage (bomb := bomb) h hv (fun t ht => (h.knows_iff ts).1 hk t ht) with
          ⟨_, _, h3, _⟩ | ⟨_, _, _, _, _, h3, _⟩ <;> rw [hd] at h3 <;> cases h3
      | panic q =>
        obtain ⟨w', ds⟩ := q
        obtain ⟨s', h3, h4, h5⟩ := h.deleteB_torn hv hk hd
        refine ⟨.panicked [], w', ds, s', _, by rw [stepB, hd]; rfl, .inr ⟨?_, .inl ⟨e, ts, rfl, rfl, hk, h3, rfl⟩⟩,
          h4.mono fun _ _ _ => trivial, hT.hid.torn h3 h5, ?_⟩
        rotate_left
        · obtain ⟨_, _, _, _, _, _, _, _, _, _, _, _, rfl⟩ := h3
          exact hT.two
        obtain ⟨_, _, _, _, v, _, _, _, h5, _, h6, _⟩ := h3
        exact ⟨v, by rw [h6]; simp, h5⟩
      | ok u q =>
        obtain ⟨w', ds⟩ := q
        have hc : ∀ v ∈ ds, bomb v = false := by
          rcases deleteB_damage (bomb := bomb) h hv (fun t ht => (h.knows_iff ts).1 hk t ht) with
            ⟨_, _, h3, _, _, _, _, h4⟩ | ⟨_, _, _, _, _, h3, _⟩ <;> rw [hd] at h3 <;> cases h3
          exact h4
        refine calm (r := .unit) (w' := w') (ds := ds) (by rw [stepB, hd]; rfl) ?_ (.inr hc)
        unfold World.deleteB World.withStorage at hd
        cases hc : w.components.deleteB bomb e ts with
        | ub => rw [hc] at hd; cases hd
        | panic q => rw [hc] at hd; cases hd
        | ok u q =>
          obtain ⟨c', d⟩ := q
          rw [hc] at hd
          cases hd
          simp [step, retRes, World.delete, ComponentStorage.deleteB_done hc]
    · have hp := remove_panic (c := w.components) (e := e) (ts := ts) (by
        rcases regs_cases w.components ts with h1 | h1
        · exact absurd ((h.knows_iff ts).2 h1) hk
        · exact h1)
      refine calm (r := .panicked []) (w' := w) (ds := []) ?_ ?_ (.inl ⟨_, rfl⟩)
      · rw [stepB]
        unfold World.deleteB
        rw [(ComponentStorage.deleteB_refused hp.2).1]
        rfl
      · simp [step, retRes, World.delete, hp.2]
  | insert e vs =>
    have hsome : ∃ r w' ds, stepB bomb w (.insert e vs) = some (r, w', ds) := by
      rw [stepB]
      split
      · exact ⟨_, _, _, rfl⟩
      · exact ⟨_, _, _, hcalm⟩
    obtain ⟨r, w', ds, hs⟩ := hsome
    by_cases he : w.containsEntity e = true
    · rcases C44_insert he hs with ⟨h3, _, h4⟩ | ⟨pre, t, v, post, d, old, h3, h4, _, h5, h6, h7⟩
      · refine calm hs h3 ?_
        rw [h1] at h3
        simp only [Option.some.injEq, Prod.mk.injEq] at h3
        rw [← h3.1] at h4 ⊢
        have ha : s.answer (.insert e vs) = if s.knows (vs.map (·.1)) then .bool true else .panicked [] := by
          simp only [MapWorld.answer, (h.contains_iff e).1 he, not_true_eq_false, if_false]
        rw [ha] at h4 ⊢
        by_cases hk : s.knows (vs.map (·.1))
        · rw [if_pos hk] at h4
          exact .inr (h4 rfl)
        · rw [if_neg hk]
          exact .inl ⟨_, rfl⟩
      · have h8 := h7 t₀ v (hreg t₀ ht₀)
        obtain ⟨w2, h9, h10⟩ := hT.step (op := .insert e (pre ++ [(t, v), (t₀, v)])) trivial
          (w.even_insert_unreg e ⟨(t₀, v), by simp, hreg t₀ ht₀⟩)
        rw [h8] at h9
        simp only [Option.some.injEq, Prod.mk.injEq] at h9
        obtain ⟨h9, rfl⟩ := h9
        refine ⟨r, w', ds, _, _, hs, .inr ⟨⟨old, by rw [h6]; simp, h4⟩, .inr
          ⟨_, .inr ⟨pre, t, v, post, t₀, v, h3, ht₀, rfl⟩, ?_, rfl, rfl⟩⟩, h10⟩
        simp [MapWorld.answers, ← h9, h5, Ret.madeBefore]
    · have he' : ¬ w.entities.contains e = true := he
      rw [stepB, World.insertBomb, if_neg he'] at hs
      by_cases hbb : (vs.map (·.2)).any bomb = true
      · rw [if_pos hbb] at hs
        simp only [Option.some.injEq, Prod.mk.injEq] at hs
        obtain ⟨rfl, rfl, rfl⟩ := hs
        refine ⟨.panicked [], w, vs.map (·.2), s, H, by rw [stepB, World.insertBomb, if_neg he', if_pos hbb], .inr
          ⟨List.any_eq_true.1 hbb, .inr ⟨[], .inl ⟨?_, rfl⟩, rfl, rfl, rfl⟩⟩, hT⟩
        rw [← h.contains_iff]
        exact he
      · rw [if_neg hbb] at hs
        refine calm (r := r) (w' := w') (ds := ds) (by rw [stepB, World.insertBomb, if_neg he', if_neg hbb]; exact hs)
          (stepCalm_some hs).1 (.inr ?_)
        rw [(stepCalm_some hs).2]
        have he2 : w.entities.contains e = false := by simpa using he'
        have h5 : w.drops (.insert e vs) = vs.map (·.2) := by simp [World.drops, he2]
        rw [h5]
        rw [Bool.not_eq_true, List.any_eq_false] at hbb
        exact fun v hv => by simpa using hbb v hv
  | create vs =>
    have hsome : ∃ r w' ds, stepB bomb w (.create vs) = some (r, w', ds) := by
      rw [stepB]
      split
      · exact ⟨_, _, _, rfl⟩
      · exact ⟨_, _, _, hcalm⟩
    obtain ⟨r, w', ds, hs⟩ := hsome
    rcases C44_create hs with ⟨h3, _, h4⟩ | ⟨pre, t, v, post, d, old, e, h3, h4, _, h5, h6, h7⟩
    · refine calm hs h3 ?_
      rw [h1] at h3
      simp only [Option.some.injEq, Prod.mk.injEq] at h3
      rw [← h3.1] at h4 ⊢
      simp only [MapWorld.answer] at h4 ⊢
      split
      · exact .inl ⟨_, rfl⟩
      · rename_i hx
        split
        · rename_i hk
          exact .inr (h4 _ (by rw [if_neg hx, if_pos hk]))
        · exact .inl ⟨_, rfl⟩
    · have h8 := h7 t₀ v (hreg t₀ ht₀)
      obtain ⟨w2, h9, h10⟩ := hT.step (op := .create (pre ++ [(t, v), (t₀, v)])) trivial
        (w.even_create_unreg ⟨(t₀, v), by simp, hreg t₀ ht₀⟩)
      rw [h8] at h9
      simp only [Option.some.injEq, Prod.mk.injEq] at h9
      obtain ⟨h9, rfl⟩ := h9
      refine ⟨r, w', ds, _, _, hs, .inr ⟨⟨old, by rw [h6]; simp, h4⟩, .inr
        ⟨_, ⟨pre, t, v, post, t₀, v, h3, ht₀, rfl⟩, ?_, rfl, rfl⟩⟩, h10⟩
      simp [MapWorld.answers, ← h9, h5, Ret.madeBefore]
  | extend ts it =>
    have hsome : ∃ r w' ds, stepB bomb w (.extend ts it) = some (r, w', ds) := by
      rw [stepB]
      split
      · exact ⟨_, _, _, rfl⟩
      · exact ⟨_, _, _, hcalm⟩
    obtain ⟨r, w', ds, hs⟩ := hsome
    rcases C44_extend hs with ⟨h3, _, h4⟩ | ⟨a, vs, b, pre, t, v, post, made, e, w₁, h3, h4, h5, h6, h7, h8⟩
    · refine calm hs h3 ?_
      rw [h1] at h3
      simp only [Option.some.injEq, Prod.mk.injEq] at h3
      rw [← h3.1] at h4 ⊢
      simp only [MapWorld.answer] at h4 ⊢
      split
      · rename_i hk
        exact .inr (h4 _ (by rw [if_pos hk]))
      · exact .inl ⟨_, rfl⟩
    · obtain ⟨w2, h9, h10⟩ := hT.step (op := .extend ts ⟨a, true⟩) trivial (w.even_extend_panics ts a)
      rw [h7] at h9
      simp only [Option.some.injEq, Prod.mk.injEq] at h9
      obtain ⟨h9, rfl⟩ := h9
      have hreg₁ : w₁.isRegistered t₀ = false := by
        rw [h10.inv.registered_eq]
        exact decide_eq_false ht₀
      obtain ⟨w3, i1, i2⟩ := h10.step (op := .create (pre ++ [(t, v), (t₀, v)])) trivial
        (w₁.even_create_unreg ⟨(t₀, v), by simp, hreg₁⟩)
      rw [h8 t₀ v (hreg t₀ ht₀)] at i1
      simp only [Option.some.injEq, Prod.mk.injEq] at i1
      obtain ⟨i1, rfl⟩ := i1
      refine ⟨r, w', ds, _, _, hs, .inr ⟨h6, .inr
        ⟨_, ⟨a, vs, b, pre, t, v, post, t₀, v, h3, h4, ht₀, rfl⟩, ?_, rfl, rfl⟩⟩, i2⟩
      simp [MapWorld.answers, ← h9, ← i1, h5, Ret.madeBefore]
  | write t e v =>
    have hs : stepB bomb w (.write t e v) = some (if (w.drops (.write t e v)).any bomb then .panicked [] else
        s.answer (.write t e v), w1, w.drops (.write t e v)) := by
      rw [stepB, hcalm]; rfl
    by_cases hbb : (w.drops (.write t e v)).any bomb = true
    · rw [if_pos hbb] at hs
      refine ⟨_, _, _, _, _, hs, .inr ⟨List.any_eq_true.1 hbb, .inr ⟨[.write t e v], rfl, ?_, rfl, rfl⟩⟩, h2⟩
      simp only [MapWorld.answers, MapWorld.answer, List.flatMap_cons, List.flatMap_nil, List.append_nil]
      split <;> simp [Ret.madeBefore]
    · rw [if_neg hbb] at hs
      exact calm hs h1 (.inr (by simpa using hbb))
  | writeAt t pos v => exact absurd hf id
  | setLayout rank gs =>
    refine calm hcalm h1 (.inr ?_)
    have h3 : w.drops (.setLayout rank gs) = [] := by
      show w.components.setLayoutDrops _ = []
      unfold ComponentStorage.setLayoutDrops
      simp only [step, World.setLayout, ComponentStorage.setLayout] at h1
      split
      · rename_i sets c hx
        rw [hx] at h1
        dsimp only at h1
        split
        · rename_i c' sets' ha
          rw [ha] at h1
          cases h1
        · rfl
      · rfl
    rw [h3]
    simp
  | _ => exact calm hcalm h1 (.inr (by simp [World.drops]))

theorem runB_fair {bomb : V → Bool} : ∀ (ops : List (Op V)) {w : World V} {s : MapWorld V} {H : List (Entity × Nat)},
    InvT w s H → FairB bomb w s ops →
    ∃ rs w' ds s' H', runB bomb w ops = some (rs, w', ds) ∧ s.RunB bomb H ops rs ds s' H' ∧ InvT w' s' H'
  | [], w, s, H, h, _ => ⟨[], w, [], s, H, rfl, ⟨rfl, rfl, rfl, rfl⟩, h⟩
  | op :: ops, w, s, H, h, hf => by
    obtain ⟨h1, h2, h3, h4⟩ := hf
    obtain ⟨r, w', d, s₁, H₁, i1, i2, i3⟩ := stepB_fair h h1 h2 h3
    obtain ⟨rs, w'', ds, s', H', j1, j2, j3⟩ := runB_fair ops i3 (h4 r w' d s₁ H H₁ i1 i2)
    exact ⟨r :: rs, w'', d ++ ds, s', H', by rw [runB, i1]; dsimp only; rw [j1],
      ⟨r, rs, d, ds, s₁, H₁, rfl, rfl, i2, j2⟩, j3⟩

theorem InvT.init : InvT (World.empty : World V) .init [] :=
  ⟨Inv.init.loose, .none Inv.init.shown_all, fun g hg => by cases hg⟩

/-- C76, any calls that are `Fair` and `Even`, with destructors panicking in any of them but `destroy`, `clear` and `reset`:
there is no undefined behaviour; the answers are those of the map, on which an interrupted `delete` acts as `Torn` says and
the other interrupted calls as `Instead` says; afterwards all reads are those of this map, and every query yields the entities of
`Yields`, each once, with their components. Missing: calls that are not `Fair` and `Even`. -/
theorem C76_partial {bomb : V → Bool} {ops : List (Op V)} (hf : FairB bomb World.empty .init ops) :
    ∃ rs w ds s H, runB bomb World.empty ops = some (rs, w, ds) ∧ MapWorld.init.RunB bomb [] ops rs ds s H ∧
      (∀ e, w.containsEntity e = decide (e ∈ s.life.alive)) ∧ (∀ t, w.isRegistered t = decide (t ∈ s.reg)) ∧
      (∀ t e, w.viewGet t e = if t ∈ s.reg then .ok (s.table.get t e) else .panic) ∧
      ∀ (b b' : Borrows) (g i x : Query) (q : QueryAll V), QueryAll.new w b g i x = .ok (q, b') →
        ∃ (es : List Entity) (its : List (Item V)), q.items = .ok its ∧ es.Nodup ∧
          its.map (fun it => some it.shown) = es.map (fun e => shows s.table e g) ∧ ∀ e, e ∈ es ↔ s.Yields H g i x e := by
  obtain ⟨rs, w, ds, s, H, h1, h2, h3⟩ := runB_fair ops InvT.init hf
  exact ⟨rs, w, ds, s, H, h1, h2, h3.inv.contains_eq, h3.inv.registered_eq, h3.inv.viewGet,
    fun _ _ _ _ _ _ hq => h3.out.yields hq⟩

/-- C76, one interrupted `delete` at the end of a `Fair` history: the world stands for the torn map, and so it does after any
further calls. Missing: histories that are not `Fair`. -/
theorem C76_delete_partial {bomb : V → Bool} {h : History V} {w w' : World V} (hr : Reach World.empty h w) {e : Entity}
    {ts : List TypeId} (hg : Fair (calls h ++ [.delete e ts])) (hreg : ∀ t ∈ ts, w.isRegistered t = true) {ds : List V}
    (hs : stepB bomb w (.delete e ts) = some (.panicked [], w', ds)) :
    ∃ s', (mapOf (calls h)).Torn bomb e ts ds s' ∧
      ∀ ops, FairFrom w' s' ops → ∃ w'', run w' ops = some (s'.answers ops, w'') ∧
        (∀ e, w''.containsEntity e = decide (e ∈ (s'.run ops).life.alive)) ∧
        ∀ t e, w''.viewGet t e = if t ∈ (s'.run ops).reg then .ok ((s'.run ops).table.get t e) else .panic := by
  obtain ⟨hg, _, hv⟩ := hg.snoc hr
  have hi := reach_invL hr hg
  have hk : (mapOf (calls h)).knows ts := (hi.knows_iff ts).2 fun t ht => hreg t ht
  rw [stepB] at hs
  cases hd : w.deleteB bomb e ts with
  | ub => rw [hd] at hs; cases hs
  | ok u q => rw [hd] at hs; cases hs
  | panic q =>
    rw [hd] at hs
    cases hs
    obtain ⟨s', h1, h2, _⟩ := hi.deleteB_torn hv hk hd
    refine ⟨s', h1, fun ops ho => ?_⟩
    obtain ⟨w'', h3, h4⟩ := run_fair ops _ s' (h2.mono fun _ _ _ => trivial) ho
    exact ⟨w'', h3, h4.contains_eq, h4.viewGet⟩

/-- Whether every call exchanges entities of the same version only, and `destroy`, `clear` and `reset` drop no bomb. -/
def checkB (bomb : V → Bool) : World V → List (Op V) → Bool
  | _, [] => true
  | w, op :: ops => decide (w.Even op) && (op.tears || !(w.drops op).any bomb) &&
      match stepB bomb w op with
      | none => true
      | some (_, w', _) => checkB bomb w' ops

/-- Without `maintain` and positional writes, and with layouts in order, `FairB` only looks at the world. -/
theorem FairB.of_check {bomb : V → Bool} : ∀ {ops : List (Op V)} {w : World V} {s : MapWorld V},
    (∀ op ∈ ops, ∀ s : MapWorld V, s.Fair op) → checkB bomb w ops = true → FairB bomb w s ops
  | [], _, _, _, _ => trivial
  | op :: ops, w, s, hf, hc => by
    rw [checkB, Bool.and_eq_true, Bool.and_eq_true, decide_eq_true_eq] at hc
    refine ⟨hf op (by simp) s, hc.1.1, fun ht v hv => ?_, fun r w' ds s' _ _ hs _ => ?_⟩
    · have h1 := hc.1.2
      rw [ht, Bool.false_or, Bool.not_eq_true', List.any_eq_false] at h1
      simpa using h1 v hv
    · have h2 := hc.2
      rw [hs] at h2
      exact .of_check (fun op ho => hf op (by simp [ho])) h2

/-- Calls of which an `insert`, three `delete` and a `create` are interrupted. -/
def tornOps : List (Op Nat) :=
  [.setLayout anyOrder [[0, 1]], .register 2, .create [(0, 10), (1, 11)], .create [(0, 20), (1, 21)],
    .create [(0, 30), (1, 31)], .insert ⟨1, 1⟩ [(0, 22)], .insert ⟨1, 1⟩ [(0, 12), (1, 23)], .delete ⟨0, 1⟩ [1, 0],
    .delete ⟨2, 1⟩ [0], .create [(0, 10), (0, 50), (1, 51)], .create [(2, 40)], .create [(2, 44)], .delete ⟨4, 1⟩ [2]]

example : FairB (· % 10 == 0) World.empty .init tornOps ∧
    ∃ rs w ds, runB (· % 10 == 0) World.empty tornOps = some (rs, w, ds) ∧
      rs.drop 5 = [.panicked [], .bool true, .panicked [], .panicked [], .panicked [⟨3, 1⟩], .entity ⟨4, 1⟩,
        .entity ⟨5, 1⟩, .panicked []] ∧
      w.viewGet 0 ⟨3, 1⟩ = .ok (some 50) ∧ w.viewGet 2 ⟨4, 1⟩ = .ok none ∧ w.viewGet 2 ⟨5, 1⟩ = .ok (some 40) := by
  refine ⟨.of_check ?_ (by decide +kernel), ?_⟩
  · intro op ho s
    simp only [tornOps, List.mem_cons, List.not_mem_nil, or_false] at ho
    rcases ho with rfl | rfl | rfl | rfl | rfl | rfl | rfl | rfl | rfl | rfl | rfl | rfl | rfl
    · show LayoutOK _ ∧ LayoutFits _
      decide
    all_goals trivial
  · obtain ⟨rs, w, ds, h1, h2⟩ := runB_witness (bomb := (· % 10 == 0)) (ops := tornOps) (f := fun rs w _ =>
      decide (rs.drop 5 = [.panicked [], .bool true, .panicked [], .panicked [], .panicked [⟨3, 1⟩], .entity ⟨4, 1⟩,
        .entity ⟨5, 1⟩, .panicked []] ∧ w.viewGet 0 ⟨3, 1⟩ = .ok (some 50) ∧ w.viewGet 2 ⟨4, 1⟩ = .ok none ∧
        w.viewGet 2 ⟨5, 1⟩ = .ok (some 40))) (by decide +kernel)
    exact ⟨rs, w, ds, h1, of_decide_eq_true h2⟩

/-- An interrupted `delete` of an entity that keeps all types of a group. -/
def hidesOps : List (Op Nat) :=
  [.setLayout anyOrder [[0, 1]], .register 2, .create [(0, 1), (1, 2), (2, 10)], .create [(0, 3), (1, 4)],
    .delete ⟨0, 1⟩ [2, 0]]

/-- C76, queries with a group can miss entities after an interrupted `delete`: the entity has been taken out of the group of
`0` and `1` before the panic, keeps both components, and `(&0, &1)` does not yield it any more; `&0` does. -/
theorem C76_hides : FairB (· % 10 == 0) World.empty .init hidesOps ∧
    ∃ rs w ds, runB (· % 10 == 0) World.empty hidesOps = some (rs, w, ds) ∧ rs.getLast? = some (.panicked []) ∧
      w.viewGet 0 ⟨0, 1⟩ = .ok (some 1) ∧ w.viewGet 1 ⟨0, 1⟩ = .ok (some 2) ∧
      itemsAre w [.entity, .ref 0, .ref 1] [] [] (fun its => decide (its.length = 1)) = true ∧
      itemsAre w [.entity, .ref 0] [] [] (fun its => decide (its.length = 2)) = true := by
  refine ⟨.of_check ?_ (by decide +kernel), ?_⟩
  · intro op ho s
    simp only [hidesOps, List.mem_cons, List.not_mem_nil, or_false] at ho
    rcases ho with rfl | rfl | rfl | rfl | rfl
    · show LayoutOK _ ∧ LayoutFits _
      decide
    all_goals trivial
  · obtain ⟨rs, w, ds, h1, h2⟩ := runB_witness (bomb := (· % 10 == 0)) (ops := hidesOps) (f := fun rs w _ =>
      decide (rs.getLast? = some (.panicked []) ∧ w.viewGet 0 ⟨0, 1⟩ = .ok (some 1) ∧ w.viewGet 1 ⟨0, 1⟩ = .ok (some 2) ∧
      itemsAre w [.entity, .ref 0, .ref 1] [] [] (fun its => decide (its.length = 1)) = true ∧
      itemsAre w [.entity, .ref 0] [] [] (fun its => decide (its.length = 2)) = true)) (by decide +kernel)
    exact ⟨rs, w, ds, h1, of_decide_eq_true h2⟩

/-- `C76_delete_partial` applies to the last of these calls. -/
example : ∃ h w w' ds, Reach World.empty h w ∧ Fair (calls h ++ [.delete ⟨0, 1⟩ [2, 0]]) ∧
    (∀ t ∈ ([2, 0] : List TypeId), w.isRegistered t = true) ∧
    stepB (· % 10 == 0) w (.delete ⟨0, 1⟩ [2, 0]) = some (.panicked [], w', ds) := by
  obtain ⟨rs, w, h1, h2⟩ := reach_witness (ops := hidesOps.take 4) (f := fun (rs : List (Ret Nat)) (w : World Nat) =>
    decide (rs.length = 4) && decide (∀ t ∈ ([2, 0] : List TypeId), w.isRegistered t = true) &&
      match stepB (· % 10 == 0) w (.delete ⟨0, 1⟩ [2, 0]) with
      | some (.panicked [], _, _) => true
      | _ => false) (by decide +kernel)
  rw [Bool.and_eq_true, Bool.and_eq_true, decide_eq_true_eq, decide_eq_true_eq] at h2
  obtain ⟨⟨h2, h3⟩, h4⟩ := h2
  have h5 : calls ((hidesOps.take 4).zip rs) = hidesOps.take 4 := by
    unfold calls
    exact List.map_fst_zip (by rw [h2]; decide)
  split at h4
  · rename_i w' ds hs
    refine ⟨_, w, w', ds, h1, ?_, h3, hs⟩
    rw [h5]
    decide +kernel
  · cases h4

end Sparsey
