import Verif.Proofs.AlignedStore
import Verif.Proofs.LoneStep
import Verif.Proofs.Safe
import Verif.Spec.Misplaced

/-!
From a world whose groups are aligned by index no call is undefined, and the groups stay aligned unless the call leaves a
row behind.
-/

set_option autoImplicit false
set_option linter.unusedSimpArgs false

namespace Sparsey
variable {V : Type}

/-! ### What views show of the labels -/

theorem IdxOk.finds {w : World V} {t : TypeId} {m : ComponentMetadata} {s : CompSet V} {e : Entity}
    (hm : w.components.meta? t = some m) (hs : w.components.components[m.storageIndex]? = some s) (h : s.IdxOk) :
    w.Finds t e ↔ s.sparse.get e ≠ none := by
  unfold World.Finds World.viewGet World.borrow CompSet.get
  simp only [hm, hs, Res.unchecked_some, Res.bind_ok]
  cases hg : s.sparse.get e with
  | none => simp
  | some d =>
    obtain ⟨x, hx, _⟩ := h.rep.get_at hg
    obtain ⟨v, hv⟩ := h.comp_at hx
    simp [hv]

theorem misses_of_finds {w : World V} (hc : Sound w.components) {e : Entity} (h : ¬ ∃ t, w.Finds t e) :
    w.components.Misses e := by
  rintro k s ⟨t, m, hm, rfl⟩ hs
  by_contra hn
  exact h ⟨t, (IdxOk.finds hm hs (hc.sets s (List.mem_of_getElem? hs))).2 hn⟩

theorem labOk_of_overlooks {w : World V} (hc : Sound w.components) {e : Entity} (h : ¬ ∃ t, w.Overlooks t e) :
    LabOk w.components.Typed e w.components.components := by
  rintro k s ⟨t, m, hm, rfl⟩ hs v hl
  by_contra hne
  have hi := hc.sets s (List.mem_of_getElem? hs)
  refine h ⟨t, ?_, fun hf => (IdxOk.finds hm hs hi).1 hf (get_none_of_label hl hne)⟩
  unfold CompSet.label at hl
  split at hl
  · rename_i sl hsl
    obtain ⟨x, hx, hxi⟩ := hi.rep.bwd e.index sl.index sl.version hsl
    obtain ⟨y, hy⟩ := hi.comp_at hx
    refine ⟨(x, y), ?_, hxi⟩
    unfold World.rows World.borrow
    simp only [hm, hs, Res.unchecked_some]
    exact List.mem_of_getElem? (i := sl.index) (by rw [List.getElem?_zip_eq_some]; exact ⟨hx, hy⟩)
  · cases hl

/-! ### One call -/

theorem Aligned.rewrite {c : ComponentStorage V} (h : Aligned c) {i : Nat} {s s' : CompSet V}
    (hi : c.components[i]? = some s) (hs' : s'.IdxOk) (he : s'.entities = s.entities) :
    Aligned { c with components := c.components.set i s' } :=
  (h.refitOne hi hs' fun _ _ _ _ _ _ => by rw [he]).1

theorem extendEach_aligned {idxs : List Nat} : ∀ (items : List (List V)) {w : World V}, EntOk w.entities →
    Aligned w.components → (∀ i ∈ idxs, i < w.components.components.length) →
    World.extendEach idxs items w ≠ .ub ∧
      (∀ w', World.extendEach idxs items w = .panic w' → Aligned w'.components) ∧
      ∀ a w', World.extendEach idxs items w = .ok a w' → w.entities.len ≤ w'.entities.len ∧ Aligned w'.components ∧
        w'.components.groups = w.components.groups
  | [], w, _, ha, _ => by
    rw [World.extendEach]
    refine ⟨by simp, by simp, fun a w' h => ?_⟩
    simp only [Outcome.ok.injEq] at h
    rw [← h.2]
    exact ⟨le_rfl, ha, rfl⟩
  | vs :: items, w, he, ha, hi => by
    rw [World.extendEach]
    rcases he.create with h1 | ⟨e, es, h1, h2, h3⟩
    · rw [h1]
      refine ⟨by simp, fun w' h => ?_, by simp⟩
      simp only [Outcome.ofRes_panic, Outcome.panic.injEq] at h
      rw [← h]
      exact ha
    · rw [h1]
      simp only [Outcome.ofRes_ok]
      obtain ⟨c', h4, h5, h6, _, h6'⟩ := Aligned.insertAt h2 (idxs.zip vs) w.components ha
        (fun p hp => hi p.1 (List.of_mem_zip hp).1)
      simp only [h4, Outcome.ofRes_ok]
      obtain ⟨h7, h8, h9⟩ := extendEach_aligned items (w := ⟨es, c'⟩) h3 h5 (by simpa [h6'] using hi)
      refine ⟨h7, h8, fun a w' h => ?_⟩
      obtain ⟨h10, h11, h12⟩ := h9 a w' h
      exact ⟨(EntOk.create_len h1).trans h10, h11, h12.trans h6⟩

theorem insertSet_aligned {w : World V} (h : Aligned w.components) {e : Entity} (he : e.index < u32Size)
    (vs : List (TypeId × V)) : w.insertSet e vs ≠ .ub ∧ (∀ w', w.insertSet e vs = .panic w' → Aligned w'.components) ∧
      ∀ a w', w.insertSet e vs = .ok a w' → Aligned w'.components := by
  obtain ⟨h1, h2, h3⟩ := h.insert he vs
  unfold World.insertSet
  cases hc : w.components.insert e vs with
  | ub => exact absurd hc h1
  | panic c =>
    refine ⟨by simp, fun w' hw => ?_, by simp⟩
    simp only [Outcome.panic.injEq] at hw
    rw [← hw]
    exact h3 c hc
  | ok a c =>
    refine ⟨by simp, by simp, fun b w' hw => ?_⟩
    simp only [Outcome.ok.injEq] at hw
    rw [← hw.2]
    exact h2 a c hc

theorem retRes_aligned {α : Type} {w : World V} (hw : Aligned w.components) {r : Res α} {f : α → Ret V × World V}
    (h : r ≠ .ub) (ho : ∀ a, r = .ok a → Aligned (f a).2.components) :
    ∃ x w', retRes w r f = some (x, w') ∧ Aligned w'.components := by
  cases r with
  | ok a => exact ⟨_, _, rfl, ho a rfl⟩
  | panic => exact ⟨_, _, rfl, hw⟩
  | ub => exact absurd rfl h

/-- One call. -/
theorem step_aligned {w : World V} (he : EntOk w.entities) (hc : Sound w.components)
    (hk : (w.components.metadata.map Prod.fst).Nodup) (ha : Aligned w.components) (op : Op V)
    (hop : ∀ gs, op.layout = some gs → LayoutOK (GroupLayout.build gs).2 ∧ LayoutFits (GroupLayout.build gs).2) :
    ∃ r w', step w op = some (r, w') ∧ (¬ w.Misplaces op → Aligned w'.components) := by
  have hweak : (∃ r w', step w op = some (r, w') ∧ Aligned w'.components) →
      ∃ r w', step w op = some (r, w') ∧ (¬ w.Misplaces op → Aligned w'.components) :=
    fun ⟨r, w', h1, h2⟩ => ⟨r, w', h1, fun _ => h2⟩
  -- a call that takes components and succeeds
  have htake : ∀ (e : Entity) (r : Ret V) (w' : World V), op.takesOf = some e → step w op = some (r, w') →
      (∀ l, r ≠ .panicked l) → r ≠ .bool false →
      (w.components.Misses e ∨ LabOk w'.components.Typed e w'.components.components → Aligned w'.components) →
      ∃ r w', step w op = some (r, w') ∧ (¬ w.Misplaces op → Aligned w'.components) := by
    intro e r w' ht hs hr hr' hal
    refine ⟨r, w', hs, fun hn => hal ?_⟩
    have hc' : Sound w'.components := ⟨step_static hs hc.static, (stable_idx.step ⟨he, hc.sets⟩ hs).sets⟩
    by_contra hno
    rw [not_or] at hno
    refine hn ⟨e, ht, ?_, ?_⟩
    · by_contra hf
      exact hno.1 (misses_of_finds hc hf)
    · have ho : ∃ t, w'.Overlooks t e := by
        by_contra hf
        exact hno.2 (labOk_of_overlooks hc' hf)
      rw [hs]
      cases r with
      | panicked l => exact absurd rfl (hr l)
      | bool b =>
        cases b with
        | false => exact absurd rfl hr'
        | true => exact ho
      | unit => exact ho
      | entity e => exact ho
      | entities es => exact ho
      | values vs => exact ho
  cases op with
  | register t => exact ⟨_, _, rfl, fun _ => ha.register t⟩
  | setLayout rank gs =>
    obtain ⟨h1, h2⟩ := hop gs rfl
    obtain ⟨c', h3, h4⟩ := hc.sets.layout hc.static hk h1 h2 rank w.entities.asSlice
    refine ⟨.unit, { w with components := c' }, ?_, fun _ => h4⟩
    simp only [step, World.setLayout, h3, retOutcome]
  | create vs =>
    apply hweak
    show ∃ r w', retOutcome (w.entities.createUpTo 1) (w.create vs) .entity = some (r, w') ∧ _
    unfold World.create
    rcases he.create with h1 | ⟨e, s, h1, h2, _⟩
    · rw [h1]
      exact ⟨_, _, rfl, ha⟩
    · rw [h1, Outcome.ofRes_ok]
      dsimp only
      obtain ⟨h2, h3, h4⟩ := insertSet_aligned (w := ⟨s, w.components⟩) ha h2 vs
      cases hi : World.insertSet (⟨s, w.components⟩ : World V) e vs with
      | ub => exact absurd hi h2
      | panic w1 => exact ⟨_, _, rfl, h3 _ hi⟩
      | ok a w1 => exact ⟨_, _, rfl, h4 _ _ hi⟩
  | extend ts it =>
    apply hweak
    show ∃ r w', retOutcome (extendMade w ts it) (w.extend ts it) .entities = some (r, w') ∧ _
    unfold World.extend
    rcases regs_cases w.components ts with hr | hr
    swap
    · rw [lookupAll_panic _ _ hr]
      exact ⟨_, _, rfl, ha⟩
    obtain ⟨mask, h1, h2⟩ := lookupAll_ok ha.store (·.insertMask) ts hr
    rw [lookupAll_blank] at h1
    rw [h1, Outcome.ofRes_ok]
    have hfam : FamClosed w.components.groups mask := FamClosed.ofTypes ha.store h2
    obtain ⟨h3, h4, h5⟩ := extendEach_aligned (idxs := ts.map w.components.blank.idxOf) it.items he ha (by
      intro i hi
      obtain ⟨t, ht, rfl⟩ := List.mem_map.1 hi
      obtain ⟨m, hm⟩ := Option.isSome_iff_exists.1 (hr t ht)
      have : w.components.blank.idxOf t = m.storageIndex := by
        have hm' : w.components.blank.meta? t = some m := hm
        unfold ComponentStorage.idxOf
        rw [hm']
      rw [this]
      exact ha.stat.mds.idx t m hm)
    dsimp only
    cases hx : World.extendEach (ts.map w.components.blank.idxOf) it.items w with
    | ub => exact absurd hx h3
    | panic w1 => exact ⟨_, _, rfl, h4 w1 hx⟩
    | ok a w1 =>
      obtain ⟨h6, h7, h8⟩ := h5 a w1 hx
      show ∃ r w', retOutcome _ (if it.thenPanics then _ else _) _ = some (r, w') ∧ _
      by_cases hp : it.thenPanics
      · rw [if_pos hp]
        exact ⟨_, _, rfl, h7⟩
      · rw [if_neg hp, if_neg (by simp only [EntityStorage.asSlice, EntityStorage.len] at h6 ⊢; omega)]
        obtain ⟨c', h9, h10⟩ := h7.withMask (mask := mask)
          (h7.groupEntities (mask := mask) (by rw [h8]; exact hfam) (w1.entities.asSlice.drop w.entities.len))
        simp only [h9, Outcome.ofRes_ok]
        exact ⟨_, _, rfl, h10⟩
  | destroy e =>
    obtain ⟨b, s, h1, _⟩ := he.remove e
    cases b with
    | false =>
      refine ⟨.bool false, { w with entities := s }, ?_, fun _ => ha⟩
      simp only [step, World.destroy, h1, Res.bind_ok, Bool.false_eq_true, if_false, Res.pure_eq, retRes]
    | true =>
      obtain ⟨c', h2, h3⟩ := ha.strip e
      refine htake e (.bool true) ⟨s, c'⟩ rfl ?_ (by simp) (by simp) h3
      simp only [step, World.destroy, h1, Res.bind_ok, if_true, h2, Res.pure_eq, retRes]
  | createAtomic =>
    refine hweak (retRes_aligned ha (createAtomic_safe he) ?_)
    rintro ⟨e, w'⟩ hw
    obtain ⟨_, _, hw⟩ := Res.bind_ok' hw
    cases hw
    exact ha
  | maintain =>
    obtain ⟨w', h⟩ := maintain_safe he
    refine hweak (retRes_aligned ha (by simp [h]) ?_)
    intro w' hw
    obtain ⟨_, _, hw⟩ := Res.bind_ok' hw
    cases hw
    exact ha
  | insert e vs =>
    apply hweak
    show ∃ r w', retOutcome [] (w.insert e vs) .bool = some (r, w') ∧ _
    unfold World.insert
    cases hce : w.entities.contains e with
    | false => exact ⟨_, _, rfl, ha⟩
    | true =>
      simp only [Bool.not_true, Bool.false_eq_true, if_false]
      obtain ⟨h2, h3, h4⟩ := insertSet_aligned ha (he.small_of_contains hce) vs
      cases hi : w.insertSet e vs with
      | ub => exact absurd hi h2
      | panic w1 => exact ⟨_, _, rfl, h3 _ hi⟩
      | ok a w1 => exact ⟨_, _, rfl, h4 _ _ hi⟩
  | remove e ts =>
    rcases regs_cases w.components ts with hr | hr
    · obtain ⟨vs, c', h1, _, h3⟩ := ha.take (e := e) hr
      refine htake e (.values vs) { w with components := c' } rfl ?_ (by simp) (by simp) h3
      simp only [step, World.remove, h1, Res.bind_ok, Res.pure_eq, retRes]
    · refine ⟨.panicked [], w, ?_, fun _ => ha⟩
      simp only [step, World.remove, ComponentStorage.remove, lookupAll_panic _ _ hr, Res.bind_panic, retRes]
  | delete e ts =>
    rcases regs_cases w.components ts with hr | hr
    · obtain ⟨vs, c', _, h2, h3⟩ := ha.take (e := e) hr
      refine htake e .unit { w with components := c' } rfl ?_ (by simp) (by simp) h3
      simp only [step, World.delete, h2, Res.bind_ok, Res.pure_eq, retRes]
    · refine ⟨.panicked [], w, ?_, fun _ => ha⟩
      simp only [step, World.delete, ComponentStorage.delete, lookupAll_panic _ _ hr, Res.bind_panic, retRes]
  | clear =>
    obtain ⟨w', h⟩ := clear_safe he
    refine hweak (retRes_aligned ha (by simp [h]) ?_)
    intro w' hw
    obtain ⟨_, _, hw⟩ := Res.bind_ok' hw
    cases hw
    exact ha.stat.cleared
  | reset => exact ⟨_, _, rfl, fun _ => ha.stat.cleared⟩
  | write t e v =>
    refine hweak (retRes_aligned ha (write_safe hc t e v) ?_)
    rintro ⟨b, w'⟩ hw
    unfold World.writeView at hw
    cases hm : w.components.meta? t with
    | none => rw [hm] at hw; cases hw
    | some m =>
      obtain ⟨s, h1, h2⟩ := hc.at_meta hm
      rw [hm] at hw
      simp only [h1, Res.unchecked_some, Res.bind_ok] at hw
      obtain ⟨b', s', h3, h4⟩ := h2.setMut e v
      rw [h3, Res.bind_ok] at hw
      cases hw
      refine ha.rewrite h1 h4 ?_
      unfold CompSet.setMut at h3
      split at h3
      · cases h3; rfl
      · obtain ⟨_, _, h3⟩ := Res.bind_ok' h3
        cases h3
        rfl
  | writeAt t pos v =>
    refine hweak (retRes_aligned ha (writeAt_safe hc t pos v) ?_)
    intro w' hw
    unfold World.writeAt at hw
    cases hm : w.components.meta? t with
    | none => rw [hm] at hw; cases hw
    | some m =>
      obtain ⟨s, h1, h2⟩ := hc.at_meta hm
      rw [hm] at hw
      simp only [h1, Res.unchecked_some, Res.bind_ok] at hw
      obtain ⟨s', h3, hw⟩ := Res.bind_ok' hw
      cases hw
      refine ha.rewrite h1 (h2.setAt h3) ?_
      unfold CompSet.setAt at h3
      obtain ⟨_, _, h3⟩ := Res.bind_ok' h3
      cases h3
      rfl

/-! ### Histories -/

theorem CleanFrom.snoc {op : Op V} {r : Ret V} : ∀ {h : History V} {w w' : World V}, Reach w h w' →
    CleanFrom w (h ++ [(op, r)]) → ¬ op.Rebuilds → CleanFrom w h ∧ ¬ w'.Misplaces op
  | [], w, w', hr, hcl, hn => by
    obtain ⟨h1, _⟩ := hcl
    generalize hz : ([] : History V) = z at hr
    cases hr with
    | nil => exact ⟨trivial, by simpa using h1⟩
    | snoc _ _ => simp at hz
  | (o, r') :: h, w, w', hr, hcl, hn => by
    obtain ⟨m, h1, h2⟩ := hr.split [(o, r')] h rfl
    have hs := h1.step_of_single
    rw [List.cons_append] at hcl
    obtain ⟨h3, h4⟩ := hcl
    rw [hs] at h4
    obtain ⟨h5, h6⟩ := CleanFrom.snoc h2 h4 hn
    refine ⟨⟨?_, by rw [hs]; exact h5⟩, h6⟩
    rcases h3 with ⟨x, hx, hb⟩ | h3
    · rcases List.mem_append.1 hx with hx | hx
      · exact .inl ⟨x, hx, hb⟩
      · rw [List.mem_singleton] at hx
        subst hx
        exact absurd hb hn
    · exact .inr h3

/-- A history that is not clean has a call that leaves a row behind, after which nothing sorts or empties the sets. -/
theorem not_cleanFrom : ∀ {h : History V} {w w' : World V}, Reach w h w' → ¬ CleanFrom w h →
    ∃ (a : History V) (op : Op V) (r : Ret V) (b : History V) (m : World V), h = a ++ (op, r) :: b ∧ Reach w a m ∧
      m.Misplaces op ∧ ∀ x ∈ b, ¬ x.1.Rebuilds
  | [], _, _, _, hn => absurd trivial hn
  | (op, r) :: h, w, w', hr, hn => by
    obtain ⟨m, h1, h2⟩ := hr.split [(op, r)] h rfl
    have hs := h1.step_of_single
    by_cases hcl : CleanFrom m h
    · refine ⟨[], op, r, h, w, rfl, .nil, ?_, fun x hx hb => ?_⟩
      · by_contra hmis
        exact hn ⟨.inr hmis, by rw [hs]; exact hcl⟩
      · exact hn ⟨.inl ⟨x, hx, hb⟩, by rw [hs]; exact hcl⟩
    · obtain ⟨a, op', r', b, m', h3, h4, h5, h6⟩ := not_cleanFrom h2 hcl
      exact ⟨(op, r) :: a, op', r', b, m', by rw [h3]; rfl, h1.trans h4, h5, h6⟩

theorem Settled.snoc {ops : List (Op V)} {op : Op V} (h : Settled (ops ++ [op])) :
    (∀ gs, op.layout = some gs → LayoutOK (GroupLayout.build gs).2 ∧ LayoutFits (GroupLayout.build gs).2) ∧
      (op.layout = none → Settled ops) := by
  unfold Settled at *
  rw [lastLayout_snoc] at h
  refine ⟨fun gs hgs => h gs (by rw [hgs]; rfl), fun hn => ?_⟩
  rw [hn, Option.none_or] at h
  exact h

/-- Along a clean history the groups are aligned. -/
theorem reach_aligned {h : History V} {w : World V} (hr : Reach World.empty h w) (hn : Settled (calls h)) (hcl : Clean h) :
    Aligned w.components := by
  induction hr with
  | nil => exact Aligned.empty
  | @snoc h w1 w2 op r hr hs ih =>
    have hcalls : calls (h ++ [(op, r)]) = calls h ++ [op] := by simp [calls]
    have hn2 := hn
    rw [hcalls] at hn2
    obtain ⟨h1, h2⟩ := hn2.snoc
    obtain ⟨he, hc⟩ := reach_sound hr
    by_cases hreb : op.Rebuilds
    · cases op with
      | setLayout rank gs =>
        obtain ⟨h3, h4⟩ := h1 gs rfl
        obtain ⟨c', h5, h6⟩ := hc.sets.layout hc.static (reach_keys hr) h3 h4 rank w1.entities.asSlice
        simp only [step, World.setLayout, h5, retOutcome, Option.some.injEq, Prod.mk.injEq] at hs
        rw [← hs.2]
        exact h6
      | clear =>
        have hst := (reach_lay hr (h2 rfl)).store
        obtain ⟨w', h⟩ := clear_safe he
        simp only [step, h, retRes, Option.some.injEq, Prod.mk.injEq] at hs
        obtain ⟨_, _, h⟩ := Res.bind_ok' h
        cases h
        rw [← hs.2]
        exact hst.cleared
      | reset =>
        have hst := (reach_lay hr (h2 rfl)).store
        simp only [step, Option.some.injEq, Prod.mk.injEq] at hs
        rw [← hs.2]
        exact hst.cleared
      | _ => exact absurd hreb (by simp [Op.Rebuilds])
    · obtain ⟨h3, h4⟩ := CleanFrom.snoc hr hcl hreb
      have hl : op.layout = none := by
        cases op <;> first | rfl | exact absurd trivial hreb
      obtain ⟨r', w', h5, h6⟩ := step_aligned he hc (reach_keys hr) (ih (h2 hl) h3) op h1
      rw [h5, Option.some.injEq, Prod.mk.injEq] at hs
      rw [← hs.2]
      exact h6 h4

end Sparsey
