import Verif.Proofs.WorldLife

/-!
Histories: splitting, running, and lemmas about life spans along a history.
-/

set_option autoImplicit false
set_option linter.unusedSimpArgs false

namespace Sparsey
variable {V : Type}

theorem Reach.trans {w₁ w₂ w₃ : World V} {a b : History V} (h₁ : Reach w₁ a w₂) (h₂ : Reach w₂ b w₃) :
    Reach w₁ (a ++ b) w₃ := by
  induction h₂ with
  | nil => simpa using h₁
  | snoc _ hs ih => rw [← List.append_assoc]; exact .snoc ih hs

theorem Reach.single {w w' : World V} {op : Op V} {r : Ret V} (h : step w op = some (r, w')) :
    Reach w [(op, r)] w' := .snoc .nil h

theorem Reach.split {w w' : World V} {h : History V} (hr : Reach w h w') : ∀ (a b : History V), h = a ++ b →
    ∃ m, Reach w a m ∧ Reach m b w' := by
  induction hr with
  | nil =>
    intro a b hab
    have := List.append_eq_nil_iff.1 hab.symm
    rw [this.1, this.2]
    exact ⟨w, .nil, .nil⟩
  | @snoc h w₁ w₂ op r hr hs ih =>
    intro a b hab
    rcases List.eq_nil_or_concat b with hb | ⟨b', x, hb⟩
    · subst hb
      rw [List.append_nil] at hab
      subst hab
      exact ⟨w₂, .snoc hr hs, .nil⟩
    · rw [List.concat_eq_append] at hb
      subst hb
      rw [← List.append_assoc] at hab
      obtain ⟨h1, h2⟩ := List.append_inj' hab rfl
      obtain ⟨m, hm1, hm2⟩ := ih a b' h1
      refine ⟨m, hm1, ?_⟩
      rw [← List.singleton_inj.1 h2]
      exact .snoc hm2 hs

theorem Reach.step_of_single {w w' : World V} {op : Op V} {r : Ret V} (h : Reach w [(op, r)] w') :
    step w op = some (r, w') := by
  generalize hh : [(op, r)] = l at h
  cases h with
  | nil => cases hh
  | @snoc h w₁ w₂ op' r' hr hs =>
    have hl := congrArg List.length hh
    simp at hl
    subst hl
    simp at hh
    obtain ⟨rfl, rfl⟩ := hh
    generalize hz : ([] : History V) = z at hr
    cases hr with
    | nil => exact hs
    | snoc _ _ => simp at hz

theorem reach_run : ∀ (ops : List (Op V)) (w w' : World V) (rs : List (Ret V)),
    run w ops = some (rs, w') → Reach w (ops.zip rs) w' := by
  intro ops
  induction ops with
  | nil =>
    intro w w' rs h
    simp only [run, Option.some.injEq, Prod.mk.injEq] at h
    obtain ⟨rfl, rfl⟩ := h
    exact .nil
  | cons op ops ih =>
    intro w w' rs h
    unfold run at h
    split at h
    · cases h
    · rename_i r w1 h1
      split at h
      · cases h
      · rename_i rs' w2 h2
        simp only [Option.some.injEq, Prod.mk.injEq] at h
        obtain ⟨rfl, rfl⟩ := h
        exact (Reach.single h1).trans (ih w1 w2 rs' h2)

/-- For concrete witnesses: a history that runs, with its answers. -/
def answers (ops : List (Op V)) : Option (List (Ret V)) := (run World.empty ops).map (·.1)

theorem reach_answers {ops : List (Op V)} {rs : List (Ret V)} (h : answers ops = some rs) :
    ∃ w, run World.empty ops = some (rs, w) ∧ Reach World.empty (ops.zip rs) w := by
  unfold answers at h
  cases hr : run World.empty ops with
  | none => rw [hr] at h; cases h
  | some p =>
    rw [hr] at h
    simp only [Option.map_some, Option.some.injEq] at h
    obtain ⟨rs', w⟩ := p
    simp only at h
    subst h
    exact ⟨w, rfl, reach_run _ _ _ _ hr⟩

/-! ### Life spans -/

theorem life_append (a b : History V) : life (a ++ b) = (life a).run (historyEvents b) := by
  simp [life, historyEvents_append, Life.run_append]

theorem historyEvents_no_reset {h : History V} (hn : ∀ p ∈ h, p.1 ≠ .reset) :
    ∀ ev ∈ historyEvents h, ev ≠ .reset := by
  induction h with
  | nil => simp [historyEvents]
  | cons p h ih =>
    obtain ⟨op, r⟩ := p
    intro ev hev
    simp only [historyEvents, List.mem_append] at hev
    rcases hev with hev | hev
    · exact events_no_reset (hn (op, r) (by simp)) ev hev
    · exact ih (fun p hp => hn p (by simp [hp])) ev hev

theorem Disciplined.prefix {a b : History V} (h : Disciplined (a ++ b)) (hn : ∀ p ∈ b, p.1 ≠ .reset) :
    Disciplined a := by
  unfold Disciplined at h ⊢
  rw [life_append] at h
  exact Life.disciplined_run h (historyEvents_no_reset hn)

theorem Life.take_issued (l : Life) : l.take.issued = l.issued := by
  unfold Life.take; split <;> rfl

theorem Life.take_alive (l : Life) : l.take.alive = l.alive := by
  unfold Life.take; split <;> rfl

theorem Life.take_queued (l : Life) : l.take.queued = l.queued := by
  unfold Life.take; split <;> rfl

theorem Life.issued_suffix {evs : List Ev} : ∀ {l : Life}, (∀ ev ∈ evs, ev ≠ .reset) →
    l.issued <:+ (l.run evs).issued := by
  induction evs with
  | nil => intro l _; exact List.suffix_refl _
  | cons ev evs ih =>
    intro l hr
    rw [Life.run_cons]
    refine List.IsSuffix.trans ?_ (ih (fun e he => hr e (by simp [he])))
    cases ev with
    | reset => exact absurd rfl (hr _ (by simp))
    | made e => exact List.suffix_cons _ _
    | queued e => exact List.suffix_cons _ _
    | killed e => exact List.suffix_refl _
    | maintained => exact List.suffix_refl _
    | cleared => exact List.suffix_refl _

/-- An issued entity that is neither alive nor queued stays so. -/
theorem Life.dead_run {evs : List Ev} {e : Entity} : ∀ {l : Life}, (∀ ev ∈ evs, ev ≠ .reset) →
    (l.run evs).issued.Nodup → e ∈ l.issued → e ∉ l.alive → e ∉ l.queued →
    e ∉ (l.run evs).alive ∧ e ∉ (l.run evs).queued := by
  induction evs with
  | nil => intro l _ _ _ h1 h2; exact ⟨h1, h2⟩
  | cons ev evs ih =>
    intro l hr hn hi h1 h2
    rw [Life.run_cons] at hn ⊢
    have hr' : ∀ ev ∈ evs, ev ≠ .reset := fun x hx => hr x (by simp [hx])
    have hn1 : (l.step ev).issued.Nodup := hn.sublist (Life.issued_suffix hr').sublist
    refine ih hr' hn ?_ ?_ ?_
    · cases ev with
      | reset => exact absurd rfl (hr _ (by simp))
      | made x => simp [Life.step, hi]
      | queued x => simp [Life.step, hi]
      | killed x => exact hi
      | maintained => exact hi
      | cleared => exact hi
    · cases ev with
      | reset => exact absurd rfl (hr _ (by simp))
      | made x =>
        simp only [Life.step, List.mem_cons, not_or, List.nodup_cons] at hn1 ⊢
        exact ⟨fun hc => hn1.1 (hc ▸ hi), h1⟩
      | queued x => simpa [Life.step, Life.take_alive] using h1
      | killed x => simp [Life.step, h1]
      | maintained => simp [Life.step, h1, h2]
      | cleared => simp [Life.step]
    · cases ev with
      | reset => exact absurd rfl (hr _ (by simp))
      | made x => simpa [Life.step, Life.take_queued] using h2
      | queued x =>
        simp only [Life.step, List.mem_cons, not_or, List.nodup_cons] at hn1 ⊢
        exact ⟨fun hc => hn1.1 (hc ▸ hi), h2⟩
      | killed x => exact h2
      | maintained => simp [Life.step]
      | cleared => simp [Life.step]

/-- `destroy` returns `true` exactly for living entities. -/
theorem step_destroy_true {w w' : World V} {l : Life} {e : Entity} (h : LifeInv w.entities l)
    (hs : step w (.destroy e) = some (.bool true, w')) : e ∈ l.alive := by
  by_contra he
  simp only [step, retRes, World.destroy, h.remove_absent he, Res.bind_ok, Bool.false_eq_true, if_false,
    Res.pure_eq, Option.some.injEq, Prod.mk.injEq, Ret.bool.injEq] at hs
  exact absurd hs.1 (by simp)

theorem LifeInv.queued_not_alive {s : EntityStorage} {l : Life} (h : LifeInv s l) {e : Entity}
    (he : e ∈ l.queued) : e ∉ l.alive := by
  rw [← h.alive]
  intro hc
  have hn := h.nodup
  rw [List.append_assoc, List.map_append] at hn
  have hn := (List.nodup_append.1 hn).2.1
  rw [List.map_append] at hn
  exact (List.nodup_append.1 hn).2.2 _ (List.mem_map_of_mem he) _ (List.mem_map_of_mem hc) rfl

end Sparsey
