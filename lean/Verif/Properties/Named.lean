import Verif.Spec.Named
import Verif.Properties.Writes

/-!
Writes by position in histories (C55).
-/

set_option autoImplicit false
set_option linter.unusedSimpArgs false

namespace Sparsey
variable {V : Type}

theorem World.named_append {w w' : World V} {a : History V} (hr : Reach w a w') (b : History V) :
    w.named (a ++ b) = w.named a ++ w'.named b := by
  have key : ∀ (a : History V) (w : World V), Reach w a w' → w.named (a ++ b) = w.named a ++ w'.named b := by
    intro a
    induction a with
    | nil =>
      intro w hr
      have := hr.run
      simp [run] at this
      subst this
      rfl
    | cons p a ih =>
      intro w hr
      obtain ⟨w1, h1, h2⟩ := hr.split [p] a rfl
      have hs := h1.step_of_single
      simp only [List.cons_append, World.named, hs, ih w1 h2, List.append_assoc]
  exact key a w hr

theorem FairFrom.left : ∀ (a b : List (Op V)) {w : World V} {s : MapWorld V}, FairFrom w s (a ++ b) → FairFrom w s a
  | [], _, _, _, _ => trivial
  | op :: a, b, w, s, h => by
    obtain ⟨h1, h2, h3⟩ := h
    refine ⟨h1, h2, ?_⟩
    cases hs : step w op with
    | none => trivial
    | some p =>
      simp only [hs] at h3
      exact FairFrom.left a b h3

/-- A write by position panics if no entity is shown there, and changes nothing. -/
theorem World.writeAt_none {w : World V} (hc : Sound w.components) {t : TypeId} {pos : Nat} (hn : w.shownAt t pos = none)
    (v : V) : step w (.writeAt t pos v) = some (.panicked [], w) := by
  have hsafe := writeAt_safe hc t pos v
  cases hw : w.writeAt t pos v with
  | ub => exact absurd hw hsafe
  | panic => simp [step, retRes, hw]
  | ok w' =>
    exfalso
    unfold World.writeAt at hw
    cases hm : w.components.meta? t with
    | none => rw [hm] at hw; cases hw
    | some m =>
      rw [hm] at hw
      obtain ⟨s, hs, hw⟩ := Res.bind_ok' hw
      obtain ⟨s', h2, hw⟩ := Res.bind_ok' hw
      have hb : w.borrow t = .ok s := by
        simp [World.borrow, hm, hs]
      unfold World.shownAt at hn
      rw [hb] at hn
      have hs := Res.unchecked_ok hs
      have hl := (hc.sets s (List.mem_of_getElem? hs)).len
      unfold CompSet.setAt at h2
      obtain ⟨u, hu, _⟩ := Res.bind_ok' h2
      have := List.getElem?_eq_none_iff.1 hn
      rw [List.getElem?_eq_none (by omega)] at hu
      cases hu

/-- C55: a history with writes by position leads to the world of the history in which every position is replaced by the
entity shown there, with the same answers to the other calls. Missing: histories that are not `Fair` after this
replacement. -/
theorem C55_partial {h : History V} {w : World V} (hr : Reach World.empty h w) (hf : Fair (calls (World.empty.named h))) :
    Reach World.empty (World.empty.named h) w := by
  induction hr with
  | nil => exact .nil
  | @snoc h w₁ w₂ op r hr hs ih =>
    rw [World.named_append hr] at hf ⊢
    have hn : w₁.named [(op, r)] = w₁.name (op, r) := by
      simp [World.named, hs]
    rw [hn] at hf ⊢
    have hf1 : Fair (calls (World.empty.named h)) := by
      refine FairFrom.left _ (calls (w₁.name (op, r))) ?_
      have : calls (World.empty.named h ++ w₁.name (op, r)) = calls (World.empty.named h) ++ calls (w₁.name (op, r)) :=
        List.map_append
      rwa [← this]
    have hi := ih hf1
    cases op with
    | writeAt t pos v =>
      simp only [World.name]
      cases he : w₁.shownAt t pos with
      | none =>
        rw [World.writeAt_none (reach_sound hr).2 he v] at hs
        cases hs
        simpa using hi
      | some e =>
        have hb : ∃ c, w₁.borrow t = .ok c ∧ c.entities[pos]? = some e := by
          unfold World.shownAt at he
          cases hb : w₁.borrow t with
          | ok c => rw [hb] at he; exact ⟨c, rfl, he⟩
          | panic => rw [hb] at he; cases he
          | ub => rw [hb] at he; cases he
        obtain ⟨c, hb, hc⟩ := hb
        obtain ⟨w', e1, e2, _⟩ := C21_at_partial hi hf1 hb hc v
        rw [hs] at e1
        cases e1
        exact .snoc hi e2
    | _ => exact .snoc hi hs

/-- C55, what the world then is: the map that results from naming the entities. Every further call that is `Fair` answers as
this map does, and a write by position succeeds exactly if an entity is shown there. -/
theorem C55_map_partial {h : History V} {w : World V} (hr : Reach World.empty h w)
    (hf : Fair (calls (World.empty.named h))) :
    (∀ t e, w.viewGet t e = if t ∈ (mapOf (calls (World.empty.named h))).reg then
      .ok ((mapOf (calls (World.empty.named h))).table.get t e) else .panic) ∧
    (∀ op, (mapOf (calls (World.empty.named h))).Fair op → w.Even op →
      ∃ w', step w op = some ((mapOf (calls (World.empty.named h))).answer op, w')) ∧
    ∀ t pos v, ∃ w', step w (.writeAt t pos v) =
      some (if (w.shownAt t pos).isSome then .unit else .panicked [], w') := by
  have hn := C55_partial hr hf
  have hi := reach_invL hn hf
  refine ⟨hi.viewGet, fun op h1 h2 => ?_, fun t pos v => ?_⟩
  · obtain ⟨w1, e1, _⟩ := step_fair hi h1 h2
    exact ⟨w1, e1⟩
  · cases he : w.shownAt t pos with
    | none => exact ⟨w, World.writeAt_none (reach_sound hr).2 he v⟩
    | some e =>
      unfold World.shownAt at he
      cases hb : w.borrow t with
      | ok c =>
        rw [hb] at he
        obtain ⟨w', e1, _⟩ := C21_at_partial hn hf hb he v
        exact ⟨w', e1⟩
      | panic => rw [hb] at he; cases he
      | ub => rw [hb] at he; cases he

/-- Writes by position between other calls; the last one is outside of the slice. -/
def positionOps : List (Op Nat) :=
  [.setLayout anyOrder [[0, 1]], .create [(0, 10), (1, 11)], .writeAt 0 0 12, .create [(0, 20)], .writeAt 0 1 21,
    .insert ⟨1, 1⟩ [(1, 30)], .destroy ⟨0, 1⟩, .writeAt 0 0 22, .writeAt 0 1 23]

example : holdsAfter positionOps (fun rs w =>
    let h := positionOps.zip rs
    let n := World.empty.named h
    decide (n.length = 8 ∧ n.map (·.2) = [.unit, .entity ⟨0, 1⟩, .bool true, .entity ⟨1, 1⟩, .bool true, .bool true,
      .bool true, .bool true] ∧ Fair (calls n)) &&
    decide (w.viewGet 0 ⟨1, 1⟩ = .ok (some 22) ∧ (mapOf (calls n)).table.get 0 ⟨1, 1⟩ = some 22)) = true := by
  decide +kernel

/-- C55 is false in general: after an exchange of entities of different versions the write by position is found at an entity
that the view does not show. -/
theorem C55_false : ∃ (h : History Nat) (w : World Nat), Reach World.empty h w ∧
    ¬ Reach World.empty (World.empty.named h) w := by
  obtain ⟨rs, w, hr, hf⟩ := reach_witness (ops := mixOps ++ [.writeAt 0 0 99])
    (f := fun rs w => (match run World.empty (calls (World.empty.named ((mixOps ++ [Op.writeAt 0 0 99]).zip rs))) with
      | some (_, w') => decide (w'.viewGet 0 ⟨1, 2⟩ ≠ w.viewGet 0 ⟨1, 2⟩)
      | none => true)) (by decide +kernel)
  refine ⟨_, w, hr, fun hn => ?_⟩
  have key : ∀ H : History Nat, Reach World.empty H w → (match run World.empty (calls H) with
      | some (_, w') => decide (w'.viewGet 0 ⟨1, 2⟩ ≠ w.viewGet 0 ⟨1, 2⟩)
      | none => true) ≠ true := by
    intro H hH
    rw [show run World.empty (calls H) = _ from hH.run]
    simp
  exact key _ hn hf

end Sparsey
