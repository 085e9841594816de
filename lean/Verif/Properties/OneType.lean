import Verif.Proofs.OneTypeEven

/-!
C56: the defects of grouping stay within single component types. As long as the exchanges in the set of a type `t` are
between entities of the same version, `t` is a plain map, even if it shares groups with types whose sets are corrupted
(DESIGN.md, findings 6, 8, 9). A simple condition on the map alone is enough for that: all entities having a component
of type `t` have the same version.
-/

set_option autoImplicit false
set_option linter.unusedSimpArgs false

namespace Sparsey
variable {V : Type}

theorem LoneVals.shows {t : TypeId} {h : History V} {w : World V} {s : MapWorld V} (hr : Reach World.empty h w)
    (hv : LoneVals t w s) : (∀ e, w.containsEntity e = true ↔ e ∈ s.life.alive) ∧ w.ShowsAs t s := by
  refine ⟨fun e => hv.life.contains_iff e, fun ht => ?_⟩
  obtain ⟨m, hm⟩ := Option.isSome_iff_exists.1 ht
  obtain ⟨s, h1, _⟩ := (reach_sound hr).2.at_meta hm
  have hb : w.borrow t = .ok s := by simp [World.borrow, hm, h1]
  obtain ⟨i1, i2, i3⟩ := hv.holds s (by rw [setOf_meta hm]; exact h1)
  refine ⟨s, hb, fun e => ?_, i1.rep.nodup, i1.len.symm, fun e => ?_, fun i e hi => ?_⟩
  · unfold World.viewGet
    rw [hb, Res.bind_ok, i1.get_eq, i3]
  · rw [i1.mem_iff, i3]
  · rw [← i3, i1.val_at hi]

/-- **C56.** Contents: the world has exactly the registered types of the map. If the discipline of `maintain` was kept it
has exactly the entities of the map, and shows type `t` as the map has it. -/
theorem C56 {t : TypeId} {h : History V} {w : World V} (hr : Reach World.empty h w) (hn : EvenFor t h) :
    (∀ x, w.isRegistered x = true ↔ x ∈ (mapOf (h.map (·.1))).reg) ∧
    (Disciplined h →
      (∀ e, w.containsEntity e = true ↔ e ∈ (mapOf (h.map (·.1))).life.alive) ∧
      w.ShowsAs t (mapOf (h.map (·.1)))) :=
  ⟨reach_sameReg hr (EvenFor.laid hr hn), fun hd => (reach_loneVals hr hn hd).1.shows hr⟩

/-- **C56.** Answers: every call of such a history answers as the map does, as far as type `t` is concerned. -/
theorem C56_answers {t : TypeId} {h : History V} {op : Op V} {r : Ret V} {w : World V}
    (hr : Reach World.empty (h ++ [(op, r)]) w) (hn : EvenFor t (h ++ [(op, r)]))
    (hd : Disciplined (h ++ [(op, r)])) : SameFor t op r ((mapOf (h.map (·.1))).answer op) := by
  generalize hq : h ++ [(op, r)] = q at hr
  cases hr with
  | nil => simp at hq
  | snoc hr' hs =>
    obtain ⟨h1, h2⟩ := List.append_inj' hq rfl
    subst h1
    simp only [List.cons.injEq, Prod.mk.injEq, and_true] at h2
    obtain ⟨rfl, rfl⟩ := h2
    obtain ⟨n1, n2, n3, _⟩ := (EvenForFrom.split hr' _).1 hn
    exact lone_answer hr' hs (EvenFor.laid hr' n1) hd (reach_loneVals hr' n1) (fun _ => ⟨n2, n3⟩)

/-- **C56.** The same from a condition on the map alone: after every call, all entities having type `t` have the same
version. -/
theorem C56_uniform {t : TypeId} {h : History V} {w : World V} (hr : Reach World.empty h w)
    (hu : MapWorld.init.UniformFor t h) (hd : Disciplined h) :
    (∀ e, w.containsEntity e = true ↔ e ∈ (mapOf (h.map (·.1))).life.alive) ∧
    w.ShowsAs t (mapOf (h.map (·.1))) :=
  (reach_uniformVals hr hu hd).1.shows hr

/-- **C56.** Answers, from the condition on the map. -/
theorem C56_uniform_answers {t : TypeId} {h : History V} {op : Op V} {r : Ret V} {w : World V}
    (hr : Reach World.empty (h ++ [(op, r)]) w) (hu : MapWorld.init.UniformFor t (h ++ [(op, r)]))
    (hd : Disciplined (h ++ [(op, r)])) : SameFor t op r ((mapOf (h.map (·.1))).answer op) := by
  generalize hq : h ++ [(op, r)] = q at hr
  cases hr with
  | nil => simp at hq
  | snoc hr' hs =>
    obtain ⟨h1, h2⟩ := List.append_inj' hq rfl
    subst h1
    simp only [List.cons.injEq, Prod.mk.injEq, and_true] at h2
    obtain ⟨rfl, rfl⟩ := h2
    have u1 := ((MapWorld.UniformFor.split h _ _).1 hu).1
    exact lone_answer hr' hs (u1.laid h _) hd (reach_uniformVals hr' u1) (uniform_part hr' hs hu)

/-- Types 0 and 1 form a group. The set of type 1 is corrupted by an exchange of entities of different versions (finding
9), and an interrupted insertion leaves an entity outside of the group (finding 8). -/
def unevenTwinOps : List (Op Nat) :=
  [.setLayout anyOrder [[0, 1]], .create [], .destroy ⟨0, 1⟩, .create [(1, 10)], .create [(1, 20)],
    .insert ⟨1, 1⟩ [(0, 30)], .create [(1, 1), (0, 2), (8, 3)], .create [(0, 40), (1, 50)], .write 0 ⟨1, 1⟩ 31,
    .remove ⟨0, 2⟩ [1, 0], .remove ⟨2, 1⟩ [0], .insert ⟨2, 1⟩ [(0, 60)]]

/-- The example meets the hypotheses of all four theorems for type 0, and of none for type 1: the component of type 1 of
the recycled entity is not found. -/
example : ∃ rs w, Reach World.empty (unevenTwinOps.zip rs) w ∧ EvenFor 0 (unevenTwinOps.zip rs) ∧
    MapWorld.init.UniformFor 0 (unevenTwinOps.zip rs) ∧ Disciplined (unevenTwinOps.zip rs) ∧
    ¬ EvenFor 1 (unevenTwinOps.zip rs) ∧ ¬ Fair unevenTwinOps ∧
    rs[9]? = some (.values [none, none]) ∧
    (mapOf (unevenTwinOps.take 9)).answer (.remove ⟨0, 2⟩ [1, 0]) = .values [some 10, none] ∧
    w.viewGet 0 ⟨1, 1⟩ = .ok (some 31) ∧ w.viewGet 0 ⟨2, 1⟩ = .ok (some 60) ∧ w.viewGet 0 ⟨3, 1⟩ = .ok (some 40) := by
  obtain ⟨rs, w, h1, h2⟩ := reach_witness (V := Nat) (ops := unevenTwinOps) (f := fun (rs : List (Ret Nat)) w =>
    decide (EvenFor 0 (unevenTwinOps.zip rs) ∧
      MapWorld.init.UniformFor 0 (unevenTwinOps.zip rs) ∧ Disciplined (unevenTwinOps.zip rs) ∧
      ¬ EvenFor 1 (unevenTwinOps.zip rs) ∧ ¬ Fair unevenTwinOps ∧
      rs[9]? = some (Ret.values [none, none]) ∧
      (mapOf (unevenTwinOps.take 9)).answer (.remove ⟨0, 2⟩ [1, 0]) = .values [some 10, none] ∧
      w.viewGet 0 ⟨1, 1⟩ = .ok (some 31) ∧ w.viewGet 0 ⟨2, 1⟩ = .ok (some 60) ∧ w.viewGet 0 ⟨3, 1⟩ = .ok (some 40)))
    (by decide +kernel)
  exact ⟨rs, w, h1, of_decide_eq_true h2⟩

end Sparsey
