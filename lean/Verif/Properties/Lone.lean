import Verif.Properties.OneType

/-!
C50: a component type that is in no group is a plain map, whatever happens to the types that are in groups. The defects
of grouping (DESIGN.md, findings 6, 8, 9) do not reach it; only the discipline of `maintain` is needed.
-/

set_option autoImplicit false
set_option linter.unusedSimpArgs false

namespace Sparsey
variable {V : Type}

/-- **C50.** Contents: the world has exactly the registered types of the map. If the discipline of `maintain` was kept it
has exactly the entities of the map; a view of `t` finds exactly the components of the map; and its slices list every
entity that has one once, with its component at the same position. -/
theorem C50 {t : TypeId} {h : History V} {w : World V} (hr : Reach World.empty h w) (hn : NeverGrouped t h) :
    (∀ x, w.isRegistered x = true ↔ x ∈ (mapOf (h.map (·.1))).reg) ∧
    (Disciplined h →
      (∀ e, w.containsEntity e = true ↔ e ∈ (mapOf (h.map (·.1))).life.alive) ∧
      w.ShowsAs t (mapOf (h.map (·.1)))) :=
  C56 hr (hn.evenFor hr)

/-- **C50.** Answers: every call of such a history answers as the map does, as far as type `t` is concerned. -/
theorem C50_answers {t : TypeId} {h : History V} {op : Op V} {r : Ret V} {w : World V}
    (hr : Reach World.empty (h ++ [(op, r)]) w) (hn : NeverGrouped t (h ++ [(op, r)]))
    (hd : Disciplined (h ++ [(op, r)])) : SameFor t op r ((mapOf (h.map (·.1))).answer op) :=
  C56_answers hr (hn.evenFor hr) hd

/-- A group `(0, 1)` is corrupted by a recycled entity (finding 9) and by an interrupted insertion (finding 8), while
type 7 is in use. -/
def loneOps : List (Op Nat) :=
  [.register 7, .setLayout anyOrder [[0, 1]], .create [(7, 70)], .destroy ⟨0, 1⟩, .create [(0, 10), (7, 71)],
    .create [(0, 20), (7, 72)], .insert ⟨1, 1⟩ [(1, 30), (7, 73)], .create [(1, 1), (0, 2), (7, 74), (8, 3)],
    .remove ⟨0, 2⟩ [0, 7, 7], .extend [7] ⟨[[75], [76]], true⟩, .write 7 ⟨2, 1⟩ 77, .setLayout anyOrder [[0, 1], [4, 5]],
    .writeAt 0 0 99]

/-- The example meets the hypotheses of `C50`. It is not `Good`: `remove` does not find the component of type 0. Type 7 is
not affected. -/
example : ∃ rs w, Reach World.empty (loneOps.zip rs) w ∧ NeverGrouped 7 (loneOps.zip rs) ∧
    Disciplined (loneOps.zip rs) ∧ ¬ Good loneOps ∧
    rs[8]? = some (.values [none, some 71, none]) ∧
    (mapOf (loneOps.take 8)).answer (.remove ⟨0, 2⟩ [0, 7, 7]) = .values [some 10, some 71, none] ∧
    w.viewGet 7 ⟨1, 1⟩ = .ok (some 73) ∧ w.viewGet 7 ⟨2, 1⟩ = .ok (some 77) ∧ w.viewGet 7 ⟨0, 2⟩ = .ok none := by
  obtain ⟨rs, w, h1, h2⟩ := reach_witness (V := Nat) (ops := loneOps) (f := fun (rs : List (Ret Nat)) w =>
    decide (NeverGrouped 7 (loneOps.zip rs) ∧ Disciplined (loneOps.zip rs) ∧ ¬ Good loneOps ∧
      rs[8]? = some (Ret.values [none, some 71, none]) ∧
      (mapOf (loneOps.take 8)).answer (.remove ⟨0, 2⟩ [0, 7, 7]) = .values [some 10, some 71, none] ∧
      w.viewGet 7 ⟨1, 1⟩ = .ok (some 73) ∧ w.viewGet 7 ⟨2, 1⟩ = .ok (some 77) ∧ w.viewGet 7 ⟨0, 2⟩ = .ok none))
    (by decide +kernel)
  exact ⟨rs, w, h1, of_decide_eq_true h2⟩

end Sparsey
