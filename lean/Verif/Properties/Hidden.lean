import Verif.Properties.Layouts
import Verif.Properties.Slices
import Verif.Properties.Views

/-!
C52: the entities that interrupted calls leave outside of groups.
-/

set_option autoImplicit false
set_option linter.unusedSimpArgs false

namespace Sparsey
variable {V : Type}

/-- C52: a query over exactly the types of a group yields the entities having all of them but for the pairs that `hidden`
lists, which follow from the calls: those for which an interrupted `create`, `insert` or `extend` completed the group,
until a layout is set, the world is cleared, or an `insert` that names a type of the family returns. An entity that is not
yielded has all the components. Missing: histories that are not `Fair`. -/
theorem C52_partial {h : History V} {w : World V} (hr : Reach World.empty h w) (hg : Fair (calls h)) {b b' : Borrows}
    {g i x : Query} {q : QueryAll V} (hq : QueryAll.new w b g i x = .ok (q, b')) {k : Nat} {ts : List TypeId}
    (hts : (mapOf (calls h)).groups[k]? = some ts) (hR : SameTypes (required g ++ required i) ts) (hx : required x = []) :
    ∃ (es : List Entity) (its : List (Item V)), q.items = .ok its ∧ es.Nodup ∧
      its.map (fun it => some it.shown) = es.map (fun e => shows (mapOf (calls h)).table e g) ∧
      (∀ e, e ∈ es ↔ (mapOf (calls h)).Has ts e ∧ (e, k) ∉ hidden (calls h)) ∧
      ∀ e, (e, k) ∈ hidden (calls h) → e ∈ (mapOf (calls h)).life.alive ∧ (mapOf (calls h)).Has ts e := by
  have hi := reach_out hr hg
  obtain ⟨it, es, its, h1, h2, h3, h4, h5, h6, h7⟩ := C24_all_partial hr hg hq
  obtain ⟨⟨it', h8, h9⟩, _⟩ := C26_partial hr hg.settled hq ⟨ts, List.mem_of_getElem? hts, fun _ => Iff.rfl⟩ hR hx
  rw [h1] at h8
  cases h8
  have hhid := reach_hidden hr hg
  refine ⟨es, its, h2, h3, h4, fun e => ?_, fun e he => ?_⟩
  · rw [(h6 h9).2, hi.leftOut_iff hts hR]
    have : (mapOf (calls h)).Has (required g ++ required i) e ↔ (mapOf (calls h)).Has ts e := by
      unfold MapWorld.Has
      simp only [hR _]
    rw [this]
    simp [hx]
  · obtain ⟨h10, _⟩ := (hhid e k).1 he
    refine ⟨hi.loose.full_alive h10, ?_⟩
    obtain ⟨us, h11, h12⟩ := h10
    have h11 : (mapOf (calls h)).groups[k]? = some us := h11
    rw [hts] at h11
    cases h11
    exact h12

/-- C52, repair: after a layout is set, all queries with the guards of C24 yield the right entities, whatever calls were
interrupted before. Missing: histories that are not `Fair`. -/
theorem C52_repair_partial {h : History V} {w : World V} (hr : Reach World.empty h w) (hg : Fair (calls h))
    {pre : List (Op V)} {rank : TypeId → Nat} {gs : List (List TypeId)} (hc : calls h = pre ++ [.setLayout rank gs])
    {b b' : Borrows} {g i x : Query} {q : QueryAll V} (hq : QueryAll.new w b g i x = .ok (q, b'))
    (hne : required g ++ required i ≠ []) (hx : AllRequired x) (hs : SingleExclude (mapOf (calls h)).groups g i x) :
    ∃ (es : List Entity) (its : List (Item V)), q.items = .ok its ∧ es.Nodup ∧
      (∀ e, e ∈ es ↔ (mapOf (calls h)).Matches g i x e) ∧
      its.map (fun it => some it.shown) = es.map fun e => shows (mapOf (calls h)).table e g := by
  refine C24_partial hr hg hq hne hx hs ?_
  have : hidden (calls h) = [] := by
    rw [hc, hidden_snoc]
    rfl
  rw [this]
  exact MapWorld.noneLeftOut_nil

/-- C52, no interrupted call completes a group: nothing is left out. -/
theorem C52_good {h : History V} {w : World V} (hr : Reach World.empty h w) (hg : Good (calls h)) : hidden (calls h) = [] :=
  hidden_good hr hg

/-- Interrupted calls with nested groups: `0v1` and `1v1` get both types of the first group by interrupted calls, `2v1` is
in the first group and gets the third type by an interrupted call, `3v1` is in both, `1v1` is repaired by a later
`insert`. -/
def hiddenOps : List (Op Nat) :=
  [.setLayout anyOrder [[0, 1], [0, 1, 2]], .create [(0, 10), (1, 11), (9, 19)], .create [(0, 20)],
    .insert ⟨1, 1⟩ [(1, 21), (9, 29)], .create [(0, 30), (1, 31)], .insert ⟨2, 1⟩ [(2, 32), (9, 39)],
    .create [(2, 42), (0, 40), (1, 41)], .insert ⟨1, 1⟩ [(0, 22)]]

/-- `hidden` for `hiddenOps`; the history is `Fair` and not `Good`. -/
example : Fair hiddenOps ∧ ¬ Good hiddenOps ∧ hidden hiddenOps = [(⟨2, 1⟩, 1), (⟨0, 1⟩, 0)] ∧
    hidden (hiddenOps.take 4) = [(⟨1, 1⟩, 0), (⟨0, 1⟩, 0)] ∧
    (mapOf hiddenOps).NoneLeftOut (hidden hiddenOps) [.ref 0] [.ref 2] [.ref 1] ∧
    ¬ (mapOf hiddenOps).NoneLeftOut (hidden hiddenOps) [.ref 0] [.ref 1] [.ref 2] := by
  decide +kernel

/-- C52 (and C23, C24, C25, C28): queries may miss entities that have all components of a group, and yield entities that have
an excluded component. `0v1` has both components of the query over the first group and is missing; `2v1` has the excluded
component and is yielded. -/
theorem C52_false : ∃ (h : History Nat) (w : World Nat) (q q' : QueryAll Nat) (b b' : Borrows) (its its' : List (Item Nat)),
    Reach World.empty h w ∧ Fair (calls h) ∧
    QueryAll.new w [] [.entity, .ref 0, .ref 1] [] [] = .ok (q, b) ∧ q.items = .ok its ∧
    w.viewGet 0 ⟨0, 1⟩ = .ok (some 10) ∧ w.viewGet 1 ⟨0, 1⟩ = .ok (some 11) ∧
    (∀ it ∈ its, ItemPart.entity ⟨0, 1⟩ ∉ it) ∧
    QueryAll.new w [] [.entity, .ref 0, .ref 1] [] [.ref 2] = .ok (q', b') ∧ q'.items = .ok its' ∧
    (∃ it ∈ its', ItemPart.entity ⟨2, 1⟩ ∈ it) ∧ w.viewGet 2 ⟨2, 1⟩ = .ok (some 32) := by
  obtain ⟨rs, w, hr, hf⟩ := reach_witness (ops := hiddenOps) (f := fun rs (w : World Nat) =>
    decide (rs.length = 8) && (decide (w.viewGet 0 ⟨0, 1⟩ = .ok (some 10) ∧ w.viewGet 1 ⟨0, 1⟩ = .ok (some 11) ∧
      w.viewGet 2 ⟨2, 1⟩ = .ok (some 32)) &&
    (itemsAre w [.entity, .ref 0, .ref 1] [] [] (fun its => decide (∀ it ∈ its, ItemPart.entity ⟨0, 1⟩ ∉ it)) &&
    itemsAre w [.entity, .ref 0, .ref 1] [] [.ref 2] (fun its => decide (∃ it ∈ its, ItemPart.entity ⟨2, 1⟩ ∈ it)))))
    (by decide +kernel)
  simp only [Bool.and_eq_true, decide_eq_true_eq] at hf
  obtain ⟨h0, h1, h2, h3⟩ := hf
  obtain ⟨q, b, its, h4, h5, h6⟩ := itemsAre_iff h2
  obtain ⟨q', b', its', h7, h8, h9⟩ := itemsAre_iff h3
  have hc : calls (hiddenOps.zip rs) = hiddenOps := by
    unfold calls
    exact List.map_fst_zip (by simp [hiddenOps, h0])
  exact ⟨_, w, q, q', b, b', its, its', hr, by rw [hc]; decide +kernel, h4, h5, h1.1, h1.2.1, of_decide_eq_true h6, h7, h8,
    of_decide_eq_true h9, h1.2.2⟩

/-- The queries of `C52_partial` and `C24_all_partial` after `hiddenOps`. -/
example : holdsAfter hiddenOps (fun _ w =>
    itemsAre w [.entity, .ref 0] [.ref 1] [] (fun its => decide (its.map Item.shown =
      [[.entity ⟨3, 1⟩, .comp 40], [.entity ⟨2, 1⟩, .comp 30], [.entity ⟨1, 1⟩, .comp 22]])) &&
    itemsAre w [.entity, .ref 1] [.ref 0] [.ref 2] (fun its => decide (its.map Item.shown =
      [[.entity ⟨2, 1⟩, .comp 31], [.entity ⟨1, 1⟩, .comp 21]])) &&
    itemsAre w [.entity, .ref 2] [] [] (fun its => decide (its.map Item.shown =
      [[.entity ⟨3, 1⟩, .comp 42], [.entity ⟨2, 1⟩, .comp 32]]))) = true := by
  decide +kernel

/-- Setting the layout again repairs it. -/
example : hidden (hiddenOps ++ [.setLayout anyOrder [[0, 1], [0, 1, 2]]]) = [] ∧
    Fair (hiddenOps ++ [.setLayout anyOrder [[0, 1], [0, 1, 2]]]) := by
  decide +kernel

end Sparsey
