import Verif.Properties.Hidden

/-!
C53: which queries are iterated with a group, and what every query yields, from the calls alone.
-/

set_option autoImplicit false
set_option linter.unusedSimpArgs false

namespace Sparsey
variable {V : Type}

/-- C53: a query is iterated with a group exactly if its required and excluded types are those of a group and of the next
larger one, or it requires one type and excludes none (`Grouped`): types in `Option`, the order of the types, repeated
types and whether they are read or written do not matter, nor does anything done to the world since the layout was set.
The same queries give slices. Missing: layouts that are not `Settled`, that slicing succeeds after histories that are not
`Fair`. -/
theorem C53_partial {h : History V} {w : World V} (hr : Reach World.empty h w) (hl : Settled (calls h)) {b b' : Borrows}
    {g i x : Query} {q : QueryAll V} (hq : QueryAll.new w b g i x = .ok (q, b')) :
    (∃ it, q.iter = .ok it ∧
      (it.isDense = true ↔ Grouped (mapOf (calls h)).groups (required g ++ required i) (required x))) ∧
    (¬ Grouped (mapOf (calls h)).groups (required g ++ required i) (required x) → q.slice = .ok none) ∧
    (∀ sl, q.slice = .ok sl →
      (sl.isSome ↔ Grouped (mapOf (calls h)).groups (required g ++ required i) (required x))) ∧
    (Fair (calls h) → ∃ sl, q.slice = .ok sl) := by
  have hlay := reach_lay hr hl
  have ho := QueryAll.new_ok hq
  obtain ⟨it, hit, _⟩ := (reach_range hr).iter ho
  obtain ⟨h1, h2⟩ := hlay.slice_iff ho
  exact ⟨⟨it, hit, hlay.iter_iff ho hit⟩, h1, h2, fun hg => (reach_out hr hg).slice_ok ho⟩

/-- Histories with set layouts that are `Settled` but not `Fair`: undisciplined, and with an earlier layout at the limits. -/
example : Settled ([.setLayout anyOrder [List.range 16], .setLayout anyOrder [[0, 1], [0, 1, 2]], .createAtomic,
      .destroy ⟨0, 1⟩, .maintain] : List (Op Nat)) ∧
    ¬ Fair ([.setLayout anyOrder [List.range 16], .setLayout anyOrder [[0, 1], [0, 1, 2]], .createAtomic,
      .destroy ⟨0, 1⟩, .maintain] : List (Op Nat)) ∧
    ¬ Settled ([.setLayout anyOrder [List.range 16]] : List (Op Nat)) := by
  decide +kernel

/-- What every query yields on a world with a map. -/
theorem InvH.yields {w : World V} {s : MapWorld V} {H : List (Entity × Nat)} (hi : InvH w s H) {b b' : Borrows}
    {g i x : Query} {q : QueryAll V} (hq : QueryAll.new w b g i x = .ok (q, b')) :
    ∃ (es : List Entity) (its : List (Item V)), q.items = .ok its ∧ es.Nodup ∧
      its.map (fun it => some it.shown) = es.map (fun e => shows s.table e g) ∧
      ∀ e, e ∈ es ↔ s.Yields H g i x e := by
  obtain ⟨it, es, its, h1, h2, h3, h4, _, h6, h7⟩ := hi.yields_all hq
  have h9 := hi.lay.iter_iff (QueryAll.new_ok hq) h1
  refine ⟨es, its, h2, h3, h4, fun e => ?_⟩
  unfold MapWorld.Yields
  by_cases hd : it.isDense = true
  · have hG := h9.1 hd
    obtain ⟨h10, h11⟩ := h6 hd
    rw [h11]
    constructor
    · rintro ⟨e1, e2⟩
      exact ⟨h10, e1, fun _ => e2, fun hn => absurd hG hn⟩
    · rintro ⟨_, e1, e2, _⟩
      exact ⟨e1, e2 hG⟩
  · have hG : ¬ Grouped _ _ _ := fun hc => hd (h9.2 hc)
    rw [h7 (by simpa using hd)]
    constructor
    · rintro ⟨e1, e2, e3, e4⟩
      exact ⟨e1, e2, fun hc => absurd hc hG, fun _ => ⟨e3, e4⟩⟩
    · rintro ⟨e1, e2, _, e3⟩
      exact ⟨e1, e2, e3 hG⟩

/-- C53, what every query yields: the entities of `Yields`, each once, with their components. Whatever the query is, this
follows from the calls. Missing: histories that are not `Fair`. -/
theorem C53_yields_partial {h : History V} {w : World V} (hr : Reach World.empty h w) (hg : Fair (calls h)) {b b' : Borrows}
    {g i x : Query} {q : QueryAll V} (hq : QueryAll.new w b g i x = .ok (q, b')) :
    ∃ (es : List Entity) (its : List (Item V)), q.items = .ok its ∧ es.Nodup ∧
      its.map (fun it => some it.shown) = es.map (fun e => shows (mapOf (calls h)).table e g) ∧
      ∀ e, e ∈ es ↔ (mapOf (calls h)).Yields (hidden (calls h)) g i x e :=
  (reach_out hr hg).yields hq

/-- Groups of `queryOps` are `(0, 1)` and `(0, 1, 2)`. -/
example : let gs := (mapOf queryOps).groups
    Grouped gs [1, 0] [] ∧ Grouped gs [1, 0, 1] [] ∧ Grouped gs [7] [] ∧ Grouped gs [0, 1] [2] ∧ Grouped gs [2, 0, 1] [] ∧
    ¬ Grouped gs [0, 2] [] ∧ ¬ Grouped gs [0, 1] [9] ∧ ¬ Grouped gs [0] [1, 2] ∧ ¬ Grouped gs [0, 0] [] ∧ ¬ Grouped gs [] [] ∧
    ¬ Grouped gs [0, 1] [0] ∧ ¬ Grouped gs [0, 1] [2, 0] := by
  decide +kernel

/-- Three nested groups: excluding what the largest adds to the smallest is not grouped. -/
example : let gs := (mapOf ([.setLayout anyOrder [[0, 1], [0, 1, 2], [0, 1, 2, 3]]] : List (Op Nat))).groups
    Grouped gs [0, 1] [2] ∧ Grouped gs [0, 1, 2] [3] ∧ ¬ Grouped gs [0, 1] [2, 3] ∧ ¬ Grouped gs [0, 1] [3] := by
  decide +kernel

/-- `Yields` after `hiddenOps`, for queries with all deviations, and the model. -/
example : Fair hiddenOps ∧
    (let y := fun g i x => (mapOf hiddenOps).life.alive.filter fun e => (mapOf hiddenOps).Yields (hidden hiddenOps) g i x e
     y [.entity, .ref 0] [.ref 1] [] = [⟨3, 1⟩, ⟨2, 1⟩, ⟨1, 1⟩] ∧ y [.entity, .ref 0] [.ref 1] [.ref 2] = [⟨2, 1⟩, ⟨1, 1⟩] ∧
     y [.entity, .ref 0] [] [.ref 1] = [] ∧ y [.entity, .ref 0] [] [] = [⟨3, 1⟩, ⟨2, 1⟩, ⟨1, 1⟩, ⟨0, 1⟩] ∧
     y [.entity] [] [] = [] ∧ y [.ref 0] [.ref 2] [.opt 1] = [] ∧ y [.ref 0] [.ref 2] [] = [⟨3, 1⟩, ⟨2, 1⟩]) := by
  decide +kernel

end Sparsey
