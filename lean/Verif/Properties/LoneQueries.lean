import Verif.Proofs.LoneQuery
import Verif.Properties.OneType
import Verif.Properties.Grouped

/-!
C57: queries over types that are not mixed up. Reading single entities, and iterating without a group or over one type, is
right whatever happened to the types that the query does not mention, even if they are in the same groups.
-/

set_option autoImplicit false
set_option linter.unusedSimpArgs false

namespace Sparsey
variable {V : Type}

/-- The component types a query mentions. -/
def mentions (g i x : Query) : List TypeId := (accesses g ++ accesses i ++ accesses x).map (·.1)

theorem Unmixed.vals {t : TypeId} {h : History V} {w : World V} (hr : Reach World.empty h w) (hu : Unmixed t h)
    (hd : Disciplined h) : SameReg w (mapOf (calls h)) ∧ LoneVals t w (mapOf (calls h)) := by
  rcases hu with hu | hu
  · exact ⟨reach_sameReg hr (EvenFor.laid hr hu), (reach_loneVals hr hu hd).1⟩
  · exact ⟨reach_sameReg hr (hu.laid h _), (reach_uniformVals hr hu hd).1⟩

theorem Unmixed.setsOf {h : History V} {w : World V} (hr : Reach World.empty h w) (hd : Disciplined h) {ts : List TypeId}
    (hu : ∀ t ∈ ts, Unmixed t h) : SetsOf w (mapOf (calls h)) ts := by
  intro t ht
  obtain ⟨h1, h2⟩ := (hu t ht).vals hr hd
  exact LoneVals.setsOf (ts := [t]) h1 (fun u hu => by rw [List.mem_singleton.1 hu]; exact h2) t (.head _)

/-- **C57.** One entity: `query_one` gives the item of the map if the entity has the included and none of the excluded
components, and nothing otherwise; `contains` says which. An excluded part other than `&T` and `&mut T` excludes everything
(finding 4). -/
theorem C57_one {h : History V} {w : World V} (hr : Reach World.empty h w) (hd : Disciplined h) {b b' : Borrows}
    {g i x : Query} {q : QueryOne V} (hu : ∀ t ∈ mentions g i x, Unmixed t h)
    (hq : QueryOne.new w b g i x = .ok (q, b')) (e : Entity) :
    ∃ r, q.getItem e = .ok r ∧ q.contains e = r.isSome ∧
      ((mapOf (calls h)).Has (required i) e ∧
          (AllRequired x ∧ ∀ t ∈ required x, (mapOf (calls h)).table.get t e = none) →
        r.map Item.shown = shows (mapOf (calls h)).table e g) ∧
      (¬ ((mapOf (calls h)).Has (required i) e ∧
          (AllRequired x ∧ ∀ t ∈ required x, (mapOf (calls h)).table.get t e = none)) → r = none) := by
  have hs := Unmixed.setsOf hr hd hu
  simp only [mentions, List.map_append, SetsOf, List.mem_append] at hs
  exact SetsOf.one (QueryOne.new_ok hq) (fun t ht => hs t (.inl (.inl ht))) (fun t ht => hs t (.inl (.inr ht)))
    (fun t ht => hs t (.inr ht)) e

/-- **C57.** Iteration: a query that requires something, but not exactly the types of a group of two or more, yields exactly
the matching entities, each once, with their components. -/
theorem C57 {h : History V} {w : World V} (hr : Reach World.empty h w) (hd : Disciplined h) (hl : Settled (calls h))
    {b b' : Borrows} {g i x : Query} {q : QueryAll V} (hu : ∀ t ∈ mentions g i x, Unmixed t h)
    (hq : QueryAll.new w b g i x = .ok (q, b')) (hne : required g ++ required i ≠ [])
    (hx : AllRequired x) (hn : ∀ a ∈ (mapOf (calls h)).groups, ¬ SameTypes (required g ++ required i) a) :
    ∃ (es : List Entity) (its : List (Item V)), q.items = .ok its ∧ es.Nodup ∧
      (∀ e, e ∈ es ↔ (mapOf (calls h)).Matches g i x e) ∧
      its.map (fun it => some it.shown) = es.map (fun e => shows (mapOf (calls h)).table e g) := by
  have ho := QueryAll.new_ok hq
  have hs := Unmixed.setsOf hr hd hu
  simp only [mentions, List.map_append, SetsOf, List.mem_append] at hs
  have sg : SetsOf w (mapOf (calls h)) ((accesses g).map (·.1)) := fun t ht => hs t (.inl (.inl ht))
  have si : SetsOf w (mapOf (calls h)) ((accesses i).map (·.1)) := fun t ht => hs t (.inl (.inr ht))
  have sx : SetsOf w (mapOf (calls h)) ((accesses x).map (·.1)) := fun t ht => hs t (.inr ht)
  obtain ⟨t, ht⟩ := List.exists_mem_of_ne_nil _ hne
  have hta : t ∈ mentions g i x := by
    simp only [mentions, List.map_append, List.mem_append]
    rcases List.mem_append.1 ht with ht | ht
    · exact .inl (.inl (required_accesses ht))
    · exact .inl (.inr (required_accesses ht))
  have hlife := ((hu t hta).vals hr hd).2.life
  have hpres : ∃ c, SetOf (mapOf (calls h)) t c := by
    have hp : ∃ m c, w.components.meta? t = some m ∧ w.components.components[m.storageIndex]? = some c := by
      rcases List.mem_append.1 ht with ht | ht
      · exact present_of_views ho.get t ht
      · exact present_of_views ho.inc t ht
    obtain ⟨m, c, hm, hc⟩ := hp
    refine ⟨c, hs t ?_ _ c ⟨m, hm, rfl, hc⟩⟩
    simpa only [mentions, List.map_append, List.mem_append] using hta
  obtain ⟨c, hc⟩ := hpres
  have hrange : q.getGroupRange = .ok none ∨
      ((required g ++ required i).length = 1 ∧ required x = [] ∧ AllRequired x) := by
    have hlay := reach_lay hr hl
    obtain ⟨o, h1, h2⟩ := hlay.range_grouped ho
    cases o with
    | none => exact .inl h1
    | some p =>
      rcases h2 rfl with ⟨hX, h3 | ⟨a, ha, h3⟩⟩ | ⟨_, a, ha, _, _, h3, _⟩
      · exact .inr ⟨h3, hX, hx⟩
      · exact absurd h3 (hn a ha)
      · exact absurd h3 (hn a ha)
  obtain ⟨es, xs, h1, h2, h3, h4⟩ := SetsOf.items hlife.idxUniq ho sg si sx hrange
  refine ⟨es, xs, h1, h2, fun e => ?_, Faithful.reads_shown (sg.faithfuls ho.get) h3⟩
  rw [h4, has_append]
  unfold MapWorld.Matches
  constructor
  · rintro ⟨_, ⟨e1, e2⟩, _, e3⟩
    refine ⟨hc.alive e ((hc.mem e).2 ?_), e1, e2, e3⟩
    exact has_append.2 ⟨e1, e2⟩ t ht
  · rintro ⟨_, e1, e2, e3⟩
    exact ⟨hne, ⟨e1, e2⟩, hx, e3⟩

/-- `unevenTwinOps` with one more type outside of groups. -/
def unevenTripleOps : List (Op Nat) := .register 5 :: unevenTwinOps ++ [.insert ⟨2, 1⟩ [(5, 70)], .insert ⟨0, 2⟩ [(5, 80)]]

/-- What the items of a query show. -/
def shownBy (w : World Nat) (g i x : Query) : Option (List (List (Shown Nat))) :=
  match QueryAll.new w [] g i x with
  | .ok (q, _) => (match q.items with
    | .ok its => some (its.map Item.shown)
    | _ => none)
  | _ => none

/-- A history and queries meeting the hypotheses of both theorems: the set of type 1, grouped with type 0, is corrupted, and
a query over it yields an entity that does not match. -/
example : ∃ rs w, Reach World.empty (unevenTripleOps.zip rs) w ∧ Disciplined (unevenTripleOps.zip rs) ∧
    Settled unevenTripleOps ∧ ¬ Fair unevenTripleOps ∧ ¬ Unmixed 1 (unevenTripleOps.zip rs) ∧
    (∀ t ∈ mentions [.entity, .ref 0] [] [.ref 5] ++ mentions [.refMut 0] [.ref 5] [], Unmixed t (unevenTripleOps.zip rs)) ∧
    (∀ a ∈ (mapOf unevenTripleOps).groups, ¬ SameTypes [0] a ∧ ¬ SameTypes [0, 5] a) ∧
    shownBy w [.entity, .ref 0] [] [.ref 5] = some [[.entity ⟨1, 1⟩, .comp 31], [.entity ⟨3, 1⟩, .comp 40]] ∧
    shownBy w [.entity, .refMut 0] [.ref 5] [] = some [[.entity ⟨2, 1⟩, .comp 60]] ∧
    shownBy w [.entity, .ref 1] [] [.ref 0] = some [[.entity ⟨0, 2⟩, .comp 10]] ∧
    ¬ (mapOf unevenTripleOps).Matches [.entity, .ref 1] [] [.ref 0] ⟨0, 2⟩ := by
  obtain ⟨rs, w, h1, h2⟩ := reach_witness (V := Nat) (ops := unevenTripleOps) (f := fun (rs : List (Ret Nat)) w =>
    decide (Disciplined (unevenTripleOps.zip rs) ∧
    Settled unevenTripleOps ∧ ¬ Fair unevenTripleOps ∧ ¬ Unmixed 1 (unevenTripleOps.zip rs) ∧
    (∀ t ∈ mentions [.entity, .ref 0] [] [.ref 5] ++ mentions [.refMut 0] [.ref 5] [], Unmixed t (unevenTripleOps.zip rs)) ∧
    (∀ a ∈ (mapOf unevenTripleOps).groups, ¬ SameTypes [0] a ∧ ¬ SameTypes [0, 5] a) ∧
    shownBy w [.entity, .ref 0] [] [.ref 5] = some [[.entity ⟨1, 1⟩, .comp 31], [.entity ⟨3, 1⟩, .comp 40]] ∧
    shownBy w [.entity, .refMut 0] [.ref 5] [] = some [[.entity ⟨2, 1⟩, .comp 60]] ∧
    shownBy w [.entity, .ref 1] [] [.ref 0] = some [[.entity ⟨0, 2⟩, .comp 10]] ∧
    ¬ (mapOf unevenTripleOps).Matches [.entity, .ref 1] [] [.ref 0] ⟨0, 2⟩))
    (by decide +kernel)
  exact ⟨rs, w, h1, of_decide_eq_true h2⟩

end Sparsey
