import Verif.Properties.Rename
import Verif.Properties.Queries

/-!
C82: without the known defects the order of the identifiers of types does not matter either.
-/

set_option autoImplicit false
set_option linter.unusedSimpArgs false

namespace Sparsey
variable {V : Type}

/-- A table with other names. -/
def Table.mapT (ρ : TypeId → TypeId) (tb : Table V) : Table V := tb.map fun p => ((ρ p.1.1, p.1.2), p.2)

section
variable {ρ : TypeId → TypeId} (h : ∀ a b, ρ a = ρ b → a = b)
include h

theorem pair_mapT (t t' : TypeId) (e e' : Entity) : (ρ t, e) = (ρ t', e') ↔ (t, e) = (t', e') := by
  simp only [Prod.mk.injEq]
  exact ⟨fun x => ⟨h _ _ x.1, x.2⟩, fun x => ⟨by rw [x.1], x.2⟩⟩

theorem Table.get_mapT (tb : Table V) (t : TypeId) (e : Entity) : (tb.mapT ρ).get (ρ t) e = tb.get t e := by
  unfold get mapT
  induction tb with
  | nil => rfl
  | cons p tb ih =>
    obtain ⟨⟨t', e'⟩, v⟩ := p
    simp only [List.map_cons, List.lookup_cons, ih]
    have : ((ρ t, e) == (ρ t', e')) = ((t, e) == (t', e')) := by
      rw [Bool.eq_iff_iff, beq_iff_eq, beq_iff_eq, pair_mapT h]
    rw [this]

theorem Table.erase_mapT (tb : Table V) (t : TypeId) (e : Entity) :
    (tb.mapT ρ).erase (ρ t) e = (tb.erase t e).mapT ρ := by
  unfold erase mapT
  rw [List.filter_map]
  congr 1
  refine List.filter_congr fun p _ => ?_
  simp only [Function.comp, ne_eq, pair_mapT h]

theorem Table.set_mapT (tb : Table V) (t : TypeId) (e : Entity) (v : V) :
    (tb.mapT ρ).set (ρ t) e v = (tb.set t e v).mapT ρ := by
  have := Table.erase_mapT h tb t e
  unfold erase at this
  unfold set
  rw [this]
  rfl

theorem Table.setAll_mapT (e : Entity) (vs : List (TypeId × V)) (tb : Table V) :
    (tb.mapT ρ).setAll e (vs.map fun p => (ρ p.1, p.2)) = (tb.setAll e vs).mapT ρ := by
  induction vs generalizing tb with
  | nil => rfl
  | cons p vs ih => simp only [List.map_cons, setAll, Table.set_mapT h, ih]

theorem Table.eraseAll_mapT (e : Entity) (ts : List TypeId) (tb : Table V) :
    (tb.mapT ρ).eraseAll e (ts.map ρ) = (tb.eraseAll e ts).mapT ρ := by
  induction ts generalizing tb with
  | nil => rfl
  | cons t ts ih => simp only [List.map_cons, eraseAll, Table.erase_mapT h, ih]

theorem Table.removed_mapT (e : Entity) (ts : List TypeId) (tb : Table V) :
    (tb.mapT ρ).removed e (ts.map ρ) = tb.removed e ts := by
  induction ts generalizing tb with
  | nil => rfl
  | cons t ts ih => simp only [List.map_cons, removed, Table.erase_mapT h, Table.get_mapT h, ih]

omit h in
theorem Table.strip_mapT (tb : Table V) (e : Entity) : (tb.mapT ρ).strip e = (tb.strip e).mapT ρ := by
  unfold strip mapT
  rw [List.filter_map]
  rfl

theorem Table.setItems_mapT (ts : List TypeId) (l : List (Entity × List V)) (tb : Table V) :
    (tb.mapT ρ).setItems (ts.map ρ) l = (tb.setItems ts l).mapT ρ := by
  induction l generalizing tb with
  | nil => rfl
  | cons p l ih =>
    simp only [setItems]
    rw [← ih, ← Table.setAll_mapT h, List.zip_map_left]
    rfl

end

/-- The map `s'` is `s` with other names, but for the groups. -/
structure MapWorld.Renamed (ρ : TypeId → TypeId) (s s' : MapWorld V) : Prop where
  life : s'.life = s.life
  table : s'.table = s.table.mapT ρ
  reg : ∀ t, ρ t ∈ s'.reg ↔ t ∈ s.reg

namespace MapWorld.Renamed
variable {ρ : TypeId → TypeId} {s s' : MapWorld V} (hr : s.Renamed ρ s')
include hr

theorem knows (ts : List TypeId) : s'.knows (ts.map ρ) ↔ s.knows ts := by
  simp only [MapWorld.knows, List.forall_mem_map, hr.reg]

theorem known (vs : List (TypeId × V)) :
    s'.known (vs.map fun p => (ρ p.1, p.2)) = (s.known vs).map fun p => (ρ p.1, p.2) := by
  unfold MapWorld.known
  rw [List.takeWhile_map]
  simp only [Function.comp_def, hr.reg]

theorem makes (ts : List TypeId) (it : Items V) : s'.extendMakes (ts.map ρ) it = s.extendMakes ts it := by
  unfold MapWorld.extendMakes
  simp only [hr.knows, hr.life]

theorem knows' (vs : List (TypeId × V)) :
    s'.knows ((vs.map fun p => (ρ p.1, p.2)).map (·.1)) ↔ s.knows (vs.map (·.1)) := by
  rw [← hr.knows, List.map_map, List.map_map]
  rfl

theorem answer {σ : TypeId → TypeId} (h : ∀ a b, ρ a = ρ b → a = b) (op : Op V) :
    s'.answer (op.mapT ρ σ) = s.answer op := by
  cases op <;> simp only [Op.mapT, MapWorld.answer, hr.life, hr.table, hr.knows, hr.knows', hr.makes, hr.reg,
    Table.removed_mapT h, Table.get_mapT h]

theorem next {σ : TypeId → TypeId} (h : ∀ a b, ρ a = ρ b → a = b) (op : Op V)
    (hk : s.LayoutsKnown [op]) (hk' : s'.LayoutsKnown [op.mapT ρ σ]) : (s.next op).Renamed ρ (s'.next (op.mapT ρ σ)) := by
  refine ⟨?_, ?_, fun t => ?_⟩
  · simp only [MapWorld.next, hr.answer h, hr.life]
    congr 1
    cases op <;> first | rfl | (generalize s.answer _ = r; cases r <;> rfl)
  · cases op <;> simp only [Op.mapT, MapWorld.next, MapWorld.tableAfter, hr.life, hr.table, hr.knows, hr.known, hr.makes,
      Table.get_mapT h, Table.set_mapT h, Table.setAll_mapT h, Table.eraseAll_mapT h, Table.strip_mapT, Table.setItems_mapT h]
    all_goals first | rfl | (split <;> rfl)
  · cases op with
    | register u =>
      simp only [Op.mapT, MapWorld.next, MapWorld.regAfter, List.mem_cons, hr.reg]
      exact or_congr_left ⟨fun e => h _ _ e, fun e => by rw [e]⟩
    | setLayout rank gs =>
      have h1 : s.knows (layoutTypes (GroupLayout.build gs).2) := hk.1
      have h2 : s'.knows (layoutTypes (GroupLayout.build (gs.map (List.map ρ))).2) := hk'.1
      simp only [Op.mapT, MapWorld.next, MapWorld.regAfter, List.mem_append]
      constructor
      · rintro (h3 | h3)
        · exact .inr ((hr.reg t).1 (h2 _ h3))
        · exact .inr ((hr.reg t).1 h3)
      · rintro (h3 | h3)
        · exact .inr ((hr.reg t).2 (h1 _ h3))
        · exact .inr ((hr.reg t).2 h3)
    | _ => exact hr.reg t

end MapWorld.Renamed

theorem MapWorld.Renamed.run {ρ σ : TypeId → TypeId} (h : ∀ a b, ρ a = ρ b → a = b) : ∀ (ops : List (Op V))
    {s s' : MapWorld V}, s.Renamed ρ s' → s.LayoutsKnown ops → s'.LayoutsKnown (ops.map (Op.mapT ρ σ)) →
    (s.run ops).Renamed ρ (s'.run (ops.map (Op.mapT ρ σ))) ∧ s'.answers (ops.map (Op.mapT ρ σ)) = s.answers ops
  | [], _, _, hr, _, _ => ⟨hr, rfl⟩
  | op :: ops, _, _, hr, hk, hk' => by
    have h1 := hr.next (σ := σ) h op ⟨hk.1, trivial⟩ ⟨hk'.1, trivial⟩
    have h2 := MapWorld.Renamed.run (σ := σ) h ops h1 hk.2 hk'.2
    refine ⟨h2.1, ?_⟩
    simp only [List.map_cons, MapWorld.answers, hr.answer h, h2.2]

theorem MapWorld.Renamed.init (ρ : TypeId → TypeId) : (MapWorld.init : MapWorld V).Renamed ρ .init :=
  ⟨rfl, rfl, fun _ => by simp [MapWorld.init]⟩

/-- C82, any order of the identifiers: calls that keep clear of the known defects with both namings of the types, and whose
layouts are of registered types, are answered alike, and everything reads alike. Missing: other calls (`C82_order_false`). -/
theorem C82_fair_partial {ρ σ : TypeId → TypeId} (hs : ∀ t, σ (ρ t) = t) {ops : List (Op V)} (hf : Fair ops)
    (hf' : Fair (ops.map (Op.mapT ρ σ))) (hk : MapWorld.init.LayoutsKnown ops)
    (hk' : MapWorld.init.LayoutsKnown (ops.map (Op.mapT ρ σ))) :
    ∃ rs w w', run World.empty ops = some (rs, w) ∧ run World.empty (ops.map (Op.mapT ρ σ)) = some (rs, w') ∧
      (∀ e, w'.containsEntity e = w.containsEntity e) ∧ (∀ e, e ∈ w'.entitiesSlice ↔ e ∈ w.entitiesSlice) ∧
      (∀ t, w'.isRegistered (ρ t) = w.isRegistered t) ∧ ∀ t e, w'.viewGet (ρ t) e = w.viewGet t e := by
  have h : ∀ a b, ρ a = ρ b → a = b := fun _ _ => inj_of_left hs
  obtain ⟨w, h1, h2, h3, h4, h5⟩ := C42_partial hf
  obtain ⟨w', h1', h2', h3', h4', h5'⟩ := C42_partial hf'
  obtain ⟨hr, ha⟩ := MapWorld.Renamed.run (σ := σ) h ops (MapWorld.Renamed.init ρ) hk hk'
  have hl : (mapOf (ops.map (Op.mapT ρ σ))).life = (mapOf ops).life := hr.life
  have ht : (mapOf (ops.map (Op.mapT ρ σ))).table = (mapOf ops).table.mapT ρ := hr.table
  have hg : ∀ t, ρ t ∈ (mapOf (ops.map (Op.mapT ρ σ))).reg ↔ t ∈ (mapOf ops).reg := hr.reg
  refine ⟨_, w, w', h1, ha ▸ h1', fun e => ?_, fun e => ?_, fun t => ?_, fun t e => ?_⟩
  · rw [Bool.eq_iff_iff, h2, h2', hl]
  · rw [h3, h3', hl]
  · rw [Bool.eq_iff_iff, h4, h4', hg]
  · simp only [h5, h5', hg, ht, Table.get_mapT h]

/-- At every moment, entities sharing a component type have the same version, in a group or not. -/
def MapWorld.AllSame (s : MapWorld V) : List (Op V) → Prop
  | [] => True
  | op :: ops => (∀ p ∈ (s.next op).table, ∀ q ∈ (s.next op).table, p.1.1 = q.1.1 → p.1.2.version = q.1.2.version) ∧
    (s.next op).AllSame ops

instance decAllSame : ∀ (ops : List (Op V)) (s : MapWorld V), Decidable (s.AllSame ops)
  | [], _ => inferInstanceAs (Decidable True)
  | op :: ops, s =>
    have := decAllSame ops (s.next op)
    inferInstanceAs (Decidable (_ ∧ _))

theorem MapWorld.AllSame.uniform : ∀ (ops : List (Op V)) {s : MapWorld V}, s.AllSame ops → s.AllUniform ops
  | [], _, _ => trivial
  | _ :: ops, _, hu => ⟨fun p hp q hq h _ => hu.1 p hp q hq h, MapWorld.AllSame.uniform ops hu.2⟩

theorem MapWorld.Renamed.allUniform {ρ σ : TypeId → TypeId} (h : ∀ a b, ρ a = ρ b → a = b) : ∀ (ops : List (Op V))
    {s s' : MapWorld V}, s.Renamed ρ s' → s.LayoutsKnown ops → s'.LayoutsKnown (ops.map (Op.mapT ρ σ)) →
    s.AllSame ops → s'.AllUniform (ops.map (Op.mapT ρ σ))
  | [], _, _, _, _, _, _ => trivial
  | op :: ops, _, _, hr, hk, hk', hu => by
    have h1 := hr.next (σ := σ) h op ⟨hk.1, trivial⟩ ⟨hk'.1, trivial⟩
    refine ⟨fun p hp q hq hpq _ => ?_, MapWorld.Renamed.allUniform h ops h1 hk.2 hk'.2 hu.2⟩
    rw [h1.table] at hp hq
    obtain ⟨p, hp1, rfl⟩ := List.mem_map.1 hp
    obtain ⟨q, hq1, rfl⟩ := List.mem_map.1 hq
    exact hu.1 p hp1 q hq1 (h _ _ hpq)

theorem MapWorld.Renamed.allFair {ρ σ : TypeId → TypeId} (h : ∀ a b, ρ a = ρ b → a = b) : ∀ (ops : List (Op V))
    {s s' : MapWorld V}, s.Renamed ρ s' → s.LayoutsKnown ops → s'.LayoutsKnown (ops.map (Op.mapT ρ σ)) →
    (∀ gs ∈ ops.filterMap Op.layout, LayoutOK (GroupLayout.build (gs.map (List.map ρ))).2 ∧
      LayoutFits (GroupLayout.build (gs.map (List.map ρ))).2) →
    s.AllFair ops → s'.AllFair (ops.map (Op.mapT ρ σ))
  | [], _, _, _, _, _, _, _ => trivial
  | op :: ops, s, s', hr, hk, hk', hl, hf => by
    have h1 := hr.next (σ := σ) h op ⟨hk.1, trivial⟩ ⟨hk'.1, trivial⟩
    refine ⟨?_, MapWorld.Renamed.allFair h ops h1 hk.2 hk'.2 (fun gs hgs => hl gs ?_) hf.2⟩
    · have h2 := hf.1
      cases op with
      | setLayout rank gs => exact hl gs (by simp [List.filterMap_cons, Op.layout])
      | maintain =>
        show s'.life.freshKilled = false
        rw [hr.life]
        exact h2
      | _ => exact h2
    · rw [List.filterMap_cons]
      split
      · exact hgs
      · exact .tail _ hgs

/-- C82, any order of the identifiers, without looking at the second run: if entities that share a component type always have
the same version, and the calls keep clear of the other defects, it is enough that the layouts are well formed and small enough
with the new names too. Missing: other calls (`C82_order_false`). -/
theorem C82_uniform_partial {ρ σ : TypeId → TypeId} (hs : ∀ t, σ (ρ t) = t) {ops : List (Op V)}
    (hf : MapWorld.init.AllFair ops) (hu : MapWorld.init.AllSame ops)
    (hl : ∀ gs ∈ ops.filterMap Op.layout, LayoutOK (GroupLayout.build (gs.map (List.map ρ))).2 ∧
      LayoutFits (GroupLayout.build (gs.map (List.map ρ))).2)
    (hk : MapWorld.init.LayoutsKnown ops) (hk' : MapWorld.init.LayoutsKnown (ops.map (Op.mapT ρ σ))) :
    ∃ rs w w', run World.empty ops = some (rs, w) ∧ run World.empty (ops.map (Op.mapT ρ σ)) = some (rs, w') ∧
      (∀ e, w'.containsEntity e = w.containsEntity e) ∧ (∀ e, e ∈ w'.entitiesSlice ↔ e ∈ w.entitiesSlice) ∧
      (∀ t, w'.isRegistered (ρ t) = w.isRegistered t) ∧ ∀ t e, w'.viewGet (ρ t) e = w.viewGet t e := by
  have h : ∀ a b, ρ a = ρ b → a = b := fun _ _ => inj_of_left hs
  exact C82_fair_partial hs (fair_of_uniform hf (MapWorld.AllSame.uniform ops hu))
    (fair_of_uniform (MapWorld.Renamed.allFair h ops (MapWorld.Renamed.init ρ) hk hk' hl hf)
      (MapWorld.Renamed.allUniform h ops (MapWorld.Renamed.init ρ) hk hk' hu)) hk hk'

theorem required_mapT (ρ : TypeId → TypeId) (q : Query) : required (q.map (Part.mapT ρ)) = (required q).map ρ := by
  induction q with
  | nil => rfl
  | cons p q ih =>
    unfold required at ih ⊢
    cases p <;> simp only [Part.mapT, Part.required, List.filterMap_cons, List.map_cons, ih]

theorem shows_mapT {ρ : TypeId → TypeId} (h : ∀ a b, ρ a = ρ b → a = b) (tb : Table V) (e : Entity) (q : Query) :
    shows (tb.mapT ρ) e (q.map (Part.mapT ρ)) = shows tb e q := by
  induction q with
  | nil => rfl
  | cons p q ih =>
    have : (p.mapT ρ).shows (tb.mapT ρ) e = p.shows tb e := by
      cases p <;> simp only [Part.mapT, Part.shows, Table.get_mapT h]
    simp only [List.map_cons, shows, this, ih]

/-- C82, any order of the identifiers: queries show the same, up to order. Missing: as for `C82_fair_partial` and C24. -/
theorem C82_query_partial {ρ σ : TypeId → TypeId} (hs : ∀ t, σ (ρ t) = t) {h h' : History V} {w w' : World V}
    (hr : Reach World.empty h w) (hr' : Reach World.empty h' w') (hc : calls h' = (calls h).map (Op.mapT ρ σ))
    (hf : Fair (calls h)) (hf' : Fair (calls h'))
    (hk : MapWorld.init.LayoutsKnown (calls h)) (hk' : MapWorld.init.LayoutsKnown (calls h'))
    {b b₁ b' b₁' : Borrows} {g i x : Query} {q q' : QueryAll V} (hq : QueryAll.new w b g i x = .ok (q, b₁))
    (hq' : QueryAll.new w' b' (g.map (Part.mapT ρ)) (i.map (Part.mapT ρ)) (x.map (Part.mapT ρ)) = .ok (q', b₁'))
    (hne : required g ++ required i ≠ []) (hx : AllRequired x)
    (hse : SingleExclude (mapOf (calls h)).groups g i x)
    (hse' : SingleExclude (mapOf (calls h')).groups (g.map (Part.mapT ρ)) (i.map (Part.mapT ρ)) (x.map (Part.mapT ρ)))
    (hn : (mapOf (calls h)).NoneLeftOut (hidden (calls h)) g i x)
    (hn' : (mapOf (calls h')).NoneLeftOut (hidden (calls h')) (g.map (Part.mapT ρ)) (i.map (Part.mapT ρ))
      (x.map (Part.mapT ρ))) :
    ∃ its its', q.items = .ok its ∧ q'.items = .ok its' ∧ (its.map Item.shown).Perm (its'.map Item.shown) := by
  have hi : ∀ a b, ρ a = ρ b → a = b := fun _ _ => inj_of_left hs
  have hne' : required (g.map (Part.mapT ρ)) ++ required (i.map (Part.mapT ρ)) ≠ [] := by
    rw [required_mapT, required_mapT, ← List.map_append]
    simpa using hne
  have hx' : AllRequired (x.map (Part.mapT ρ)) := by
    intro p hp
    obtain ⟨p, hp1, rfl⟩ := List.mem_map.1 hp
    have := hx p hp1
    cases p <;> first | rfl | exact this
  obtain ⟨es, its, h1, h2, h3, h4⟩ := C24_partial hr hf hq hne hx hse hn
  obtain ⟨es', its', h1', h2', h3', h4'⟩ := C24_partial hr' hf' hq' hne' hx' hse' hn'
  have hal : (mapOf (calls h)).Renamed ρ (mapOf (calls h')) := by
    rw [hc] at hk' ⊢
    exact (MapWorld.Renamed.run (σ := σ) hi (calls h) (MapWorld.Renamed.init ρ) hk hk').1
  have hmem : ∀ e, e ∈ es ↔ e ∈ es' := by
    intro e
    rw [h3, h3']
    simp only [MapWorld.Matches, MapWorld.Has, hal.life, hal.table, required_mapT, List.forall_mem_map, Table.get_mapT hi]
  have hp : es.Perm es' := (List.perm_ext_iff_of_nodup h2 h2').2 hmem
  refine ⟨its, its', h1, h1', ?_⟩
  have hp' : (its.map (fun it => some (Item.shown it))).Perm (its'.map fun it => some (Item.shown it)) := by
    rw [h4, h4', hal.table]
    simp only [shows_mapT hi]
    exact hp.map _
  have := hp'.filterMap id
  simpa [List.filterMap_map, Function.comp_def] using this

/-- Calls to which this applies with two identifiers exchanged; the sets of the group then have other positions. -/
def fairExchangeOps : List (Op Nat) :=
  [.register 0, .register 1, .register 2, .setLayout (fun t => t) [[0, 1]], .create [(0, 5), (1, 6)], .create [(1, 8), (2, 1)],
    .insert ⟨1, 1⟩ [(0, 7)], .remove ⟨0, 1⟩ [1, 2], .maintain, .destroy ⟨0, 1⟩]

example : Fair fairExchangeOps ∧ Fair (fairExchangeOps.map (Op.mapT exchange01 exchange01)) ∧
    MapWorld.init.LayoutsKnown fairExchangeOps ∧
    MapWorld.init.LayoutsKnown (fairExchangeOps.map (Op.mapT exchange01 exchange01)) := by decide +kernel

example : MapWorld.init.AllFair fairExchangeOps ∧ MapWorld.init.AllSame fairExchangeOps ∧
    ∀ gs ∈ fairExchangeOps.filterMap Op.layout, LayoutOK (GroupLayout.build (gs.map (List.map exchange01))).2 ∧
      LayoutFits (GroupLayout.build (gs.map (List.map exchange01))).2 := by decide +kernel

example : holdsAfter fairExchangeOps (fun _ w => decide (
      (QueryAll.new w [] [.entity, .ref 0, .ref 1] [] [] >>= fun q => q.1.items) =
        .ok [[.entity ⟨1, 1⟩, .ref 3 0 7, .ref 4 0 8]])) = true ∧
    holdsAfter (fairExchangeOps.map (Op.mapT exchange01 exchange01)) (fun _ w => decide (
      (QueryAll.new w [] [.entity, .ref 1, .ref 0] [] [] >>= fun q => q.1.items) =
        .ok [[.entity ⟨1, 1⟩, .ref 4 0 7, .ref 3 0 8]])) = true := by constructor <;> decide +kernel

end Sparsey
