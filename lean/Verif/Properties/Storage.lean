import Verif.Model.Query
import Verif.Properties.Components
import Verif.Proofs.Static
import Mathlib.Tactic.IntervalCases

/-!
Properties of `extend`, `register`, unregistered types, views, `set_layout` and groups: C17, C18, C19, C20, C22, C23,
C38. See `Verif/Properties/Components.lean` for the reading of the statements.
-/

set_option autoImplicit false
set_option linter.unusedSimpArgs false

namespace Sparsey
variable {V : Type}

/-! ### C17 -/

namespace Table

theorem mem_setAll {e : Entity} {p : (TypeId × Entity) × V} : ∀ (vs : List (TypeId × V)) {tb : Table V}, p ∈ tb →
    ∃ q ∈ tb.setAll e vs, q.1 = p.1
  | [], _, h => ⟨p, h, rfl⟩
  | (t, v) :: vs, tb, h => by
    by_cases hp : p.1 = (t, e)
    · obtain ⟨q, hq, h1⟩ := mem_setAll (p := ((t, e), v)) vs (tb := tb.set t e v) (List.mem_cons_self ..)
      exact ⟨q, hq, by rw [h1, hp]⟩
    · exact mem_setAll vs (List.mem_cons.2 (.inr (List.mem_filter.2 ⟨h, by simpa using hp⟩)))

theorem mem_setItems {ts : List TypeId} {p : (TypeId × Entity) × V} : ∀ (l : List (Entity × List V)) {tb : Table V},
    p ∈ tb → ∃ q ∈ tb.setItems ts l, q.1 = p.1
  | [], _, h => ⟨p, h, rfl⟩
  | (e, vs) :: l, tb, h => by
    obtain ⟨q, hq, h1⟩ := mem_setAll (e := e) (ts.zip vs) h
    obtain ⟨q', hq', h2⟩ := mem_setItems l hq
    exact ⟨q', hq', h2.trans h1⟩

theorem setItems_other {ts : List TypeId} {x : Entity} : ∀ (l : List (Entity × List V)) (tb : Table V) (t : TypeId),
    x ∉ l.map (·.1) → (tb.setItems ts l).get t x = tb.get t x
  | [], _, _, _ => rfl
  | (e, vs) :: l, tb, t, h => by
    simp only [List.map_cons, List.mem_cons, not_or] at h
    rw [setItems, setItems_other l _ t h.2, get_setAll_last, if_neg h.1]

theorem setItems_get {ts : List TypeId} : ∀ (l : List (Entity × List V)) (tb : Table V) (t : TypeId),
    (l.map (·.1)).Nodup → ∀ (i : Nat) (e : Entity) (vs : List V), l[i]? = some (e, vs) →
    (tb.setItems ts l).get t e = (lastOf (ts.zip vs) t).or (tb.get t e)
  | [], _, _, _, _, _, _, h => by simp at h
  | (e', vs') :: l, tb, t, hn, 0, e, vs, h => by
    simp only [List.getElem?_cons_zero, Option.some.injEq, Prod.mk.injEq] at h
    obtain ⟨rfl, rfl⟩ := h
    rw [setItems, setItems_other l _ t (List.nodup_cons.1 hn).1, get_setAll_last, if_pos rfl]
  | (e', vs') :: l, tb, t, hn, i + 1, e, vs, h => by
    simp only [List.getElem?_cons_succ] at h
    rw [setItems, setItems_get l _ t (List.nodup_cons.1 hn).2 i e vs h, get_setAll_last, if_neg]
    rintro rfl
    exact (List.nodup_cons.1 hn).1 (List.mem_map.2 ⟨_, List.mem_of_getElem? h, rfl⟩)

end Table

/-- `create` for each item in turn. -/
def createEach (ts : List TypeId) (items : List (List V)) : List (Op V) := items.map fun vs => .create (ts.zip vs)

theorem MapWorld.createEach_eq {ts : List TypeId} : ∀ (items : List (List V)) (s : MapWorld V), s.knows ts →
    (s.life.makes items.length).length = items.length →
    s.answers (createEach ts items) = (s.life.makes items.length).map .entity ∧
    (s.run (createEach ts items)).life = s.life.run ((s.life.makes items.length).map .made) ∧
    (s.run (createEach ts items)).table = s.table.setItems ts ((s.life.makes items.length).zip items) ∧
    (s.run (createEach ts items)).reg = s.reg ∧ (s.run (createEach ts items)).groups = s.groups
  | [], s, _, _ => ⟨rfl, rfl, rfl, rfl, rfl⟩
  | vs :: items, s, hk, hl => by
    by_cases hx : s.life.exhausted
    · simp [Life.makes, hx] at hl
    have hm : s.life.makes (items.length + 1) =
        s.life.nextEntity :: (s.life.step (.made s.life.nextEntity)).makes items.length := by
      simp [Life.makes, hx]
    simp only [List.length_cons] at hl ⊢
    rw [hm] at hl ⊢
    have hk' : s.knows ((ts.zip vs).map (·.1)) := by
      intro t ht
      obtain ⟨p, hp, rfl⟩ := List.mem_map.1 ht
      exact hk _ (List.of_mem_zip hp).1
    have ha : s.answer (.create (ts.zip vs)) = .entity s.life.nextEntity := by
      simp [MapWorld.answer, hx, hk']
    have hn : s.next (.create (ts.zip vs)) =
        ⟨s.life.step (.made s.life.nextEntity), s.reg, s.groups, s.table.setAll s.life.nextEntity (ts.zip vs)⟩ := by
      simp [MapWorld.next, ha, events, Life.run, MapWorld.regAfter, MapWorld.groupsAfter, MapWorld.tableAfter, hx,
        known_all hk']
    obtain ⟨h2, h3, h4, h5, h6⟩ := createEach_eq items (s.next (.create (ts.zip vs))) (by rw [hn]; exact hk)
      (by rw [hn]; simpa using hl)
    refine ⟨?_, ?_, ?_, ?_, ?_⟩
    · show s.answer (.create (ts.zip vs)) :: (s.next (.create (ts.zip vs))).answers (createEach ts items) = _
      rw [ha, h2, hn]
      rfl
    · show ((s.next (.create (ts.zip vs))).run (createEach ts items)).life = _
      rw [h3, hn]
      rfl
    · show ((s.next (.create (ts.zip vs))).run (createEach ts items)).table = _
      rw [h4, hn]
      rfl
    · show ((s.next (.create (ts.zip vs))).run (createEach ts items)).reg = _
      rw [h5, hn]
    · show ((s.next (.create (ts.zip vs))).run (createEach ts items)).groups = _
      rw [h6, hn]

/-- C17 is false in general: right after `extend` a given component does not read back. -/
theorem C17_false : ∃ (h : History Nat) (w w' : World Nat) (e : Entity), Reach World.empty h w ∧
    step w (.extend [0, 1] ⟨[[20, 30]], false⟩) = some (.entities [e], w') ∧ w'.viewGet 0 e = .ok none := by
  obtain ⟨rs, w, hr, hf⟩ := reach_witness
    (ops := ([.setLayout anyOrder [[0, 1]], .create [(0, 5)], .create [], .destroy ⟨1, 1⟩] : List (Op Nat)))
    (f := fun _ (w : World Nat) => decide ((step w (.extend [0, 1] ⟨[[20, 30]], false⟩)).map
      (fun p => (p.1, p.2.viewGet 0 ⟨1, 2⟩)) = some (.entities [⟨1, 2⟩], .ok none))) (by decide)
  simp only [decide_eq_true_eq] at hf
  cases hs : step w (.extend [0, 1] ⟨[[20, 30]], false⟩) with
  | none => rw [hs] at hf; cases hf
  | some p =>
    rw [hs] at hf
    obtain ⟨r, w'⟩ := p
    simp only [Option.map_some, Option.some.injEq, Prod.mk.injEq] at hf
    obtain ⟨rfl, hf⟩ := hf
    exact ⟨_, w, w', _, hr, hs, hf⟩

theorem Life.makes_issued : ∀ (n : Nat) (l : Life),
    (l.run ((l.makes n).map .made)).issued = (l.makes n).reverse ++ l.issued
  | 0, _ => rfl
  | n + 1, l => by
    by_cases hx : l.exhausted
    · simp [Life.makes, hx, Life.run]
    · simp only [Life.makes, hx, if_false, List.map_cons, Life.run_cons, Life.makes_issued n, List.reverse_cons,
        List.append_assoc, List.cons_append, List.nil_append]
      simp [Life.step]

theorem Life.mem_makes_alive (es : List Entity) : ∀ (l : Life) (x : Entity),
    x ∈ (l.run (es.map .made)).alive ↔ x ∈ es ∨ x ∈ l.alive := by
  induction es with
  | nil => simp [Life.run]
  | cons e es ih =>
    intro l x
    rw [List.map_cons, Life.run_cons, ih]
    simp only [Life.step, List.mem_cons]
    tauto

/-- C17: `extend` returns one new entity per item, the `i`-th one has exactly the components of the `i`-th item, and the
world reads the same as after calling `create` for each item in turn (which returns the same entities). The bound on
the number of items is that indexes do not run out. Missing: histories that are not `Fair`. -/
theorem C17_partial {h : History V} {w : World V} (hr : Reach World.empty h w) {ts : List TypeId}
    {items : List (List V)} (hg : Fair (calls h ++ [.extend ts ⟨items, false⟩]))
    (hreg : ∀ t ∈ ts, w.isRegistered t = true) (hx : ((life h).makes items.length).length = items.length) :
    ∃ es w₁, step w (.extend ts ⟨items, false⟩) = some (.entities es, w₁) ∧
      es.length = items.length ∧ es.Nodup ∧ (∀ e ∈ es, e ∉ (life h).issued) ∧
      (∀ (i : Nat) e vs, es[i]? = some e → items[i]? = some vs → ∀ t, w.isRegistered t = true →
        w₁.viewGet t e = .ok (lastOf (ts.zip vs) t)) ∧
      (∀ t x, x ∉ es → w₁.viewGet t x = w.viewGet t x) ∧
      (∀ x, w₁.containsEntity x = true ↔ x ∈ es ∨ w.containsEntity x = true) ∧
      (Fair (calls h ++ createEach ts items) →
        ∃ w₂, run w (createEach ts items) = some (es.map .entity, w₂) ∧
          (∀ t x, w₁.viewGet t x = w₂.viewGet t x) ∧ (∀ x, w₁.containsEntity x = w₂.containsEntity x) ∧
          (∀ t, w₁.isRegistered t = w₂.isRegistered t)) := by
  have hsplit : Fair (calls h ++ createEach ts items) → FairFrom w (mapOf (calls h)) (createEach ts items) :=
    fun hc => ((FairFrom.split (calls h) (createEach ts items) hr.run).1 hc).2
  obtain ⟨hg, hf, hv⟩ := hg.snoc hr
  have hi := reach_invL hr hg
  have hl := reach_lifeL_eq hr hg
  rw [hl] at hx ⊢
  obtain ⟨w₁, hs, hi₁⟩ := reach_nextL hr hg hf hv
  generalize hs0 : mapOf (calls h) = s at *
  have hk : s.knows ts := fun t ht => (hi.registered_iff t).1 (hreg t ht)
  have hmk : s.extendMakes ts ⟨items, false⟩ = s.life.makes items.length := by simp [MapWorld.extendMakes, hk]
  have ha : s.answer (.extend ts ⟨items, false⟩) = .entities (s.life.makes items.length) := by
    simp [MapWorld.answer, hk, hmk, hx]
  have hn : s.next (.extend ts ⟨items, false⟩) =
      ⟨s.life.run ((s.life.makes items.length).map .made), s.reg, s.groups,
        s.table.setItems ts ((s.life.makes items.length).zip items)⟩ := by
    simp [MapWorld.next, ha, events, MapWorld.regAfter, MapWorld.groupsAfter, MapWorld.tableAfter, hmk]
  rw [hn] at hi₁
  rw [ha] at hs
  obtain ⟨h2, h3, h4, h5, h6⟩ := MapWorld.createEach_eq items s hk hx
  have hnd := hi₁.life.issuedNodup
  simp only at hnd
  rw [Life.makes_issued, List.nodup_append] at hnd
  have hes : (s.life.makes items.length).Nodup := by simpa using hnd.1
  have hnew : ∀ e ∈ s.life.makes items.length, e ∉ s.life.issued := fun e he hc => hnd.2.2 e (by simpa using he) e hc rfl
  have hfst : ((s.life.makes items.length).zip items).map (·.1) = s.life.makes items.length := by
    rw [List.map_fst_zip]
    omega
  refine ⟨_, w₁, hs, hx, hes, hnew, fun i e vs he hv t ht => ?_, fun t x hx => ?_, fun x => ?_, fun hc => ?_⟩
  · have ht := (hi.registered_iff t).1 ht
    rw [hi₁.viewGet, if_pos ht, Table.setItems_get _ _ t (by rw [hfst]; exact hes) i e vs
      (by simp [List.getElem?_zip_eq_some, he, hv]), hi.get_dead, Option.or_none]
    intro hc
    exact hnew e (List.mem_of_getElem? he) (hi.life.liveIssued e (by simp [(hi.life.alive e).2 hc]))
  · rw [hi₁.viewGet, hi.viewGet, Table.setItems_other _ _ _ (by rw [hfst]; exact hx)]
  · rw [hi₁.contains_iff, hi.contains_iff]
    exact Life.mem_makes_alive _ _ x
  · obtain ⟨w₂, hs₂, hi₂⟩ := run_fair _ _ _ hi (hsplit hc)
    rw [h2] at hs₂
    refine ⟨w₂, hs₂, fun t x => ?_, fun x => ?_, fun t => ?_⟩
    · rw [hi₁.viewGet, hi₂.viewGet]
      simp only [h4, h5]
    · rw [Bool.eq_iff_iff, hi₁.contains_iff, hi₂.contains_iff, h3]
    · rw [Bool.eq_iff_iff, hi₁.registered_iff, hi₂.registered_iff, h5]

example : Fair (goodOps.take 5 ++ createEach [0, 9] [[20, 21], [22, 23]]) := by decide +kernel

example : Fair (goodOps.take 5 ++ [.extend [0, 9] ⟨[[20, 21], [22, 23]], false⟩]) ∧
    (mapOf (goodOps.take 5)).life.makes 2 = [⟨3, 1⟩, ⟨4, 1⟩] := by decide +kernel

/-! ### C18 -/

/-- C18, `register`, in every reachable world: it returns `true` exactly when the type was not registered; afterwards
it is; other registrations, entities and the components of all registered types stay; the new type has no
components. -/
theorem C18_register {h : History V} {w : World V} (hr : Reach World.empty h w) (t : TypeId) :
    ∃ w', step w (.register t) = some (.bool (!w.isRegistered t), w') ∧
      (∀ t', w'.isRegistered t' = true ↔ t' = t ∨ w.isRegistered t' = true) ∧ w'.entities = w.entities ∧
      (∀ t' e, w.isRegistered t' = true → w'.viewGet t' e = w.viewGet t' e) ∧
      (∀ e, w.isRegistered t = false → w'.viewGet t e = .ok none) := by
  have hst := reach_static hr
  refine ⟨(w.register t).2, ?_, ?_⟩
  · simp only [step, World.isRegistered, ComponentStorage.isRegistered, World.register, ComponentStorage.register]
    cases w.components.meta? t <;> rfl
  simp only [World.isRegistered, ComponentStorage.isRegistered, World.register, ComponentStorage.register]
  cases hm : w.components.meta? t with
  | some m =>
    refine ⟨fun t' => ?_, trivial, fun _ _ _ => rfl, fun e h => by simp at h⟩
    refine ⟨.inr, fun h => h.elim (fun h => ?_) id⟩
    subst h
    simp [hm]
  | none =>
    refine ⟨fun t' => ?_, trivial, fun t' e ht => ?_, fun e _ => ?_⟩
    · simp only [ComponentStorage.meta?, insertMeta_lookup]
      split <;> simp_all
    · obtain ⟨m', hm'⟩ := Option.isSome_iff_exists.1 ht
      have hne : t' ≠ t := by rintro rfl; rw [hm] at hm'; cases hm'
      have hi := hst.idx _ _ hm'
      have hm'' : w.components.metadata.lookup t' = some m' := hm'
      simp only [World.viewGet, World.borrow, ComponentStorage.meta?, insertMeta_lookup, if_neg hne, hm'',
        List.getElem?_append_left hi]
    · simp [World.viewGet, World.borrow, ComponentStorage.meta?, insertMeta_lookup, Res.unchecked, CompSet.get,
        CompSet.new, SparseVec.new, SparseVec.get]

/-- C18 is false in general: a panicking `set_layout` unregisters a type. -/
theorem C18_false : ∃ (h : History Nat) (w w' : World Nat) (op : Op Nat) (r : Ret Nat), Reach World.empty h w ∧
    step w op = some (r, w') ∧ w.isRegistered 99 = true ∧ w'.isRegistered 99 = false := by
  obtain ⟨rs, w, hr, hf⟩ := reach_witness (ops := ([.register 99] : List (Op Nat)))
    (f := fun _ w => decide (w.isRegistered 99 = true) &&
      decide ((step w (.setLayout anyOrder [List.range 16])).map (fun p => p.2.isRegistered 99) = some false))
      (by decide)
  simp only [Bool.and_eq_true, decide_eq_true_eq] at hf
  obtain ⟨h1, hf⟩ := hf
  cases hs : step w (.setLayout anyOrder [List.range 16]) with
  | none => rw [hs] at hf; cases hf
  | some p =>
    rw [hs] at hf
    exact ⟨_, w, p.2, _, p.1, hr, hs, h1, by simpa using hf⟩

/-- C18: a registered type stays registered as long as no `set_layout` call panics (all other calls may panic, and no
assumption is made on the history before). Missing: panicking `set_layout` calls. -/
theorem C18_partial {w : World V} {h : History V} {w' : World V} (hr : Reach w h w')
    (hp : ∀ rank gs r, (Op.setLayout rank gs, r) ∈ h → r = .unit) {t : TypeId} (ht : w.isRegistered t = true) :
    w'.isRegistered t = true := by
  induction hr with
  | nil => exact ht
  | snoc _ hs ih =>
    refine step_registered hs (fun rank gs h => ?_) (ih fun rank gs r hm => hp rank gs r (by simp [hm]))
    subst h
    exact hp rank gs _ (by simp)

example : ∃ h w, Reach (World.empty : World Nat) h w ∧ calls h = goodOps ∧
    ∀ rank gs r, (Op.setLayout rank gs, r) ∈ h → r = .unit := by
  obtain ⟨rs, w, hr, hf⟩ := reach_witness (ops := goodOps) (f := fun rs _ => decide (rs[2]? = some (Ret.unit : Ret Nat) ∧
    rs.length = 17)) (by decide +kernel)
  simp only [decide_eq_true_eq] at hf
  obtain ⟨h2, hl⟩ := hf
  refine ⟨_, w, hr, by simp [calls, List.map_fst_zip, hl, goodOps], fun rank gs r hm => ?_⟩
  obtain ⟨i, hi⟩ := List.mem_iff_getElem?.1 hm
  rw [List.getElem?_zip_eq_some] at hi
  obtain ⟨h3, h4⟩ := hi
  have : i = 2 := by
    have hlt := (List.getElem?_eq_some_iff.1 h3).1
    simp only [goodOps, List.length_cons, List.length_nil] at hlt
    interval_cases i <;> first | rfl | simp [goodOps] at h3
  subst this
  rw [h2] at h4
  exact (Option.some.inj h4).symm

/-! ### C19 and C38 -/

/-- C19, in every reachable world: `extend`, `remove`, `delete`, `borrow` and `borrow_mut` with an unregistered type
panic and change nothing. -/
theorem C19_noeffect {h : History V} {w : World V} (_ : Reach World.empty h w) {t : TypeId}
    (ht : w.isRegistered t = false) :
    (∀ ts it, t ∈ ts → step w (.extend ts it) = some (.panicked [], w)) ∧
    (∀ e ts, t ∈ ts → step w (.remove e ts) = some (.panicked [], w)) ∧
    (∀ e ts, t ∈ ts → step w (.delete e ts) = some (.panicked [], w)) ∧
    (∀ e v, step w (.write t e v) = some (.panicked [], w)) ∧
    (∀ pos v, step w (.writeAt t pos v) = some (.panicked [], w)) ∧ w.borrow t = .panic := by
  have hm : w.components.meta? t = none := by simpa [World.isRegistered, ComponentStorage.isRegistered] using ht
  have hl : ∀ f ts, t ∈ ts → w.components.lookupAll f ts = .panic := by
    intro f ts
    induction ts with
    | nil => simp
    | cons t' ts ih =>
      intro h
      rw [ComponentStorage.lookupAll]
      rcases List.mem_cons.1 h with rfl | h
      · simp [hm]
      · cases w.components.meta? t' with
        | none => rfl
        | some m => simp [ih h]
  refine ⟨fun ts it h => ?_, fun e ts h => ?_, fun e ts h => ?_, fun e v => ?_, fun pos v => ?_, ?_⟩
  · simp [step, extendMade, World.extend, hl _ ts h, Outcome.ofRes, retOutcome]
  · simp [step, World.remove, ComponentStorage.remove, hl _ ts h, retRes]
  · simp [step, World.delete, ComponentStorage.delete, hl _ ts h, retRes]
  · simp [step, World.writeView, hm, retRes]
  · simp [step, World.writeAt, hm, retRes]
  · simp [World.borrow, hm]

/-- C19, `insert`: with an unregistered type it panics for a living entity; the components in front of the unregistered
type are stored, and nothing else changes. Later calls keep working: the theorems of this development apply to
histories containing such calls (a query over a group that the interrupted call completed is the exception,
`C19_false`). Missing: histories before the call that are not `Fair`. -/
theorem C19_insert_partial {h : History V} {w : World V} (hr : Reach World.empty h w) {e : Entity}
    {vs : List (TypeId × V)} (hg : Fair (calls h)) (he : w.containsEntity e = true)
    (ht : ∃ p ∈ vs, w.isRegistered p.1 = false) :
    ∃ w', step w (.insert e vs) = some (.panicked [], w') ∧
      (∀ x, w'.containsEntity x = w.containsEntity x) ∧ (∀ t, w'.isRegistered t = w.isRegistered t) ∧
      (∀ t x, x ≠ e → w'.viewGet t x = w.viewGet t x) ∧
      (∀ t, w.isRegistered t = true → w'.viewGet t e =
        match lastOf (vs.takeWhile fun p => w.isRegistered p.1) t with
        | some v => .ok (some v)
        | none => w.viewGet t e) := by
  have hi := reach_invL hr hg
  obtain ⟨w', hs, hi'⟩ := reach_nextL hr hg (op := .insert e vs) trivial (w.even_insert_unreg e ht)
  generalize mapOf (calls h) = s at *
  have hk : ¬ s.knows (vs.map (·.1)) := by
    obtain ⟨p, hp, hn⟩ := ht
    intro hk
    rw [(hi.registered_iff p.1).2 (hk _ (List.mem_map.2 ⟨p, hp, rfl⟩))] at hn
    cases hn
  have he := (hi.contains_iff e).1 he
  have ha : s.answer (.insert e vs) = .panicked [] := by simp [MapWorld.answer, he, hk]
  have hn : s.next (.insert e vs) = ⟨s.life, s.reg, s.groups, s.table.setAll e (s.known vs)⟩ := by
    simp [MapWorld.next, ha, events, Life.run, MapWorld.regAfter, MapWorld.groupsAfter, MapWorld.tableAfter, he]
  have hkn : s.known vs = vs.takeWhile fun p => w.isRegistered p.1 := by
    unfold MapWorld.known
    congr 1
    funext p
    rw [Bool.eq_iff_iff, hi.registered_iff, decide_eq_true_eq]
  rw [hn] at hi'
  rw [ha] at hs
  refine ⟨w', hs, fun x => ?_, fun t => ?_, fun t x hx => ?_, fun t ht => ?_⟩
  · rw [Bool.eq_iff_iff, hi.contains_iff, hi'.contains_iff]
  · rw [Bool.eq_iff_iff, hi.registered_iff, hi'.registered_iff]
  · rw [hi'.viewGet, hi.viewGet, Table.get_setAll_last, if_neg hx]
  · have ht := (hi.registered_iff t).1 ht
    rw [hi'.viewGet, hi.viewGet, if_pos ht, if_pos ht, Table.get_setAll_last, if_pos rfl, hkn]
    cases lastOf _ t <;> rfl

/-- The interrupted call completes the group of types 4 and 5, and the calls are `Fair` but not `Good`. -/
example : let vs : List (TypeId × Nat) := [(5, 70), (4, 71), (8, 72), (0, 73)]
    Fair goodOps ∧ Fair (goodOps ++ [.insert ⟨3, 1⟩ vs]) ∧ ¬ Good (goodOps ++ [.insert ⟨3, 1⟩ vs]) ∧
    holdsAfter goodOps (fun _ w => w.containsEntity ⟨3, 1⟩ && !w.isRegistered 8) = true := by decide +kernel

/-- C19, `create`: with an unregistered type it panics; the new entity exists with the components in front of the
unregistered type, and nothing else changes. Missing: as for `C19_insert_partial`. -/
theorem C19_create_partial {h : History V} {w : World V} (hr : Reach World.empty h w)
    {vs : List (TypeId × V)} (hg : Fair (calls h)) (hx : ¬ (life h).exhausted)
    (ht : ∃ p ∈ vs, w.isRegistered p.1 = false) :
    ∃ w' e, step w (.create vs) = some (.panicked [e], w') ∧ e ∉ (life h).issued ∧
      (∀ x, w'.containsEntity x = true ↔ x = e ∨ w.containsEntity x = true) ∧
      (∀ t, w'.isRegistered t = w.isRegistered t) ∧ (∀ t x, x ≠ e → w'.viewGet t x = w.viewGet t x) ∧
      (∀ t, w.isRegistered t = true →
        w'.viewGet t e = .ok (lastOf (vs.takeWhile fun p => w.isRegistered p.1) t)) := by
  have hi := reach_invL hr hg
  have hl := reach_lifeL_eq hr hg
  rw [hl] at hx ⊢
  obtain ⟨w', hs, hi'⟩ := reach_nextL hr hg (op := .create vs) trivial (w.even_create_unreg ht)
  generalize mapOf (calls h) = s at *
  have hk : ¬ s.knows (vs.map (·.1)) := by
    obtain ⟨p, hp, hn⟩ := ht
    intro hk
    rw [(hi.registered_iff p.1).2 (hk _ (List.mem_map.2 ⟨p, hp, rfl⟩))] at hn
    cases hn
  have ha : s.answer (.create vs) = .panicked [s.life.nextEntity] := by simp [MapWorld.answer, hx, hk]
  have hn : s.next (.create vs) =
      ⟨s.life.step (.made s.life.nextEntity), s.reg, s.groups, s.table.setAll s.life.nextEntity (s.known vs)⟩ := by
    simp [MapWorld.next, ha, events, Life.run, MapWorld.regAfter, MapWorld.groupsAfter, MapWorld.tableAfter, hx]
  have hkn : s.known vs = vs.takeWhile fun p => w.isRegistered p.1 := by
    unfold MapWorld.known
    congr 1
    funext p
    rw [Bool.eq_iff_iff, hi.registered_iff, decide_eq_true_eq]
  rw [hn] at hi'
  rw [ha] at hs
  have hnew : s.life.nextEntity ∉ s.life.issued := by
    have := hi'.life.issuedNodup
    simp only [Life.step, List.nodup_cons] at this
    exact this.1
  refine ⟨w', _, hs, hnew, fun x => ?_, fun t => ?_, fun t x hx => ?_, fun t ht => ?_⟩
  · rw [hi.contains_iff, hi'.contains_iff]
    simp [Life.step]
  · rw [Bool.eq_iff_iff, hi.registered_iff, hi'.registered_iff]
  · rw [hi'.viewGet, hi.viewGet, Table.get_setAll_last, if_neg hx]
  · have ht := (hi.registered_iff t).1 ht
    rw [hi'.viewGet, if_pos ht, Table.get_setAll_last, if_pos rfl, hkn, hi.get_dead, Option.or_none]
    intro hc
    exact hnew (hi.life.liveIssued _ (by simp [(hi.life.alive _).2 hc]))

example : Fair goodOps ∧ ¬ Good (goodOps ++ [.create [(4, 70), (5, 71), (8, 72)]]) ∧ ¬ (mapOf goodOps).life.exhausted ∧
    holdsAfter goodOps (fun _ w => !w.isRegistered 8) = true := by decide +kernel

/-- C38: if the iterator given to `extend` panics after `items`, one new entity per item exists with exactly its
components and nothing else changes; later calls keep working since the theorems of this development apply to
histories containing such calls (a query over a group that the interrupted call completed is the exception,
`C38_false`). Missing: histories before the call that are not `Fair`. -/
theorem C38_partial {h : History V} {w : World V} (hr : Reach World.empty h w) {ts : List TypeId}
    {items : List (List V)} (hg : Fair (calls h))
    (hreg : ∀ t ∈ ts, w.isRegistered t = true) (hx : ((life h).makes items.length).length = items.length) :
    ∃ es w₁, step w (.extend ts ⟨items, true⟩) = some (.panicked es, w₁) ∧
      es.length = items.length ∧ es.Nodup ∧ (∀ e ∈ es, e ∉ (life h).issued) ∧
      (∀ (i : Nat) e vs, es[i]? = some e → items[i]? = some vs → ∀ t, w.isRegistered t = true →
        w₁.viewGet t e = .ok (lastOf (ts.zip vs) t)) ∧
      (∀ t x, x ∉ es → w₁.viewGet t x = w.viewGet t x) ∧
      (∀ x, w₁.containsEntity x = true ↔ x ∈ es ∨ w.containsEntity x = true) ∧
      (∀ t, w₁.isRegistered t = w.isRegistered t) := by
  have hi := reach_invL hr hg
  have hl := reach_lifeL_eq hr hg
  rw [hl] at hx ⊢
  obtain ⟨w₁, hs, hi₁⟩ := reach_nextL hr hg (op := .extend ts ⟨items, true⟩) trivial (w.even_extend_panics ts items)
  generalize hs0 : mapOf (calls h) = s at *
  have hk : s.knows ts := fun t ht => (hi.registered_iff t).1 (hreg t ht)
  have hmk : s.extendMakes ts ⟨items, true⟩ = s.life.makes items.length := by simp [MapWorld.extendMakes, hk]
  have ha : s.answer (.extend ts ⟨items, true⟩) = .panicked (s.life.makes items.length) := by
    simp [MapWorld.answer, hmk]
  have hn : s.next (.extend ts ⟨items, true⟩) =
      ⟨s.life.run ((s.life.makes items.length).map .made), s.reg, s.groups,
        s.table.setItems ts ((s.life.makes items.length).zip items)⟩ := by
    simp [MapWorld.next, ha, events, MapWorld.regAfter, MapWorld.groupsAfter, MapWorld.tableAfter, hmk]
  rw [hn] at hi₁
  rw [ha] at hs
  have hnd := hi₁.life.issuedNodup
  simp only at hnd
  rw [Life.makes_issued, List.nodup_append] at hnd
  have hes : (s.life.makes items.length).Nodup := by simpa using hnd.1
  have hnew : ∀ e ∈ s.life.makes items.length, e ∉ s.life.issued := fun e he hc => hnd.2.2 e (by simpa using he) e hc rfl
  have hfst : ((s.life.makes items.length).zip items).map (·.1) = s.life.makes items.length := by
    rw [List.map_fst_zip]
    omega
  refine ⟨_, w₁, hs, hx, hes, hnew, fun i e vs he hv t ht => ?_, fun t x hx => ?_, fun x => ?_, fun t => ?_⟩
  · have ht := (hi.registered_iff t).1 ht
    rw [hi₁.viewGet, if_pos ht, Table.setItems_get _ _ t (by rw [hfst]; exact hes) i e vs
      (by simp [List.getElem?_zip_eq_some, he, hv]), hi.get_dead, Option.or_none]
    intro hc
    exact hnew e (List.mem_of_getElem? he) (hi.life.liveIssued e (by simp [(hi.life.alive e).2 hc]))
  · rw [hi₁.viewGet, hi.viewGet, Table.setItems_other _ _ _ (by rw [hfst]; exact hx)]
  · rw [hi₁.contains_iff, hi.contains_iff]
    exact Life.mem_makes_alive _ _ x
  · rw [Bool.eq_iff_iff, hi₁.registered_iff, hi.registered_iff]

example : Fair (goodOps.take 5) ∧ ¬ Good (goodOps.take 5 ++ [.extend [9, 4, 5] ⟨[[20, 1, 2], [22, 3, 4]], true⟩]) ∧
    (mapOf (goodOps.take 5)).life.makes 2 = [⟨3, 1⟩, ⟨4, 1⟩] ∧
    holdsAfter (goodOps.take 5) (fun _ w => w.isRegistered 9 && w.isRegistered 4 && w.isRegistered 5) = true := by decide +kernel

/-! ### C20 -/

/-- C20 is false in general: an entity listed by the view is not found by it. -/
theorem C20_false : ∃ (h : History Nat) (w : World Nat) (c : CompSet Nat) (t : TypeId) (e : Entity),
    Reach World.empty h w ∧ w.borrow t = .ok c ∧ e ∈ c.entities ∧ c.get e = .ok none := by
  obtain ⟨rs, w, hr, hf⟩ := reach_witness (ops := mixOps)
    (f := fun _ w => match w.borrow 0 with
      | .ok c => decide ((⟨0, 2⟩ : Entity) ∈ c.entities ∧ c.get ⟨0, 2⟩ = .ok none)
      | _ => false) (by decide)
  cases hb : w.borrow 0 with
  | ok c =>
    rw [hb] at hf
    simp only [decide_eq_true_eq] at hf
    exact ⟨_, w, c, 0, ⟨0, 2⟩, hr, hb, hf⟩
  | panic => rw [hb] at hf; cases hf
  | ub => rw [hb] at hf; cases hf

/-- C20: a view of a registered type can be borrowed; `entities()` has no duplicates and the length of `as_slice()`;
`get(e)` is the component at the position of `e`, `None` if it does not occur; `contains` and `len` agree. Views of
unregistered types panic. Missing: histories that are not `Fair`. -/
theorem C20_partial {h : History V} {w : World V} (hr : Reach World.empty h w) (hg : Fair (calls h)) (t : TypeId) :
    (w.isRegistered t = false → w.borrow t = .panic) ∧
    (w.isRegistered t = true → ∃ c, w.borrow t = .ok c ∧ c.entities.Nodup ∧
      c.components.length = c.entities.length ∧ c.len = c.entities.length ∧
      (∀ (i : Nat) e, c.entities[i]? = some e → ∃ v, c.components[i]? = some v ∧ c.get e = .ok (some v)) ∧
      (∀ e, e ∉ c.entities → c.get e = .ok none) ∧
      (∀ e, c.contains e = true ↔ e ∈ c.entities) ∧
      (∀ e ∈ c.entities, e ∈ (life h).alive)) := by
  have hi := reach_invL hr hg
  rw [reach_lifeL_eq hr hg]
  refine ⟨fun ht => hi.borrow_unreg ?_, fun ht => ?_⟩
  · rw [← hi.registered_iff, ht]; simp
  · obtain ⟨c, hc, hw, hs, hv, hm⟩ := hi.borrow_reg ((hi.registered_iff t).1 ht)
    refine ⟨c, hc, Rep.nodup hw.rep, hw.len, rfl, fun i e he => ?_, fun e he => ?_, hw.contains_iff, hs⟩
    · obtain ⟨v, hv'⟩ := hw.comp_at he
      exact ⟨v, hv', by rw [hw.get_eq, hw.val_at he, hv']⟩
    · rw [hw.get_eq, (hw.val_eq_none e).2 he]

/-! ### C22 -/

/-- C22 is false in general: a type outside of the layout is unregistered and its component is lost, because
`set_layout` panics for the documented maximum arity. -/
theorem C22_false : ∃ (h : History Nat) (w w' : World Nat), Reach World.empty h w ∧
    step w (.setLayout anyOrder [List.range 16]) = some (.panicked [], w') ∧
    w.viewGet 99 ⟨0, 1⟩ = .ok (some 7) ∧ w.isRegistered 99 = true ∧ w'.isRegistered 99 = false := by
  obtain ⟨rs, w, hr, hf⟩ := reach_witness (ops := ([.register 99, .create [(99, 7)]] : List (Op Nat)))
    (f := fun _ w => decide (w.viewGet 99 ⟨0, 1⟩ = .ok (some 7) ∧ w.isRegistered 99 = true) &&
      decide ((step w (.setLayout anyOrder [List.range 16])).map (fun p => (p.1, p.2.isRegistered 99)) =
        some (.panicked [], false))) (by decide)
  simp only [Bool.and_eq_true, decide_eq_true_eq] at hf
  obtain ⟨⟨h1, h2⟩, hf⟩ := hf
  cases hs : step w (.setLayout anyOrder [List.range 16]) with
  | none => rw [hs] at hf; cases hf
  | some p =>
    rw [hs] at hf
    obtain ⟨r, w'⟩ := p
    simp only [Option.map_some, Option.some.injEq, Prod.mk.injEq] at hf
    obtain ⟨rfl, hf⟩ := hf
    exact ⟨_, w, w', hr, hs, h1, h2, hf⟩

/-- C22 is also false without any panic in `set_layout`: with a layout on which an `add_group` call panicked (and the
panic was caught) the components of the groups are lost. -/
theorem C22_silent_false : ∃ (h : History Nat) (w w' : World Nat), Reach World.empty h w ∧
    step w (.setLayout anyOrder [[0, 1], [2, 3], [0, 1, 2, 3]]) = some (.unit, w') ∧
    w.viewGet 0 ⟨0, 1⟩ = .ok (some 7) ∧ w'.viewGet 0 ⟨0, 1⟩ = .ok none := by
  obtain ⟨rs, w, hr, hf⟩ := reach_witness (ops := ([.register 0, .create [(0, 7)]] : List (Op Nat)))
    (f := fun _ w => decide (w.viewGet 0 ⟨0, 1⟩ = .ok (some 7)) &&
      decide ((step w (.setLayout anyOrder [[0, 1], [2, 3], [0, 1, 2, 3]])).map
        (fun p => (p.1, p.2.viewGet 0 ⟨0, 1⟩)) = some (.unit, .ok none))) (by decide)
  simp only [Bool.and_eq_true, decide_eq_true_eq] at hf
  obtain ⟨h1, hf⟩ := hf
  cases hs : step w (.setLayout anyOrder [[0, 1], [2, 3], [0, 1, 2, 3]]) with
  | none => rw [hs] at hf; cases hf
  | some p =>
    rw [hs] at hf
    obtain ⟨r, w'⟩ := p
    simp only [Option.map_some, Option.some.injEq, Prod.mk.injEq] at hf
    obtain ⟨rfl, hf⟩ := hf
    exact ⟨_, w, w', hr, hs, h1, hf⟩

/-- C22: `set_layout` changes no entity and no component of a registered type, keeps all registrations and registers
the types of the layout (which then have no components), whatever the iteration order of the hash map.
Missing: histories that are not `Fair`. -/
theorem C22_partial {h : History V} {w : World V} (hr : Reach World.empty h w) {rank : TypeId → Nat}
    {gs : List (List TypeId)} (hg : Fair (calls h ++ [.setLayout rank gs])) :
    ∃ w', step w (.setLayout rank gs) = some (.unit, w') ∧
      w'.entitiesSlice = w.entitiesSlice ∧ (∀ e, w'.containsEntity e = w.containsEntity e) ∧
      (∀ t, w'.isRegistered t = true ↔ w.isRegistered t = true ∨ t ∈ layoutTypes (GroupLayout.build gs).2) ∧
      (∀ t e, w.isRegistered t = true → w'.viewGet t e = w.viewGet t e) ∧
      (∀ t e, w.isRegistered t = false → t ∈ layoutTypes (GroupLayout.build gs).2 → w'.viewGet t e = .ok none) := by
  obtain ⟨hg, hf, hv⟩ := hg.snoc hr
  have hi := reach_invL hr hg
  obtain ⟨w', hs, hi'⟩ := reach_nextL hr hg hf hv
  have he : w'.entities = w.entities := by
    simp only [step, World.setLayout] at hs
    cases hc : w.components.setLayout rank (GroupLayout.build gs).2 w.entities.asSlice with
    | ok u c => simp [hc, retOutcome] at hs; rw [← hs.2]
    | panic c => simp [hc, retOutcome] at hs; rw [← hs.2]
    | ub => simp [hc, retOutcome] at hs
  have hrg : ∀ t, t ∈ ((mapOf (calls h)).next (.setLayout rank gs)).reg ↔
      t ∈ (mapOf (calls h)).reg ∨ t ∈ layoutTypes (GroupLayout.build gs).2 := by
    intro t
    simp only [MapWorld.next, MapWorld.regAfter, List.mem_append]
    tauto
  refine ⟨w', hs, by simp [World.entitiesSlice, he], fun e => by simp [World.containsEntity, he], fun t => ?_,
    fun t e ht => ?_, fun t e ht hl => ?_⟩
  · rw [hi'.registered_iff, hi.registered_iff, hrg]
  · have ht := (hi.registered_iff t).1 ht
    rw [hi'.viewGet, hi.viewGet, if_pos ((hrg t).2 (.inl ht)), if_pos ht]
    rfl
  · rw [hi'.viewGet, if_pos ((hrg t).2 (.inr hl))]
    have : t ∉ (mapOf (calls h)).reg := by rw [← hi.registered_iff, ht]; simp
    rw [show ((mapOf (calls h)).next (.setLayout rank gs)).table = (mapOf (calls h)).table from rfl, hi.get_unreg this]

example : Fair (goodOps ++ [.setLayout (fun t => 100 - t) [[0, 1], [2, 4]], .setLayout anyOrder []]) := by decide +kernel

/-! ### C23 -/

/-- C23 is false in general: `1v1` has both types of the group `(0, 1)` according to `insert`, but the views do not show
that. -/
theorem C23_false : ∃ (h : History Nat) (w : World Nat), Reach World.empty h w ∧
    (mapOf (calls h)).groups = [[0, 1]] ∧ (mapOf (calls h)).table.get 0 ⟨1, 1⟩ = some 20 ∧
    (mapOf (calls h)).table.get 1 ⟨1, 1⟩ = some 30 ∧ w.viewGet 0 ⟨1, 1⟩ = .ok none := by
  obtain ⟨rs, w, hr, hf⟩ := reach_witness (ops := mixOps)
    (f := fun rs w => decide (rs = [.unit, .entity ⟨0, 1⟩, .bool true, .entity ⟨0, 2⟩, .entity ⟨1, 1⟩, .bool true]) &&
      decide (w.viewGet 0 ⟨1, 1⟩ = .ok none)) (by decide)
  simp only [Bool.and_eq_true, decide_eq_true_eq] at hf
  obtain ⟨rfl, hf⟩ := hf
  exact ⟨_, w, hr, by decide, by decide, by decide, hf⟩

/-- An interrupted `create` (type 9 is not registered) leaves an entity with both types of the group in the views but
not grouped: the group's query, being dense, does not find it. -/
theorem C19_false : ∃ (h : History Nat) (w : World Nat), Reach World.empty h w ∧
    w.viewGet 0 ⟨0, 1⟩ = .ok (some 10) ∧ w.viewGet 1 ⟨0, 1⟩ = .ok (some 11) ∧
    (QueryAll.new w [] [.ref 0, .ref 1] [] []).bind (fun q => q.1.items) = .ok [] := by
  obtain ⟨rs, w, hr, hf⟩ := reach_witness
    (ops := ([.setLayout anyOrder [[0, 1]], .create [(0, 10), (1, 11), (9, 12)]] : List (Op Nat)))
    (f := fun _ w => decide (w.viewGet 0 ⟨0, 1⟩ = .ok (some 10) ∧ w.viewGet 1 ⟨0, 1⟩ = .ok (some 11) ∧
    (QueryAll.new w [] [.ref 0, .ref 1] [] []).bind (fun q => q.1.items) = .ok [])) (by decide)
  simp only [decide_eq_true_eq] at hf
  exact ⟨_, w, hr, hf⟩

/-- The same for an `extend` whose iterator panics. -/
theorem C38_false : ∃ (h : History Nat) (w : World Nat), Reach World.empty h w ∧
    w.viewGet 0 ⟨0, 1⟩ = .ok (some 10) ∧ w.viewGet 1 ⟨0, 1⟩ = .ok (some 11) ∧
    (QueryAll.new w [] [.ref 0, .ref 1] [] []).bind (fun q => q.1.items) = .ok [] := by
  obtain ⟨rs, w, hr, hf⟩ := reach_witness
    (ops := ([.setLayout anyOrder [[0, 1]], .extend [0, 1] ⟨[[10, 11]], true⟩] : List (Op Nat)))
    (f := fun _ w => decide (w.viewGet 0 ⟨0, 1⟩ = .ok (some 10) ∧ w.viewGet 1 ⟨0, 1⟩ = .ok (some 11) ∧
    (QueryAll.new w [] [.ref 0, .ref 1] [] []).bind (fun q => q.1.items) = .ok [])) (by decide)
  simp only [decide_eq_true_eq] at hf
  exact ⟨_, w, hr, hf⟩

/-- C23, exactly: for every group of the current layout there is a list of entities that is the beginning of `entities()`
of all views of the group, and it consists of the entities that have all the types of the group and were not left out of
it by interrupted calls. Missing: histories that are not `Fair`. -/
theorem C23_all_partial {h : History V} {w : World V} (hr : Reach World.empty h w) (hg : Fair (calls h)) {ts : List TypeId}
    (hts : ts ∈ (mapOf (calls h)).groups) :
    ∃ pre : List Entity, pre.Nodup ∧
      (∀ t ∈ ts, ∃ c, w.borrow t = .ok c ∧ c.entities.take pre.length = pre) ∧
      (∀ e, e ∈ pre ↔ (∀ t ∈ ts, ∃ v, w.viewGet t e = .ok (some v)) ∧
        ¬ (mapOf (calls h)).LeftOut (hidden (calls h)) ts e) := by
  have hi := reach_out hr hg
  obtain ⟨k, hk⟩ := List.mem_iff_getElem?.1 hts
  obtain ⟨g, hgk⟩ : ∃ g, w.components.groups[k]? = some g := by
    have : k < w.components.groups.length := by
      rw [← hi.groups.1]; exact (List.getElem?_eq_some_iff.1 hk).1
    exact ⟨_, List.getElem?_eq_getElem this⟩
  obtain ⟨pre, h1, _, h2, h3, _⟩ := hi.group_prefix hgk hk
  refine ⟨pre, h1, fun t ht => ?_, fun e => ?_⟩
  · obtain ⟨c, hc, _, hp⟩ := h2 t ht
    exact ⟨c, hc, hp⟩
  · rw [h3, hi.leftOut_iff hk (fun _ => Iff.rfl)]
    refine and_congr_left fun _ => forall₂_congr fun t ht => ?_
    obtain ⟨c, hc, htr, _⟩ := h2 t ht
    rw [hi.viewGet, if_pos htr, Option.isSome_iff_exists]
    simp

/-- C23: for every group of the current layout there is a list of entities that is the beginning of `entities()` of all
views of the group, and it consists exactly of the entities that have all the types of the group.
Missing: histories that are not `Fair`; entities left out of the group by interrupted calls (`C52_false`). -/
theorem C23_partial {h : History V} {w : World V} (hr : Reach World.empty h w) (hg : Fair (calls h)) {ts : List TypeId}
    (hts : ts ∈ (mapOf (calls h)).groups) (hn : ∀ e, ¬ (mapOf (calls h)).LeftOut (hidden (calls h)) ts e) :
    ∃ pre : List Entity, pre.Nodup ∧
      (∀ t ∈ ts, ∃ c, w.borrow t = .ok c ∧ c.entities.take pre.length = pre) ∧
      (∀ e, e ∈ pre ↔ ∀ t ∈ ts, ∃ v, w.viewGet t e = .ok (some v)) := by
  obtain ⟨pre, h1, h2, h3⟩ := C23_all_partial hr hg hts
  exact ⟨pre, h1, h2, fun e => by rw [h3]; simp [hn e]⟩

example : Fair goodOps ∧ (mapOf goodOps).groups = [[0, 1], [0, 1, 2], [4, 5]] := by decide +kernel

/-! ### C43 -/

/-- Calls on a builder (src/world/builder.rs). -/
inductive BuilderOp where
  /-- `set_layout` with a layout built by the given `add_group` calls -/
  | setLayout (gs : List (List TypeId))
  | addGroup (g : List TypeId)
  | register (t : TypeId)

/-- One call; a panic of `add_group` is caught. -/
def WorldBuilder.step (b : WorldBuilder) : BuilderOp → WorldBuilder
  | .setLayout gs => b.setLayout (GroupLayout.build gs).2
  | .addGroup g =>
    match b.addGroup g with
    | .ok _ b => b
    | .panic b => b
    | .ub => b
  | .register t => b.register t

/-- The groups asked for: those of the last layout and those added later. -/
def builderGroups : List BuilderOp → List (List TypeId) :=
  List.foldl (fun gs op => match op with
    | .setLayout gs' => gs'
    | .addGroup g => gs ++ [g]
    | .register _ => gs) []

/-- The types registered. -/
def builderTypes : List BuilderOp → List TypeId :=
  List.foldl (fun ts op => match op with
    | .register t => ts ++ [t]
    | _ => ts) []

theorem GroupLayout.addGroups_append : ∀ (gs gs' : List (List TypeId)) (l : GroupLayout),
    (l.addGroups (gs ++ gs')).2 = ((l.addGroups gs).2.addGroups gs').2
  | [], _, _ => rfl
  | g :: gs, gs', l => by
    simp only [List.cons_append, GroupLayout.addGroups]
    cases l.addGroup g with
    | ok a l' => exact addGroups_append gs gs' l'
    | panic l' => exact addGroups_append gs gs' l'
    | ub => exact addGroups_append gs gs' l

theorem GroupLayout.addGroup_ne_ub (l : GroupLayout) (g : List TypeId) : l.addGroup g ≠ .ub := by
  have h1 : ∀ (f : GroupFamily) cs (l : List Nat) i prev, f.search cs i prev l ≠ .ub := by
    intro f cs l
    induction l with
    | nil => intro i prev; simp [GroupFamily.search]
    | cons a l ih =>
      intro i prev
      rw [GroupFamily.search]
      unfold GroupFamily.segment
      by_cases h : prev ≤ a ∧ a ≤ f.components.length
      · rw [if_pos h]
        simp only [Res.bind_ok]
        cases compare a cs.length
        · simp only; split
          · exact ih _ _
          · simp
        · simp only; split <;> simp
        · simp only; split <;> simp
      · rw [if_neg h]; simp
  have h2 : ∀ (f : GroupFamily) cs, f.tryAddGroup cs ≠ .ub := by
    intro f cs
    unfold GroupFamily.tryAddGroup
    split
    · simp
    · have := h1 f cs f.arities 0 0
      cases h : f.search cs 0 0 f.arities with
      | ub => exact absurd h this
      | panic => simp
      | ok r =>
        cases r with
        | found => simp
        | insertAt o =>
          cases o with
          | none => simp
          | some i =>
            simp only [Res.bind_ok, Res.checked, Res.assert]
            cases f.arities[i]? with
            | none => simp
            | some n => by_cases hn : n ≤ f.components.length <;> simp [hn]
  have h3 : ∀ cs (fs : List GroupFamily), GroupLayout.tryAll cs fs ≠ .ub := by
    intro cs fs
    induction fs with
    | nil => simp [GroupLayout.tryAll]
    | cons f fs ih =>
      rw [GroupLayout.tryAll]
      cases h : f.tryAddGroup cs with
      | ub => exact absurd h (h2 f cs)
      | panic => simp
      | ok p =>
        obtain ⟨b, f'⟩ := p
        cases h' : GroupLayout.tryAll cs fs with
        | ub => exact absurd h' ih
        | panic fs' => simp
        | ok n fs' => simp
  unfold GroupLayout.addGroup
  simp only
  split
  · simp
  · split
    · simp
    · cases h : GroupLayout.tryAll (dedupTypes (sortTypes g)) l.families with
      | ub => exact absurd h (h3 _ _)
      | panic fs => simp
      | ok n fs =>
        simp only
        split
        · simp
        · split <;> simp

theorem WorldBuilder.foldl_eq (ops : List BuilderOp) :
    ops.foldl WorldBuilder.step WorldBuilder.empty =
      ⟨(GroupLayout.build (builderGroups ops)).2, builderTypes ops⟩ := by
  induction ops using List.reverseRecOn with
  | nil => rfl
  | append_singleton ops op ih =>
    rw [List.foldl_append, ih]
    unfold builderGroups builderTypes
    simp only [List.foldl_append, List.foldl_cons, List.foldl_nil]
    cases op with
    | setLayout gs => rfl
    | register t => rfl
    | addGroup g =>
      simp only [WorldBuilder.step, WorldBuilder.addGroup]
      rw [show (GroupLayout.build (List.foldl _ [] ops ++ [g])).2 = _ from GroupLayout.addGroups_append _ _ _]
      simp only [GroupLayout.build, builderGroups]
      generalize (GroupLayout.addGroups GroupLayout.empty _).2 = l
      simp only [GroupLayout.addGroups]
      have := GroupLayout.addGroup_ne_ub l g
      cases h : l.addGroup g with
      | ok a l' => rfl
      | panic l' => rfl
      | ub => exact absurd h this

theorem WorldBuilder.registerAll_run : ∀ (ts : List TypeId) (w : World V),
    ∃ rs, run w (ts.map .register) = some (rs, WorldBuilder.registerAll w ts)
  | [], w => ⟨_, rfl⟩
  | t :: ts, w => by
    obtain ⟨rs, h⟩ := registerAll_run ts (w.register t).2
    exact ⟨.bool (w.register t).1 :: rs, by simp only [List.map_cons, run, Sparsey.step, h, WorldBuilder.registerAll]⟩

/-- C43, exactly: building is the same as calling `set_layout` with the groups asked for on a new world, followed by
`register` for the types asked for, whatever calls were made on the builder. -/
theorem C43_build (rank : TypeId → Nat) (ops : List BuilderOp) :
    (∀ w, (ops.foldl WorldBuilder.step WorldBuilder.empty).build rank = .ok () w → ∃ rs,
      run (World.empty : World V) (.setLayout rank (builderGroups ops) :: (builderTypes ops).map .register) =
        some (.unit :: rs, w)) := by
  intro w hw
  rw [WorldBuilder.foldl_eq, WorldBuilder.build, World.new_eq_setLayout] at hw
  cases hs : World.setLayout rank World.empty (GroupLayout.build (builderGroups ops)).2 with
  | ok u w1 =>
    rw [hs] at hw
    simp only [Outcome.bind, Outcome.ok.injEq, true_and] at hw
    obtain ⟨rs, hr⟩ := WorldBuilder.registerAll_run (builderTypes ops) w1
    refine ⟨rs, ?_⟩
    simp only [run, step, hs, retOutcome, hr, hw]
  | panic w1 => rw [hs] at hw; cases hw
  | ub => rw [hs] at hw; cases hw

/-- C43 is false in general: for the documented maximum arity `build` panics. -/
theorem C43_false : ∃ (rank : TypeId → Nat) (ops : List BuilderOp) (w : World Nat),
    (ops.foldl WorldBuilder.step WorldBuilder.empty).build rank = .panic w := by
  refine ⟨anyOrder, [.addGroup (List.range 16)], ?_⟩
  cases h : (([.addGroup (List.range 16)] : List BuilderOp).foldl WorldBuilder.step WorldBuilder.empty).build
    (V := Nat) anyOrder with
  | panic w => exact ⟨w, rfl⟩
  | ok a w =>
    have : (match (([.addGroup (List.range 16)] : List BuilderOp).foldl WorldBuilder.step
      WorldBuilder.empty).build (V := Nat) anyOrder with | .ok _ _ => true | _ => false) = false := by decide
    rw [h] at this
    cases this
  | ub =>
    have : (match (([.addGroup (List.range 16)] : List BuilderOp).foldl WorldBuilder.step
      WorldBuilder.empty).build (V := Nat) anyOrder with | .ub => true | _ => false) = false := by decide
    rw [h] at this
    cases this

/-- C43: if the groups asked for make a proper layout below the maxima, `build` returns a world without entities in
which exactly the types of the layout and the types registered with the builder are registered, and none has
components. Its history (`C43_build`) is `Good`, so the theorems on groups and queries apply to it with the groups of
that layout. Missing: layouts on which `add_group` calls went wrong, and layouts at the maxima. -/
theorem C43_partial (rank : TypeId → Nat) (ops : List BuilderOp)
    (hl : LayoutOK (GroupLayout.build (builderGroups ops)).2) (hf : LayoutFits (GroupLayout.build (builderGroups ops)).2) :
    ∃ w : World V, (ops.foldl WorldBuilder.step WorldBuilder.empty).build rank = .ok () w ∧
      Good (Op.setLayout rank (builderGroups ops) :: (builderTypes ops).map .register : List (Op V)) ∧
      w.entitiesSlice = [] ∧ (∀ e, w.containsEntity e = false) ∧
      (∀ t, w.isRegistered t = true ↔
        t ∈ layoutTypes (GroupLayout.build (builderGroups ops)).2 ∨ t ∈ builderTypes ops) ∧
      (∀ t e, w.isRegistered t = true → w.viewGet t e = .ok none) := by
  have hregs : ∀ (ts : List TypeId) (s : MapWorld V), s.table = [] → (s.AllFine (ts.map .register) ∧ s.AllUniform (ts.map .register)) ∧
      (∀ t, t ∈ (s.run (ts.map .register)).reg ↔ t ∈ s.reg ∨ t ∈ ts) ∧ (s.run (ts.map .register)).table = [] ∧
      (s.run (ts.map .register)).life = s.life := by
    intro ts
    induction ts with
    | nil => intro s hs; exact ⟨⟨trivial, trivial⟩, by simp [MapWorld.run], hs, rfl⟩
    | cons t ts ih =>
      intro s hs
      have hn : s.next (.register t) = ⟨s.life, t :: s.reg, s.groups, s.table⟩ := rfl
      obtain ⟨h1, h2, h3, h4⟩ := ih (s.next (.register t)) (by rw [hn]; exact hs)
      refine ⟨⟨⟨trivial, h1.1⟩, ?_, h1.2⟩, fun t' => ?_, h3, h4⟩
      · rw [hn]
        simp only [hs]
        intro p hp
        cases hp
      · show t' ∈ ((s.next (.register t)).run _).reg ↔ _
        rw [h2, hn]
        simp only [List.mem_cons]
        tauto
  have hfine : (MapWorld.init : MapWorld V).Fine (.setLayout rank (builderGroups ops)) :=
    ⟨hl, hf⟩
  obtain ⟨h1, h2, h3, h4⟩ := hregs (builderTypes ops)
    ((MapWorld.init : MapWorld V).next (.setLayout rank (builderGroups ops))) rfl
  have hgood : Good (Op.setLayout rank (builderGroups ops) :: (builderTypes ops).map .register : List (Op V)) :=
    good_of_uniform ⟨hfine, h1.1⟩ ⟨(by intro p hp; cases hp), h1.2⟩
  obtain ⟨w1, hs, hi1⟩ := step_refines (Inv.init : Inv (World.empty : World V) _) hfine hgood.2.1
  obtain ⟨w2, hr2, hi2⟩ := run_refines _ _ _ hi1 (goodFrom_of_uniform _ _ _ hi1 (by intro p hp; cases hp) h1.1 h1.2)
  obtain ⟨rs, hr3⟩ := WorldBuilder.registerAll_run (builderTypes ops) w1
  rw [hr3] at hr2
  simp only [Option.some.injEq, Prod.mk.injEq] at hr2
  have hb : (ops.foldl WorldBuilder.step WorldBuilder.empty).build rank = .ok () w2 := by
    rw [WorldBuilder.foldl_eq, WorldBuilder.build, World.new_eq_setLayout]
    simp only [step] at hs
    cases hsl : World.setLayout rank World.empty (GroupLayout.build (builderGroups ops)).2 with
    | ok u w =>
      rw [hsl] at hs
      simp only [retOutcome, Option.some.injEq, Prod.mk.injEq] at hs
      simp only [Outcome.bind, hs.2, hr2.2]
    | panic w => rw [hsl] at hs; simp [retOutcome, MapWorld.answer] at hs
    | ub => rw [hsl] at hs; simp [retOutcome] at hs
  have hlife : ((MapWorld.init.next (.setLayout rank (builderGroups ops))).run
      ((builderTypes ops).map .register) : MapWorld V).life = .init := h4
  refine ⟨w2, hb, hgood, ?_, fun e => ?_, fun t => ?_, fun t e ht => ?_⟩
  · refine List.eq_nil_iff_forall_not_mem.2 fun e he => ?_
    have := (hi2.life.alive e).1 he
    rw [hlife] at this
    simp [Life.init] at this
  · rw [Bool.eq_false_iff, Ne, hi2.contains_iff, hlife]
    simp [Life.init]
  · rw [hi2.registered_iff, h2]
    simp [MapWorld.next, MapWorld.regAfter, MapWorld.init]
  · rw [hi2.viewGet, if_pos ((hi2.registered_iff t).1 ht), h3]
    rfl

end Sparsey
