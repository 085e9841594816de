import Verif.Properties.Bombs

/-!
C44: destructors of replaced components that panic, the panic being caught.
-/

set_option autoImplicit false
set_option linter.unusedSimpArgs false

namespace Sparsey
variable {V : Type}

open ComponentStorage

/-! ### What goes wrong -/

/-- C44 is false: the destructor of the replaced component interrupts `insert` before the groups are looked at. The entity
has both components afterwards, but a query over the group does not find it. -/
theorem C44_false : ∃ (w : World Nat) (rs : List (Ret Nat)) (ds : List Nat) (q : QueryAll Nat) (b : Borrows),
    runB (· == 10) World.empty [.setLayout anyOrder [[0, 1]], .create [(0, 10)], .insert ⟨0, 1⟩ [(1, 30), (0, 20)]] =
      some (rs, w, ds) ∧ rs.getLast? = some (.panicked []) ∧ ds = [10] ∧
    w.viewGet 0 ⟨0, 1⟩ = .ok (some 20) ∧ w.viewGet 1 ⟨0, 1⟩ = .ok (some 30) ∧
    QueryAll.new w [] [.ref 0, .ref 1] [] [] = .ok (q, b) ∧ q.items = .ok [] := by
  obtain ⟨rs, w, ds, h1, h2⟩ := runB_witness (bomb := (· == 10)) (ops := ([.setLayout anyOrder [[0, 1]],
    .create [(0, 10)], .insert ⟨0, 1⟩ [(1, 30), (0, 20)]] : List (Op Nat))) (f := fun rs w ds =>
      decide (rs.getLast? = some (.panicked []) ∧ ds = [10] ∧
        w.viewGet 0 ⟨0, 1⟩ = .ok (some 20) ∧ w.viewGet 1 ⟨0, 1⟩ = .ok (some 30)) &&
      itemsAre w [.ref 0, .ref 1] [] [] (fun its => decide (its = []))) (by decide +kernel)
  simp only [Bool.and_eq_true, decide_eq_true_eq] at h2
  obtain ⟨⟨h2, h3, h4, h5⟩, h6⟩ := h2
  obtain ⟨q, b, its, h7, h8, h9⟩ := itemsAre_iff h6
  obtain rfl := of_decide_eq_true h9
  exact ⟨w, rs, ds, q, b, h1, h2, h3, h4, h5, h7, h8⟩

/-! ### What happens -/

theorem unregistered_meta {w : World V} {t : TypeId} (h : w.isRegistered t = false) : w.components.meta? t = none := by
  unfold World.isRegistered ComponentStorage.isRegistered at h
  cases hm : w.components.meta? t with
  | none => rfl
  | some m => simp [hm] at h

/-- `insert` into a living entity, any world: either the call is as without panicking destructors, and none of those that
were called panics unless the call was going to panic anyway; or it is interrupted after some component `v` has replaced a
bomb, the components behind `v` are dropped, and the world is as left behind by an `insert` that meets an unregistered
type behind `v`. -/
theorem C44_insert {bomb : V → Bool} {w w' : World V} {e : Entity} {vs : List (TypeId × V)} {r : Ret V} {ds : List V}
    (he : w.containsEntity e = true) (hs : stepB bomb w (.insert e vs) = some (r, w', ds)) :
    (step w (.insert e vs) = some (r, w') ∧ ds = w.drops (.insert e vs) ∧ (r = .bool true → ∀ x ∈ ds, bomb x = false)) ∨
    ∃ pre t v post d old, vs = pre ++ (t, v) :: post ∧ bomb old = true ∧ (∀ x ∈ d, bomb x = false) ∧
      r = .panicked [] ∧ ds = d ++ old :: post.map (·.2) ∧
      ∀ t₀ u, w.isRegistered t₀ = false →
        step w (.insert e (pre ++ [(t, v), (t₀, u)])) = some (.panicked [], w') := by
  have he' : w.entities.contains e = true := he
  rw [stepB] at hs
  split at hs
  · next w1 ds1 hb =>
    simp only [Option.some.injEq, Prod.mk.injEq] at hs
    obtain ⟨rfl, rfl, rfl⟩ := hs
    right
    rw [World.insertBomb, if_pos he', Option.map_eq_some_iff] at hb
    obtain ⟨⟨c, ds⟩, h1, h2⟩ := hb
    simp only [Prod.mk.injEq] at h2
    obtain ⟨rfl, rfl⟩ := h2
    obtain ⟨pre, t, v, post, d, old, mask', h3, h4, h5, h6, _, h7, _⟩ := insertBomb_spec 0#64 h1
    refine ⟨pre, t, v, post, d, old, h3, h4, h5, rfl, by simp [h6], fun t₀ u ht => ?_⟩
    have h8 := insertEach_stop h7 (unregistered_meta ht) u
    rw [List.append_assoc] at h8
    simp only [List.cons_append, List.nil_append] at h8
    simp [step, World.insert, World.insertSet, he', ComponentStorage.insert, h8, Outcome.bind, retOutcome]
  · next hb =>
    left
    obtain ⟨h1, h2⟩ := stepCalm_some hs
    refine ⟨h1, h2, fun hr => ?_⟩
    subst h2 hr
    rw [World.insertBomb, if_pos he', Option.map_eq_none_iff] at hb
    have hd : w.drops (.insert e vs) = w.components.insertEachDrops e vs := by
      simp [World.drops, he']
    rw [hd]
    cases hi : insertEach e vs 0#64 w.components with
    | ok m c => exact insertBomb_none hb hi
    | panic c => simp [step, World.insert, World.insertSet, he', ComponentStorage.insert, hi, Outcome.bind, retOutcome] at h1
    | ub => simp [step, World.insert, World.insertSet, he', ComponentStorage.insert, hi, Outcome.bind, retOutcome] at h1

/-- `create`: the same. The entity has been made. -/
theorem C44_create {bomb : V → Bool} {w w' : World V} {vs : List (TypeId × V)} {r : Ret V} {ds : List V}
    (hs : stepB bomb w (.create vs) = some (r, w', ds)) :
    (step w (.create vs) = some (r, w') ∧ ds = w.drops (.create vs) ∧
      (∀ e, r = .entity e → ∀ x ∈ ds, bomb x = false)) ∨
    ∃ pre t v post d old e, vs = pre ++ (t, v) :: post ∧ bomb old = true ∧ (∀ x ∈ d, bomb x = false) ∧
      r = .panicked [e] ∧ ds = d ++ old :: post.map (·.2) ∧
      ∀ t₀ u, w.isRegistered t₀ = false →
        step w (.create (pre ++ [(t, v), (t₀, u)])) = some (.panicked [e], w') := by
  rw [stepB] at hs
  split at hs
  · next w1 ds1 made hb =>
    simp only [Option.some.injEq, Prod.mk.injEq] at hs
    obtain ⟨rfl, rfl, rfl⟩ := hs
    right
    rw [World.createBomb] at hb
    cases hc : w.entities.create with
    | panic => rw [hc] at hb; cases hb
    | ub => rw [hc] at hb; cases hb
    | ok p =>
      obtain ⟨e, es⟩ := p
      rw [hc] at hb
      dsimp only at hb
      rw [Option.map_eq_some_iff] at hb
      obtain ⟨⟨c, ds⟩, h1, h2⟩ := hb
      simp only [Prod.mk.injEq] at h2
      obtain ⟨rfl, rfl, rfl⟩ := h2
      obtain ⟨pre, t, v, post, d, old, mask', h3, h4, h5, h6, _, h7, _⟩ := insertBomb_spec 0#64 h1
      refine ⟨pre, t, v, post, d, old, e, h3, h4, h5, rfl, by simp [h6], fun t₀ u ht => ?_⟩
      have h8 := insertEach_stop h7 (unregistered_meta ht) u
      rw [List.append_assoc] at h8
      simp only [List.cons_append, List.nil_append] at h8
      simp [step, World.create, World.insertSet, hc, ComponentStorage.insert, h8, Outcome.bind, retOutcome,
        EntityStorage.createUpTo]
  · next hb =>
    left
    obtain ⟨h1, h2⟩ := stepCalm_some hs
    refine ⟨h1, h2, fun e hr => ?_⟩
    subst h2 hr
    rw [World.createBomb] at hb
    rw [World.drops]
    cases hc : w.entities.create with
    | panic => simp [step, World.create, hc, retOutcome] at h1
    | ub => simp [step, World.create, hc, retOutcome] at h1
    | ok p =>
      obtain ⟨e, es⟩ := p
      rw [hc] at hb
      dsimp only at hb ⊢
      rw [Option.map_eq_none_iff] at hb
      cases hi : insertEach e vs 0#64 w.components with
      | ok m c => exact insertBomb_none hb hi
      | panic c => simp [step, World.create, World.insertSet, hc, ComponentStorage.insert, hi, Outcome.bind, retOutcome] at h1
      | ub => simp [step, World.create, World.insertSet, hc, ComponentStorage.insert, hi, Outcome.bind, retOutcome] at h1

/-- `extend`: an interruption leaves the same world behind as an `extend` whose iterator panics after the items before the
interrupted one, followed by a `create` that meets an unregistered type. -/
theorem C44_extend {bomb : V → Bool} {w w' : World V} {ts : List TypeId} {it : Items V} {r : Ret V} {ds : List V}
    (hs : stepB bomb w (.extend ts it) = some (r, w', ds)) :
    (step w (.extend ts it) = some (r, w') ∧ ds = w.drops (.extend ts it) ∧
      (∀ es, r = .entities es → ∀ x ∈ ds, bomb x = false)) ∨
    ∃ (a : List (List V)) (vs : List V) (b : List (List V)) (pre : List (TypeId × V)) (t : TypeId) (v : V)
      (post : List (TypeId × V)) (made : List Entity) (e : Entity) (w₁ : World V), it.items = a ++ vs :: b ∧
      ts.zip vs = pre ++ (t, v) :: post ∧ r = .panicked (made ++ [e]) ∧ (∃ old ∈ ds, bomb old = true) ∧
      step w (.extend ts ⟨a, true⟩) = some (.panicked made, w₁) ∧
      ∀ t₀ u, w.isRegistered t₀ = false →
        step w₁ (.create (pre ++ [(t, v), (t₀, u)])) = some (.panicked [e], w') := by
  rw [stepB] at hs
  split at hs
  · next w1 ds1 made hb =>
    simp only [Option.some.injEq, Prod.mk.injEq] at hs
    obtain ⟨rfl, rfl, rfl⟩ := hs
    right
    rw [World.extendBombs] at hb
    cases hl : w.components.lookupAll (·.insertMask) ts with
    | panic => rw [hl] at hb; cases hb
    | ub => rw [hl] at hb; cases hb
    | ok p =>
      obtain ⟨idxs, mask⟩ := p
      rw [hl] at hb
      dsimp only at hb
      obtain ⟨a, vs, b, w2, e, es, c', ds', h1, h2, rfl, h4, h5, rfl, h6, _⟩ := World.extendBomb_spec hb
      obtain ⟨pre, p, post, d, old, k1, k2, _, k4, _, k5, _⟩ := insertAtBomb_spec h5
      have hsh : Shape w.components w2.components := by
        have := extendEach_shape (idxs := idxs) a w
        rw [h2] at this
        exact this
      have hl2 : w2.components.lookupAll (·.insertMask) ts = .ok (idxs, mask) := by
        rw [← hl]
        exact lookupAll_shape _ hsh.md hsh.len ts
      have ht : pre ++ [p] = (idxs.zip vs).take (pre.length + 1) := by
        rw [k1, List.take_append, List.take_of_length_le (by omega)]
        simp
      rw [ht] at k5
      obtain ⟨mask', k6⟩ := insertAt_insertEach _ ts vs (pre.length + 1) 0#64 hl2 k5
      have hlen : pre.length < (ts.zip vs).length := by
        have h7 : (idxs.zip vs).length = pre.length + 1 + post.length := by rw [k1]; simp; omega
        have h8 := lookupAll_length _ _ _ _ _ hl
        simp only [List.length_zip] at h7 ⊢
        omega
      obtain ⟨⟨t, v⟩, hq⟩ : ∃ q, (ts.zip vs)[pre.length]? = some q := ⟨_, List.getElem?_eq_getElem hlen⟩
      have htake : (ts.zip vs).take (pre.length + 1) = (ts.zip vs).take pre.length ++ [(t, v)] := by
        rw [List.take_succ, hq]
        rfl
      rw [htake] at k6
      refine ⟨a, vs, b, (ts.zip vs).take pre.length, t, v,
        (ts.zip vs).drop (pre.length + 1), w.entities.createUpTo a.length, e, w2, h1, ?_, rfl,
        ⟨old, by rw [h6, k4]; simp, k2⟩, ?_, fun t₀ u hu => ?_⟩
      · rw [List.getElem?_eq_getElem hlen, Option.some.injEq] at hq
        rw [← hq, ← List.drop_eq_getElem_cons hlen, List.take_append_drop]
      · simp [step, World.extend, extendMade, hl, h2, retOutcome, Outcome.bind]
      · have hu2 : w2.components.meta? t₀ = none := by
          have := unregistered_meta hu
          unfold meta? at this ⊢
          rw [hsh.md]
          exact this
        have h8 := insertEach_stop k6 hu2 u
        rw [List.append_assoc] at h8
        simp only [List.cons_append, List.nil_append] at h8
        simp [step, World.create, World.insertSet, h4, ComponentStorage.insert, h8, Outcome.bind, retOutcome,
          EntityStorage.createUpTo]
  · next hb =>
    left
    obtain ⟨h1, h2⟩ := stepCalm_some hs
    refine ⟨h1, h2, fun es hr => ?_⟩
    subst h2 hr
    rw [World.extendBombs] at hb
    rw [World.drops_extend]
    cases hl : w.components.lookupAll (·.insertMask) ts with
    | panic => simp [step, World.extend, hl, retOutcome, Outcome.ofRes] at h1
    | ub => simp [step, World.extend, hl, retOutcome, Outcome.ofRes] at h1
    | ok p =>
      obtain ⟨idxs, mask⟩ := p
      rw [hl] at hb
      dsimp only at hb ⊢
      cases hi : World.extendEach idxs it.items w with
      | ok u w₁ => exact World.extendBomb_none hb hi
      | panic w₁ => simp [step, World.extend, hl, hi, retOutcome, Outcome.bind] at h1
      | ub => simp [step, World.extend, hl, hi, retOutcome, Outcome.bind] at h1

/-- A write (`*r = v`, in the code of the caller): the world is as after the completed write whether the destructor of the
old value panics or not. -/
theorem C44_write {bomb : V → Bool} {w w' : World V} {t : TypeId} {e : Entity} {v : V} {r : Ret V} {ds : List V}
    (hs : stepB bomb w (.write t e v) = some (r, w', ds)) :
    ∃ r₀, step w (.write t e v) = some (r₀, w') ∧ ds = w.drops (.write t e v) ∧
      ((∃ x ∈ ds, bomb x = true) → r = .panicked []) ∧ ((∀ x ∈ ds, bomb x = false) → r = r₀) := by
  rw [stepB, Option.map_eq_some_iff] at hs
  obtain ⟨⟨r₀, w₀, ds₀⟩, h1, h2⟩ := hs
  simp only [Prod.mk.injEq] at h2
  obtain ⟨rfl, rfl, rfl⟩ := h2
  obtain ⟨h3, rfl⟩ := stepCalm_some h1
  refine ⟨r₀, h3, rfl, fun hx => ?_, fun hx => ?_⟩
  · rw [if_pos (List.any_eq_true.2 hx)]
  · rw [if_neg]
    rw [List.any_eq_true]
    rintro ⟨x, h3, h4⟩
    rw [hx x h3] at h4
    cases h4

/-! ### What remains true -/

theorem exists_unregistered (l : List TypeId) : ∃ t, t ∉ l := by
  have : ∀ l : List Nat, ∃ n, ∀ m ∈ l, m < n := by
    intro l
    induction l with
    | nil => exact ⟨0, by simp⟩
    | cons a l ih =>
      obtain ⟨n, hn⟩ := ih
      refine ⟨max n (a + 1), fun m hm => ?_⟩
      rcases List.mem_cons.1 hm with rfl | hm
      · omega
      · have := hn m hm
        omega
  obtain ⟨n, hn⟩ := this l
  exact ⟨n, fun h => Nat.lt_irrefl _ (hn n h)⟩

/-- The destructors that run during this call are those of replaced components or of arguments. -/
def Op.replaces : Op V → Bool
  | .destroy _ => false
  | .delete _ _ => false
  | .clear => false
  | .reset => false
  | _ => true

/-- C44: whatever destructors of replaced components panic, the world is one that calls without panicking destructors can
lead to. Everything proved of all reachable worlds holds of it: no undefined behaviour (`C31_safe`, `C31_query_safe`),
nothing lost or dropped twice (C18). -/
theorem C44_reach {bomb : V → Bool} {h : History V} {w w' : World V} (hr : Reach World.empty h w) {op : Op V}
    (ho : op.replaces = true) {r : Ret V} {ds : List V} (hs : stepB bomb w op = some (r, w', ds)) :
    ∃ h', Reach World.empty h' w' := by
  have calm : ∀ {op}, stepCalm w op = some (r, w', ds) → ∃ h', Reach World.empty h' w' :=
    fun h => ⟨_, hr.snoc (stepCalm_some h).1⟩
  have hun : ∃ t₀, w.isRegistered t₀ = false := by
    obtain ⟨t₀, ht⟩ := exists_unregistered (w.components.metadata.map Prod.fst)
    refine ⟨t₀, ?_⟩
    unfold World.isRegistered ComponentStorage.isRegistered meta?
    cases hl : w.components.metadata.lookup t₀ with
    | none => rfl
    | some m => exact absurd (List.mem_map.2 ⟨_, mem_of_lookup _ hl, rfl⟩) ht
  obtain ⟨t₀, ht₀⟩ := hun
  cases op with
  | destroy e => cases ho
  | delete e ts => cases ho
  | clear => cases ho
  | reset => cases ho
  | insert e vs =>
    by_cases he : w.containsEntity e = true
    · rcases C44_insert he hs with ⟨h1, _⟩ | ⟨pre, t, v, post, d, old, _, _, _, _, _, h1⟩
      · exact ⟨_, hr.snoc h1⟩
      · exact ⟨_, hr.snoc (h1 t₀ v ht₀)⟩
    · have he' : ¬ w.entities.contains e = true := he
      rw [stepB] at hs
      split at hs
      · next w1 ds1 hb =>
        rw [World.insertBomb, if_neg he'] at hb
        split at hb
        · simp only [Option.some.injEq, Prod.mk.injEq] at hb hs
          obtain ⟨rfl, rfl⟩ := hb
          obtain ⟨_, rfl, _⟩ := hs
          exact ⟨_, hr⟩
        · cases hb
      · exact calm hs
  | create vs =>
    rcases C44_create hs with ⟨h1, _⟩ | ⟨pre, t, v, post, d, old, e, _, _, _, _, _, h1⟩
    · exact ⟨_, hr.snoc h1⟩
    · exact ⟨_, hr.snoc (h1 t₀ v ht₀)⟩
  | extend ts it =>
    rcases C44_extend hs with ⟨h1, _⟩ | ⟨a, vs, b, pre, t, v, post, made, e, w₁, _, _, _, _, h1, h2⟩
    · exact ⟨_, hr.snoc h1⟩
    · exact ⟨_, (hr.snoc h1).snoc (h2 t₀ v ht₀)⟩
  | write t e v =>
    obtain ⟨r₀, h1, _⟩ := C44_write hs
    exact ⟨_, hr.snoc h1⟩
  | writeAt t pos v =>
    rw [stepB, Option.map_eq_some_iff] at hs
    obtain ⟨⟨r₀, w₀, ds₀⟩, h1, h2⟩ := hs
    simp only [Prod.mk.injEq] at h2
    obtain ⟨_, rfl, _⟩ := h2
    exact ⟨_, hr.snoc (stepCalm_some h1).1⟩
  | _ => exact calm hs

theorem Content.get_setAll_last (e : Entity) : ∀ (vs : List (TypeId × V)) (f : Content V) (t : TypeId) (x : Entity),
    f.setAll e vs t x = if x = e then (lastOf vs t).or (f t x) else f t x
  | [], f, t, x => by simp [Content.setAll, lastOf]
  | (t', v) :: vs, f, t, x => by
    rw [Content.setAll, Content.get_setAll_last e vs, lastOf_cons]
    by_cases hx : x = e
    · subst hx
      by_cases ht : t = t'
      · subst ht; simp [Content.set, Option.or_assoc]
      · simp [Content.set, ht]
    · simp [Content.set, hx]

/-- C44 for `insert` into a living entity after a `Fair` history: the call panics only after a component `v` has replaced
a bomb `old`, which is what `e` had before (or a component of the same type stored earlier by the same call). All values
up to `v` are stored, everything else reads as before; nothing is lost and nothing dropped twice. The world is one that a
`Fair` history leads to, and all that is proved about those holds; if the history is `Good` and storing the values up to
`v` completes no group for `e`, one that a `Good` history leads to. Missing: C44 demands the latter without the condition
on groups (`C44_false`); histories that are not `Fair` (`C44_insert`, `C37_partial` hold for all). -/
theorem C44_partial {bomb : V → Bool} {h : History V} {w w' : World V} (hr : Reach World.empty h w)
    (hg : Fair (calls h)) {e : Entity} {vs : List (TypeId × V)} {r : Ret V} {ds : List V}
    (he : w.containsEntity e = true) (hreg : ∀ p ∈ vs, w.isRegistered p.1 = true)
    (hs : stepB bomb w (.insert e vs) = some (r, w', ds)) :
    (step w (.insert e vs) = some (r, w') ∧ ds = w.drops (.insert e vs) ∧ (r = .bool true → ∀ x ∈ ds, bomb x = false)) ∨
    ∃ pre t v post d old, vs = pre ++ (t, v) :: post ∧ bomb old = true ∧ (∀ x ∈ d, bomb x = false) ∧
      r = .panicked [] ∧ ds = d ++ old :: post.map (·.2) ∧
      (lastOf pre t = some old ∨ lastOf pre t = none ∧ w.viewGet t e = .ok (some old)) ∧
      (vs.map (·.2) ++ w.stored).Perm (ds ++ w'.stored) ∧
      (∀ x, w'.containsEntity x = w.containsEntity x) ∧ (∀ t, w'.isRegistered t = w.isRegistered t) ∧
      (∀ t' v', lastOf (pre ++ [(t, v)]) t' = some v' → w'.viewGet t' e = .ok (some v')) ∧
      (∀ t' x, x ≠ e ∨ lastOf (pre ++ [(t, v)]) t' = none → w'.viewGet t' x = w.viewGet t' x) ∧
      ∃ h', Reach World.empty h' w' ∧ Fair (calls h') ∧
        (Good (calls h) → (mapOf (calls h)).NoNewGroup e (pre ++ [(t, v)]) → Good (calls h')) := by
  have hL := C37_partial hr hs
  have hi := reach_invL hr hg
  have he' : w.entities.contains e = true := he
  have hal := (hi.contains_iff e).1 he
  rcases C44_insert he hs with h1 | ⟨_, _, _, _, _, _, _, _, _, hrp, _, _⟩
  · exact .inl h1
  rw [stepB] at hs
  split at hs
  · next w1 ds1 hb =>
    simp only [Option.some.injEq, Prod.mk.injEq] at hs
    obtain ⟨rfl, rfl, rfl⟩ := hs
    rw [World.insertBomb, if_pos he', Option.map_eq_some_iff] at hb
    obtain ⟨⟨c, ds⟩, h1, h2⟩ := hb
    simp only [Prod.mk.injEq] at h2
    obtain ⟨rfl, rfl⟩ := h2
    obtain ⟨pre, t, v, post, d, old, mask', h3, h4, h5, h6, _, h7, _, c1, mask1, m, s, s', k1, k2, k3, k4⟩ :=
      insertBomb_spec 0#64 h1
    have hreg' : ∀ p ∈ pre ++ [(t, v)], (w.components.meta? p.1).isSome := by
      intro p hp
      have := hreg p (by rw [h3]; simp only [List.mem_append, List.mem_cons, List.mem_singleton, List.not_mem_nil] at hp ⊢; tauto)
      exact (hi.reg _).2 ((hi.registered_iff _).1 this)
    have hfc : FamClosed w.components.groups 0#64 := .zero _
    obtain ⟨_, _, j1, j2, j3, j4, j5, _⟩ := insertEach_ok hi.life.idxUniq hal (hi.life.index_lt hal)
      (pre ++ [(t, v)]) 0#64 w.components hi.store hfc hreg'
    rw [h7] at j1
    cases j1
    obtain ⟨_, _, l1, l2, l3, l4, l5, _⟩ := insertEach_ok hi.life.idxUniq hal (hi.life.index_lt hal)
      pre 0#64 w.components hi.store hfc (fun p hp => hreg' p (by simp [hp]))
    rw [k1] at l1
    cases l1
    have hmeta : ∀ t, c.meta? t = w.components.meta? t := fun t => by unfold meta?; rw [j5]
    have hview : ∀ t' x, (⟨w.entities, c⟩ : World V).viewGet t' x =
        if (w.components.meta? t').isSome then
          .ok (if x = e then (lastOf (pre ++ [(t, v)]) t').or (w.components.value t' x) else w.components.value t' x)
        else .panic := by
      intro t' x
      rw [Readable.viewGet (w := ⟨w.entities, c⟩) j2.readable]
      dsimp only
      rw [hmeta, j3, Content.get_setAll_last]
    refine .inr ⟨pre, t, v, post, d, old, h3, h4, h5, rfl, by simp [h6], ?_, ?_, fun x => rfl, fun t' => ?_,
      fun t' v' hl => ?_, fun t' x hx => ?_, ?_⟩
    · obtain ⟨s0, s1, n1, n2, _⟩ := l2.insertOne hi.life.idxUniq hal (hi.life.index_lt hal) k2 v
      rw [k3] at n1
      cases n1
      rw [k4] at n2
      simp only [Res.ok.injEq, Prod.mk.injEq] at n2
      have n3 : c1.value t e = some old := by
        rw [n2.1]
        simp [ComponentStorage.value, k2, k3]
      rw [l3, Content.get_setAll_last, if_pos rfl] at n3
      cases hl : lastOf pre t with
      | some o =>
        rw [hl] at n3
        exact .inl n3
      | none =>
        rw [hl] at n3
        refine .inr ⟨rfl, ?_⟩
        rw [hi.store.readable.viewGet, if_pos (hreg' (t, v) (by simp))]
        rw [← n3]
        rfl
    · exact hL.2 trivial
    · show (c.meta? t').isSome = (w.components.meta? t').isSome
      rw [hmeta]
    · have ht := lastOf_reg (vs := pre ++ [(t, v)]) (t := t') (by simp [hl])
      obtain ⟨p, hp, rfl⟩ := List.mem_map.1 ht
      rw [hview, if_pos (hreg' p hp), if_pos rfl, hl]
      rfl
    · rw [hview, hi.store.readable.viewGet]
      rcases hx with hx | hx
      · simp [hx]
      · simp [hx]
    · obtain ⟨t₀, ht₀⟩ := exists_unregistered (mapOf (calls h)).reg
      have hm₀ : w.components.meta? t₀ = none := by
        rw [← Option.not_isSome_iff_eq_none, hi.reg]
        exact ht₀
      have h8 := insertEach_stop h7 hm₀ v
      have hkn : (mapOf (calls h)).known (pre ++ [(t, v)] ++ [(t₀, v)]) = pre ++ [(t, v)] := by
        unfold MapWorld.known
        rw [List.takeWhile_append_of_pos]
        · simp [List.takeWhile, ht₀]
        · intro p hp
          simpa using (hi.reg _).1 (hreg' p hp)
      have hstep : step w (.insert e (pre ++ [(t, v)] ++ [(t₀, v)])) = some (.panicked [], ⟨w.entities, c⟩) := by
        simp only [step, World.insert, World.insertSet, he', ComponentStorage.insert, h8, Outcome.bind, retOutcome,
          Bool.not_true, Bool.false_eq_true, if_false]
      have heven : w.Even (.insert e (pre ++ [(t, v)] ++ [(t₀, v)])) := by
        show EvenPairs _
        simp only [World.swaps, he', if_true, insertPairs, h8]
        exact EvenPairs.nil
      refine ⟨_, .snoc hr hstep, ?_, fun hgd hn => ?_⟩
      · rw [calls_append]
        exact Fair.of_fair hr hg trivial heven
      · rw [calls_append]
        refine Good.of_fine hr hgd (.inr (.inr ?_)) heven
        show (mapOf (calls h)).NoNewGroup e ((mapOf (calls h)).known _)
        rw [hkn]
        exact hn
  · obtain ⟨h1, h2⟩ := stepCalm_some hs
    refine .inl ⟨h1, h2, fun h => ?_⟩
    rw [hrp] at h
    cases h

/-! ### Examples -/

/-- Two entities, one of them in the group. -/
def replaceOps : List (Op Nat) :=
  [.setLayout anyOrder [[0, 1]], .register 2, .create [(0, 10), (1, 11), (2, 12)], .create [(0, 20), (2, 22)]]

/-- Non-vacuity: interrupted insertions, the second one with a bomb among the arguments stored before; no group is
completed. In the third the bomb stays behind the interruption. -/
example : Good replaceOps ∧ (mapOf replaceOps).NoNewGroup ⟨0, 1⟩ [(0, 30), (2, 32)] ∧
    (mapOf replaceOps).NoNewGroup ⟨1, 1⟩ [(0, 30), (0, 31)] ∧
    ¬ (mapOf replaceOps).NoNewGroup ⟨1, 1⟩ [(1, 30), (0, 31)] ∧ holdsAfter replaceOps (fun _ w =>
    (stepB (· == 12) w (.insert ⟨0, 1⟩ [(0, 30), (2, 32), (1, 31)])).any (fun p => decide (p.1 = .panicked [] ∧
      p.2.2 = [10, 12, 31] ∧ p.2.1.viewGet 2 ⟨0, 1⟩ = .ok (some 32) ∧ p.2.1.viewGet 1 ⟨0, 1⟩ = .ok (some 11))) &&
    (stepB (· == 30) w (.insert ⟨1, 1⟩ [(0, 30), (0, 31), (1, 33)])).any (fun p => decide (p.1 = .panicked [] ∧
      p.2.2 = [20, 30, 33] ∧ p.2.1.viewGet 0 ⟨1, 1⟩ = .ok (some 31) ∧ p.2.1.viewGet 1 ⟨1, 1⟩ = .ok none)) &&
    (stepB (· == 12) w (.insert ⟨0, 1⟩ [(0, 30)])).any (fun p => decide (p.1 = .bool true ∧ p.2.2 = [10]))) = true := by
  decide +kernel

/-- Non-vacuity of the statements on `create`, `extend` and writes. -/
example : holdsAfter replaceOps (fun _ w =>
    (stepB (· == 30) w (.create [(0, 30), (2, 31), (0, 32), (1, 33)])).any (fun p =>
      decide (p.1 = .panicked [⟨2, 1⟩] ∧ p.2.2 = [30, 33] ∧ p.2.1.viewGet 0 ⟨2, 1⟩ = .ok (some 32)) &&
      (step w (.create [(0, 30), (2, 31), (0, 32), (7, 0)])).any (fun q => decide (q.1 = .panicked [⟨2, 1⟩] ∧
        q.2.viewGet 0 ⟨2, 1⟩ = .ok (some 32) ∧ q.2.viewGet 1 ⟨2, 1⟩ = .ok none))) &&
    (stepB (· == 40) w (.extend [0, 0, 1] ⟨[[30, 31, 32], [40, 41, 42], [50, 51, 52]], false⟩)).any (fun p =>
      decide (p.1 = .panicked [⟨2, 1⟩, ⟨3, 1⟩] ∧ p.2.2 = [30, 40, 42, 50, 51, 52] ∧
        p.2.1.viewGet 1 ⟨2, 1⟩ = .ok (some 32) ∧ p.2.1.viewGet 0 ⟨3, 1⟩ = .ok (some 41))) &&
    (stepB (· == 20) w (.write 0 ⟨1, 1⟩ 60)).any (fun p => decide (p.1 = .panicked [] ∧ p.2.2 = [20] ∧
      p.2.1.viewGet 0 ⟨1, 1⟩ = .ok (some 60)))) = true := by
  decide +kernel

end Sparsey
