import Verif.Model.Bombs
import Verif.Proofs.Ledger

/-!
Panicking destructors of replaced components.
-/

set_option autoImplicit false
set_option linter.unusedSimpArgs false

namespace Sparsey
variable {V : Type}

namespace ComponentStorage

/-- The interrupted loop has inserted the components up to and including the one that replaced the bomb. -/
theorem insertBomb_spec {bomb : V → Bool} {e : Entity} : ∀ {vs : List (TypeId × V)} {c c' : ComponentStorage V}
    {ds : List V} (mask : GroupMask), insertBomb bomb e vs c = some (c', ds) →
    ∃ pre t v post d old mask', vs = pre ++ (t, v) :: post ∧ bomb old = true ∧ (∀ x ∈ d, bomb x = false) ∧
      ds = d ++ [old] ++ post.map (·.2) ∧ insertEachDrops e (pre ++ [(t, v)]) c = d ++ [old] ∧
      insertEach e (pre ++ [(t, v)]) mask c = .ok mask' c' ∧
      (∃ rest, insertEachDrops e vs c = d ++ [old] ++ rest) ∧
      ∃ c1 mask1 m s s', insertEach e pre mask c = .ok mask1 c1 ∧ c1.meta? t = some m ∧
        c1.components[m.storageIndex]? = some s ∧ s.insert e v = .ok (some old, s')
  | [], c, c', ds, mask, h => by cases h
  | (t, v) :: vs, c, c', ds, mask, h => by
    rw [insertBomb] at h
    cases hm : c.meta? t with
    | none => rw [hm] at h; cases h
    | some m =>
      rw [hm] at h
      dsimp only at h
      cases hs : c.components[m.storageIndex]? with
      | none => rw [hs] at h; cases h
      | some s =>
        rw [hs] at h
        dsimp only at h
        cases hi : s.insert e v with
        | panic => rw [hi] at h; cases h
        | ub => rw [hi] at h; cases h
        | ok p =>
          obtain ⟨old, s'⟩ := p
          rw [hi] at h
          dsimp only at h
          by_cases hb : old.any bomb = true
          · rw [if_pos hb] at h
            simp only [Option.some.injEq, Prod.mk.injEq] at h
            obtain ⟨rfl, rfl⟩ := h
            cases old with
            | none => cases hb
            | some old =>
              refine ⟨[], t, v, vs, [], old, mask ||| m.insertMask, rfl, hb, by simp, by simp, ?_, ?_, ?_,
                c, mask, m, s, s', rfl, hm, hs, hi⟩
              · simp [insertEachDrops, hm, hs, hi]
              · simp [insertEach, hm, hs, hi]
              · exact ⟨insertEachDrops e vs { c with components := c.components.set m.storageIndex s' },
                  by simp [insertEachDrops, hm, hs, hi]⟩
          · rw [if_neg hb] at h
            rw [Option.map_eq_some_iff] at h
            obtain ⟨⟨c1, ds1⟩, h1, h2⟩ := h
            simp only [Prod.mk.injEq] at h2
            obtain ⟨rfl, rfl⟩ := h2
            obtain ⟨pre, t', v', post, d, b, mask', h3, h4, h5, h6, h7, h8, ⟨rest, h9⟩, c2, mask1, m1, s1, s2, k1, k2⟩ :=
              insertBomb_spec (mask ||| m.insertMask) h1
            subst h3
            subst h6
            refine ⟨(t, v) :: pre, t', v', post, old.toList ++ d, b, mask', rfl, h4, ?_, by simp, ?_, ?_, ⟨rest, ?_⟩,
              c2, mask1, m1, s1, s2, ?_, k2⟩
            · intro x hx
              rcases List.mem_append.1 hx with hx | hx
              · cases old with
                | none => cases hx
                | some o =>
                  simp only [Option.toList_some, List.mem_singleton] at hx
                  subst hx
                  simpa using hb
              · exact h5 x hx
            · simp only [List.cons_append, insertEachDrops, hm, hs, hi, h7, List.append_assoc]
            · simp only [List.cons_append, insertEach, hm, hs, hi, Res.unchecked_some, Outcome.ofRes_ok]
              exact h8
            · rw [insertEachDrops]
              simp only [hm, hs, hi, h9, List.append_assoc]
            · simp only [insertEach, hm, hs, hi, Res.unchecked_some, Outcome.ofRes_ok]
              exact k1

theorem insertEach_append {e : Entity} : ∀ (a b : List (TypeId × V)) (mask : GroupMask) (c : ComponentStorage V),
    insertEach e (a ++ b) mask c = (insertEach e a mask c).bind fun mask c => insertEach e b mask c
  | [], _, _, _ => rfl
  | (t, v) :: a, b, mask, c => by
    rw [List.cons_append, insertEach, insertEach]
    cases c.meta? t with
    | none => rfl
    | some m =>
      dsimp only
      cases Res.unchecked (c.components[m.storageIndex]?) with
      | panic => rfl
      | ub => rfl
      | ok s =>
        simp only [Outcome.ofRes_ok]
        cases s.insert e v with
        | panic => rfl
        | ub => rfl
        | ok p =>
          simp only [Outcome.ofRes_ok]
          exact insertEach_append a b _ _

/-- Stopping behind some components is what an unregistered type does there. -/
theorem insertEach_stop {e : Entity} {vs : List (TypeId × V)} {mask mask' : GroupMask} {c c' : ComponentStorage V}
    (h : insertEach e vs mask c = .ok mask' c') {t₀ : TypeId} (ht : c.meta? t₀ = none) (u : V) :
    insertEach e (vs ++ [(t₀, u)]) mask c = .panic c' := by
  have hs := insertEach_shape (e := e) vs mask c
  rw [h] at hs
  have : c'.meta? t₀ = none := by
    unfold meta? at ht ⊢
    rw [hs.md]
    exact ht
  rw [insertEach_append, h]
  simp only [Outcome.bind, insertEach, this]

/-- No bomb has been replaced by a loop that runs to the end. -/
theorem insertBomb_none {bomb : V → Bool} {e : Entity} : ∀ {vs : List (TypeId × V)} {c c' : ComponentStorage V}
    {mask mask' : GroupMask}, insertBomb bomb e vs c = none → insertEach e vs mask c = .ok mask' c' →
    ∀ x ∈ insertEachDrops e vs c, bomb x = false
  | [], c, c', mask, mask', _, _ => by simp [insertEachDrops]
  | (t, v) :: vs, c, c', mask, mask', h, hi => by
    rw [insertBomb] at h
    rw [insertEach] at hi
    rw [insertEachDrops]
    cases hm : c.meta? t with
    | none => rw [hm] at hi; cases hi
    | some m =>
      rw [hm] at h hi
      dsimp only at h hi ⊢
      cases hs : c.components[m.storageIndex]? with
      | none => simp
      | some s =>
        rw [hs] at h hi
        simp only [Res.unchecked_some, Outcome.ofRes_ok] at h hi ⊢
        cases hj : s.insert e v with
        | panic => simp
        | ub => simp
        | ok p =>
          obtain ⟨old, s'⟩ := p
          rw [hj] at h hi
          simp only [Outcome.ofRes_ok] at h hi ⊢
          by_cases hb : old.any bomb = true
          · rw [if_pos hb] at h
            cases h
          · rw [if_neg hb, Option.map_eq_none_iff] at h
            have := insertBomb_none h hi
            intro x hx
            rcases List.mem_append.1 hx with hx | hx
            · cases old with
              | none => cases hx
              | some o =>
                simp only [Option.toList_some, List.mem_singleton] at hx
                subst hx
                simpa using hb
            · exact this x hx

theorem insertAtBomb_spec {bomb : V → Bool} {e : Entity} : ∀ {vs : List (Nat × V)} {c c' : ComponentStorage V}
    {ds : List V}, insertAtBomb bomb e vs c = some (c', ds) →
    ∃ pre p post d old, vs = pre ++ p :: post ∧ bomb old = true ∧ (∀ x ∈ d, bomb x = false) ∧
      ds = d ++ [old] ++ post.map (·.2) ∧ insertAtDrops e (pre ++ [p]) c = d ++ [old] ∧
      insertAt e (pre ++ [p]) c = .ok c' ∧
      ∃ rest, insertAtDrops e vs c = d ++ [old] ++ rest
  | [], c, c', ds, h => by cases h
  | (i, v) :: vs, c, c', ds, h => by
    rw [insertAtBomb] at h
    cases hs : c.components[i]? with
    | none => rw [hs] at h; cases h
    | some s =>
      rw [hs] at h
      dsimp only at h
      cases hi : s.insert e v with
      | panic => rw [hi] at h; cases h
      | ub => rw [hi] at h; cases h
      | ok p =>
        obtain ⟨old, s'⟩ := p
        rw [hi] at h
        dsimp only at h
        by_cases hb : old.any bomb = true
        · rw [if_pos hb] at h
          simp only [Option.some.injEq, Prod.mk.injEq] at h
          obtain ⟨rfl, rfl⟩ := h
          cases old with
          | none => cases hb
          | some old =>
            refine ⟨[], (i, v), vs, [], old, rfl, hb, by simp, by simp, ?_, ?_, ?_⟩
            · simp [insertAtDrops, hs, hi]
            · simp [insertAt, hs, hi]
            · exact ⟨insertAtDrops e vs { c with components := c.components.set i s' },
                by simp [insertAtDrops, hs, hi]⟩
        · rw [if_neg hb] at h
          rw [Option.map_eq_some_iff] at h
          obtain ⟨⟨c1, ds1⟩, h1, h2⟩ := h
          simp only [Prod.mk.injEq] at h2
          obtain ⟨rfl, rfl⟩ := h2
          obtain ⟨pre, p, post, d, b, h3, h4, h5, h6, h7, h8, rest, h9⟩ := insertAtBomb_spec h1
          subst h3
          subst h6
          refine ⟨(i, v) :: pre, p, post, old.toList ++ d, b, rfl, h4, ?_, by simp, ?_, ?_, rest, ?_⟩
          · intro x hx
            rcases List.mem_append.1 hx with hx | hx
            · cases old with
              | none => cases hx
              | some o =>
                simp only [Option.toList_some, List.mem_singleton] at hx
                subst hx
                simpa using hb
            · exact h5 x hx
          · simp only [List.cons_append, insertAtDrops, hs, hi, h7, List.append_assoc]
          · simp only [List.cons_append, insertAt, hs, hi, Res.unchecked_some, Res.bind_ok]
            exact h8
          · rw [insertAtDrops]
            simp only [hs, hi, h9, List.append_assoc]

/-- The ledger of an interrupted insertion. -/
theorem insertBomb_ledger {bomb : V → Bool} {e : Entity} {vs : List (TypeId × V)} {c c' : ComponentStorage V}
    {ds : List V} (hc : c.Lens) (h : insertBomb bomb e vs c = some (c', ds)) :
    (vs.map (·.2) ++ c.vals).Perm (ds ++ c'.vals) := by
  obtain ⟨pre, t, v, post, d, old, mask', rfl, _, _, rfl, h7, h8, _⟩ := insertBomb_spec 0#64 h
  have hl := insertEach_ledger (e := e) (pre ++ [(t, v)]) 0#64 c hc
  rw [h8, h7] at hl
  refine cn_perm.2 fun a => ?_
  have := cn_perm.1 hl.2 a
  simp only [cn_append, cn_cons, cn_nil, List.map_cons, List.map_append, List.map_nil] at this ⊢
  omega

theorem insertAtBomb_ledger {bomb : V → Bool} {e : Entity} {vs : List (Nat × V)} {c c' : ComponentStorage V}
    {ds : List V} (hc : c.Lens) (h : insertAtBomb bomb e vs c = some (c', ds)) :
    (vs.map (·.2) ++ c.vals).Perm (ds ++ c'.vals) := by
  obtain ⟨pre, p, post, d, old, rfl, _, _, rfl, h7, h8, _⟩ := insertAtBomb_spec h
  obtain ⟨_, hl⟩ := insertAt_ledger (e := e) (pre ++ [p]) c c' hc h8
  rw [h7] at hl
  refine cn_perm.2 fun a => ?_
  have := cn_perm.1 hl a
  simp only [cn_append, cn_cons, cn_nil, List.map_cons, List.map_append, List.map_nil] at this ⊢
  omega

theorem insertAtBomb_none {bomb : V → Bool} {e : Entity} : ∀ {vs : List (Nat × V)} {c : ComponentStorage V},
    insertAtBomb bomb e vs c = none → ∀ x ∈ insertAtDrops e vs c, bomb x = false
  | [], c, _ => by simp [insertAtDrops]
  | (i, v) :: vs, c, h => by
    rw [insertAtBomb] at h
    rw [insertAtDrops]
    cases hs : c.components[i]? with
    | none => simp
    | some s =>
      rw [hs] at h
      dsimp only at h ⊢
      cases hj : s.insert e v with
      | panic => simp
      | ub => simp
      | ok p =>
        obtain ⟨old, s'⟩ := p
        rw [hj] at h
        dsimp only at h ⊢
        by_cases hb : old.any bomb = true
        · rw [if_pos hb] at h
          cases h
        · rw [if_neg hb, Option.map_eq_none_iff] at h
          have := insertAtBomb_none h
          intro x hx
          rcases List.mem_append.1 hx with hx | hx
          · cases old with
            | none => cases hx
            | some o =>
              simp only [Option.toList_some, List.mem_singleton] at hx
              subst hx
              simpa using hb
          · exact this x hx

theorem lookupAll_shape (f : ComponentMetadata → GroupMask) {c c' : ComponentStorage V} (hm : c'.metadata = c.metadata)
    (hn : c'.components.length = c.components.length) : ∀ (ts : List TypeId), c'.lookupAll f ts = c.lookupAll f ts
  | [] => rfl
  | t :: ts => by
    have h1 : c'.meta? t = c.meta? t := by unfold meta?; rw [hm]
    rw [lookupAll, lookupAll, h1, lookupAll_shape f hm hn ts]
    cases c.meta? t with
    | none => rfl
    | some m =>
      dsimp only
      cases c.lookupAll f ts with
      | panic => rfl
      | ub => rfl
      | ok p =>
        simp only [Res.bind_ok]
        by_cases hi : m.storageIndex < c.components.length
        · rw [List.getElem?_eq_getElem hi, List.getElem?_eq_getElem (by omega)]
          rfl
        · rw [List.getElem?_eq_none (by omega), List.getElem?_eq_none (by omega)]

/-- The loops of `insert` and of `extend` do the same. -/
theorem insertAt_insertEach {e : Entity} (f : ComponentMetadata → GroupMask) : ∀ (ts : List TypeId) {idxs : List Nat}
    {mask : GroupMask} (vs : List V) (n : Nat) (mask₀ : GroupMask) {c c' : ComponentStorage V},
    c.lookupAll f ts = .ok (idxs, mask) → insertAt e ((idxs.zip vs).take n) c = .ok c' →
    ∃ mask', insertEach e ((ts.zip vs).take n) mask₀ c = .ok mask' c'
  | [], idxs, mask, vs, n, mask₀, c, c', hl, h => by
    cases hl
    simp only [List.zip_nil_left, List.take_nil, insertAt] at h ⊢
    cases h
    exact ⟨_, rfl⟩
  | t :: ts, idxs, mask, vs, n, mask₀, c, c', hl, h => by
    rw [lookupAll] at hl
    cases hm : c.meta? t with
    | none => rw [hm] at hl; cases hl
    | some m =>
      rw [hm] at hl
      obtain ⟨⟨is, mask1⟩, h1, hl⟩ := Res.bind_ok' hl
      obtain ⟨s0, h2, hl⟩ := Res.bind_ok' hl
      cases hl
      cases vs with
      | nil =>
        simp only [List.zip_nil_right, List.take_nil, insertAt] at h ⊢
        cases h
        exact ⟨_, rfl⟩
      | cons v vs =>
        cases n with
        | zero =>
          simp only [List.take_zero, insertAt] at h ⊢
          cases h
          exact ⟨_, rfl⟩
        | succ n =>
          simp only [List.zip_cons_cons, List.take_succ_cons, insertAt] at h ⊢
          obtain ⟨s, h3, h⟩ := Res.bind_ok' h
          obtain ⟨⟨o, s'⟩, h4, h⟩ := Res.bind_ok' h
          simp only [insertEach, hm, h3, h4, Outcome.ofRes_ok]
          refine insertAt_insertEach (mask := mask1) f ts vs n _ ?_ h
          rw [← h1]
          refine lookupAll_shape f ?_ ?_ ts
          · rfl
          · simp

end ComponentStorage

namespace World

/-- An interrupted `extend` has made the entities of some items, and one more with the first components of its item. -/
theorem extendBomb_spec {bomb : V → Bool} {idxs : List Nat} : ∀ {items : List (List V)} {w w' : World V} {ds : List V}
    {made : List Entity}, extendBomb bomb idxs items w = some (w', ds, made) →
    ∃ (a : List (List V)) (vs : List V) (b : List (List V)) (w1 : World V) (e : Entity) (es : EntityStorage)
      (c' : ComponentStorage V) (ds' : List V), items = a ++ vs :: b ∧
      extendEach idxs a w = .ok () w1 ∧ made = w.entities.createUpTo a.length ++ [e] ∧
      w1.entities.create = .ok (e, es) ∧
      w1.components.insertAtBomb bomb e (idxs.zip vs) = some (c', ds') ∧ w' = ⟨es, c'⟩ ∧
      ds = extendEachDrops idxs a w ++ ds' ++ b.flatMap (·.take idxs.length) ∧
      (extendEach idxs items w ≠ .ub → ∃ old ∈ extendEachDrops idxs items w, bomb old = true)
  | [], w, w', ds, made, h => by cases h
  | vs :: items, w, w', ds, made, h => by
    rw [extendBomb] at h
    cases hcr : w.entities.create with
    | panic => rw [hcr] at h; cases h
    | ub => rw [hcr] at h; cases h
    | ok p =>
      obtain ⟨e, es⟩ := p
      rw [hcr] at h
      dsimp only at h
      cases hb : w.components.insertAtBomb bomb e (idxs.zip vs) with
      | some q =>
        obtain ⟨c, ds'⟩ := q
        rw [hb] at h
        simp only [Option.some.injEq, Prod.mk.injEq] at h
        obtain ⟨rfl, rfl, rfl⟩ := h
        refine ⟨[], vs, items, w, e, es, c, ds', rfl, rfl, rfl, hcr, hb, rfl, by simp [extendEachDrops], fun hu => ?_⟩
        obtain ⟨pre, p, post, d, old, h1, h2, _, _, _, _, rest, h3⟩ := ComponentStorage.insertAtBomb_spec hb
        refine ⟨old, ?_, h2⟩
        rw [extendEachDrops, hcr]
        dsimp only
        cases hi : w.components.insertAt e (idxs.zip vs) with
        | panic => exact absurd hi (ComponentStorage.insertAt_ne_panic _ _)
        | ub =>
          refine absurd ?_ hu
          simp [extendEach, hcr, hi]
        | ok c =>
          simp only [h3]
          simp
      | none =>
        rw [hb] at h
        dsimp only at h
        cases hi : w.components.insertAt e (idxs.zip vs) with
        | panic => rw [hi] at h; cases h
        | ub => rw [hi] at h; cases h
        | ok c =>
          rw [hi] at h
          dsimp only at h
          rw [Option.map_eq_some_iff] at h
          obtain ⟨⟨w2, ds2, made2⟩, h1, h2⟩ := h
          simp only [Prod.mk.injEq] at h2
          obtain ⟨rfl, rfl, rfl⟩ := h2
          obtain ⟨a, vs', b, w1, e', es', c', ds', h3, h4, h5, h7, h8, h9, h10, h11⟩ :=
            extendBomb_spec h1
          subst h3
          refine ⟨vs :: a, vs', b, w1, e', es', c', ds', rfl, ?_, ?_, h7, h8, h9, ?_, fun hu => ?_⟩
          · simp only [extendEach, hcr, Outcome.ofRes_ok, hi]
            exact h4
          · simp only [List.length_cons, EntityStorage.createUpTo, hcr]
            rw [h5]
            rfl
          · simp only [extendEachDrops, hcr, hi]
            rw [h10]
            simp [List.append_assoc]
          · simp only [extendEach, hcr, Outcome.ofRes_ok, hi] at hu
            obtain ⟨old, h12, h13⟩ := h11 hu
            refine ⟨old, ?_, h13⟩
            simp only [extendEachDrops, hcr, hi, List.mem_append]
            exact .inr h12

theorem extendBomb_none {bomb : V → Bool} {idxs : List Nat} : ∀ {items : List (List V)} {w w' : World V},
    extendBomb bomb idxs items w = none → extendEach idxs items w = .ok () w' →
    ∀ x ∈ extendEachDrops idxs items w, bomb x = false
  | [], w, w', _, _ => by simp [extendEachDrops]
  | vs :: items, w, w', h, hi => by
    rw [extendBomb] at h
    rw [extendEach] at hi
    rw [extendEachDrops]
    cases hc : w.entities.create with
    | panic => rw [hc] at hi; cases hi
    | ub => rw [hc] at hi; cases hi
    | ok p =>
      obtain ⟨e, es⟩ := p
      rw [hc] at h hi
      simp only [Outcome.ofRes_ok] at h hi ⊢
      cases hb : w.components.insertAtBomb bomb e (idxs.zip vs) with
      | some q => rw [hb] at h; cases h
      | none =>
        rw [hb] at h
        dsimp only at h
        cases hj : w.components.insertAt e (idxs.zip vs) with
        | panic => simp
        | ub => simp
        | ok c =>
          rw [hj] at h hi
          simp only [Outcome.ofRes_ok, Option.map_eq_none_iff] at h hi ⊢
          intro x hx
          rcases List.mem_append.1 hx with hx | hx
          · exact ComponentStorage.insertAtBomb_none hb x hx
          · exact extendBomb_none h hi x hx

theorem extendBomb_ledger {bomb : V → Bool} {idxs : List Nat} {items : List (List V)} {w w' : World V} {ds : List V}
    {made : List Entity} (hw : w.components.Lens) (h : extendBomb bomb idxs items w = some (w', ds, made)) :
    (items.flatMap (·.take idxs.length) ++ w.components.vals).Perm (ds ++ w'.components.vals) := by
  obtain ⟨a, vs, b, w1, e, es, c', ds', rfl, h2, _, h5, h6, rfl, rfl, _⟩ := extendBomb_spec h
  have hl := extendEach_ledger (idxs := idxs) a w hw
  rw [h2] at hl
  have hk := ComponentStorage.insertAtBomb_ledger hl.1 h6
  refine cn_perm.2 fun x => ?_
  have h7 := cn_perm.1 hl.2 x
  have h8 := cn_perm.1 hk x
  rw [zip_snd] at h8
  simp only [cn_append, cn_cons, cn_nil, List.flatMap_append, List.flatMap_cons] at h7 h8 ⊢
  omega

end World

theorem stepCalm_some {w w' : World V} {op : Op V} {r : Ret V} {ds : List V} (h : stepCalm w op = some (r, w', ds)) :
    step w op = some (r, w') ∧ ds = w.drops op := by
  unfold stepCalm at h
  cases hs : step w op with
  | none => rw [hs] at h; cases h
  | some p =>
    rw [hs] at h
    simp only [Option.map_some, Option.some.injEq, Prod.mk.injEq] at h
    obtain ⟨rfl, rfl, rfl⟩ := h
    exact ⟨rfl, rfl⟩

end Sparsey
