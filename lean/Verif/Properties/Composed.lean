import Verif.Proofs.Order
import Verif.Properties.Views

/-!
C62: calls that do the same as other calls.
-/

set_option autoImplicit false
set_option linter.unusedSimpArgs false

namespace Sparsey
variable {V : Type}

/-! ### `delete` and `remove` -/

theorem CompSet.delete_eq (s : CompSet V) (e : Entity) : s.delete e = (do let (_, s) ← s.remove e; pure s) := by
  unfold CompSet.delete CompSet.remove
  split
  · simp
  · rename_i index sparse _
    dsimp only
    cases s.entities[s.entities.length - 1]? with
    | none => rfl
    | some last =>
      cases s.entities[index]? with
      | none => rfl
      | some x =>
        have key : ∀ sp : SparseVec, (do
            let _ ← Res.unchecked s.components[index]?
            let l ← Res.unchecked s.components[s.entities.length - 1]?
            pure (⟨sp, (s.entities.set index last).take (s.entities.length - 1),
              (s.components.set index l).take (s.entities.length - 1)⟩ : CompSet V)) = (do
            let p ← (do
              let v ← Res.unchecked s.components[index]?
              let l ← Res.unchecked s.components[s.entities.length - 1]?
              pure (some v, (⟨sp, (s.entities.set index last).take (s.entities.length - 1),
                (s.components.set index l).take (s.entities.length - 1)⟩ : CompSet V)) : Res (Option V × CompSet V))
            pure p.2) := by
          intro sp
          cases s.components[index]? with
          | none => rfl
          | some v =>
            cases s.components[s.entities.length - 1]? with
            | none => rfl
            | some v => rfl
        simp only [Res.unchecked, Res.bind_ok]
        split
        · cases sparse.setUnchecked last.sparse (some ⟨index, last.version⟩) with
          | panic => rfl
          | ub => rfl
          | ok sp => exact key sp
        · exact key sparse

theorem ComponentStorage.deleteEach_eq (e : Entity) : ∀ (is : List Nat) (c : ComponentStorage V),
    c.deleteEach e is = (do let (_, c) ← c.removeEach e is; pure c)
  | [], c => rfl
  | i :: is, c => by
    rw [deleteEach, removeEach]
    cases c.components[i]? with
    | none => rfl
    | some s =>
      simp only [Res.unchecked, Res.bind_ok, CompSet.delete_eq]
      cases h : s.remove e with
      | panic => rfl
      | ub => rfl
      | ok p =>
        simp only [h, Res.bind_ok, Res.pure_eq, deleteEach_eq e is]
        cases removeEach e is { c with components := c.components.set i p.2 } <;> rfl

/-- **C62** `delete` is `remove` without the values. -/
theorem C62_delete (w : World V) (e : Entity) (ts : List TypeId) :
    step w (.delete e ts) = (step w (.remove e ts)).map fun p =>
      (match p.1 with | .values _ => .unit | r => r, p.2) := by
  rw [step, step, World.delete, World.remove, ComponentStorage.delete, ComponentStorage.remove]
  cases w.components.lookupAll (·.deleteMask) ts with
  | panic => rfl
  | ub => rfl
  | ok p =>
    simp only [Res.bind_ok]
    cases w.components.withMask p.2 (ungroup · p.2 e) with
    | panic => rfl
    | ub => rfl
    | ok c =>
      simp only [Res.bind_ok, ComponentStorage.deleteEach_eq]
      cases c.removeEach e p.1 with
      | panic => rfl
      | ub => rfl
      | ok q => rfl

/-! ### Empty tuples -/

/-- **C62** Calls with an empty tuple change no component. -/
theorem C62_empty (w : World V) (e : Entity) :
    step w (.insert e []) = some (.bool (w.containsEntity e), w) ∧ step w (.remove e []) = some (.values [], w) ∧
    step w (.delete e []) = some (.unit, w) := by
  refine ⟨?_, rfl, rfl⟩
  rw [step, World.insert, World.containsEntity]
  cases w.entities.contains e <;> rfl

/-! ### `create` -/

/-- **C62 (partial)** `create` is `create` without components followed by `insert`. Missing: histories that break the
discipline of `maintain` (`C62_create_false`). -/
theorem C62_create_partial {h : History V} {w w1 : World V} (hr : Reach World.empty h w) (hd : Disciplined h)
    (vs : List (TypeId × V)) {r : Ret V} (hs : step w (.create []) = some (r, w1)) :
    (r = .panicked [] ∧ w1 = w ∧ step w (.create vs) = some (.panicked [], w)) ∨
    ∃ e, r = .entity e ∧ step w (.create vs) = (step w1 (.insert e vs)).map fun p =>
      (match p.1 with | .panicked _ => .panicked [e] | _ => .entity e, p.2) := by
  have hl := reach_life hr hd
  rw [step, World.create] at hs
  rcases hl.createUpTo_one with ⟨_, h1, h2⟩ | ⟨_, h1, es, h2, h3, _⟩
  · left
    rw [h1, h2] at hs
    cases hs
    refine ⟨rfl, rfl, ?_⟩
    rw [step, World.create, h1, h2]
    rfl
  · right
    rw [h1, h2] at hs
    cases hs
    refine ⟨_, rfl, ?_⟩
    have hc : es.contains (life h).nextEntity = true := (h3.contains_iff _).2 (Life.alive_made _ _)
    rw [step, World.create, h1, h2, step, World.insert]
    simp only [Outcome.ofRes_ok]
    show _ = Option.map _ (retOutcome [] (if (!es.contains (life h).nextEntity) = true then _ else _) _)
    rw [if_neg (by simp [hc])]
    show _ = Option.map _ (retOutcome [] (Outcome.bind (World.insertSet { w with entities := es } _ vs) _) _)
    cases World.insertSet { w with entities := es } (life h).nextEntity vs <;> rfl

/-- **C62 fails without the guard**: after `maintain` has brought back a destroyed entity (finding 1), `create` returns an
entity that `insert` does not find. -/
theorem C62_create_false : ∃ (h : History Nat) (w w1 : World Nat) (e : Entity), Reach World.empty h w ∧
    step w (.create []) = some (.entity e, w1) ∧ step w1 (.insert e [(0, 5)]) = some (.bool false, w1) ∧
    step w (.create [(0, 5)]) ≠ some (.entity e, w1) := by
  obtain ⟨rs, w, h1, h2⟩ := reach_witness (V := Nat)
    (ops := [.register 0, .create [], .destroy ⟨0, 1⟩, .maintain]) (f := fun (_ : List (Ret Nat)) w =>
      match step w (.create []) with
      | some (.entity e, w1) => decide (step w1 (.insert e [(0, 5)]) = some (.bool false, w1) ∧
          step w (.create [(0, 5)]) ≠ some (.entity e, w1))
      | _ => false) (by decide +kernel)
  split at h2
  · rename_i e w1 hs
    exact ⟨_, w, w1, e, h1, hs, of_decide_eq_true h2⟩
  · cases h2

/-! ### `destroy` -/

/-- The bits below `n`, from the highest. -/
theorem ungroupLoop_all {e : Entity} : ∀ (fuel n : Nat) (m : BitVec 64) (s : Sets V), n ≤ fuel →
    (∀ k, m.getLsbD k = true ↔ k < n) → ungroupLoop e fuel m s = ungroupAllLoop e n s
  | fuel, 0, m, s, _, hm => by
    have : m = 0#64 := by
      refine BitVec.eq_of_getLsbD_eq fun k _ => ?_
      have := hm k
      simpa using this
    rw [ungroupLoop.eq_def]
    simp only [bitNextBack_none.2 this]
    rfl
  | 0, n + 1, m, s, hn, _ => absurd hn (by omega)
  | fuel + 1, n + 1, m, s, hn, hm => by
    rw [ungroupLoop.eq_def, ungroupAllLoop]
    cases hb : bitNextBack m with
    | none =>
      rw [bitNextBack_none] at hb
      have := (hm n).2 (by omega)
      rw [hb] at this
      simp at this
    | some p =>
      obtain ⟨i, m'⟩ := p
      obtain ⟨h1, h2, h3, h4⟩ := bitNextBack_some hb
      have hi : i = n := by
        have h5 := (hm i).1 h2
        by_contra hne
        have := h3 n (by omega)
        rw [(hm n).2 (by omega)] at this
        cases this
      subst hi
      simp only [hb]
      refine congrArg (Res.bind _) (funext fun s' => ungroupLoop_all fuel i m' s' (by omega) fun k => ?_)
      rw [h4 k]
      have := hm k
      simp only [Bool.and_eq_true, Bool.not_eq_true', decide_eq_false_iff_not, this]
      omega

theorem deleteAll_get {e : Entity} : ∀ {l l' : List (CompSet V)}, ComponentStorage.deleteAll e l = .ok l' →
    l'.length = l.length ∧ ∀ (i : Nat) s, l[i]? = some s → ∃ s', s.delete e = .ok s' ∧ l'[i]? = some s'
  | [], l', h => by cases h; exact ⟨rfl, fun i s hs => by simp at hs⟩
  | s :: ss, l', h => by
    obtain ⟨s', h1, h⟩ := Res.bind_ok' h
    obtain ⟨ss', h2, h⟩ := Res.bind_ok' h
    cases h
    obtain ⟨h3, h4⟩ := deleteAll_get h2
    refine ⟨by simp [h3], fun i x hx => ?_⟩
    cases i with
    | zero => cases hx; exact ⟨s', h1, rfl⟩
    | succ i => exact h4 i x hx

theorem deleteEach_get {e : Entity} : ∀ (is : List Nat) (c : ComponentStorage V) (l' : List (CompSet V)), is.Nodup →
    (∀ i ∈ is, ∃ s s', c.components[i]? = some s ∧ s.delete e = .ok s' ∧ l'[i]? = some s') →
    ∃ c', c.deleteEach e is = .ok c' ∧ c'.groups = c.groups ∧ c'.metadata = c.metadata ∧
      (∀ i ∈ is, c'.components[i]? = l'[i]?) ∧ ∀ i, i ∉ is → c'.components[i]? = c.components[i]?
  | [], c, l', _, _ => ⟨c, rfl, rfl, rfl, by simp, fun _ _ => rfl⟩
  | i :: is, c, l', hn, hd => by
    rw [List.nodup_cons] at hn
    obtain ⟨s, s', h1, h2, h3⟩ := hd i (by simp)
    obtain ⟨c', g1, g2, g3, g4, g5⟩ := deleteEach_get is { c with components := c.components.set i s' } l' hn.2 (by
      intro j hj
      have hne : i ≠ j := fun h => hn.1 (h ▸ hj)
      obtain ⟨x, x', f1, f2, f3⟩ := hd j (by simp [hj])
      exact ⟨x, x', by rw [List.getElem?_set_ne hne, f1], f2, f3⟩)
    refine ⟨c', ?_, g2, g3, ?_, ?_⟩
    · rw [ComponentStorage.deleteEach, h1]
      simp only [Res.unchecked, Res.bind_ok, h2]
      exact g1
    · intro j hj
      by_cases hji : j ∈ is
      · exact g4 j hji
      · have : j = i := by simpa [hji] using hj
        subst this
        rw [g5 j hn.1, h3, List.getElem?_set_self (List.getElem?_eq_some_iff.1 h1).1]
    · intro j hj
      rw [g5 j fun h => hj (by simp [h]), List.getElem?_set_ne fun h => hj (by simp [h])]

/-- **C62 (partial)** `destroy` does to the sets and groups what `delete` of all registered types does. Missing: layouts
set last that are not well formed or above the maxima (findings 6, 7). -/
theorem C62_destroy_partial {h : History V} {w w1 : World V} (hr : Reach World.empty h w) (hst : Settled (calls h))
    {e : Entity} (hs : step w (.destroy e) = some (.bool true, w1)) {ts : List TypeId} (hn : ts.Nodup)
    (ht : ∀ t, t ∈ ts ↔ w.isRegistered t = true) :
    ∃ w2, step w (.delete e ts) = some (.unit, w2) ∧ (∀ t, w2.borrow t = w1.borrow t) ∧
      w2.components.groups = w1.components.groups ∧ w2.components.metadata = w1.components.metadata := by
  have hlay := (reach_lay hr hst).store
  have hstat := reach_static hr
  have hreg : ∀ t, t ∈ ts ↔ (w.components.meta? t).isSome := ht
  rw [step, World.destroy] at hs
  cases hrem : w.entities.remove e with
  | panic => rw [hrem] at hs; cases hs
  | ub => rw [hrem] at hs; cases hs
  | ok p =>
    obtain ⟨b, es⟩ := p
    rw [hrem] at hs
    simp only [Res.bind_ok] at hs
    cases b with
    | false => cases hs
    | true =>
      simp only [if_true] at hs
      cases hc : w.components.strip e with
      | panic => rw [hc] at hs; cases hs
      | ub => rw [hc] at hs; cases hs
      | ok c =>
        rw [hc] at hs
        cases hs
        obtain ⟨⟨comps, gs⟩, h1, hc⟩ := Res.bind_ok' hc
        obtain ⟨comps', h2, hc⟩ := Res.bind_ok' hc
        cases hc
        have hmask : ∀ k, (w.components.masks (·.deleteMask) ts).getLsbD k = true ↔ k < w.components.groups.length := by
          intro k
          have h3 : ∀ l : List TypeId, (w.components.masks (·.deleteMask) l).getLsbD k = true ↔
              ∃ t ∈ l, ∃ m, w.components.meta? t = some m ∧ m.deleteMask.getLsbD k = true := by
            intro l
            induction l with
            | nil => simp [ComponentStorage.masks]
            | cons t l ih =>
              have : w.components.masks (·.deleteMask) (t :: l) =
                  (match w.components.meta? t with | some md => md.deleteMask | none => 0#64) |||
                    w.components.masks (·.deleteMask) l := rfl
              rw [this, BitVec.getLsbD_or, Bool.or_eq_true, ih]
              cases hm : w.components.meta? t <;> simp [hm]
          rw [h3]
          constructor
          · rintro ⟨t, _, m, hm, hk⟩
            obtain ⟨g, hg, _⟩ := (hlay.mds.del t m k hm).1 hk
            exact (List.getElem?_eq_some_iff.1 hg).1
          · intro hk
            obtain ⟨g, hg⟩ : ∃ g, w.components.groups[k]? = some g := ⟨_, List.getElem?_eq_getElem hk⟩
            obtain ⟨b1, b2, b3⟩ := hlay.gstat.bounds k g hg
            obtain ⟨t, m, hm, hi⟩ := hlay.mds.cover k g g.newStorageStart hg ⟨b1, b2⟩
            exact ⟨t, (hreg t).2 (by rw [ComponentStorage.meta?, hm]; rfl), m, hm,
              (hlay.mds.del t m k hm).2 ⟨g, hg, by rw [hi]; exact ⟨b1, b2⟩⟩⟩
        have hcount := hlay.gstat.count
        have hun : w.components.withMask (w.components.masks (·.deleteMask) ts)
            (ungroup · (w.components.masks (·.deleteMask) ts) e) = .ok { w.components with components := comps, groups := gs } := by
          have h4 := ungroupLoop_all (V := V) (e := e) 64 w.components.groups.length _
            (w.components.components, w.components.groups) (by omega) hmask
          have h5 : ungroup (w.components.components, w.components.groups) (w.components.masks (·.deleteMask) ts) e =
              .ok (comps, gs) := by
            rw [ungroup, h4]
            exact h1
          rw [ComponentStorage.withMask]
          split
          · rename_i h0
            have hz : w.components.groups.length = 0 := by
              by_contra hne
              have := (hmask 0).2 (by omega)
              rw [h0] at this
              simp at this
            rw [ungroupAll, hz] at h1
            cases h1
            rfl
          · rw [h5]
            rfl
        have hlen : comps.length = w.components.components.length := (ungroupAllLoop_shape _ _ _ h1).1
        obtain ⟨d1, d2⟩ := deleteAll_get h2
        have hall : (ts.all fun t => (w.components.meta? t).isSome) = true := by
          rw [List.all_eq_true]
          exact fun t ht' => (hreg t).1 ht'
        obtain ⟨c', e1, e2, e3, e4, e5⟩ := deleteEach_get (e := e) (ts.map w.components.idxOf)
          { w.components with components := comps, groups := gs } comps'
          (ComponentStorage.nodup_idx hstat hn fun t ht' => (hreg t).1 ht') (by
            intro i hi
            obtain ⟨t, ht', rfl⟩ := List.mem_map.1 hi
            obtain ⟨m, hm⟩ := Option.isSome_iff_exists.1 ((hreg t).1 ht')
            have hb : w.components.idxOf t < comps.length := by
              rw [hlen, w.components.idxOf_eq hm]
              exact hstat.idx t m hm
            obtain ⟨s', f1, f2⟩ := d2 _ _ (List.getElem?_eq_getElem hb)
            exact ⟨_, s', List.getElem?_eq_getElem hb, f1, f2⟩)
        refine ⟨{ w with components := c' }, ?_, ?_, e2, e3⟩
        · rw [step, World.delete, ComponentStorage.delete, ComponentStorage.lookupAll_eq hstat, if_pos hall]
          simp only [Res.bind_ok]
          rw [hun]
          simp only [Res.bind_ok]
          rw [e1]
          rfl
        · intro t
          have hm1 : c'.meta? t = w.components.meta? t := by
            rw [ComponentStorage.meta?, e3]
            rfl
          unfold World.borrow
          show (match c'.meta? t with | none => _ | some m => _) = (match w.components.meta? t with | none => _ | some m => _)
          rw [hm1]
          cases hm : w.components.meta? t with
          | none => rfl
          | some m =>
            have hmem : m.storageIndex ∈ ts.map w.components.idxOf :=
              List.mem_map.2 ⟨t, (hreg t).2 (by rw [hm]; rfl), w.components.idxOf_eq hm⟩
            simp only
            rw [e4 _ hmem]

/-- A world with two groups and a further type. -/
def composedOps : List (Op Nat) :=
  [.setLayout anyOrder [[0, 1], [0, 1, 2]], .register 3, .create [(0, 10), (1, 11), (2, 12)], .create [(0, 20), (1, 21)],
    .create [(0, 30), (1, 31), (2, 32), (3, 33)]]

/-- The calls of C62 in this world. -/
example : holdsAfter composedOps (fun _ w =>
    decide (step w (.remove ⟨2, 1⟩ [0, 3]) = (step w (.delete ⟨2, 1⟩ [0, 3])).map (fun p => (.values [some 30, some 33], p.2)) ∧
      (step w (.create [(1, 5)])).map (·.1) = some (.entity ⟨3, 1⟩)) &&
    (match step w (.destroy ⟨2, 1⟩), step w (.delete ⟨2, 1⟩ [3, 0, 2, 1]) with
      | some (r, w1), some (r', w2) => decide (r = .bool true ∧ r' = .unit ∧ w1.components = w2.components ∧
          w1.components ≠ w.components)
      | _, _ => false)) = true ∧ Settled composedOps ∧ Disciplined (composedOps.map fun op => (op, .unit)) := by
  decide +kernel

end Sparsey
