import Verif.Proofs.Bombs
import Verif.Properties.Queries

/-!
C37: destructors that panic, the panic being caught.
-/

set_option autoImplicit false
set_option linter.unusedSimpArgs false

namespace Sparsey
variable {V : Type}

theorem runB_witness {bomb : V → Bool} {ops : List (Op V)} {f : List (Ret V) → World V → List V → Bool}
    (h : (runB bomb World.empty ops).any (fun p => f p.1 p.2.1 p.2.2) = true) :
    ∃ rs w ds, runB bomb World.empty ops = some (rs, w, ds) ∧ f rs w ds = true := by
  cases hr : runB bomb World.empty ops with
  | none => rw [hr] at h; cases h
  | some p => rw [hr] at h; exact ⟨_, _, _, rfl, h⟩

/-! ### What goes wrong -/

/-- C37 is false: `delete` drops the component in place before it moves the last one there. If the destructor panics the
last entity reads the dropped component, its own is lost, and the dropped one is dropped again with the world. -/
theorem C37_false : ∃ (w : World Nat) (rs : List (Ret Nat)) (ds : List Nat),
    runB (· == 10) World.empty [.register 0, .create [(0, 10)], .create [(0, 20)], .create [(0, 30)],
      .delete ⟨0, 1⟩ [0]] = some (rs, w, ds) ∧ rs.getLast? = some (.panicked []) ∧ ds = [10] ∧
    w.viewGet 0 ⟨2, 1⟩ = .ok (some 10) ∧ 30 ∉ w.stored ∧ (ds ++ w.finalDropsB (· == 10)).count 10 = 2 := by
  obtain ⟨rs, w, ds, h1, h2⟩ := runB_witness (bomb := (· == 10)) (ops := ([.register 0, .create [(0, 10)], .create [(0, 20)],
    .create [(0, 30)], .delete ⟨0, 1⟩ [0]] : List (Op Nat))) (f := fun rs w ds => decide (rs.getLast? = some (.panicked []) ∧
      ds = [10] ∧ w.viewGet 0 ⟨2, 1⟩ = .ok (some 10) ∧ 30 ∉ w.stored ∧
      (ds ++ w.finalDropsB (· == 10)).count 10 = 2)) (by decide)
  exact ⟨w, rs, ds, h1, of_decide_eq_true h2⟩

/-- `clear` resets the length after the loop over the components. If a destructor panics, those dropped already are
dropped again with the world. -/
theorem C37_clear_false : ∃ (w : World Nat) (rs : List (Ret Nat)) (ds : List Nat),
    runB (· == 20) World.empty [.register 0, .create [(0, 10)], .create [(0, 20)], .clear] = some (rs, w, ds) ∧
    rs.getLast? = some (.panicked []) ∧ ds = [10, 20] ∧ (ds ++ w.finalDropsB (· == 20)).count 10 = 2 := by
  obtain ⟨rs, w, ds, h1, h2⟩ := runB_witness (bomb := (· == 20)) (ops := ([.register 0, .create [(0, 10)],
    .create [(0, 20)], .clear] : List (Op Nat))) (f := fun rs w ds => decide (rs.getLast? = some (.panicked []) ∧
      ds = [10, 20] ∧ (ds ++ w.finalDropsB (· == 20)).count 10 = 2)) (by decide)
  exact ⟨w, rs, ds, h1, of_decide_eq_true h2⟩

/-- `reset` interrupted in the first set leaves the components of the other sets behind, though all entities are gone. The
next entity is the same as the first one and has them from the start. -/
theorem C37_reset_false : ∃ (w : World Nat) (rs : List (Ret Nat)) (ds : List Nat),
    runB (· == 10) World.empty [.register 0, .register 1, .create [(0, 10), (1, 11)], .reset, .create []] =
      some (rs, w, ds) ∧
    rs = [.bool true, .bool true, .entity ⟨0, 1⟩, .panicked [], .entity ⟨0, 1⟩] ∧ w.viewGet 1 ⟨0, 1⟩ = .ok (some 11) := by
  obtain ⟨rs, w, ds, h1, h2⟩ := runB_witness (bomb := (· == 10)) (ops := ([.register 0, .register 1,
    .create [(0, 10), (1, 11)], .reset, .create []] : List (Op Nat))) (f := fun rs w _ => decide (
      rs = [.bool true, .bool true, .entity ⟨0, 1⟩, .panicked [], .entity ⟨0, 1⟩] ∧ w.viewGet 1 ⟨0, 1⟩ = .ok (some 11))) (by decide)
  exact ⟨w, rs, ds, h1, of_decide_eq_true h2⟩

/-- `destroy` interrupted in the first set leaves the components of the other sets behind under the dead entity. A new
entity with the same index that is created with such a component cannot read it. -/
theorem C37_destroy_false : ∃ (w : World Nat) (rs : List (Ret Nat)) (ds : List Nat),
    runB (· == 10) World.empty [.register 0, .register 1, .create [(0, 10), (1, 11)], .destroy ⟨0, 1⟩,
      .create [(1, 99)]] = some (rs, w, ds) ∧
    rs = [.bool true, .bool true, .entity ⟨0, 1⟩, .panicked [], .entity ⟨0, 2⟩] ∧ w.containsEntity ⟨0, 2⟩ = true ∧
    w.viewGet 1 ⟨0, 2⟩ = .ok none ∧ w.containsEntity ⟨0, 1⟩ = false ∧ w.viewGet 1 ⟨0, 1⟩ = .ok (some 99) := by
  obtain ⟨rs, w, ds, h1, h2⟩ := runB_witness (bomb := (· == 10)) (ops := ([.register 0, .register 1,
    .create [(0, 10), (1, 11)], .destroy ⟨0, 1⟩, .create [(1, 99)]] : List (Op Nat))) (f := fun rs w _ => decide (
      rs = [.bool true, .bool true, .entity ⟨0, 1⟩, .panicked [], .entity ⟨0, 2⟩] ∧ w.containsEntity ⟨0, 2⟩ = true ∧
      w.viewGet 1 ⟨0, 2⟩ = .ok none ∧ w.containsEntity ⟨0, 1⟩ = false ∧ w.viewGet 1 ⟨0, 1⟩ = .ok (some 99))) (by decide)
  exact ⟨w, rs, ds, h1, of_decide_eq_true h2⟩

/-- `delete` takes the entity out of all groups of the given types first. If the destructor of the first component panics
the entity keeps the others but is missing in their groups: a query over them does not find it. -/
theorem C37_group_false : ∃ (w : World Nat) (rs : List (Ret Nat)) (ds : List Nat) (q : QueryAll Nat) (b : Borrows),
    runB (· == 10) World.empty [.setLayout anyOrder [[0, 1], [2, 3]], .create [(0, 10), (1, 11), (2, 12), (3, 13)],
      .delete ⟨0, 1⟩ [0, 2]] = some (rs, w, ds) ∧
    w.viewGet 2 ⟨0, 1⟩ = .ok (some 12) ∧ w.viewGet 3 ⟨0, 1⟩ = .ok (some 13) ∧
    QueryAll.new w [] [.ref 2, .ref 3] [] [] = .ok (q, b) ∧ q.items = .ok [] := by
  obtain ⟨rs, w, ds, h1, h2⟩ := runB_witness (bomb := (· == 10)) (ops := ([.setLayout anyOrder [[0, 1], [2, 3]],
    .create [(0, 10), (1, 11), (2, 12), (3, 13)], .delete ⟨0, 1⟩ [0, 2]] : List (Op Nat))) (f := fun _ w _ =>
      decide (w.viewGet 2 ⟨0, 1⟩ = .ok (some 12) ∧ w.viewGet 3 ⟨0, 1⟩ = .ok (some 13)) &&
      itemsAre w [.ref 2, .ref 3] [] [] (fun its => decide (its = []))) (by decide +kernel)
  simp only [Bool.and_eq_true, decide_eq_true_eq] at h2
  obtain ⟨⟨h2, h3⟩, h4⟩ := h2
  obtain ⟨q, b, its, h5, h6, h7⟩ := itemsAre_iff h4
  obtain rfl := of_decide_eq_true h7
  exact ⟨w, rs, ds, q, b, h1, h2, h3, h5, h6⟩

/-! ### What remains true -/

/-- Calls that meet no bomb are not affected by them. -/
theorem C37_calm {bomb : V → Bool} {w w' : World V} {op : Op V} {r : Ret V} (h : step w op = some (r, w'))
    (hp : r ≠ .panicked []) (hb : ∀ v ∈ w.drops op, bomb v = false) : stepB bomb w op = some (r, w', w.drops op) :=
  stepB_calm h hp hb

/-- C37, one call in any reachable world: what the call drops was stored, and nothing is dropped twice by the call itself.
If the bomb is at the end of its set (and for `clear` and `reset` only if there is none) every value is afterwards
dropped or stored, once. Missing: the cases of `C37_false` and `C37_clear_false`. -/
theorem C37_partial {bomb : V → Bool} {h : History V} {w w' : World V} (hr : Reach World.empty h w) {op : Op V}
    {r : Ret V} {ds : List V} (hs : stepB bomb w op = some (r, w', ds)) :
    (∃ rest, (op.given ++ w.stored).Perm (r.returned ++ (ds ++ rest))) ∧
      (w.Harmless bomb op → (op.given ++ w.stored).Perm (r.returned ++ (ds ++ w'.stored))) := by
  obtain ⟨_, hd⟩ := reach_drops hr
  exact stepB_ledger (drops_ledger hd tidy_empty).1 (reach_idx hr).2 hs

theorem damage_view {w w' : World V} {m : MapWorld V} {P : Entity → Nat → Prop} (hi : InvX w m P) (h3 : Readable w'.components)
    (h4 : w'.components.metadata = w.components.metadata) {e : Entity} {t : TypeId} {z : Entity} {v : V}
    (h8 : Damage w.components.value w'.components.value e t z v) :
    (∀ t, w'.isRegistered t = w.isRegistered t) ∧
      (∀ t', w'.viewGet t' e = w.viewGet t' e ∨ w'.viewGet t' e = .ok none) ∧
      (∀ t' x, x ≠ e → w'.viewGet t' x = w.viewGet t' x ∨
        (t' = t ∧ x = z ∧ w.viewGet t e = .ok (some v) ∧ w'.viewGet t z = .ok (some v))) := by
  have hmeta : ∀ t, w'.components.meta? t = w.components.meta? t := fun t => by
    unfold ComponentStorage.meta?; rw [h4]
  refine ⟨fun t => ?_, fun t' => ?_, fun t' x hx => ?_⟩
  · unfold World.isRegistered ComponentStorage.isRegistered
    rw [hmeta]
  · rw [h3.viewGet, hi.store.readable.viewGet, hmeta]
    split
    · rcases h8.self t' with h10 | h10
      · exact .inl (by rw [h10])
      · exact .inr (by rw [h10])
    · exact .inl rfl
  · rw [h3.viewGet, hi.store.readable.viewGet, hmeta]
    split
    · rename_i hsome
      rcases h8.others t' x hx with h10 | ⟨rfl, rfl, h10, h11, h12⟩
      · exact .inl (by rw [h10])
      · refine .inr ⟨rfl, rfl, ?_, ?_⟩
        · rw [hi.store.readable.viewGet, if_pos hsome, h11]
        · rw [h3.viewGet, hmeta, if_pos hsome, h12]
    · exact .inl rfl

/-- C37, reads: as last call of a `Fair` history, `delete` either runs to the end (dropping no bomb) or panics after dropping the first
bomb `v`, a component of `e`. After the panic there are the same entities and types; the components of `e` are as before or
gone; at most one other component reads differently: that of `z`, which reads the dropped `v`; if the bomb is at the end
of its set there is no such `z`. Missing: C37 demands that there is none in any case (`C37_false`); the groups of `e`
(`C37_group_false`); histories that are not `Fair`. -/
theorem C37_delete_partial {bomb : V → Bool} {h : History V} {w : World V} (hr : Reach World.empty h w)
    (e : Entity) {ts : List TypeId} (hg : Fair (calls h ++ [.delete e ts])) (hreg : ∀ t ∈ ts, w.isRegistered t = true) :
    (∃ w' ds, step w (.delete e ts) = some (.unit, w') ∧ stepB bomb w (.delete e ts) = some (.unit, w', ds) ∧
      ∀ v ∈ ds, bomb v = false) ∨
    ∃ w' d t z v, stepB bomb w (.delete e ts) = some (.panicked [], w', d ++ [v]) ∧ bomb v = true ∧
      (∀ v ∈ d, bomb v = false) ∧ t ∈ ts ∧ w'.entities = w.entities ∧ (∀ t, w'.isRegistered t = w.isRegistered t) ∧
      (∀ t', w'.viewGet t' e = w.viewGet t' e ∨ w'.viewGet t' e = .ok none) ∧
      (∀ t' x, x ≠ e → w'.viewGet t' x = w.viewGet t' x ∨
        (t' = t ∧ x = z ∧ w.viewGet t e = .ok (some v) ∧ w'.viewGet t z = .ok (some v))) ∧
      (w.Harmless bomb (.delete e ts) → z = e) := by
  obtain ⟨hg, _, hv⟩ := hg.snoc hr
  have hi := reach_invL hr hg
  rcases deleteB_damage (bomb := bomb) hi (e := e) hv hreg with
    ⟨w', d, h1, h2, _, _, _, h3⟩ | ⟨w', d, t, z, v, h1, h2, h3, h4, h5, h6, h7, h8, h9⟩
  · refine .inl ⟨w', d, ?_, ?_, h3⟩
    · unfold World.deleteB at h1
      cases hd : w.components.deleteB bomb e ts with
      | ub => rw [hd] at h1; cases h1
      | panic p => rw [hd] at h1; cases h1
      | ok u p =>
        rw [hd] at h1
        cases h1
        simp only [step, World.delete, ComponentStorage.deleteB_done hd, Res.bind_ok, Res.pure_eq, retRes]
    · show retB (w.deleteB bomb e ts) _ = _
      rw [h1]
      rfl
  · have hv := damage_view hi h3 h4 h8
    refine .inr ⟨w', d, t, z, v, ?_, h6, h7, h5, h2, hv.1, hv.2.1, hv.2.2, h9⟩
    show retB (w.deleteB bomb e ts) _ = _
    rw [h1]
    rfl

/-- C37, reads: the same for `destroy`. After the panic `e` is gone as after a completed `destroy`. Missing: as for
`delete`; and components of `e` in later sets may remain, which is what `C37_destroy_false` is about. -/
theorem C37_destroy_partial {bomb : V → Bool} {h : History V} {w : World V} (hr : Reach World.empty h w)
    {e : Entity} (hg : Fair (calls h ++ [.destroy e])) (he : w.containsEntity e = true) :
    ∃ w₁, step w (.destroy e) = some (.bool true, w₁) ∧
    ((∃ ds, stepB bomb w (.destroy e) = some (.bool true, w₁, ds) ∧ ∀ v ∈ ds, bomb v = false) ∨
    ∃ w' d t z v, stepB bomb w (.destroy e) = some (.panicked [], w', d ++ [v]) ∧ bomb v = true ∧
      (∀ v ∈ d, bomb v = false) ∧ w'.entities = w₁.entities ∧ (∀ t, w'.isRegistered t = w.isRegistered t) ∧
      (∀ t', w'.viewGet t' e = w.viewGet t' e ∨ w'.viewGet t' e = .ok none) ∧
      (∀ t' x, x ≠ e → w'.viewGet t' x = w.viewGet t' x ∨
        (t' = t ∧ x = z ∧ w.viewGet t e = .ok (some v) ∧ w'.viewGet t z = .ok (some v))) ∧
      (w.Harmless bomb (.destroy e) → ∀ t' x, x ≠ e → w'.viewGet t' x = w.viewGet t' x)) := by
  obtain ⟨hg, hf, hv⟩ := hg.snoc hr
  have hi := reach_invL hr hg
  obtain ⟨w₁, hs, _⟩ := reach_nextL hr hg hf hv
  have ha : (mapOf (calls h)).answer (.destroy e) = .bool true := by
    simp [MapWorld.answer, (hi.contains_iff e).1 he]
  rw [ha] at hs
  refine ⟨w₁, hs, ?_⟩
  rcases retRes_cases hs with ⟨_, h1, _⟩ | ⟨⟨b, w2⟩, h1, h2⟩
  · cases h1
  simp only [Prod.mk.injEq, Ret.bool.injEq] at h2
  obtain ⟨rfl, rfl⟩ := h2
  rw [World.destroy] at h1
  obtain ⟨⟨b', es⟩, h3, h1⟩ := Res.bind_ok' h1
  cases b' with
  | false => cases h1
  | true =>
    obtain ⟨c, h4, h1⟩ := Res.bind_ok' h1
    cases h1
    rcases stripB_damage (bomb := bomb) hi e (by simpa only [World.Even, World.swaps, h3] using hv) with
      ⟨c', d, j1, j2, j3, j4, j5⟩ | ⟨c', d, t, z, v, j1, j2, j3, j4, j5, j6, j7⟩
    · have j6 := ComponentStorage.stripB_done j1
      rw [h4] at j6
      cases j6
      refine .inl ⟨d, ?_, j5⟩
      show retB (w.destroyB bomb e) _ = _
      unfold World.destroyB
      simp only [h3, Outcome.ofRes, if_true, j1]
      rfl
    · have hv := damage_view (w' := ⟨es, c'⟩) hi j2 j3 j6
      refine .inr ⟨⟨es, c'⟩, d, t, z, v, ?_, j4, j5, rfl, hv.1, hv.2.1, hv.2.2, fun hh t' x hx => ?_⟩
      · show retB (w.destroyB bomb e) _ = _
        unfold World.destroyB
        simp only [h3, Outcome.ofRes, if_true, j1]
        rfl
      · rw [Readable.viewGet (w := ⟨es, c'⟩) j2, hi.store.readable.viewGet, j7 hh t' x hx]
        unfold ComponentStorage.meta?
        rw [j3]

/-! ### Examples -/

/-- `e₁` has components in two sets, in one of them at the end; the bomb is in that one. -/
def bombOps : List (Op Nat) :=
  [.setLayout anyOrder [[0, 1]], .register 2, .create [(0, 10), (1, 11), (2, 12)], .create [(0, 20), (1, 21)],
    .create [(2, 32)]]

/-- Non-vacuity: a harmless bomb in `delete`, one that does damage, and one in `destroy`. -/
example : Fair (bombOps ++ [.delete ⟨1, 1⟩ [1, 0]]) ∧ Fair (bombOps ++ [.delete ⟨0, 1⟩ [0, 2]]) ∧
    Fair (bombOps ++ [.destroy ⟨0, 1⟩]) ∧ holdsAfter bombOps (fun _ w =>
    (stepB (· == 20) w (.delete ⟨1, 1⟩ [1, 0])).any (fun p => decide (p.1 = .panicked [] ∧ p.2.2 = [21, 20] ∧
      p.2.1.viewGet 0 ⟨0, 1⟩ = .ok (some 10) ∧ p.2.1.stored = [10, 11, 12, 32])) &&
    (stepB (· == 12) w (.delete ⟨0, 1⟩ [0, 2])).any (fun p => decide (p.1 = .panicked [] ∧ p.2.2 = [10, 12] ∧
      p.2.1.viewGet 2 ⟨2, 1⟩ = .ok (some 12) ∧ p.2.1.stored = [20, 21, 11, 12])) &&
    (stepB (· == 11) w (.destroy ⟨0, 1⟩)).any (fun p => decide (p.1 = .panicked [] ∧ p.2.2 = [10, 11] ∧
      p.2.1.viewGet 1 ⟨1, 1⟩ = .ok (some 21) ∧ p.2.1.viewGet 2 ⟨0, 1⟩ = .ok (some 12) ∧
      p.2.1.containsEntity ⟨0, 1⟩ = false))) = true := by
  decide +kernel

/-! ### Drop of the world -/

/-- What is dropped of one set: everything up to and including the first bomb. -/
structure DroppedOf (bomb : V → Bool) (vs ds : List V) : Prop where
  pre : ds <+: vs
  calm : ∀ v ∈ ds.dropLast, bomb v = false
  stop : ds = vs ∨ ∃ v, ds.getLast? = some v ∧ bomb v = true

theorem upToBomb_dropped (bomb : V → Bool) : ∀ vs : List V, DroppedOf bomb vs (upToBomb bomb vs) ∧
    (vs.any bomb = false → upToBomb bomb vs = vs) ∧ (vs.any bomb = true → ∃ v, (upToBomb bomb vs).getLast? = some v ∧ bomb v = true)
  | [] => ⟨⟨List.prefix_refl _, by simp [upToBomb], .inl rfl⟩, fun _ => rfl, by simp⟩
  | v :: vs => by
    obtain ⟨⟨h1, h2, h3⟩, h4, h5⟩ := upToBomb_dropped bomb vs
    rw [upToBomb]
    cases hv : bomb v with
    | true =>
      simp only [if_true]
      exact ⟨⟨⟨vs, rfl⟩, by simp, .inr ⟨v, rfl, hv⟩⟩, by simp [hv], fun _ => ⟨v, rfl, hv⟩⟩
    | false =>
      simp only [Bool.false_eq_true, if_false, List.any_cons, hv, Bool.false_or]
      have hlast : ∀ x, (upToBomb bomb vs).getLast? = some x → (v :: upToBomb bomb vs).getLast? = some x := by
        intro x hx
        rw [List.getLast?_cons, hx]
        rfl
      refine ⟨⟨List.cons_prefix_cons.2 ⟨rfl, h1⟩, fun x hx => ?_, ?_⟩, fun h => by rw [h4 h], fun h => ?_⟩
      · cases hu : upToBomb bomb vs with
        | nil => rw [hu] at hx; simp at hx
        | cons y ys =>
          rw [hu, List.dropLast_cons_of_ne_nil (by simp)] at hx
          rcases List.mem_cons.1 hx with rfl | hx
          · exact hv
          · exact h2 x (by rw [hu]; exact hx)
      · rcases h3 with h3 | ⟨x, hx, hb⟩
        · exact .inl (by rw [h3])
        · exact .inr ⟨x, hlast x hx, hb⟩
      · obtain ⟨x, hx, hb⟩ := h5 h
        exact ⟨x, hlast x hx, hb⟩

theorem dropSetsB_spec (bomb : V → Bool) : ∀ (l : List (CompSet V)) (p : Bool),
    ((World.dropSetsB bomb p l).2 = true ↔ 2 ≤ (if p then 1 else 0) + l.countP (fun s => s.components.any bomb)) ∧
    (∃ ds, List.Forall₂ (fun s d => DroppedOf bomb s.components d) (l.take ds.length) ds ∧
      (World.dropSetsB bomb p l).1 = ds.flatten ∧ ((World.dropSetsB bomb p l).2 = false → ds.length = l.length) ∧
      ((World.dropSetsB bomb p l).2 = true → (if p then 1 else 0) + (l.take ds.length).countP (fun s => s.components.any bomb) = 2))
  | [], p => by
    refine ⟨?_, [], .nil, rfl, fun _ => rfl, by simp [World.dropSetsB]⟩
    cases p <;> simp [World.dropSetsB]
  | s :: l, p => by
    obtain ⟨h1, h2, h3⟩ := upToBomb_dropped bomb s.components
    rw [World.dropSetsB]
    cases hb : s.components.any bomb with
    | true =>
      cases p with
      | true =>
        simp only [if_true]
        refine ⟨?_, [upToBomb bomb s.components], ?_, by simp, by simp, by simp [hb]⟩
        · simp [hb]
          omega
        · simpa using h1
      | false =>
        obtain ⟨h4, ds, h5, h6, h7, h8⟩ := dropSetsB_spec bomb l true
        simp only [if_true, Bool.false_eq_true, if_false] at h4 h8 ⊢
        refine ⟨?_, upToBomb bomb s.components :: ds, ?_, by simp [h6], fun h => by simp [h7 h], fun h => ?_⟩
        · rw [h4, List.countP_cons]
          simp only [hb, if_true]
          omega
        · simpa using ⟨h1, h5⟩
        · have := h8 h
          rw [List.length_cons, List.take_succ_cons, List.countP_cons]
          simp only [hb, if_true]
          omega
    | false =>
      obtain ⟨h4, ds, h5, h6, h7, h8⟩ := dropSetsB_spec bomb l p
      simp only [Bool.false_eq_true, if_false]
      refine ⟨?_, s.components :: ds, ?_, by simp [h6], fun h => by simp [h7 h], fun h => ?_⟩
      · rw [h4]
        simp [hb]
      · rw [h2 hb] at h1
        simpa using ⟨h1, h5⟩
      · have := h8 h
        simp [hb]
        omega

/-- C37, drop of any world: the process is aborted exactly if two sets hold bombs. Otherwise the destructor is called, set
by set, of the components up to and including the first bomb. In no case is it called twice for a value. -/
theorem C37_drop (bomb : V → Bool) (w : World V) :
    (w.abortsB bomb = true ↔ 2 ≤ w.components.components.countP (fun s => s.components.any bomb)) ∧
    (w.abortsB bomb = false → ∃ ds, List.Forall₂ (fun s d => DroppedOf bomb s.components d) w.components.components ds ∧
      w.finalDropsB bomb = ds.flatten) ∧
    (w.finalDropsB bomb).Sublist w.stored ∧
    ((∀ v ∈ w.stored, bomb v = false) → w.finalDropsB bomb = w.stored ∧ w.abortsB bomb = false) := by
  obtain ⟨h1, ds, h2, h3, h4, _⟩ := dropSetsB_spec bomb w.components.components false
  have h1 : w.abortsB bomb = true ↔ 2 ≤ w.components.components.countP (fun s => s.components.any bomb) := by
    simpa [World.abortsB] using h1
  have hd : w.abortsB bomb = false → ∃ ds, List.Forall₂ (fun s d => DroppedOf bomb s.components d)
      w.components.components ds ∧ w.finalDropsB bomb = ds.flatten := by
    intro h
    have h5 := h4 h
    rw [h5, List.take_length] at h2
    exact ⟨ds, h2, h3⟩
  have hsub : ∀ {l : List (CompSet V)} {ds : List (List V)},
      List.Forall₂ (fun s d => DroppedOf bomb s.components d) l ds → ds.flatten.Sublist (l.flatMap (·.components)) := by
    intro l ds h
    induction h with
    | nil => simp
    | cons a _ ih =>
      simp only [List.flatten_cons, List.flatMap_cons]
      exact a.pre.sublist.append ih
  refine ⟨h1, hd, ?_, fun h => ?_⟩
  · have h6 : w.finalDropsB bomb = ds.flatten := h3
    rw [h6]
    refine (hsub h2).trans ?_
    unfold World.stored
    conv_rhs => rw [← List.take_append_drop ds.length w.components.components, List.flatMap_append]
    exact List.sublist_append_left ..
  · have h0 : w.components.components.countP (fun s => s.components.any bomb) = 0 := by
      rw [List.countP_eq_zero]
      intro s hs hc
      obtain ⟨v, hv, hb⟩ := List.any_eq_true.1 hc
      rw [h v (List.mem_flatMap.2 ⟨s, hs, hv⟩)] at hb
      cases hb
    have ha : w.abortsB bomb = false := by
      cases hc : w.abortsB bomb with
      | false => rfl
      | true =>
        have := h1.1 hc
        omega
    refine ⟨?_, ha⟩
    obtain ⟨ds, h5, h6⟩ := hd ha
    rw [h6]
    unfold World.stored
    have : ∀ {l : List (CompSet V)} {ds : List (List V)}, (∀ v ∈ l.flatMap (·.components), bomb v = false) →
        List.Forall₂ (fun s d => DroppedOf bomb s.components d) l ds → ds.flatten = l.flatMap (·.components) := by
      intro l ds hl h
      induction h with
      | nil => rfl
      | @cons s d _ _ a _ ih =>
        simp only [List.flatMap_cons, List.mem_append] at hl
        simp only [List.flatten_cons, List.flatMap_cons]
        rw [ih fun v hv => hl v (.inr hv)]
        congr 1
        rcases a.stop with h1 | ⟨v, h1, h2⟩
        · exact h1
        · rw [hl v (.inl (a.pre.subset (List.mem_of_getLast? h1)))] at h2
          cases h2
    exact this h h5

/-- The other components of the set leak, and two bombs in different sets abort. -/
theorem C37_drop_false : ∃ (w : World Nat) (rs : List (Ret Nat)) (ds : List Nat),
    runB (· == 10) World.empty [.register 0, .register 1, .create [(0, 10), (1, 11)], .create [(0, 20)]] = some (rs, w, ds) ∧
    w.stored = [10, 20, 11] ∧ w.finalDropsB (· == 10) = [10, 11] ∧ w.abortsB (· == 10) = false ∧
    w.abortsB (· ≤ 11) = true ∧ w.finalDropsB (· ≤ 11) = [10, 11] := by
  obtain ⟨rs, w, ds, h1, h2⟩ := runB_witness (bomb := (· == 10)) (ops := ([.register 0, .register 1,
    .create [(0, 10), (1, 11)], .create [(0, 20)]] : List (Op Nat))) (f := fun _ w _ => decide (
      w.stored = [10, 20, 11] ∧ w.finalDropsB (· == 10) = [10, 11] ∧ w.abortsB (· == 10) = false ∧
      w.abortsB (· ≤ 11) = true ∧ w.finalDropsB (· ≤ 11) = [10, 11])) (by decide)
  exact ⟨w, rs, ds, h1, of_decide_eq_true h2⟩

end Sparsey
