import Verif.Proofs.Places
import Verif.Properties.Queries

/-!
C31 for queries: no undefined behaviour in building and using them.
-/

set_option autoImplicit false
set_option linter.unusedSimpArgs false

namespace Sparsey
variable {V : Type}

theorem borrowSet_safe {c : ComponentStorage V} (hc : Sound c) (b : Borrows) (x : Bool) (t : TypeId) :
    borrowSet c b x t ≠ .ub := by
  unfold borrowSet
  cases hm : c.meta? t with
  | none => simp
  | some m =>
    obtain ⟨s, hs, _⟩ := hc.at_meta hm
    simp only [hs, Res.unchecked_some, Res.bind_ok]
    cases x
    · simp only [Bool.false_eq_true, if_false, borrowShared]
      split <;> simp
    · simp only [if_true, borrowExclusive]
      split <;> simp

theorem borrowPart_safe {c : ComponentStorage V} (hc : Sound c) (b : Borrows) (p : Part) : borrowPart c b p ≠ .ub := by
  have key : ∀ (x : Bool) (t : TypeId) {α : Type} (f : Nat × CompSet V × Option GroupInfo × Borrows → α),
      (borrowSet c b x t >>= fun r => pure (f r)) ≠ .ub := by
    intro x t α f
    have := borrowSet_safe hc b x t
    cases h : borrowSet c b x t with
    | ok a => simp
    | panic => simp
    | ub => exact absurd h this
  cases p with
  | entity => simp [borrowPart]
  | ref t => exact key false t _
  | refMut t => exact key true t _
  | opt t => exact key false t _
  | optMut t => exact key true t _

theorem borrowParts_safe {c : ComponentStorage V} (hc : Sound c) : ∀ (q : Query) (b : Borrows), borrowParts c b q ≠ .ub
  | [], b => by simp [borrowParts]
  | p :: ps, b => by
    simp only [borrowParts]
    have h1 := borrowPart_safe hc b p
    cases h : borrowPart c b p with
    | panic => simp
    | ub => exact absurd h h1
    | ok a =>
      obtain ⟨v, i, b'⟩ := a
      have h2 := borrowParts_safe hc ps b'
      cases h' : borrowParts c b' ps with
      | panic => simp [h']
      | ub => exact absurd h' h2
      | ok a => simp [h']

theorem borrowQuery_safe {c : ComponentStorage V} (hc : Sound c) (q : Query) (b : Borrows) : borrowQuery c b q ≠ .ub := by
  unfold borrowQuery
  have h2 := borrowParts_safe hc q b
  cases h' : borrowParts c b q with
  | panic => simp
  | ub => exact absurd h' h2
  | ok a => simp

theorem QueryAll.new_safe {w : World V} (hc : Sound w.components) (b : Borrows) (g i x : Query) :
    QueryAll.new w b g i x ≠ .ub := by
  unfold QueryAll.new
  have h1 := borrowQuery_safe hc g b
  cases h : borrowQuery w.components b g with
  | panic => simp
  | ub => exact absurd h h1
  | ok a =>
    obtain ⟨v1, i1, b1⟩ := a
    have h2 := borrowQuery_safe hc i b1
    cases h' : borrowQuery w.components b1 i with
    | panic => simp [h']
    | ub => exact absurd h' h2
    | ok a =>
      obtain ⟨v2, i2, b2⟩ := a
      have h3 := borrowQuery_safe hc x b2
      cases h'' : borrowQuery w.components b2 x with
      | panic => simp [h', h'']
      | ub => exact absurd h'' h3
      | ok a => simp [h', h'']

theorem QueryOne.new_safe {w : World V} (hc : Sound w.components) (b : Borrows) (g i x : Query) :
    QueryOne.new w b g i x ≠ .ub := by
  unfold QueryOne.new
  have h1 := borrowQuery_safe hc g b
  cases h : borrowQuery w.components b g with
  | panic => simp
  | ub => exact absurd h h1
  | ok a =>
    obtain ⟨v1, i1, b1⟩ := a
    have h2 := borrowQuery_safe hc i b1
    cases h' : borrowQuery w.components b1 i with
    | panic => simp [h']
    | ub => exact absurd h' h2
    | ok a =>
      obtain ⟨v2, i2, b2⟩ := a
      have h3 := borrowQuery_safe hc x b2
      cases h'' : borrowQuery w.components b2 x with
      | panic => simp [h', h'']
      | ub => exact absurd h'' h3
      | ok a => simp [h', h'']

theorem Sound.view {c : ComponentStorage V} (hc : Sound c) {t : TypeId} {idx : Nat} {s : CompSet V}
    (hv : ViewAt c t idx s) : s.IdxOk := by
  obtain ⟨m, _, _, hs⟩ := hv
  exact hc.sets s (List.mem_of_getElem? hs)

theorem CompSet.IdxOk.read {s : CompSet V} (h : s.IdxOk) {e : Entity} {d : Nat} (hd : s.sparse.get e = some d) :
    ∃ v, s.components[d]? = some v := by
  obtain ⟨x, hx, _⟩ := h.rep.get_at hd
  exact h.comp_at hx

theorem CompSet.IdxOk.readSparse {s : CompSet V} (h : s.IdxOk) {i d : Nat} (hd : s.sparse.getSparse i = some d) :
    ∃ v, s.components[d]? = some v := by
  obtain ⟨x, hx, _⟩ := h.rep.getSparse_iff.1 hd
  exact h.comp_at hx

/-- The sets behind a view are sound. -/
def PartView.Fine : PartView V → Prop
  | .entity => True
  | .req _ _ s => s.IdxOk
  | .opt _ _ s => s.IdxOk

theorem Sound.fine {c : ComponentStorage V} (hc : Sound c) : ∀ {q : Query} {vs : List (PartView V)},
    List.Forall₂ (IsView c) q vs → ∀ v ∈ vs, v.Fine := by
  intro q vs h v hv
  obtain ⟨p, _, hp⟩ := view_of_mem h hv
  cases p <;> cases v <;> simp only [IsView] at hp
  · trivial
  all_goals exact hc.view hp.2

theorem PartView.Fine.get {v : PartView V} (h : v.Fine) (e : Entity) : ∃ r, v.get e = .ok r := by
  cases v with
  | entity => exact ⟨_, rfl⟩
  | req x idx s =>
    simp only [PartView.get]
    cases hd : s.sparse.get e with
    | none => exact ⟨_, rfl⟩
    | some d =>
      obtain ⟨u, hu⟩ := CompSet.IdxOk.read h hd
      exact ⟨some (.ref idx d u), by simp [hu]⟩
  | opt x idx s =>
    simp only [PartView.get]
    cases hd : s.sparse.get e with
    | none => exact ⟨_, rfl⟩
    | some d =>
      obtain ⟨u, hu⟩ := CompSet.IdxOk.read h hd
      exact ⟨some (.opt (some (idx, d, u))), by simp [hu]⟩

theorem PartView.Fine.optRaw {s : CompSet V} (h : s.IdxOk) (idx : Nat) (e : Entity) :
    ∃ r, PartView.optRaw idx s e = .ok r := by
  unfold PartView.optRaw
  cases hd : s.sparse.getSparse e.sparse with
  | none => exact ⟨_, rfl⟩
  | some d =>
    obtain ⟨u, hu⟩ := h.readSparse hd
    exact ⟨.opt (some (idx, d, u)), by simp [hu]⟩

theorem PartView.Fine.sparse {v : PartView V} (h : v.Fine) (e : Entity) : ∃ r, v.getSparseRaw e = .ok r := by
  cases v with
  | entity => exact ⟨_, rfl⟩
  | req x idx s =>
    simp only [PartView.getSparseRaw]
    cases hd : s.sparse.getSparse e.sparse with
    | none => exact ⟨_, rfl⟩
    | some d =>
      obtain ⟨u, hu⟩ := CompSet.IdxOk.readSparse h hd
      exact ⟨some (.ref idx d u), by simp [hu]⟩
  | opt x idx s =>
    obtain ⟨r, hr⟩ := PartView.Fine.optRaw h idx e
    exact ⟨some r, by simp [PartView.getSparseRaw, hr]⟩

theorem getAll_safe (e : Entity) : ∀ {vs : List (PartView V)}, (∀ v ∈ vs, v.Fine) → ∃ r, getAll e vs = .ok r
  | [], _ => ⟨_, rfl⟩
  | v :: vs, h => by
    obtain ⟨r, hr⟩ := (h v (.head _)).get e
    obtain ⟨rs, hrs⟩ := getAll_safe e fun v hv => h v (.tail _ hv)
    cases r with
    | none => exact ⟨none, by simp [getAll, hr]⟩
    | some y =>
      cases rs with
      | none => exact ⟨none, by simp [getAll, hr, hrs]⟩
      | some ys => exact ⟨some (y :: ys), by simp [getAll, hr, hrs]⟩

theorem getAllSparse_safe (e : Entity) : ∀ {vs : List (PartView V)}, (∀ v ∈ vs, v.Fine) →
    ∃ r, getAllSparseRaw e vs = .ok r
  | [], _ => ⟨_, rfl⟩
  | v :: vs, h => by
    obtain ⟨r, hr⟩ := (h v (.head _)).sparse e
    obtain ⟨rs, hrs⟩ := getAllSparse_safe e fun v hv => h v (.tail _ hv)
    cases r with
    | none => exact ⟨none, by simp [getAllSparseRaw, hr]⟩
    | some y =>
      cases rs with
      | none => exact ⟨none, by simp [getAllSparseRaw, hr, hrs]⟩
      | some ys => exact ⟨some (y :: ys), by simp [getAllSparseRaw, hr, hrs]⟩

theorem SparseIter.item_safe {it : SparseIter V} (h : ∀ v ∈ it.get, v.Fine) (e : Entity) : ∃ r, it.item e = .ok r := by
  unfold SparseIter.item
  split
  · exact ⟨_, rfl⟩
  · split
    · exact ⟨_, rfl⟩
    · exact getAllSparse_safe e h

theorem SparseIter.foldFrom_safe {it : SparseIter V} (h : ∀ v ∈ it.get, v.Fine) : ∀ (es : List Entity),
    ∃ xs, it.foldFrom es = .ok xs
  | [] => ⟨_, rfl⟩
  | e :: es => by
    obtain ⟨r, hr⟩ := SparseIter.item_safe h e
    obtain ⟨xs, hxs⟩ := SparseIter.foldFrom_safe h es
    cases r with
    | none => exact ⟨xs, by simp [SparseIter.foldFrom, hr, hxs]⟩
    | some y => exact ⟨y :: xs, by simp [SparseIter.foldFrom, hr, hxs]⟩

/-- C31, queries that are safe in every reachable world, whatever was done before: building queries (a borrow conflict or
an unregistered type panics), looking entities up with `query_one`, and iterating without a group. -/
theorem C31_query_safe {h : History V} {w : World V} (hr : Reach World.empty h w) (b : Borrows) (g i x : Query) :
    QueryAll.new w b g i x ≠ .ub ∧ QueryOne.new w b g i x ≠ .ub ∧
    (∀ q b', QueryOne.new w b g i x = .ok (q, b') → ∀ e, ∃ r, q.getItem e = .ok r) ∧
    ∀ q b', QueryAll.new w b g i x = .ok (q, b') → ∀ it, q.iter = .ok it → it.isDense = false →
      ∃ xs, it.fold = .ok xs := by
  have hc := (reach_sound hr).2
  refine ⟨QueryAll.new_safe hc b g i x, QueryOne.new_safe hc b g i x, fun q b' hq e => ?_, fun q b' hq it hit hd => ?_⟩
  · unfold QueryOne.getItem
    split
    · exact ⟨_, rfl⟩
    · split
      · exact ⟨_, rfl⟩
      · exact getAll_safe e (hc.fine (QueryOne.new_ok hq).1)
  · unfold QueryAll.iter at hit
    obtain ⟨r, _, hit⟩ := Res.bind_ok' hit
    cases r with
    | some ab =>
      obtain ⟨a, b⟩ := ab
      obtain ⟨es, _, hit⟩ := Res.bind_ok' hit
      cases hit
      cases hd
    | none =>
      cases hit
      exact SparseIter.foldFrom_safe (it := ⟨_, q.exc, q.inc, q.get⟩) (hc.fine (QueryAll.new_ok hq).get) _

/-- C31, queries: in a good world queries are built, iterated (from the front, in one go, or in parallel), sliced and
asked for single entities without undefined behaviour, and once built without panic. Missing: histories that are not
`Fair`. -/
theorem C31_query_partial {h : History V} {w : World V} (hr : Reach World.empty h w) (hg : Fair (calls h)) (b : Borrows)
    (g i x : Query) :
    QueryAll.new w b g i x ≠ .ub ∧ QueryOne.new w b g i x ≠ .ub ∧
    (∀ q b', QueryOne.new w b g i x = .ok (q, b') → ∀ e, ∃ r, q.getItem e = .ok r) ∧
    ∀ q b', QueryAll.new w b g i x = .ok (q, b') → (∃ r, q.slice = .ok r) ∧ ∃ it, q.iter = .ok it ∧
      (∃ xs, it.fold = .ok xs) ∧ (∀ n, ∃ r, it.nexts n = .ok r) ∧ ∀ t, ∃ r, it.par t = .ok r := by
  obtain ⟨h1, h2, h3, _⟩ := C31_query_safe hr b g i x
  refine ⟨h1, h2, h3, fun q b' hq => ⟨(reach_out hr hg).slice_ok (QueryAll.new_ok hq), ?_⟩⟩
  obtain ⟨it, xs, h4, h5⟩ := C29_query_partial hr hg hq
  refine ⟨it, h4, ⟨xs, h5⟩, fun n => ?_, fun t => ?_⟩
  · obtain ⟨it', h6, _⟩ := C29 h5 n
    exact ⟨_, h6⟩
  · obtain ⟨ps, h6, _⟩ := C29_par_perm h5 t
    exact ⟨_, h6⟩

example : Good queryOps ∧ holdsAfter queryOps (fun _ w =>
    itemsAre w [.entity, .ref 0, .opt 9] [.ref 1] [.ref 2] (fun its => decide (its.length = 2))) = true := by
  decide +kernel

/-- C31 is false for queries in general: six safe calls lead to a world in which iterating a query over a group reads out
of bounds. -/
theorem C31_query_false : ∃ (h : History Nat) (w : World Nat) (q : QueryAll Nat) (b : Borrows), Reach World.empty h w ∧
    QueryAll.new w [] [.ref 0, .ref 1] [] [] = .ok (q, b) ∧ q.items = .ub := by
  obtain ⟨rs, w, hr, hf⟩ := reach_witness (ops := ([.setLayout anyOrder [[0, 1]], .create [], .destroy ⟨0, 1⟩,
      .create [(0, 10)], .create [(0, 20), (1, 30)], .delete ⟨1, 1⟩ [1]] : List (Op Nat)))
    (f := fun _ w => match QueryAll.new w [] [.ref 0, .ref 1] [] [] with
      | .ok (q, _) => (match q.items with
        | .ub => true
        | _ => false)
      | _ => false) (by decide)
  cases hq : QueryAll.new w [] [.ref 0, .ref 1] [] [] with
  | panic => rw [hq] at hf; cases hf
  | ub => rw [hq] at hf; cases hf
  | ok p =>
    obtain ⟨q, b⟩ := p
    rw [hq] at hf
    simp only at hf
    cases hi : q.items with
    | ok a => rw [hi] at hf; cases hf
    | panic => rw [hi] at hf; cases hf
    | ub => exact ⟨_, w, q, b, hr, hq, hi⟩

end Sparsey
