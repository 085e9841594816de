import Verif.Model.QueryBuild
import Verif.Properties.Aliasing

/-!
C54: the order of `include` and `exclude` does not matter.
-/

set_option autoImplicit false
set_option linter.unusedSimpArgs false

namespace Sparsey
variable {V : Type}

/-- The views of a query do not depend on the borrows held. -/
theorem borrowQuery_unique {c : ComponentStorage V} {q : Query} {h h1 k k1 : Borrows} {vs vs' : List (PartView V)}
    {i i' : Option QueryGroupInfo} (a : borrowQuery c h q = .ok (vs, i, h1)) (b : borrowQuery c k q = .ok (vs', i', k1)) :
    vs = vs' ∧ i = i' := by
  obtain ⟨a1, a2⟩ := borrowQuery_ok a
  obtain ⟨b1, b2⟩ := borrowQuery_ok b
  exact ⟨views_unique a1 b1, a2.trans b2.symm⟩

/-- Both orders of the filters borrow with the same success. -/
theorem borrow_comm {c : ComponentStorage V} (hc : Static c) {g i x : Query} {b : Borrows} {ts : List (TypeId × Bool)}
    (hb : Compatible b) (h : BorrowsOf c b ts) :
    (∃ vg vi vx ig ii ix b₁ b₂ b₃ k₂ k₃, borrowQuery c b g = .ok (vg, ig, b₁) ∧ borrowQuery c b₁ i = .ok (vi, ii, b₂) ∧
        borrowQuery c b₂ x = .ok (vx, ix, b₃) ∧ borrowQuery c b₁ x = .ok (vx, ix, k₂) ∧
        borrowQuery c k₂ i = .ok (vi, ii, k₃) ∧ k₃.Perm b₃) ∨
    ((do
        let (gv, gi, h) ← borrowQuery c b g
        let (iv, ii, h) ← borrowQuery c h i
        let (ev, ei, h) ← borrowQuery c h x
        pure (gv, gi, iv, ii, ev, ei, h)) = .panic ∧
      (do
        let (gv, gi, h) ← borrowQuery c b g
        let (ev, ei, h) ← borrowQuery c h x
        let (iv, ii, h) ← borrowQuery c h i
        pure (gv, gi, ev, ei, iv, ii, h)) = .panic) := by
  have hp : (accesses (g ++ i ++ x)).Perm (accesses (g ++ x ++ i)) := by
    simp only [accesses_append, List.append_assoc]
    exact List.Perm.append_left _ List.perm_append_comm
  have hiff : (∀ t ∈ accesses (g ++ i ++ x), (c.meta? t.1).isSome) ∧ Compatible (accesses (g ++ i ++ x) ++ ts) ↔
      (∀ t ∈ accesses (g ++ x ++ i), (c.meta? t.1).isSome) ∧ Compatible (accesses (g ++ x ++ i) ++ ts) := by
    rw [Compatible.perm (hp.append_right ts)]
    simp only [hp.mem_iff]
  rcases borrow3_cases hc (g := g) (i := i) (x := x) hb h with
    ⟨h1, h2, vg, vi, vx, ig, ii, ix, b₁, b₂, b₃, h3, h4, h5, h6, _⟩ | ⟨h1, h2⟩ <;>
  rcases borrow3_cases hc (g := g) (i := x) (x := i) hb h with
    ⟨k1, k2, vg', vx', vi', ig', ix', ii', k₁, k₂, k₃, k3, k4, k5, k6, _⟩ | ⟨k1, k2⟩
  · left
    rw [h3] at k3
    simp only [Res.ok.injEq, Prod.mk.injEq] at k3
    obtain ⟨rfl, rfl, rfl⟩ := k3
    obtain ⟨rfl, rfl⟩ := borrowQuery_unique h4 k5
    obtain ⟨rfl, rfl⟩ := borrowQuery_unique h5 k4
    refine ⟨vg, vi, vx, ig, ii, ix, b₁, b₂, b₃, k₂, k₃, h3, h4, h5, k4, k5, k6.trans (.trans ?_ h6.symm)⟩
    simp only [heldBy_append]
    exact List.Perm.append_right b (by
      rw [List.append_assoc, List.append_assoc]
      exact List.Perm.append_left _ List.perm_append_comm)
  · exact absurd (hiff.1 ⟨h1, h2⟩) k1
  · exact absurd (hiff.2 ⟨k1, k2⟩) h1
  · exact .inr ⟨h2, k2⟩

theorem borrowQuery_nil (c : ComponentStorage V) (h : Borrows) : borrowQuery c h [] = .ok ([], some .empty, h) := rfl

/-- A sequence of filters borrows both filters, one before the other. -/
theorem QueryAll.build_cases (w : World V) (b : Borrows) (g : Query) {cs : List FilterCall} {i x : Query}
    (ht : filterTypes ([], []) cs = some (i, x)) :
    QueryAll.build w b g cs = QueryAll.new w b g i x ∨
    QueryAll.build w b g cs = QueryAll.build w b g [.exc x, .inc i] := by
  have key : ∀ (cs : List FilterCall) (i₀ x₀ : Query) (pre : Res (QueryAll V × Borrows)),
      filterTypes (i₀, x₀) cs = some (i, x) →
      pre = QueryAll.new w b g i₀ x₀ ∨ pre = QueryAll.build w b g [.exc x₀, .inc i₀] →
      (pre >>= fun r => r.1.filters r.2 cs) = QueryAll.new w b g i x ∨
      (pre >>= fun r => r.1.filters r.2 cs) = QueryAll.build w b g [.exc x, .inc i] := by
    intro cs
    induction cs with
    | nil =>
      intro i₀ x₀ pre ht hp
      simp only [filterTypes, Option.some.injEq, Prod.mk.injEq] at ht
      obtain ⟨rfl, rfl⟩ := ht
      have : (pre >>= fun r => r.1.filters r.2 []) = pre := by cases pre <;> rfl
      rw [this]
      exact hp
    | cons f cs ih =>
      intro i₀ x₀ pre ht hp
      cases f with
      | inc q =>
        simp only [filterTypes] at ht
        split at ht
        case isFalse => cases ht
        case isTrue hi =>
        subst hi
        have : (pre >>= fun r => r.1.filters r.2 (.inc q :: cs)) =
            (pre >>= fun r => r.1.include_ r.2 q) >>= fun r => r.1.filters r.2 cs := by cases pre <;> rfl
        rw [this]
        refine ih q x₀ _ ht (.inr ?_)
        rcases hp with rfl | rfl
        · simp only [QueryAll.new, QueryAll.build, QueryAll.start, QueryAll.filters, QueryAll.include_, QueryAll.exclude_,
            borrowQuery_nil]
          cases borrowQuery w.components b g with
          | panic => rfl
          | ub => rfl
          | ok r =>
            obtain ⟨gv, gi, h1⟩ := r
            simp only [Res.bind_ok, Res.pure_eq]
            cases borrowQuery w.components h1 x₀ with
            | panic => rfl
            | ub => rfl
            | ok r =>
              obtain ⟨xv, xi, h2⟩ := r
              simp only [Res.bind_ok, Res.pure_eq]
              cases borrowQuery w.components h2 q <;> rfl
        · simp only [QueryAll.build, QueryAll.start, QueryAll.filters, QueryAll.include_, QueryAll.exclude_,
            borrowQuery_nil]
          cases borrowQuery w.components b g with
          | panic => rfl
          | ub => rfl
          | ok r =>
            obtain ⟨gv, gi, h1⟩ := r
            simp only [Res.bind_ok, Res.pure_eq]
            cases borrowQuery w.components h1 x₀ with
            | panic => rfl
            | ub => rfl
            | ok r =>
              obtain ⟨xv, xi, h2⟩ := r
              simp only [Res.bind_ok, Res.pure_eq]
              cases borrowQuery w.components h2 q <;> rfl
      | exc q =>
        simp only [filterTypes] at ht
        split at ht
        case isFalse => cases ht
        case isTrue hi =>
        subst hi
        have : (pre >>= fun r => r.1.filters r.2 (.exc q :: cs)) =
            (pre >>= fun r => r.1.exclude_ r.2 q) >>= fun r => r.1.filters r.2 cs := by cases pre <;> rfl
        rw [this]
        refine ih i₀ q _ ht (.inl ?_)
        rcases hp with rfl | rfl
        · simp only [QueryAll.new, QueryAll.exclude_, borrowQuery_nil]
          cases borrowQuery w.components b g with
          | panic => rfl
          | ub => rfl
          | ok r =>
            obtain ⟨gv, gi, h1⟩ := r
            simp only [Res.bind_ok, Res.pure_eq]
            cases borrowQuery w.components h1 i₀ with
            | panic => rfl
            | ub => rfl
            | ok r =>
              obtain ⟨xv, xi, h2⟩ := r
              simp only [Res.bind_ok, Res.pure_eq]
        · simp only [QueryAll.new, QueryAll.build, QueryAll.start, QueryAll.filters, QueryAll.include_, QueryAll.exclude_,
            borrowQuery_nil]
          cases borrowQuery w.components b g with
          | panic => rfl
          | ub => rfl
          | ok r =>
            obtain ⟨gv, gi, h1⟩ := r
            simp only [Res.bind_ok, Res.pure_eq]
            cases borrowQuery w.components h1 i₀ with
            | panic => rfl
            | ub => rfl
            | ok r =>
              obtain ⟨xv, xi, h2⟩ := r
              simp only [Res.bind_ok, Res.pure_eq]
  have h := key cs [] [] (QueryAll.start w b g) ht (.inl (by
    simp only [QueryAll.new, QueryAll.start, borrowQuery_nil]
    cases borrowQuery w.components b g <;> rfl))
  have : QueryAll.build w b g cs = (QueryAll.start w b g >>= fun r => r.1.filters r.2 cs) := by
    unfold QueryAll.build
    cases QueryAll.start w b g <;> rfl
  rw [this]
  exact h

/-- `query_one` borrows as `query_all`. -/
theorem QueryOne.build_eq (w : World V) (b : Borrows) (g : Query) (cs : List FilterCall) :
    QueryOne.build w b g cs =
      (QueryAll.build w b g cs >>= fun r => pure (⟨r.1.get, r.1.inc, r.1.exc⟩, r.2)) := by
  have key : ∀ (cs : List FilterCall) (q : QueryAll V) (h : Borrows), q.world = w →
      QueryOne.filters w ⟨q.get, q.inc, q.exc⟩ h cs =
        (q.filters h cs >>= fun r => pure (⟨r.1.get, r.1.inc, r.1.exc⟩, r.2)) := by
    intro cs
    induction cs with
    | nil => exact fun q h _ => rfl
    | cons f cs ih =>
      intro q h hw
      cases f with
      | inc i =>
        simp only [QueryOne.filters, QueryAll.filters, QueryOne.include_, QueryAll.include_, hw]
        cases borrowQuery w.components h i with
        | panic => rfl
        | ub => rfl
        | ok r => exact ih ⟨w, q.get, r.1, q.exc, q.getInfo, r.2.1, q.excInfo⟩ r.2.2 rfl
      | exc i =>
        simp only [QueryOne.filters, QueryAll.filters, QueryOne.exclude_, QueryAll.exclude_, hw]
        cases borrowQuery w.components h i with
        | panic => rfl
        | ub => rfl
        | ok r => exact ih ⟨w, q.get, q.inc, r.1, q.getInfo, q.incInfo, r.2.1⟩ r.2.2 rfl
  simp only [QueryOne.build, QueryAll.build, QueryOne.start, QueryAll.start]
  cases borrowQuery w.components b g with
  | panic => rfl
  | ub => rfl
  | ok r => exact key cs ⟨w, r.1, [], [], r.2.1, some .empty, some .empty⟩ r.2.2 rfl

theorem QueryOne.new_eq_all (w : World V) (b : Borrows) (g i x : Query) :
    QueryOne.new w b g i x = (QueryAll.new w b g i x >>= fun r => pure (⟨r.1.get, r.1.inc, r.1.exc⟩, r.2)) := by
  simp only [QueryOne.new, QueryAll.new]
  cases borrowQuery w.components b g with
  | panic => rfl
  | ub => rfl
  | ok r =>
    simp only [Res.bind_ok, Res.pure_eq]
    cases borrowQuery w.components r.2.2 i with
    | panic => rfl
    | ub => rfl
    | ok r' =>
      simp only [Res.bind_ok, Res.pure_eq]
      cases borrowQuery w.components r'.2.2 x <;> rfl

/-- C54: whatever calls of `include` and `exclude` lead to the filters `I` and `X`, they panic or return as `include::<I>()`
followed by `exclude::<X>()`, and return the same query. The same borrows are held afterwards. -/
theorem C54 {h : History V} {w : World V} (hr : Reach World.empty h w) {os : List (Obj V)} {b : Borrows}
    (hl : Live w os b) (g : Query) {cs : List FilterCall} {i x : Query} (ht : filterTypes ([], []) cs = some (i, x)) :
    ((QueryAll.build w b g cs = .panic ∧ QueryAll.new w b g i x = .panic) ∨
      ∃ q b' b'', QueryAll.build w b g cs = .ok (q, b') ∧ QueryAll.new w b g i x = .ok (q, b'') ∧ b'.Perm b'') ∧
    ((QueryOne.build w b g cs = .panic ∧ QueryOne.new w b g i x = .panic) ∨
      ∃ q b' b'', QueryOne.build w b g cs = .ok (q, b') ∧ QueryOne.new w b g i x = .ok (q, b'') ∧ b'.Perm b'') := by
  have hc := reach_static hr
  obtain ⟨h1, h2, h3⟩ := hl.inv hc
  have hb := Obj.borrowsOf h1 h2
  have hall : (QueryAll.build w b g cs = .panic ∧ QueryAll.new w b g i x = .panic) ∨
      ∃ q b' b'', QueryAll.build w b g cs = .ok (q, b') ∧ QueryAll.new w b g i x = .ok (q, b'') ∧ b'.Perm b'' := by
    rcases borrow_comm hc (g := g) (i := i) (x := x) h3 hb with
      ⟨vg, vi, vx, ig, ii, ix, b₁, b₂, b₃, k₂, k₃, e1, e2, e3, e4, e5, e6⟩ | ⟨p1, p2⟩
    · right
      have hn : QueryAll.new w b g i x = .ok (⟨w, vg, vi, vx, ig, ii, ix⟩, b₃) := by
        simp only [QueryAll.new, e1, e2, e3, Res.bind_ok, Res.pure_eq]
      rcases QueryAll.build_cases w b g ht with e | e
      · exact ⟨_, _, _, e.trans hn, hn, .refl _⟩
      · refine ⟨_, k₃, _, ?_, hn, e6⟩
        rw [e]
        simp only [QueryAll.build, QueryAll.start, QueryAll.filters, QueryAll.include_, QueryAll.exclude_, e1, e4, e5,
          Res.bind_ok, Res.pure_eq]
    · left
      have hn : QueryAll.new w b g i x = .panic := by
        rw [QueryAll.new_eq, p1]
        rfl
      refine ⟨?_, hn⟩
      rcases QueryAll.build_cases w b g ht with e | e
      · exact e.trans hn
      · rw [e]
        have : QueryAll.build w b g [.exc x, .inc i] = (do
            let (gv, gi, h) ← borrowQuery w.components b g
            let (ev, ei, h) ← borrowQuery w.components h x
            let (iv, ii, h) ← borrowQuery w.components h i
            pure (gv, gi, ev, ei, iv, ii, h)) >>= fun r =>
              pure ((⟨w, r.1, r.2.2.2.2.1, r.2.2.1, r.2.1, r.2.2.2.2.2.1, r.2.2.2.1⟩ : QueryAll V), r.2.2.2.2.2.2) := by
          simp only [QueryAll.build, QueryAll.start, QueryAll.filters, QueryAll.include_, QueryAll.exclude_]
          cases borrowQuery w.components b g with
          | panic => rfl
          | ub => rfl
          | ok r =>
            simp only [Res.bind_ok, Res.pure_eq]
            cases borrowQuery w.components r.2.2 x with
            | panic => rfl
            | ub => rfl
            | ok r' =>
              simp only [Res.bind_ok, Res.pure_eq]
              cases borrowQuery w.components r'.2.2 i <;> rfl
        rw [this, p2]
        rfl
  refine ⟨hall, ?_⟩
  rw [QueryOne.build_eq, QueryOne.new_eq_all]
  rcases hall with ⟨e1, e2⟩ | ⟨q, b', b'', e1, e2, e3⟩
  · left
    rw [e1, e2]
    exact ⟨rfl, rfl⟩
  · right
    rw [e1, e2]
    exact ⟨_, b', b'', rfl, rfl, e3⟩

/-- Sequences of filters that type check, one that does not, and a query built with `exclude` first. -/
example : filterTypes ([], []) [.exc [.ref 2], .inc [.ref 1]] = some ([.ref 1], [.ref 2]) ∧
    filterTypes ([], []) [.inc [], .exc [.ref 2], .inc [.ref 1]] = some ([.ref 1], [.ref 2]) ∧
    filterTypes ([], []) [.inc [.ref 1], .inc [.ref 2]] = none ∧
    holdsAfter queryOps (fun _ w => match QueryAll.build w [] [.entity, .ref 0] [.inc [], .exc [.ref 2], .inc [.ref 1]] with
      | .ok (q, b) => decide (b = [(1, false), (2, false), (0, false)]) && (match q.items with
        | .ok its => decide (its.map Item.shown = [[.entity ⟨3, 1⟩, .comp 40], [.entity ⟨1, 1⟩, .comp 20]])
        | _ => false)
      | _ => false) = true ∧
    holdsAfter queryOps (fun _ w => match QueryAll.build w [] [.refMut 0] [.exc [.ref 1], .inc [.ref 0]] with
      | .panic => true
      | _ => false) = true := by
  decide +kernel

end Sparsey
