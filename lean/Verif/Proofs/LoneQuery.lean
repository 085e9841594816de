import Verif.Proofs.Settled
import Verif.Proofs.OneTypeEven

/-!
Queries that only mention component types whose sets are right.
-/

set_option autoImplicit false
set_option linter.unusedSimpArgs false

namespace Sparsey
variable {V : Type} {w : World V} {s : MapWorld V}

/-- The set of every type in `ts` is the one of the map. -/
def SetsOf (w : World V) (s : MapWorld V) (ts : List TypeId) : Prop :=
  ∀ t ∈ ts, ∀ idx c, ViewAt w.components t idx c → SetOf s t c

theorem SetsOf.faithful {p : Part} {v : PartView V} (hs : SetsOf w s (p.access.toList.map (·.1)))
    (hv : IsView w.components p v) : Faithful s p v := by
  cases p <;> cases v <;> simp only [IsView] at hv <;>
    first | exact hv | exact hs _ (by simp [Part.access]) _ _ hv.2 | trivial

theorem accesses_cons (p : Part) (q : Query) : accesses (p :: q) = p.access.toList ++ accesses q := by
  unfold accesses
  rw [List.filterMap_cons]
  cases p.access <;> rfl

theorem SetsOf.faithfuls : ∀ {q : Query} {vs : List (PartView V)}, SetsOf w s ((accesses q).map (·.1)) →
    List.Forall₂ (IsView w.components) q vs → List.Forall₂ (Faithful s) q vs
  | _, _, _, .nil => .nil
  | p :: q, _, hs, .cons hv hvs => by
    rw [accesses_cons, List.map_append] at hs
    exact .cons (SetsOf.faithful (fun t ht => hs t (List.mem_append_left _ ht)) hv)
      (SetsOf.faithfuls (fun t ht => hs t (List.mem_append_right _ ht)) hvs)

theorem required_accesses {q : Query} {t : TypeId} (ht : t ∈ required q) : t ∈ (accesses q).map (·.1) := by
  obtain ⟨p, hp, hpt⟩ := List.mem_filterMap.1 ht
  rw [List.mem_map]
  cases p <;> simp only [Part.required, reduceCtorEq, Option.some.injEq] at hpt <;> subst hpt
  · exact ⟨(_, false), List.mem_filterMap.2 ⟨_, hp, rfl⟩, rfl⟩
  · exact ⟨(_, true), List.mem_filterMap.2 ⟨_, hp, rfl⟩, rfl⟩

/-- Iterating over the positions of one set. -/
theorem dense_fold (hu : IdxUniq (· ∈ s.life.alive)) {g : Query} {it : DenseIter V}
    (hg : List.Forall₂ (Faithful s) g it.get) {l : List Entity} (hes : it.entities = l) (ha : ∀ e ∈ l, e ∈ s.life.alive)
    (hat : ∀ (i : Nat) e, l[i]? = some e → ∀ v ∈ it.get, v.At i e) :
    ∀ (n i : Nat), i + n = l.length → ∃ xs, it.foldFrom i n = .ok xs ∧ Reads it.get (l.drop i) xs
  | 0, i, hn => by
    refine ⟨[], rfl, ?_⟩
    rw [List.drop_eq_nil_of_le (by omega)]
    exact .nil
  | n + 1, i, hn => by
    have hi : i < l.length := by omega
    have he : l[i]? = some l[i] := List.getElem?_eq_getElem hi
    have hi' : it.entities[i]? = some l[i] := by rw [hes]; exact he
    obtain ⟨r, h1, h2⟩ := Faithful.all_dense hu (ha _ (List.getElem_mem hi)) hg (hat i _ he)
    obtain ⟨xs, h3, h4⟩ := dense_fold hu hg hes ha hat n (i + 1) (by omega)
    refine ⟨r :: xs, by simp [DenseIter.foldFrom, DenseIter.item, hi', h1, h3], ?_⟩
    rw [List.drop_eq_getElem_cons hi]
    exact .cons h2 h4

/-- The items of a query that is not answered by a group. -/
theorem SetsOf.items (hu : IdxUniq (· ∈ s.life.alive)) {g i x : Query} {q : QueryAll V} (hq : q.Of w g i x)
    (hg : SetsOf w s ((accesses g).map (·.1))) (hi : SetsOf w s ((accesses i).map (·.1)))
    (hx : SetsOf w s ((accesses x).map (·.1)))
    (hr : q.getGroupRange = .ok none ∨ ((required g ++ required i).length = 1 ∧ required x = [] ∧ AllRequired x)) :
    ∃ es xs, q.items = .ok xs ∧ es.Nodup ∧ Reads q.get es xs ∧
      ∀ e, e ∈ es ↔ required g ++ required i ≠ [] ∧ s.Has (required g ++ required i) e ∧ AllRequired x ∧
        ∀ t ∈ required x, s.table.get t e = none := by
  have fg := hg.faithfuls hq.get
  have fi := hi.faithfuls hq.inc
  have fx := hx.faithfuls hq.exc
  have hset : ∀ t ∈ required g ++ required i, ∀ idx c, ViewAt w.components t idx c → SetOf s t c := by
    intro t ht
    rcases List.mem_append.1 ht with ht | ht
    · exact hg t (required_accesses ht)
    · exact hi t (required_accesses ht)
  rcases hr with hr | ⟨hlen, hX, hA⟩
  · have hiter : q.iter = .ok (.sparse ⟨QueryAll.chooseEntities (shortest none q.get) (shortest none q.inc), q.exc, q.inc,
        q.get⟩) := by simp [QueryAll.iter, hr]
    rcases sparse_entities hq with ⟨h1, h2⟩ | ⟨t, ht, idx, c, hc, he⟩
    · refine ⟨[], [], ?_, List.nodup_nil, .nil, by simp [h1]⟩
      simp only [QueryAll.items, hiter, Res.bind_ok, h2]
      rfl
    · have hs := hset t ht idx c hc
      obtain ⟨es, xs, h1, h2, h3, h4⟩ := sparse_fold hu
        (it := ⟨QueryAll.chooseEntities (shortest none q.get) (shortest none q.inc), q.exc, q.inc, q.get⟩)
        fg fi fx c.entities hs.alive hs.wf.rep.nodup
      refine ⟨es, xs, ?_, hs.wf.rep.nodup.sublist h2, h3, fun e => ?_⟩
      · simp only [QueryAll.items, hiter, Res.bind_ok]
        rw [he] at h1 ⊢
        exact h1
      · rw [h4, Faithful.none_contains_all e fx]
        have hne : required g ++ required i ≠ [] := List.ne_nil_of_mem ht
        constructor
        · rintro ⟨_, x1⟩
          exact ⟨hne, x1⟩
        · rintro ⟨_, x1, x2⟩
          exact ⟨(hs.mem e).2 (x1 t ht), x1, x2⟩
  · obtain ⟨t, ht⟩ := List.length_eq_one_iff.1 hlen
    obtain ⟨idx, c, hc, hr⟩ := range_single hq ht hX
    have hne : required g ++ required i ≠ [] := by rw [ht]; simp
    obtain ⟨es, he1, t', ht', idx', c', hc', rfl⟩ := dense_entities hq hne
    have huniq : ∀ u ∈ required g ++ required i, ∀ idx' c', ViewAt w.components u idx' c' → c' = c := by
      intro u hu' idx' c' hc'
      rw [ht, List.mem_singleton] at hu'
      subst hu'
      obtain ⟨m, hm, rfl, h1⟩ := hc
      obtain ⟨m', hm', rfl, h1'⟩ := hc'
      rw [hm] at hm'
      cases hm'
      rw [h1] at h1'
      cases h1'
      rfl
    have hcc := huniq t' ht' idx' c' hc'
    subst hcc
    have hs := hset t (by rw [ht]; exact .head _) idx c' hc
    obtain ⟨xs, h3, h4⟩ := dense_fold hu (it := ⟨0, c'.len, c'.entities, q.get⟩) fg rfl hs.alive (by
      intro i e hie v hv
      obtain ⟨p, hp, hpv⟩ := view_of_mem hq.get hv
      have key : ∀ u idx c, p.required = some u → ViewAt w.components u idx c → c.entities[i]? = some e := by
        intro u idx c hpu hvt
        rw [huniq u (List.mem_append_left _ (List.mem_filterMap.2 ⟨p, hp, hpu⟩)) idx c hvt]
        exact hie
      cases p <;> cases v <;> simp only [IsView] at hpv <;> try trivial
      · exact key _ _ _ rfl hpv.2
      · exact key _ _ _ rfl hpv.2) c'.len 0 (by simp [CompSet.len])
    refine ⟨c'.entities, xs, ?_, hs.wf.rep.nodup, by simpa using h4, fun e => ?_⟩
    · simp only [QueryAll.items, QueryAll.iter, hr, he1, Res.bind_ok, Res.checked_some, Res.pure_eq]
      exact h3
    · rw [hs.mem, hX, ht]
      simp [MapWorld.Has, hA]

/-- Reading one entity. -/
theorem SetsOf.one {g i x : Query} {q : QueryOne V} (hq : List.Forall₂ (IsView w.components) g q.get ∧
      List.Forall₂ (IsView w.components) i q.inc ∧ List.Forall₂ (IsView w.components) x q.exc)
    (hg : SetsOf w s ((accesses g).map (·.1))) (hi : SetsOf w s ((accesses i).map (·.1)))
    (hx : SetsOf w s ((accesses x).map (·.1))) (e : Entity) :
    ∃ r, q.getItem e = .ok r ∧ q.contains e = r.isSome ∧
      (s.Has (required i) e ∧ (AllRequired x ∧ ∀ t ∈ required x, s.table.get t e = none) →
        r.map Item.shown = shows s.table e g) ∧
      (¬ (s.Has (required i) e ∧ (AllRequired x ∧ ∀ t ∈ required x, s.table.get t e = none)) → r = none) := by
  have fg := hg.faithfuls hq.1
  have c1 := Faithful.all_contains e (hi.faithfuls hq.2.1)
  have c2 := Faithful.none_contains_all e (hx.faithfuls hq.2.2)
  have c3 := Faithful.all_contains e fg
  obtain ⟨r, hr1, hr2⟩ := Faithful.all_get e fg
  have hsome := shows_isSome s.table e g
  rw [← hr2, Option.isSome_map] at hsome
  have c3' : containsAll q.get e = r.isSome := by
    rw [Bool.eq_iff_iff, c3, hsome]
    rfl
  rw [← c1, ← c2]
  unfold QueryOne.getItem QueryOne.contains
  cases hn : containsNone q.exc e with
  | false => exact ⟨none, by simp, by simp, by simp, fun _ => rfl⟩
  | true =>
    cases ha : containsAll q.inc e with
    | false => exact ⟨none, by simp, by simp, by simp, fun _ => rfl⟩
    | true => exact ⟨r, by simp [hr1], by simp [c3'], fun _ => hr2, by simp⟩

/-- The sets of types that the map describes. -/
theorem LoneVals.setsOf {ts : List TypeId} (hreg : SameReg w s) (h : ∀ t ∈ ts, LoneVals t w s) : SetsOf w s ts := by
  rintro t ht idx c ⟨m, hm, rfl, hc⟩
  obtain ⟨h1, h2, h3⟩ := (h t ht).holds c (by rw [setOf_meta hm]; exact hc)
  refine ⟨(hreg t).1 (by simp [hm]), h1, h2, funext h3, fun e => ?_⟩
  rw [h1.mem_iff, h3]

end Sparsey
