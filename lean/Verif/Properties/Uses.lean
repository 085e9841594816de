import Verif.Properties.Rows
import Verif.Properties.Safety
import Verif.Properties.Views
import Verif.Model.Par

/-!
C66: what can go wrong when a query is used, in every reachable world.
-/

set_option autoImplicit false
set_option linter.unusedSimpArgs false

namespace Sparsey
variable {V : Type}

/-! ### No function of a query panics -/

theorem Res.bind_calm {α β : Type} {x : Res α} {f : α → Res β} (hx : x ≠ .panic) (hf : ∀ a, x = .ok a → f a ≠ .panic) :
    (x >>= f) ≠ .panic := by
  cases x with
  | ok a => exact hf a rfl
  | panic => exact absurd rfl hx
  | ub => intro h; cases h

theorem Res.bind_bad {α β : Type} {x : Res α} {f : α → Res β} :
    (x >>= f) = .ub ↔ x = .ub ∨ ∃ a, x = .ok a ∧ f a = .ub := by
  cases x with
  | ok a => simp
  | panic => simp
  | ub => simp

theorem Res.unchecked_calm {α : Type} (o : Option α) : Res.unchecked o ≠ .panic := by cases o <;> simp

theorem PartView.optRaw_calm (idx : Nat) (s : CompSet V) (e : Entity) : PartView.optRaw idx s e ≠ .panic := by
  unfold PartView.optRaw
  split
  · simp
  · exact Res.bind_calm (Res.unchecked_calm _) fun a _ => by simp

theorem PartView.dense_calm (v : PartView V) (i : Nat) (e : Entity) : v.getDenseRaw i e ≠ .panic := by
  cases v with
  | entity => simp [PartView.getDenseRaw]
  | req x idx s => exact Res.bind_calm (Res.unchecked_calm _) fun a _ => by simp
  | opt x idx s => exact PartView.optRaw_calm _ _ _

theorem PartView.sparse_calm (v : PartView V) (e : Entity) : v.getSparseRaw e ≠ .panic := by
  cases v with
  | entity => simp [PartView.getSparseRaw]
  | req x idx s =>
    simp only [PartView.getSparseRaw]
    split
    · simp
    · exact Res.bind_calm (Res.unchecked_calm _) fun a _ => by simp
  | opt x idx s => exact Res.bind_calm (PartView.optRaw_calm _ _ _) fun a _ => by simp

theorem getAllDenseRaw_calm (i : Nat) (e : Entity) : ∀ vs : List (PartView V), getAllDenseRaw i e vs ≠ .panic
  | [] => by simp [getAllDenseRaw]
  | v :: vs => Res.bind_calm (v.dense_calm i e) fun _ _ => Res.bind_calm (getAllDenseRaw_calm i e vs) fun _ _ => by simp

theorem getAllSparseRaw_calm (e : Entity) : ∀ vs : List (PartView V), getAllSparseRaw e vs ≠ .panic
  | [] => by simp [getAllSparseRaw]
  | v :: vs => by
    refine Res.bind_calm (v.sparse_calm e) fun a _ => ?_
    cases a with
    | none => simp
    | some i =>
      refine Res.bind_calm (getAllSparseRaw_calm e vs) fun b _ => ?_
      cases b <;> simp

theorem DenseIter.item_calm (it : DenseIter V) (i : Nat) : it.item i ≠ .panic :=
  Res.bind_calm (Res.unchecked_calm _) fun _ _ => getAllDenseRaw_calm _ _ _

theorem DenseIter.foldFrom_calm (it : DenseIter V) : ∀ (n i : Nat), it.foldFrom i n ≠ .panic
  | 0, i => by simp [DenseIter.foldFrom]
  | n + 1, i => Res.bind_calm (it.item_calm i) fun _ _ => Res.bind_calm (DenseIter.foldFrom_calm it n _) fun _ _ => by simp

theorem DenseIter.par_calm (it : DenseIter V) : ∀ (t : Split) (i n : Nat), it.par t i n ≠ .panic
  | .leaf, i, n => Res.bind_calm (it.foldFrom_calm n i) fun _ _ => by simp
  | .cut pos l r, i, n =>
    Res.bind_calm (DenseIter.par_calm it l _ _) fun _ _ => Res.bind_calm (DenseIter.par_calm it r _ _) fun _ _ => by simp

theorem SparseIter.item_calm (it : SparseIter V) (e : Entity) : it.item e ≠ .panic := by
  unfold SparseIter.item
  split
  · simp
  · split
    · simp
    · exact getAllSparseRaw_calm _ _

theorem SparseIter.foldFrom_calm (it : SparseIter V) : ∀ (es : List Entity), it.foldFrom es ≠ .panic
  | [] => by simp [SparseIter.foldFrom]
  | e :: es => by
    refine Res.bind_calm (it.item_calm e) fun a _ => ?_
    cases a with
    | none => exact SparseIter.foldFrom_calm it es
    | some x => exact Res.bind_calm (SparseIter.foldFrom_calm it es) fun _ _ => by simp

theorem SparseIter.nextFrom_calm (it : SparseIter V) : ∀ (es : List Entity), it.nextFrom es ≠ .panic
  | [] => by simp [SparseIter.nextFrom]
  | e :: es => by
    refine Res.bind_calm (it.item_calm e) fun a _ => ?_
    cases a with
    | none => exact SparseIter.nextFrom_calm it es
    | some x => simp

theorem SparseIter.par_calm (it : SparseIter V) : ∀ (t : Split) (es : List Entity), it.par t es ≠ .panic
  | .leaf, es => Res.bind_calm (it.foldFrom_calm es) fun _ _ => by simp
  | .cut pos l r, es =>
    Res.bind_calm (SparseIter.par_calm it l _) fun _ _ => Res.bind_calm (SparseIter.par_calm it r _) fun _ _ => by simp

theorem Iter.next_calm (it : Iter V) : it.next ≠ .panic := by
  cases it with
  | sparse it =>
    exact Res.bind_calm (Res.bind_calm (it.nextFrom_calm _) fun _ _ => by simp) fun _ _ => by simp
  | dense it =>
    refine Res.bind_calm ?_ fun _ _ => by simp
    unfold DenseIter.next
    split
    · exact Res.bind_calm (it.item_calm _) fun _ _ => by simp
    · simp

theorem Iter.nexts_calm : ∀ (n : Nat) (it : Iter V), it.nexts n ≠ .panic
  | 0, it => by simp [Iter.nexts]
  | n + 1, it => Res.bind_calm it.next_calm fun a _ => Res.bind_calm (Iter.nexts_calm n a.2) fun _ _ => by simp

theorem PartView.slice_calm (es : List Entity) (a b : Nat) (v : PartView V) : v.sliceRaw es a b ≠ .panic := by
  cases v <;> simp only [PartView.sliceRaw]
  · split <;> simp
  · split <;> simp
  · simp

theorem sliceAllRaw_calm (es : List Entity) (a b : Nat) : ∀ vs : List (PartView V), sliceAllRaw es a b vs ≠ .panic
  | [] => by simp [sliceAllRaw]
  | v :: vs => Res.bind_calm (v.slice_calm es a b) fun _ _ => Res.bind_calm (sliceAllRaw_calm es a b vs) fun _ _ => by simp

/-! ### What is read -/

/-- The view asks for a component and its set is shorter than `n`. -/
def PartView.lacks (n : Nat) : PartView V → Prop
  | .req _ _ s => s.components.length < n
  | _ => False

theorem PartView.dense_bad {v : PartView V} (hv : v.Fine) (i : Nat) (e : Entity) :
    v.getDenseRaw i e = .ub ↔ v.lacks (i + 1) := by
  cases v with
  | entity => simp [PartView.getDenseRaw, PartView.lacks]
  | req x idx s =>
    simp only [PartView.getDenseRaw, PartView.lacks]
    cases h : s.components[i]? with
    | none =>
      have := List.getElem?_eq_none_iff.1 h
      simp
      omega
    | some u =>
      have := (List.getElem?_eq_some_iff.1 h).1
      simp
      omega
  | opt x idx s =>
    obtain ⟨r, hr⟩ := PartView.Fine.optRaw hv idx e
    simp [PartView.getDenseRaw, PartView.lacks, hr]

theorem getAllDenseRaw_bad (i : Nat) (e : Entity) : ∀ {vs : List (PartView V)}, (∀ v ∈ vs, v.Fine) →
    (getAllDenseRaw i e vs = .ub ↔ ∃ v ∈ vs, v.lacks (i + 1))
  | [], _ => by simp [getAllDenseRaw]
  | v :: vs, h => by
    have ih := getAllDenseRaw_bad i e (vs := vs) fun v hv => h v (.tail _ hv)
    have hv := PartView.dense_bad (h v (.head _)) i e
    rw [getAllDenseRaw, Res.bind_bad, hv]
    simp only [Res.bind_bad, Res.pure_eq, reduceCtorEq, and_false, exists_false, or_false, ih, List.mem_cons,
      exists_eq_or_imp]
    constructor
    · rintro (h1 | ⟨_, _, h1⟩)
      · exact .inl h1
      · exact .inr h1
    · rintro (h1 | h1)
      · exact .inl h1
      · by_cases hx : v.lacks (i + 1)
        · exact .inl hx
        · right
          cases hd : v.getDenseRaw i e with
          | ok a => exact ⟨a, rfl, h1⟩
          | panic => exact absurd hd (v.dense_calm i e)
          | ub => exact absurd (hv.1 hd) hx

theorem DenseIter.item_bad {it : DenseIter V} (h : ∀ v ∈ it.get, v.Fine) (i : Nat) :
    it.item i = .ub ↔ it.entities.length < i + 1 ∨ ∃ v ∈ it.get, v.lacks (i + 1) := by
  rw [DenseIter.item, Res.bind_bad]
  cases he : it.entities[i]? with
  | none =>
    have := List.getElem?_eq_none_iff.1 he
    simp
    omega
  | some e =>
    have h1 := (List.getElem?_eq_some_iff.1 he).1
    have h2 : ¬ it.entities.length < i + 1 := by omega
    simp [h2, getAllDenseRaw_bad i e h]

theorem DenseIter.foldFrom_bad (it : DenseIter V) : ∀ (n i : Nat),
    it.foldFrom i n = .ub ↔ ∃ j, i ≤ j ∧ j < i + n ∧ it.item j = .ub
  | 0, i => by
    simp only [DenseIter.foldFrom, reduceCtorEq, false_iff]
    rintro ⟨j, h1, h2, _⟩
    omega
  | n + 1, i => by
    have ih := DenseIter.foldFrom_bad it n (i + 1)
    rw [DenseIter.foldFrom, Res.bind_bad]
    simp only [Res.bind_bad, Res.pure_eq, reduceCtorEq, and_false, exists_false, or_false, ih]
    constructor
    · rintro (h | ⟨_, _, j, h1, h2, h3⟩)
      · exact ⟨i, by omega, by omega, h⟩
      · exact ⟨j, by omega, by omega, h3⟩
    · rintro ⟨j, h1, h2, h3⟩
      by_cases hj : j = i
      · subst hj
        exact .inl h3
      · cases hi : it.item i with
        | ub => exact .inl rfl
        | panic => exact absurd hi (it.item_calm i)
        | ok a => exact .inr ⟨a, rfl, j, by omega, by omega, h3⟩

theorem DenseIter.fold_bad {it : DenseIter V} (h : ∀ v ∈ it.get, v.Fine) :
    it.fold = .ub ↔ it.start < it.stop ∧ (it.entities.length < it.stop ∨ ∃ v ∈ it.get, v.lacks it.stop) := by
  rw [DenseIter.fold, DenseIter.foldFrom_bad]
  simp only [DenseIter.item_bad h]
  constructor
  · rintro ⟨j, h1, h2, h3⟩
    refine ⟨by omega, ?_⟩
    rcases h3 with h3 | ⟨v, hv, h3⟩
    · left; omega
    · refine .inr ⟨v, hv, ?_⟩
      cases v <;> simp only [PartView.lacks] at h3 ⊢
      omega
  · rintro ⟨h1, h2⟩
    refine ⟨it.stop - 1, by omega, by omega, ?_⟩
    rw [show it.stop - 1 + 1 = it.stop by omega]
    exact h2

theorem sliceAllRaw_bad (es : List Entity) (a b : Nat) : ∀ {vs : List (PartView V)},
    (sliceAllRaw es a b vs = .ub ↔ ∃ v ∈ vs, v.sliceRaw es a b = .ub)
  | [] => by simp [sliceAllRaw]
  | v :: vs => by
    have ih := sliceAllRaw_bad es a b (vs := vs)
    rw [sliceAllRaw, Res.bind_bad]
    simp only [Res.bind_bad, Res.pure_eq, reduceCtorEq, and_false, exists_false, or_false, ih, List.mem_cons,
      exists_eq_or_imp]
    cases hd : v.sliceRaw es a b with
    | ok x => simp
    | panic => exact absurd hd (v.slice_calm es a b)
    | ub => simp

theorem view_len {w : World V} (hc : Sound w.components) {t : TypeId} {idx : Nat} {s : CompSet V}
    (hv : ViewAt w.components t idx s) : (w.rows t).length = s.components.length ∧ s.entities.length = s.components.length := by
  have hs := (hc.view hv).len
  obtain ⟨m, h1, rfl, h2⟩ := hv
  rw [rows_eq, ComponentStorage.rowsAt_get h1 h2]
  unfold CompSet.rows
  rw [List.length_zip]
  omega

theorem lacks_iff {w : World V} (hc : Sound w.components) (n : Nat) : ∀ {q : Query} {vs : List (PartView V)},
    List.Forall₂ (IsView w.components) q vs → ((∃ v ∈ vs, v.lacks n) ↔ ∃ t ∈ required q, (w.rows t).length < n)
  | [], _, .nil => by simp [required]
  | p :: q, _, .cons (b := v) (l₂ := vs) hv hvs => by
    have ih := lacks_iff hc n hvs
    rw [required_cons]
    simp only [List.mem_cons, exists_eq_or_imp, ih, List.mem_append]
    cases p <;> cases v <;> simp only [IsView] at hv
    case entity.entity => simp [PartView.lacks, Part.required]
    case ref.req t x idx s => simp [PartView.lacks, Part.required, (view_len hc hv.2).1]
    case refMut.req t x idx s => simp [PartView.lacks, Part.required, (view_len hc hv.2).1]
    case opt.opt => simp [PartView.lacks, Part.required]
    case optMut.opt => simp [PartView.lacks, Part.required]

theorem lacks_entities {w : World V} (hc : Sound w.components) {p : Part} {v : PartView V} (hv : IsView w.components p v) (n : Nat) :
    v.lacks n ↔ ∃ l, v.entities = some l ∧ l.length < n := by
  cases p <;> cases v <;> simp only [IsView] at hv
  case entity.entity => simp [PartView.lacks, PartView.entities]
  case ref.req t x idx s => simp [PartView.lacks, PartView.entities, (view_len hc hv.2).2]
  case refMut.req t x idx s => simp [PartView.lacks, PartView.entities, (view_len hc hv.2).2]
  case opt.opt => simp [PartView.lacks, PartView.entities]
  case optMut.opt => simp [PartView.lacks, PartView.entities]

theorem shortest_len (n : Nat) : ∀ {vs : List (PartView V)} {acc : Option (List Entity)} {es : List Entity},
    shortest acc vs = some es →
    (es.length < n ↔ (∃ l, acc = some l ∧ l.length < n) ∨ ∃ v ∈ vs, ∃ l, v.entities = some l ∧ l.length < n)
  | [], acc, es, h => by
    rw [shortest] at h
    simp [h]
  | v :: vs, acc, es, h => by
    simp only [shortest] at h
    simp only [List.mem_cons, exists_eq_or_imp]
    cases hv : v.entities with
    | none =>
      rw [hv] at h
      have ih := shortest_len n (vs := vs) h
      simp [ih]
    | some new =>
      rw [hv] at h
      cases acc with
      | none =>
        have ih := shortest_len n (vs := vs) h
        simp [ih]
      | some old =>
        simp only at h
        have ih := shortest_len n (vs := vs) h
        rw [ih]
        simp only [Option.some.injEq, exists_eq_left']
        split
        · simp only [Option.some.injEq, exists_eq_left']
          constructor
          · rintro (h | h)
            · exact .inr (.inl h)
            · exact .inr (.inr h)
          · rintro (h | h | h)
            · left; omega
            · exact .inl h
            · exact .inr h
        · simp only [Option.some.injEq, exists_eq_left']
          constructor
          · rintro (h | h)
            · exact .inl h
            · exact .inr (.inr h)
          · rintro (h | h | h)
            · exact .inl h
            · left; omega
            · exact .inr h

theorem first_len {w : World V} (hc : Sound w.components) : ∀ {q : Query} {vs : List (PartView V)},
    List.Forall₂ (IsView w.components) q vs →
    (firstEntities vs = none ∧ required q = []) ∨
      ∃ es t ts, firstEntities vs = some es ∧ required q = t :: ts ∧ es.length = (w.rows t).length
  | [], _, .nil => .inl ⟨rfl, rfl⟩
  | p :: q, _, .cons (b := v) (l₂ := vs) hv hvs => by
    have ih := first_len hc hvs
    rw [required_cons, firstEntities]
    cases p <;> cases v <;> simp only [IsView] at hv
    case entity.entity => simpa [PartView.entities, Part.required] using ih
    case ref.req t x idx s =>
      refine .inr ⟨s.entities, t, required q, rfl, rfl, ?_⟩
      rw [(view_len hc hv.2).1, (view_len hc hv.2).2]
    case refMut.req t x idx s =>
      refine .inr ⟨s.entities, t, required q, rfl, rfl, ?_⟩
      rw [(view_len hc hv.2).1, (view_len hc hv.2).2]
    case opt.opt => simpa [PartView.entities, Part.required] using ih
    case optMut.opt => simpa [PartView.entities, Part.required] using ih

/-! ### C66 -/

/-- C66: once a query exists, making an iterator from it, iterating in any way and slicing never panic. (Queries of one entity:
`C31_query_safe`. When making the query panics: `C30_new`.) -/
theorem C66 {h : History V} {w : World V} (hr : Reach World.empty h w) {b b' : Borrows} {g i x : Query} {q : QueryAll V}
    (hq : QueryAll.new w b g i x = .ok (q, b')) : (∃ it, q.iter = .ok it ∧ (∀ n, it.nexts n ≠ .panic) ∧ it.fold ≠ .panic ∧
      ∀ t, it.par t ≠ .panic) ∧ q.slice ≠ .panic := by
  obtain ⟨it, h1⟩ := (C31_iter hr hq).1
  obtain ⟨r, h2, _⟩ := (reach_range hr).range (QueryAll.new_ok hq)
  refine ⟨⟨it, h1, fun n => it.nexts_calm n, ?_, fun t => ?_⟩, ?_⟩
  · cases it with
    | sparse it => exact it.foldFrom_calm _
    | dense it => exact it.foldFrom_calm _ _
  · cases it with
    | sparse it => exact it.par_calm _ _
    | dense it => exact it.par_calm _ _ _
  · unfold QueryAll.slice
    rw [h2, Res.bind_ok]
    cases r with
    | none => simp
    | some r => exact Res.bind_calm (sliceAllRaw_calm _ _ _ _) fun _ _ => by simp

/-- The types whose sets give the entities of an iteration with a group: those required by the getters, otherwise by the
filters. -/
def neededBy (g i : Query) : List TypeId := if required g = [] then required i else required g

theorem dense_es {w : World V} (hc : Sound w.components) {g i x : Query} {q : QueryAll V} (hq : q.Of w g i x)
    (hne : required g ++ required i ≠ []) : ∃ es, (firstEntities q.get).or (shortest none q.inc) = some es ∧
      (∀ t ts, required g = t :: ts → es.length = (w.rows t).length) ∧
      (required g = [] → ∀ n, es.length < n ↔ ∃ t ∈ required i, (w.rows t).length < n) := by
  rcases first_len hc hq.get with ⟨h1, h2⟩ | ⟨es, t, ts, h1, h2, h3⟩
  · rcases shortest_none hq.inc with ⟨h3, h4⟩ | ⟨es, h3, h4⟩
    · rw [h2, h4] at hne
      exact absurd rfl hne
    · refine ⟨es, by simp [h1, h3], fun t ts h => (by rw [h2] at h; cases h), fun _ n => ?_⟩
      rw [← lacks_iff hc n hq.inc, shortest_len n h3]
      simp only [reduceCtorEq, false_and, exists_false, false_or]
      constructor
      · rintro ⟨v, hv, h5⟩
        obtain ⟨p, _, hp⟩ := view_of_mem hq.inc hv
        exact ⟨v, hv, (lacks_entities hc hp n).2 h5⟩
      · rintro ⟨v, hv, h5⟩
        obtain ⟨p, _, hp⟩ := view_of_mem hq.inc hv
        exact ⟨v, hv, (lacks_entities hc hp n).1 h5⟩
  · refine ⟨es, by simp [h1], fun t' ts' h => ?_, fun h => by rw [h2] at h; cases h⟩
    rw [h2] at h
    cases h
    exact h3

/-- C66, exactly when an iteration reads out of bounds: if it uses a group whose range is not empty and ends behind the end of
one of the sets whose entities or components it reads. -/
theorem C66_reads {h : History V} {w : World V} (hr : Reach World.empty h w) {b b' : Borrows} {g i x : Query} {q : QueryAll V}
    (hq : QueryAll.new w b g i x = .ok (q, b')) {it : Iter V} (hit : q.iter = .ok it) :
    it.fold = .ub ↔ ∃ d, it = .dense d ∧ d.start < d.stop ∧ ∃ t ∈ neededBy g i, (w.rows t).length < d.stop := by
  have hc := (reach_sound hr).2
  have ho := QueryAll.new_ok hq
  obtain ⟨r, h2, h3⟩ := (reach_range hr).range ho
  cases it with
  | sparse it =>
    obtain ⟨xs, hx⟩ := (C31_query_safe hr b g i x).2.2.2 q b' hq _ hit rfl
    rw [hx]
    simp
  | dense d =>
    unfold QueryAll.iter at hit
    rw [h2] at hit
    cases r with
    | none => cases hit
    | some r =>
      obtain ⟨start, stop⟩ := r
      obtain ⟨es, h4, h5, h6⟩ := dense_es hc ho (h3 rfl)
      simp only [Res.bind_ok, h4, Res.checked_some, Res.pure_eq, Res.ok.injEq, Iter.dense.injEq] at hit
      subst hit
      show DenseIter.fold _ = .ub ↔ _
      rw [DenseIter.fold_bad (hc.fine ho.get), lacks_iff hc _ ho.get]
      simp only [Iter.dense.injEq, exists_eq_left']
      refine and_congr_right fun _ => ?_
      unfold neededBy
      cases hg : required g with
      | nil =>
        simp only [if_true, List.not_mem_nil, false_and, exists_false, or_false]
        exact h6 hg stop
      | cons t ts =>
        rw [if_neg (by simp), h5 t ts hg]
        constructor
        · rintro (h | h)
          · exact ⟨t, .head _, h⟩
          · exact h
        · exact .inr

/-- How many positions are left. -/
def Iter.left : Iter V → Nat
  | .sparse it => it.entities.length
  | .dense it => it.stop - it.start

theorem SparseIter.nextFrom_left (it : SparseIter V) : ∀ (es : List Entity) {x : Option (Item V)} {es' : List Entity},
    it.nextFrom es = .ok (x, es') → es'.length ≤ es.length - 1
  | [], x, es', h => by cases h; simp
  | e :: es, x, es', h => by
    rw [SparseIter.nextFrom] at h
    obtain ⟨a, _, h⟩ := Res.bind_ok' h
    cases a with
    | some y => cases h; simp
    | none =>
      have := SparseIter.nextFrom_left it es h
      rw [List.length_cons]
      omega

theorem Iter.next_left {it it' : Iter V} {x : Option (Item V)} (h : it.next = .ok (x, it')) : it'.left ≤ it.left - 1 := by
  cases it with
  | sparse it =>
    obtain ⟨⟨y, it1⟩, h1, h⟩ := Res.bind_ok' h
    cases h
    obtain ⟨⟨z, es⟩, h2, h1⟩ := Res.bind_ok' h1
    cases h1
    exact it.nextFrom_left _ h2
  | dense it =>
    obtain ⟨⟨y, it1⟩, h1, h⟩ := Res.bind_ok' h
    cases h
    unfold DenseIter.next at h1
    split at h1
    · obtain ⟨z, _, h1⟩ := Res.bind_ok' h1
      cases h1
      simp only [Iter.left]
      omega
    · cases h1
      simp only [Iter.left]
      omega

theorem nexts_bad : ∀ (n : Nat) (it : Iter V), it.left ≤ n → it.fold = .ub → it.nexts n = .ub
  | 0, it, hl, h => by
    cases it with
    | sparse it =>
      simp only [Iter.left, Nat.le_zero, List.length_eq_zero_iff] at hl
      rw [Iter.fold, SparseIter.fold, hl] at h
      cases h
    | dense it =>
      simp only [Iter.left, Nat.le_zero] at hl
      rw [Iter.fold, DenseIter.fold, hl] at h
      cases h
  | n + 1, it, hl, h => by
    rw [Iter.nexts, Res.bind_bad]
    cases hn : it.next with
    | ub => exact .inl rfl
    | panic => exact absurd hn it.next_calm
    | ok p =>
      obtain ⟨x, it'⟩ := p
      have h1 := C29_nexts 1 it
      simp only [Iter.nexts, hn, Res.bind_ok, Res.pure_eq] at h1
      rw [h] at h1
      have h2 := Res.bind_bad.1 h1.symm
      simp only [reduceCtorEq, and_false, exists_false, or_false] at h2
      have h3 := Iter.next_left hn
      exact .inr ⟨_, rfl, Res.bind_bad.2 (.inl (nexts_bad n it' (by omega) h2))⟩

/-- C66, the other ways of iterating: a parallel iteration, however it is split, and a sufficient number of calls of `next` read
out of bounds exactly if `fold` does. -/
theorem C66_ways (it : Iter V) : ((∃ n, it.nexts n = .ub) ↔ it.fold = .ub) ∧ ∀ t, it.par t = .ub ↔ it.fold = .ub := by
  refine ⟨⟨?_, fun h => ⟨_, nexts_bad _ it (Nat.le_refl _) h⟩⟩, fun t => ?_⟩
  · rintro ⟨n, h⟩
    rw [C29_nexts n it, h]
    rfl
  · rw [C29_par it t, Res.bind_bad]
    simp

theorem slices_bad {w : World V} (hc : Sound w.components) (es : List Entity) (a b : Nat) : ∀ {q : Query} {vs : List (PartView V)},
    List.Forall₂ (IsView w.components) q vs → ((∃ t ∈ required q, b < a ∨ (w.rows t).length < b - a) ↔
        ∃ v ∈ vs, (∃ x idx s, v = .req x idx s) ∧ v.sliceRaw es a b = .ub)
  | [], _, .nil => by simp [required]
  | p :: q, _, .cons (b := v) (l₂ := vs) hv hvs => by
    have ih := slices_bad hc es a b hvs
    have key : ∀ (x : Bool) (idx : Nat) (s : CompSet V) (t : TypeId), ViewAt w.components t idx s →
        ((b < a ∨ (w.rows t).length < b - a) ↔ (PartView.req x idx s).sliceRaw es a b = .ub) := by
      intro x idx s t hv
      rw [(view_len hc hv).1]
      simp only [PartView.sliceRaw]
      split
      · simp only [reduceCtorEq, iff_false]; omega
      · simp only [iff_true]; omega
    rw [required_cons]
    simp only [List.mem_cons, exists_eq_or_imp, List.mem_append, or_and_right, exists_or, ih]
    cases p <;> cases v <;> simp only [IsView] at hv
    case ref.req t x idx s => simp [Part.required, key x idx s t hv.2]
    case refMut.req t x idx s => simp [Part.required, key x idx s t hv.2]
    all_goals simp [Part.required]

theorem entity_view {c : ComponentStorage V} : ∀ {q : Query} {vs : List (PartView V)},
    List.Forall₂ (IsView c) q vs → (Part.entity ∈ q ↔ PartView.entity ∈ vs)
  | [], _, .nil => by simp
  | p :: q, _, .cons (b := v) (l₂ := vs) hv hvs => by
    rw [List.mem_cons, List.mem_cons, entity_view hvs]
    cases p <;> cases v <;> simp only [IsView] at hv <;> simp

/-- C66, exactly when slicing reads out of bounds. -/
theorem C66_slice {h : History V} {w : World V} (hr : Reach World.empty h w) {b b' : Borrows} {g i x : Query} {q : QueryAll V}
    (hq : QueryAll.new w b g i x = .ok (q, b')) {it : Iter V} (hit : q.iter = .ok it) :
    q.slice = .ub ↔ ∃ d, it = .dense d ∧
      ((∃ t ∈ required g, d.stop < d.start ∨ (w.rows t).length < d.stop - d.start) ∨
        .entity ∈ g ∧ (d.stop < d.start ∨ ∃ t ∈ (if required g = [] then required i else (required g).take 1),
          (w.rows t).length < d.stop)) := by
  have hc := (reach_sound hr).2
  have ho := QueryAll.new_ok hq
  obtain ⟨r, h2, h3⟩ := (reach_range hr).range ho
  unfold QueryAll.iter at hit
  rw [h2] at hit
  unfold QueryAll.slice
  rw [h2]
  cases r with
  | none =>
    cases hit
    simp
  | some r =>
    obtain ⟨start, stop⟩ := r
    obtain ⟨es, h4, h5, h6⟩ := dense_es hc ho (h3 rfl)
    simp only [Res.bind_ok, h4, Res.checked_some, Res.pure_eq, Res.ok.injEq] at hit
    subst hit
    simp only [Res.bind_ok, h4, Option.getD_some, Res.bind_bad, Res.pure_eq, reduceCtorEq, and_false, exists_false, or_false,
      Iter.dense.injEq, exists_eq_left']
    rw [sliceAllRaw_bad]
    have hes : es.length < stop ↔ ∃ t ∈ (if required g = [] then required i else (required g).take 1),
        (w.rows t).length < stop := by
      cases hg : required g with
      | nil => simpa using h6 hg stop
      | cons t ts => simp [h5 t ts hg]
    rw [← hes]
    have h7 : (∃ t ∈ required g, stop < start ∨ (w.rows t).length < stop - start) ↔
        ∃ v ∈ q.get, (∃ x idx s, v = .req x idx s) ∧ v.sliceRaw es start stop = .ub := slices_bad hc es start stop ho.get
    have h8 : .entity ∈ g ↔ .entity ∈ q.get := entity_view ho.get
    rw [h7, h8]
    constructor
    · rintro ⟨v, hv, h9⟩
      cases v with
      | entity =>
        refine .inr ⟨hv, ?_⟩
        simp only [PartView.sliceRaw] at h9
        split at h9
        · cases h9
        · omega
      | req x idx s => exact .inl ⟨_, hv, ⟨x, idx, s, rfl⟩, h9⟩
      | opt x idx s => cases h9
    · rintro (⟨v, hv, _, h9⟩ | ⟨hv, h9⟩)
      · exact ⟨v, hv, h9⟩
      · refine ⟨_, hv, ?_⟩
        simp only [PartView.sliceRaw]
        rw [if_neg (by omega)]

/-- A world in which a query reads out of bounds: the group has one member, the set of type 1 is empty. Another query uses no
group, a third one a single set. -/
example : holdsAfter rowOps (fun _ w => (w.rows 1).length == 0 &&
    (match QueryAll.new w [] [.entity, .ref 0, .ref 1] [] [], QueryAll.new w [] [.ref 0] [] [.ref 1],
        QueryAll.new w [] [.refMut 0] [] [] with
      | .ok (q, _), .ok (q', _), .ok (q'', _) => (match q.iter, q'.iter, q''.iter with
        | .ok (.dense d), .ok it, .ok it' => d.start == 0 && d.stop == 1 &&
          (match d.fold, q.slice with | .ub, .ub => true | _, _ => false) &&
          (match it.fold, it'.fold, q''.slice with
            | .ok [_, _], .ok [_, _], .ok (some [_]) => !it.isDense && it'.isDense
            | _, _, _ => false)
        | _, _, _ => false)
      | _, _, _ => false)) = true := by decide +kernel

end Sparsey
