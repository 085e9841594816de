import Verif.Proofs.Alias

/-!
C30: whatever views and queries are alive at the same time in a reachable world, whatever they hand out, no component
is reachable through a mutable reference and another reference. `C30_new` says exactly when a view or query can be made.

Rust ensures the rest: `QueryOne::get`, `QueryAll::iter`, `par_iter`, `slice` and `ViewMut::get_mut` borrow the query or
view mutably (src/query/query_one.rs:93, src/query/query_all.rs:102, 146, 192), so each has given out the references of
one call at a time; calls that change the world borrow it mutably, so nothing else is alive then.
-/

set_option autoImplicit false
set_option linter.unusedSimpArgs false

namespace Sparsey
variable {V : Type}

/-- A view or query that is alive. -/
inductive Obj (V : Type) where
  | view (t : TypeId) (x : Bool) (idx : Nat) (s : CompSet V)
  | one (g i x : Query) (q : QueryOne V)
  | all (g i x : Query) (q : QueryAll V)

/-- The types it accesses. -/
def Obj.types : Obj V → List (TypeId × Bool)
  | .view t x _ _ => [(t, x)]
  | .one g i x _ => accesses (g ++ i ++ x)
  | .all g i x _ => accesses (g ++ i ++ x)

/-- The borrows it holds until it is dropped. -/
def Obj.held : Obj V → Borrows
  | .view _ x idx _ => [(idx, x)]
  | .one _ _ _ q => heldBy (q.get ++ q.inc ++ q.exc)
  | .all _ _ _ q => heldBy (q.get ++ q.inc ++ q.exc)

/-- The views and queries alive, made and dropped in any order, and the borrows held. -/
inductive Live (w : World V) : List (Obj V) → Borrows → Prop where
  | nil : Live w [] []
  | view {os b b' t x idx s i} : Live w os b → borrowSet w.components b x t = .ok (idx, s, i, b') →
      Live w (.view t x idx s :: os) b'
  | one {os b b' g i x q} : Live w os b → QueryOne.new w b g i x = .ok (q, b') → Live w (.one g i x q :: os) b'
  | all {os b b' g i x q} : Live w os b → QueryAll.new w b g i x = .ok (q, b') → Live w (.all g i x q :: os) b'
  | drop {l r o b b'} : Live w (l ++ o :: r) b → b.Perm (o.held ++ b') → Live w (l ++ r) b'

/-- What is given out by one call on a view or query: the item of `get`; the items of a whole iteration, of some calls
of `next`, or of all pieces of a parallel iteration; the slices; all components of a view. -/
inductive HandsOut : Obj V → List Place → Prop where
  | view {t x idx s} : HandsOut (.view t x idx s) ((List.range s.components.length).map fun d => ⟨idx, d, x⟩)
  | none {o} : HandsOut o []
  | one {g i x q e it} : QueryOne.getItem q e = .ok (some it) → HandsOut (.one g i x q) (itemPlaces g it)
  | fold {g i x q it xs} : QueryAll.iter q = .ok it → it.fold = .ok xs →
      HandsOut (.all g i x q) (xs.flatMap (itemPlaces g))
  | nexts {g i x q it it' n xs} : QueryAll.iter q = .ok it → it.nexts n = .ok (xs, it') →
      HandsOut (.all g i x q) (xs.reduceOption.flatMap (itemPlaces g))
  | par {g i x q it t xs} : QueryAll.iter q = .ok it → it.par t = .ok xs →
      HandsOut (.all g i x q) (xs.flatten.flatMap (itemPlaces g))
  | slice {g i x q sl} : QueryAll.slice q = .ok (some sl) → HandsOut (.all g i x q) (slicePlaces g sl)

/-- The views of an object are views of the world. -/
def Obj.Of (w : World V) : Obj V → Prop
  | .view t _ idx s => ViewAt w.components t idx s
  | .one g i x q => List.Forall₂ (IsView w.components) g q.get ∧ List.Forall₂ (IsView w.components) i q.inc ∧
      List.Forall₂ (IsView w.components) x q.exc
  | .all g i x q => List.Forall₂ (IsView w.components) g q.get ∧ List.Forall₂ (IsView w.components) i q.inc ∧
      List.Forall₂ (IsView w.components) x q.exc

theorem ViewAt.setIdx {c : ComponentStorage V} {t : TypeId} {idx : Nat} {s : CompSet V} (h : ViewAt c t idx s) :
    c.setIdx? t = some idx := by
  obtain ⟨m, hm, rfl, _⟩ := h
  simp [ComponentStorage.setIdx?, hm]

theorem held_accesses {c : ComponentStorage V} : ∀ {q : Query} {vs : List (PartView V)},
    List.Forall₂ (IsView c) q vs →
    ((heldBy vs).map fun p => (some p.1, p.2)) = (accesses q).map fun p => (c.setIdx? p.1, p.2)
  | _, _, .nil => rfl
  | _, _, .cons (a := p) (b := v) h hs => by
    rw [heldBy_cons, accesses_cons, List.map_append, List.map_append, held_accesses hs]
    congr 1
    cases p <;> cases v <;> simp only [IsView] at h
    · rfl
    all_goals
      obtain ⟨rfl, h⟩ := h
      simp [PartView.held, Part.access, h.setIdx]

theorem heldBy_append (l r : List (PartView V)) : heldBy (l ++ r) = heldBy l ++ heldBy r := List.filterMap_append

theorem Obj.Of.held {w : World V} {o : Obj V} (h : o.Of w) :
    (o.held.map fun p => (some p.1, p.2)) = o.types.map fun p => (w.components.setIdx? p.1, p.2) := by
  cases o with
  | view t x idx s => simp [Obj.held, Obj.types, ViewAt.setIdx h]
  | one g i x q =>
    obtain ⟨h1, h2, h3⟩ := h
    simp only [Obj.held, Obj.types, heldBy_append, accesses_append, List.map_append, held_accesses h1, held_accesses h2,
      held_accesses h3]
  | all g i x q =>
    obtain ⟨h1, h2, h3⟩ := h
    simp only [Obj.held, Obj.types, heldBy_append, accesses_append, List.map_append, held_accesses h1, held_accesses h2,
      held_accesses h3]

theorem Obj.borrowsOf {w : World V} {os : List (Obj V)} (h : ∀ o ∈ os, o.Of w) {b : Borrows}
    (hb : b.Perm (os.flatMap Obj.held)) : BorrowsOf w.components b (os.flatMap Obj.types) := by
  unfold BorrowsOf
  refine (hb.map _).trans ?_
  have : ((os.flatMap Obj.held).map fun p => (some p.1, p.2)) =
      (os.flatMap Obj.types).map fun p => (w.components.setIdx? p.1, p.2) := by
    clear hb
    induction os with
    | nil => rfl
    | cons o os ih =>
      rw [List.flatMap_cons, List.flatMap_cons, List.map_append, List.map_append, ih (fun o ho => h o (.tail _ ho)),
        (h o (.head _)).held]
  rw [this]

theorem QueryOne.new_eq {w : World V} {b : Borrows} {g i x : Query} : QueryOne.new w b g i x =
    ((do
        let (gv, gi, h) ← borrowQuery w.components b g
        let (iv, ii, h) ← borrowQuery w.components h i
        let (ev, ei, h) ← borrowQuery w.components h x
        pure (gv, gi, iv, ii, ev, ei, h)) >>= fun r => pure (⟨r.1, r.2.2.1, r.2.2.2.2.1⟩, r.2.2.2.2.2.2)) := by
  unfold QueryOne.new
  simp only [Res.bind_assoc', Res.pure_eq, Res.bind_ok]

theorem QueryAll.new_eq {w : World V} {b : Borrows} {g i x : Query} : QueryAll.new w b g i x =
    ((do
        let (gv, gi, h) ← borrowQuery w.components b g
        let (iv, ii, h) ← borrowQuery w.components h i
        let (ev, ei, h) ← borrowQuery w.components h x
        pure (gv, gi, iv, ii, ev, ei, h)) >>= fun r =>
      pure (⟨w, r.1, r.2.2.1, r.2.2.2.2.1, r.2.1, r.2.2.2.1, r.2.2.2.2.2.1⟩, r.2.2.2.2.2.2)) := by
  unfold QueryAll.new
  simp only [Res.bind_assoc', Res.pure_eq, Res.bind_ok]

theorem flatMap_mid {α β : Type} (f : α → List β) (l r : List α) (o : α) :
    ((l ++ o :: r).flatMap f).Perm (f o ++ (l ++ r).flatMap f) := by
  rw [List.flatMap_append, List.flatMap_cons, List.flatMap_append]
  rw [← List.append_assoc, ← List.append_assoc]
  exact List.Perm.append_right _ List.perm_append_comm

/-- What holds of the views and queries alive. -/
theorem Live.inv {w : World V} (hc : Static w.components) {os : List (Obj V)} {b : Borrows} (h : Live w os b) :
    (∀ o ∈ os, o.Of w) ∧ b.Perm (os.flatMap Obj.held) ∧ Compatible b := by
  induction h with
  | nil => exact ⟨by simp, by simp, List.Pairwise.nil⟩
  | @view os b b' t x idx s i hl hn ih =>
    obtain ⟨h1, h2, h3⟩ := ih
    obtain ⟨m, hm, hi, hs, _⟩ := borrowSet_ok hn
    rcases borrowSet_cases hc h3 (Obj.borrowsOf h1 h2) x t with ⟨_, _, idx', s', i', k1, _, k2⟩ | ⟨_, k1⟩
    · rw [hn] at k1
      simp only [Res.ok.injEq, Prod.mk.injEq] at k1
      obtain ⟨rfl, rfl, rfl, rfl⟩ := k1
      refine ⟨fun o ho => ?_, ?_, k2⟩
      · rcases List.mem_cons.1 ho with rfl | ho
        · exact ⟨m, hm, hi, hs⟩
        · exact h1 o ho
      · rw [List.flatMap_cons]
        exact List.Perm.append_left [_] h2
    · rw [hn] at k1
      cases k1
  | @one os b b' g i x q hl hn ih =>
    obtain ⟨h1, h2, h3⟩ := ih
    have hof := QueryOne.new_ok hn
    rw [QueryOne.new_eq] at hn
    rcases borrow3_cases hc (g := g) (i := i) (x := x) h3 (Obj.borrowsOf h1 h2) with
      ⟨_, _, vg, vi, vx, ig, ii, ix, b1, b2, b3, k1, k2, k3, k4, _, k5⟩ | ⟨_, k1⟩
    · simp only [k1, k2, k3, Res.bind_ok, Res.pure_eq, Res.ok.injEq, Prod.mk.injEq] at hn
      obtain ⟨rfl, rfl⟩ := hn
      refine ⟨fun o ho => ?_, ?_, k5⟩
      · rcases List.mem_cons.1 ho with rfl | ho
        · exact hof
        · exact h1 o ho
      · rw [List.flatMap_cons]
        exact k4.trans (List.Perm.append_left _ h2)
    · rw [k1] at hn
      cases hn
  | @all os b b' g i x q hl hn ih =>
    obtain ⟨h1, h2, h3⟩ := ih
    have hof := QueryAll.new_ok hn
    rw [QueryAll.new_eq] at hn
    rcases borrow3_cases hc (g := g) (i := i) (x := x) h3 (Obj.borrowsOf h1 h2) with
      ⟨_, _, vg, vi, vx, ig, ii, ix, b1, b2, b3, k1, k2, k3, k4, _, k5⟩ | ⟨_, k1⟩
    · simp only [k1, k2, k3, Res.bind_ok, Res.pure_eq, Res.ok.injEq, Prod.mk.injEq] at hn
      obtain ⟨rfl, rfl⟩ := hn
      refine ⟨fun o ho => ?_, ?_, k5⟩
      · rcases List.mem_cons.1 ho with rfl | ho
        · exact ⟨hof.get, hof.inc, hof.exc⟩
        · exact h1 o ho
      · rw [List.flatMap_cons]
        exact k4.trans (List.Perm.append_left _ h2)
    · rw [k1] at hn
      cases hn
  | @drop l r o b b' hl hp ih =>
    obtain ⟨h1, h2, h3⟩ := ih
    refine ⟨fun o' ho => h1 o' ?_, ?_, ?_⟩
    · rcases List.mem_append.1 ho with ho | ho
      · exact List.mem_append_left _ ho
      · exact List.mem_append_right _ (.tail _ ho)
    · exact (List.perm_append_left_iff _).1 ((hp.symm.trans h2).trans (flatMap_mid _ _ _ _))
    · exact ((Compatible.perm hp).1 h3).of_append.2

theorem Compatible.pairwise_of_flatMap {α β : Type} {f : β → List (α × Bool)} {l : List β}
    (h : Compatible (l.flatMap f)) : l.Pairwise fun a b => ∀ p ∈ f a, ∀ q ∈ f b, p.1 = q.1 → p.2 = false ∧ q.2 = false :=
  (List.pairwise_flatMap.1 h).2

theorem handsOut_ok {w : World V} (hs : ∀ s ∈ w.components.components, s.IdxOk) {o : Obj V} (ho : o.Of w)
    (hc : Compatible o.held) {ps : List Place} (hp : HandsOut o ps) :
    (∀ p ∈ ps, p.access ∈ o.held) ∧ ps.Pairwise NoAlias := by
  have hq : ∀ {g i x : Query} {q : QueryAll V}, List.Forall₂ (IsView w.components) g q.get →
      List.Forall₂ (IsView w.components) i q.inc → Compatible (heldBy (q.get ++ q.inc ++ q.exc)) →
      ∀ {it : Iter V}, q.iter = .ok it → (∀ v ∈ it.views, v.Ok) ∧
      ∀ {ks : List Key} {xs : List (Item V)}, ks.Sublist it.keys → ItemsAt it.views ks xs →
      (∀ p ∈ xs.flatMap (itemPlaces g), p.access ∈ heldBy (q.get ++ q.inc ++ q.exc)) ∧
        (xs.flatMap (itemPlaces g)).Pairwise NoAlias := by
    intro g i x q h1 h2 h3 it h
    obtain ⟨hv, hk⟩ := QueryAll.iter_keys (views_ok hs h1) (views_ok hs h2) h
    rw [heldBy_append, heldBy_append] at h3
    refine ⟨by rw [hv]; exact views_ok hs h1, fun {ks xs} hsub hat => ?_⟩
    rw [hv] at hat
    refine ⟨fun p hp => ?_, places_keys h1 h3.of_append.1.of_append.1 hat (hk.sublist hsub)⟩
    rw [heldBy_append, heldBy_append]
    exact List.mem_append_left _ (List.mem_append_left _ (places_keys_held h1 hat p hp))
  cases hp with
  | none => exact ⟨by simp, .nil⟩
  | @view t x idx s =>
    constructor
    · intro p hp
      obtain ⟨d, _, rfl⟩ := List.mem_map.1 hp
      exact List.mem_singleton.2 rfl
    · rw [List.pairwise_map]
      refine List.nodup_range.imp fun {a b} hab _ hpos => absurd hpos hab
  | @one g i x q e it h =>
    obtain ⟨h1, h2, h3⟩ := ho
    simp only [Obj.held, heldBy_append] at hc
    have h4 : getAll e q.get = .ok (some it) := by
      unfold QueryOne.getItem at h
      split at h
      · simp at h
      · split at h
        · simp at h
        · exact h
    constructor
    · intro p hp
      simp only [Obj.held, heldBy_append]
      exact List.mem_append_left _ (List.mem_append_left _ (places_held h1 (getAll_of h4) p hp))
    · exact places_item h1 (getAll_of h4) hc.of_append.1.of_append.1
  | @fold g i x q it xs h h' =>
    obtain ⟨h1, h2, h3⟩ := ho
    obtain ⟨h4, h5⟩ := hq (x := x) h1 h2 hc h
    obtain ⟨ks, h6, h7⟩ := Iter.fold_at h4 h'
    exact h5 h6 h7
  | @nexts g i x q it it' n xs h h' =>
    obtain ⟨h1, h2, h3⟩ := ho
    obtain ⟨h4, h5⟩ := hq (x := x) h1 h2 hc h
    obtain ⟨ks, h6, h7⟩ := Iter.nexts_at h4 h'
    exact h5 h6 h7
  | @par g i x q it t xs h h' =>
    obtain ⟨h1, h2, h3⟩ := ho
    obtain ⟨h4, h5⟩ := hq (x := x) h1 h2 hc h
    have h6 := C29_par it t
    rw [h'] at h6
    obtain ⟨ks, h7, h8⟩ := Iter.fold_at h4 h6
    exact h5 h7 h8
  | @slice g i x q sl h =>
    obtain ⟨h1, h2, h3⟩ := ho
    simp only [Obj.held, heldBy_append] at hc ⊢
    unfold QueryAll.slice at h
    obtain ⟨r, _, h⟩ := Res.bind_ok' h
    cases r with
    | none => simp at h
    | some p =>
      obtain ⟨xs, h4, h⟩ := Res.bind_ok' h
      simp only [Res.pure_eq, Res.ok.injEq, Option.some.injEq] at h
      subst h
      obtain ⟨h5, h6⟩ := slicePlaces_held h1 h4 hc.of_append.1.of_append.1
      exact ⟨fun p hp => List.mem_append_left _ (List.mem_append_left _ (h5 p hp)), h6⟩

/-- C30. In every reachable world, for all views and queries alive at the same time and all that they hand out: two
references to the same component are both shared. -/
theorem C30 {h : History V} {w : World V} (hr : Reach World.empty h w) {os : List (Obj V)} {b : Borrows}
    (hl : Live w os b) {ps : List (List Place)} (hp : List.Forall₂ HandsOut os ps) : ps.flatten.Pairwise NoAlias := by
  obtain ⟨h1, h2, h3⟩ := hl.inv (reach_static hr)
  have hs := (reach_idx hr).2
  have hc := (Compatible.perm h2).1 h3
  clear hl h2 h3
  induction hp with
  | nil => exact .nil
  | @cons o p os ps ho hps ih =>
    rw [List.flatMap_cons] at hc
    obtain ⟨k1, k2⟩ := handsOut_ok hs (h1 o (.head _)) hc.of_append.1 ho
    rw [List.flatten_cons, List.pairwise_append]
    refine ⟨k2, ih (fun o ho => h1 o (.tail _ ho)) hc.of_append.2, fun a ha c hcm => ?_⟩
    obtain ⟨l, hl, hcl⟩ := List.mem_flatten.1 hcm
    obtain ⟨n, hn, rfl⟩ := List.getElem_of_mem hl
    have hlen := hps.length_eq
    have h4 := (List.forall₂_iff_get.1 hps).2 n (by omega) hn
    have hmem : os[n]'(by omega) ∈ os := List.getElem_mem _
    have hcn : Compatible (os[n]'(by omega)).held := by
      have := (List.pairwise_flatMap.1 hc.of_append.2).1 _ hmem
      exact this
    have h5 := (handsOut_ok hs (h1 _ (.tail _ hmem)) hcn h4).1 c hcl
    exact NoAlias.of_access ((List.pairwise_append.1 hc).2.2 _ (k1 a ha) _ (List.mem_flatMap.2 ⟨_, hmem, h5⟩))

/-- Three things alive at once: a query that writes, one that reads and a view that reads with it. All of them hand out
places; another query that writes what they read panics. -/
example : holdsAfter queryOps (fun _ w =>
    match QueryAll.new w [] [.refMut 0, .entity, .optMut 9] [.refMut 1] [] with
    | .ok (q, b) => match QueryOne.new w b [.ref 2] [] [] with
      | .ok (q₁, b₁) => match borrowSet w.components b₁ false 2, q.items, q₁.getItem ⟨0, 1⟩ with
        | .ok (idx, s, _, b₂), .ok its, .ok (some it) =>
          decide (its.flatMap (itemPlaces [.refMut 0, .entity, .optMut 9]) =
              [⟨0, 0, true⟩, ⟨0, 1, true⟩, ⟨0, 2, true⟩, ⟨3, 0, true⟩, ⟨0, 3, true⟩] ∧
            itemPlaces [.ref 2] it = [⟨2, 0, false⟩] ∧ (idx, s.components) = (2, [12, 32, 52]) ∧
            b₂ = [(2, false), (2, false), (1, true), (3, true), (0, true)]) &&
          (match QueryAll.new w b₂ [.refMut 2] [] [] with | .panic => true | _ => false)
        | _, _, _ => false
      | _ => false
    | _ => false) = true := by
  decide +kernel

/-- C30. Views and queries can be made exactly if their types are registered and their accesses are compatible with
each other and with those of everything alive; otherwise the call panics. -/
theorem C30_new {h : History V} {w : World V} (hr : Reach World.empty h w) {os : List (Obj V)} {b : Borrows}
    (hl : Live w os b) :
    (∀ g i x : Query,
      ((∀ t ∈ accesses (g ++ i ++ x), w.isRegistered t.1 = true) ∧
        Compatible (accesses (g ++ i ++ x) ++ os.flatMap Obj.types) →
        (∃ q b', QueryAll.new w b g i x = .ok (q, b')) ∧ ∃ q b', QueryOne.new w b g i x = .ok (q, b')) ∧
      (¬ ((∀ t ∈ accesses (g ++ i ++ x), w.isRegistered t.1 = true) ∧
        Compatible (accesses (g ++ i ++ x) ++ os.flatMap Obj.types)) →
        QueryAll.new w b g i x = .panic ∧ QueryOne.new w b g i x = .panic)) ∧
    ∀ (t : TypeId) (m : Bool),
      (w.isRegistered t = true ∧ Compatible ((t, m) :: os.flatMap Obj.types) →
        ∃ r, borrowSet w.components b m t = .ok r) ∧
      (¬ (w.isRegistered t = true ∧ Compatible ((t, m) :: os.flatMap Obj.types)) →
        borrowSet w.components b m t = .panic) := by
  have hc := reach_static hr
  obtain ⟨h1, h2, h3⟩ := hl.inv hc
  have hb := Obj.borrowsOf h1 h2
  constructor
  · intro g i x
    rw [QueryAll.new_eq, QueryOne.new_eq]
    rcases borrow3_cases hc (g := g) (i := i) (x := x) h3 hb with
      ⟨j1, j2, vg, vi, vx, ig, ii, ix, b1, b2, b3, k1, k2, k3, k4, _, k5⟩ | ⟨j1, k1⟩
    · refine ⟨fun _ => ?_, fun hn => absurd ⟨j1, j2⟩ hn⟩
      simp only [k1, k2, k3, Res.bind_ok, Res.pure_eq, Res.ok.injEq, Prod.mk.injEq]
      exact ⟨⟨_, _, rfl, rfl⟩, ⟨_, _, rfl, rfl⟩⟩
    · refine ⟨fun hn => absurd hn j1, fun _ => ?_⟩
      rw [k1]
      exact ⟨rfl, rfl⟩
  · intro t m
    rcases borrowSet_cases hc h3 hb m t with ⟨j1, j2, idx, s, i, k1, _⟩ | ⟨j1, k1⟩
    · exact ⟨fun _ => ⟨_, k1⟩, fun hn => absurd ⟨j1, j2⟩ hn⟩
    · exact ⟨fun hn => absurd hn j1, fun _ => k1⟩

end Sparsey
