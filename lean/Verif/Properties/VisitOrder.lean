import Verif.Properties.Views

/-!
C60: the order in which queries visit entities.
-/

set_option autoImplicit false
set_option linter.unusedSimpArgs false

namespace Sparsey
variable {V : Type}

/-- `c` is the set of the first of the types whose set is shortest. -/
def World.FirstShortest (w : World V) (ts : List TypeId) (c : CompSet V) : Prop :=
  ∃ l t r, ts = l ++ t :: r ∧ w.borrow t = .ok c ∧
    (∀ t' ∈ l, ∃ c', w.borrow t' = .ok c' ∧ c.len < c'.len) ∧ (∀ t' ∈ r, ∃ c', w.borrow t' = .ok c' ∧ c.len ≤ c'.len)

/-- The entities that an iterator without a group looks at, in order. -/
def Iter.looksAt : Iter V → List Entity
  | .sparse it => it.entities
  | .dense _ => []

theorem shortest_eq {w : World V} : ∀ {q : Query} {vs : List (PartView V)}, List.Forall₂ (IsView w.components) q vs →
    ∀ acc : Option (CompSet V), ∃ r : Option (CompSet V), shortest (acc.map (·.entities)) vs = r.map (·.entities) ∧
      (r = none → acc = none ∧ required q = []) ∧
      ∀ c, r = some c → (∀ t ∈ required q, ∃ c', w.borrow t = .ok c' ∧ c.len ≤ c'.len) ∧
        (∀ a, acc = some a → c.len ≤ a.len) ∧
        ((acc = some c) ∨ (∀ a, acc = some a → c.len < a.len) ∧ w.FirstShortest (required q) c)
  | [], _, .nil, acc => ⟨acc, rfl, fun h => ⟨h, rfl⟩, fun c hc => ⟨by simp [required], fun a ha => by
      rw [hc] at ha; cases ha; exact Nat.le_refl _, .inl hc⟩⟩
  | p :: q, _, .cons (b := v) (l₂ := vs) hv hvs, acc => by
    rw [required_cons]
    rcases part_entities hv with ⟨h1, h2⟩ | ⟨t, new, h1, h2, t', ht', idx, s, hs, rfl⟩
    · have : shortest (acc.map (·.entities)) (v :: vs) = shortest (acc.map (·.entities)) vs := by
        cases acc <;> simp [shortest, h2]
      rw [this, h1]
      exact shortest_eq hvs acc
    · rw [List.mem_singleton] at ht'
      subst ht'
      have hb := borrow_of_viewAt hs
      rw [h1]
      simp only [Option.toList_some, List.singleton_append]
      have key : ∀ acc' : CompSet V, acc'.len ≤ s.len → ((acc' = s ∧ ∀ a, acc = some a → s.len < a.len) ∨ acc = some acc') →
          ∃ r : Option (CompSet V), shortest (some acc'.entities) vs = r.map (·.entities) ∧
          (r = none → acc = none ∧ t' :: required q = []) ∧
          ∀ c, r = some c → (∀ t ∈ t' :: required q, ∃ c', w.borrow t = .ok c' ∧ c.len ≤ c'.len) ∧
            (∀ a, acc = some a → c.len ≤ a.len) ∧
            ((acc = some c) ∨ (∀ a, acc = some a → c.len < a.len) ∧ w.FirstShortest (t' :: required q) c) := by
        intro acc' hle hor
        obtain ⟨r, e1, e2, e3⟩ := shortest_eq hvs (some acc')
        refine ⟨r, e1, fun h => (by have := (e2 h).1; cases this), fun c hc => ?_⟩
        obtain ⟨f1, f2, f3⟩ := e3 c hc
        have f2 := f2 acc' rfl
        have hacc : ∀ a, acc = some a → acc'.len ≤ a.len := by
          intro a ha
          rcases hor with ⟨h, hlt⟩ | h
          · subst h
            exact Nat.le_of_lt (hlt a ha)
          · rw [ha] at h
            cases h
            exact Nat.le_refl _
        refine ⟨?_, fun a ha => Nat.le_trans f2 (hacc a ha), ?_⟩
        · intro t ht
          rcases List.mem_cons.1 ht with rfl | ht
          · exact ⟨s, hb, Nat.le_trans f2 hle⟩
          · exact f1 t ht
        · rcases f3 with f3 | ⟨f3, l, t, r', g1, g2, g3, g4⟩
          · cases f3
            rcases hor with ⟨h, hlt⟩ | h
            · subst h
              exact .inr ⟨hlt, [], t', required q, rfl, hb, by simp, f1⟩
            · exact .inl h
          · have f3 := f3 acc' rfl
            refine .inr ⟨fun a ha => Nat.lt_of_lt_of_le f3 (hacc a ha), t' :: l, t, r', by rw [g1]; rfl, g2, ?_, g4⟩
            intro x hx
            rcases List.mem_cons.1 hx with rfl | hx
            · exact ⟨s, hb, Nat.lt_of_lt_of_le f3 hle⟩
            · exact g3 x hx
      cases acc with
      | none =>
        have : shortest ((none : Option (CompSet V)).map (·.entities)) (v :: vs) = shortest (some s.entities) vs := by
          simp [shortest, h2]
        rw [this]
        exact key s (Nat.le_refl _) (.inl ⟨rfl, fun a ha => by cases ha⟩)
      | some old =>
        have : shortest ((some old).map (·.entities)) (v :: vs) =
            shortest (some (if s.len < old.len then s else old).entities) vs := by
          simp only [Option.map_some, shortest, h2]
          by_cases hl : s.len < old.len
          · rw [if_pos hl, if_pos (show s.entities.length < old.entities.length from hl)]
          · rw [if_neg hl, if_neg (show ¬ s.entities.length < old.entities.length from hl)]
        rw [this]
        by_cases hl : s.len < old.len
        · rw [if_pos hl]
          exact key s (Nat.le_refl _) (.inl ⟨rfl, fun a ha => by cases ha; exact hl⟩)
        · rw [if_neg hl]
          exact key old (by omega) (.inr rfl)

theorem World.FirstShortest.append_right {w : World V} {ts us : List TypeId} {c : CompSet V} (h : w.FirstShortest ts c)
    (hu : ∀ t ∈ us, ∃ c', w.borrow t = .ok c' ∧ c.len ≤ c'.len) : w.FirstShortest (ts ++ us) c := by
  obtain ⟨l, t, r, h1, h2, h3, h4⟩ := h
  refine ⟨l, t, r ++ us, by simp [h1], h2, h3, fun x hx => ?_⟩
  rcases List.mem_append.1 hx with hx | hx
  · exact h4 x hx
  · exact hu x hx

theorem World.FirstShortest.append_left {w : World V} {ts us : List TypeId} {c : CompSet V} (h : w.FirstShortest us c)
    (hu : ∀ t ∈ ts, ∃ c', w.borrow t = .ok c' ∧ c.len < c'.len) : w.FirstShortest (ts ++ us) c := by
  obtain ⟨l, t, r, h1, h2, h3, h4⟩ := h
  refine ⟨ts ++ l, t, r, by simp [h1], h2, fun x hx => ?_, h4⟩
  rcases List.mem_append.1 hx with hx | hx
  · exact hu x hx
  · exact h3 x hx

theorem chooseEntities_first {w : World V} {g i x : Query} {q : QueryAll V} (hq : q.Of w g i x) :
    (required g ++ required i = [] ∧ QueryAll.chooseEntities (shortest none q.get) (shortest none q.inc) = []) ∨
      ∃ c, w.FirstShortest (required g ++ required i) c ∧
        QueryAll.chooseEntities (shortest none q.get) (shortest none q.inc) = c.entities := by
  obtain ⟨r1, a1, a2, a3⟩ := shortest_eq hq.get none
  obtain ⟨r2, b1, b2, b3⟩ := shortest_eq hq.inc none
  rw [show shortest none q.get = _ from a1, show shortest none q.inc = _ from b1]
  cases r1 with
  | none =>
    rw [(a2 rfl).2, List.nil_append]
    cases r2 with
    | none => exact .inl ⟨(b2 rfl).2, rfl⟩
    | some c =>
      obtain ⟨_, _, h | h⟩ := b3 c rfl
      · cases h
      · exact .inr ⟨c, h.2, rfl⟩
  | some c1 =>
    obtain ⟨c1a, _, h | h⟩ := a3 c1 rfl
    · cases h
    cases r2 with
    | none =>
      rw [(b2 rfl).2, List.append_nil]
      exact .inr ⟨c1, h.2, rfl⟩
    | some c2 =>
      obtain ⟨c2a, _, h' | h'⟩ := b3 c2 rfl
      · cases h'
      right
      by_cases hl : c1.len ≤ c2.len
      · refine ⟨c1, h.2.append_right fun t ht => ?_, ?_⟩
        · obtain ⟨c', e1, e2⟩ := c2a t ht
          exact ⟨c', e1, Nat.le_trans hl e2⟩
        · exact if_pos hl
      · refine ⟨c2, h'.2.append_left fun t ht => ?_, ?_⟩
        · obtain ⟨c', e1, e2⟩ := c1a t ht
          exact ⟨c', e1, by omega⟩
        · exact if_neg hl

/-- C60, in every reachable world: an iterator that does not use a group looks at the entities of one set in the order
of this set. The set is the shortest of those that the query requires; among several the first. -/
theorem C60_visits {h : History V} {w : World V} (_ : Reach World.empty h w) {b b' : Borrows} {g i x : Query}
    {q : QueryAll V} (hq : QueryAll.new w b g i x = .ok (q, b')) {it : Iter V} (hit : q.iter = .ok it)
    (hd : it.isDense = false) :
    (required g ++ required i = [] ∧ it.looksAt = []) ∨
      ∃ c, w.FirstShortest (required g ++ required i) c ∧ it.looksAt = c.entities := by
  have ho := QueryAll.new_ok hq
  unfold QueryAll.iter at hit
  obtain ⟨r, _, hit⟩ := Res.bind_ok' hit
  cases r with
  | some ab =>
    obtain ⟨a, b⟩ := ab
    obtain ⟨es, _, hit⟩ := Res.bind_ok' hit
    cases hit
    cases hd
  | none =>
    cases hit
    exact chooseEntities_first ho

/-- C60, all queries: what is yielded, in order. Without a group, the entities of the first shortest set that have what
is required and nothing that is excluded, in the order of this set; with a group, a range of the entities of the sets of
the required components, which have these entities at the same places. Missing: histories that are not `Fair`. -/
theorem C60_order_partial {h : History V} {w : World V} (hr : Reach World.empty h w) (hg : Fair (calls h))
    {b b' : Borrows} {g i x : Query} {q : QueryAll V} (hq : QueryAll.new w b g i x = .ok (q, b')) :
    ∃ (it : Iter V) (es : List Entity) (its : List (Item V)), q.iter = .ok it ∧ q.items = .ok its ∧
      its.map (fun it => some it.shown) = es.map (fun e => shows (mapOf (calls h)).table e g) ∧
      (it.isDense = true → ∃ a b, ∀ t ∈ required g ++ required i, ∃ c, w.borrow t = .ok c ∧
        es = (c.entities.take b).drop a ∧ b ≤ c.len ∧ a ≤ b) ∧
      (it.isDense = false → required g ++ required i ≠ [] → ∃ c, w.FirstShortest (required g ++ required i) c ∧
        es.Sublist c.entities ∧ ∀ e, e ∈ es ↔ (mapOf (calls h)).Has (required g ++ required i) e ∧ AllRequired x ∧
          ∀ t ∈ required x, (mapOf (calls h)).table.get t e = none) ∧
      (required g ++ required i = [] → es = []) := by
  have hi := reach_out hr hg
  have ho := QueryAll.new_ok hq
  obtain ⟨r, hran, hrange⟩ := hi.range ho
  cases r with
  | some ab =>
    obtain ⟨it, es, its, h1, h2, h3, h4, h5, h6⟩ := hi.items ho
    rcases h6 with ⟨a, b, pre, hd, _, hdr, rfl⟩ | ⟨_, hn, _⟩
    · refine ⟨it, _, its, h1, by rw [QueryAll.items, h1]; exact h2, hi.reads_shown ho.get h4, fun _ => ⟨a, b, ?_⟩,
        fun hd' => (by rw [hd] at hd'; cases hd'), fun hn => absurd hn hdr.nonempty⟩
      intro t ht
      obtain ⟨c, hc1, hc2⟩ := hdr.aligned t ht
      refine ⟨c, hc1, by rw [hc2], ?_, hdr.le⟩
      have := congrArg List.length hc2
      rw [List.length_take, hdr.length] at this
      unfold CompSet.len
      omega
    · rw [hran] at hn
      cases hn
  | none =>
    have hiter : q.iter = .ok (.sparse ⟨QueryAll.chooseEntities (shortest none q.get) (shortest none q.inc), q.exc, q.inc,
        q.get⟩) := by simp [QueryAll.iter, hran]
    rcases chooseEntities_first ho with ⟨h1, h2⟩ | ⟨c, hc, he⟩
    · refine ⟨_, [], [], hiter, ?_, rfl, fun h => (by cases h), fun _ hn => absurd h1 hn, fun _ => rfl⟩
      rw [QueryAll.items, hiter, h2]
      rfl
    · obtain ⟨l, t, r, e1, e2, e3, e4⟩ := id hc
      have ht : t ∈ required g ++ required i := by rw [e1]; simp
      obtain ⟨m, s, hm, hs⟩ : ∃ m s, w.components.meta? t = some m ∧
          w.components.components[m.storageIndex]? = some s := by
        rcases List.mem_append.1 ht with ht | ht
        · exact present_of_views ho.get t ht
        · exact present_of_views ho.inc t ht
      have hv : ViewAt w.components t m.storageIndex s := ⟨m, hm, rfl, hs⟩
      have := borrow_of_viewAt hv
      rw [e2] at this
      cases this
      have hs := hi.viewAt hv
      obtain ⟨es, xs, h1, h2, h3, h4⟩ := sparse_fold hi.life.idxUniq
        (it := ⟨QueryAll.chooseEntities (shortest none q.get) (shortest none q.inc), q.exc, q.inc, q.get⟩)
        (hi.faithfuls ho.get) (hi.faithfuls ho.inc) (hi.faithfuls ho.exc) c.entities hs.alive hs.wf.rep.nodup
      have hne : required g ++ required i ≠ [] := List.ne_nil_of_mem ht
      refine ⟨_, es, xs, hiter, ?_, hi.reads_shown ho.get h3, fun h => (by cases h), fun _ _ => ⟨c, hc, h2, fun e => ?_⟩,
        fun h => absurd h hne⟩
      · rw [QueryAll.items, hiter]
        rw [he] at h1 ⊢
        exact h1
      · rw [h4, Faithful.none_contains_all e (hi.faithfuls ho.exc)]
        constructor
        · rintro ⟨_, x1⟩
          exact x1
        · rintro ⟨x1, x2⟩
          exact ⟨(hs.mem e).2 (x1 t ht), x1, x2⟩

/-- Two sets of the same length with different orders: the query goes through the one that it names first, and leaves out
the entity that lacks the other component. -/
def visitOps : List (Op Nat) :=
  [.register 0, .register 1, .create [(0, 10), (1, 20)], .create [(1, 21)], .create [(0, 12)], .create [(1, 23), (0, 13)],
    .insert ⟨1, 1⟩ [(0, 11)], .insert ⟨2, 1⟩ [(1, 22)], .create [(0, 14)], .create [(1, 25)], .remove ⟨0, 1⟩ [0],
    .insert ⟨0, 1⟩ [(0, 15)]]

/-- The iterator of a query does not use a group and looks at these entities. -/
def looksAtAre (w : World V) (g i x : Query) (es : List Entity) : Bool :=
  match QueryAll.new w [] g i x with
  | .ok (q, _) => match q.iter with
    | .ok it => decide (it.looksAt = es ∧ it.isDense = false)
    | _ => false
  | _ => false

example : Fair visitOps ∧ holdsAfter visitOps (fun _ w =>
    looksAtAre w [.entity, .ref 0] [.ref 1] [] [⟨4, 1⟩, ⟨2, 1⟩, ⟨3, 1⟩, ⟨1, 1⟩, ⟨0, 1⟩] &&
    looksAtAre w [.entity, .ref 1] [.ref 0] [] [⟨0, 1⟩, ⟨1, 1⟩, ⟨3, 1⟩, ⟨2, 1⟩, ⟨5, 1⟩] &&
    itemsAre w [.entity, .ref 0] [.ref 1] [] (fun its => decide (its.map Item.shown =
      [[.entity ⟨2, 1⟩, .comp 12], [.entity ⟨3, 1⟩, .comp 13], [.entity ⟨1, 1⟩, .comp 11], [.entity ⟨0, 1⟩, .comp 15]])) &&
    itemsAre w [.entity, .ref 1] [.ref 0] [] (fun its => decide (its.map Item.shown =
      [[.entity ⟨0, 1⟩, .comp 20], [.entity ⟨1, 1⟩, .comp 21], [.entity ⟨3, 1⟩, .comp 23], [.entity ⟨2, 1⟩, .comp 22]])))
      = true := by
  decide +kernel

end Sparsey
