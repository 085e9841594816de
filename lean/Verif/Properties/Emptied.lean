import Verif.Properties.Uses
import Verif.Properties.Indexes

/-!
C08, the queries after `clear` and `reset`: none yields anything, in every reachable world.
-/

set_option autoImplicit false
set_option linter.unusedSimpArgs false

namespace Sparsey
variable {V : Type}

/-- The range of a query ends at the end of a set or of a group. -/
theorem include_ends {c : ComponentStorage V} {i : GroupInfo} {a b : Nat} (h : c.includeGroupRange i = .ok (some (a, b))) :
    a = 0 ∧ ∃ gr ∈ c.groups, b = gr.len := by
  unfold ComponentStorage.includeGroupRange at h
  obtain ⟨_, _, h⟩ := Res.bind_ok' h
  obtain ⟨gr, h1, h⟩ := Res.bind_ok' h
  have h1 := List.mem_of_getElem? (Res.unchecked_ok h1)
  simp only [Res.pure_eq, Res.ok.injEq, ite_eq_left_iff, Option.ite_none_right_eq_some, Option.some.injEq, Prod.mk.injEq] at h
  exact ⟨h.2.1.symm, gr, h1, h.2.2.symm⟩

theorem exclude_ends {c : ComponentStorage V} {i x : GroupInfo} {a b : Nat} (h : c.excludeGroupRange i x = .ok (some (a, b))) :
    (∃ gr ∈ c.groups, a = gr.len) ∧ ∃ gr ∈ c.groups, b = gr.len := by
  unfold ComponentStorage.excludeGroupRange at h
  split at h
  · cases h
  · obtain ⟨_, _, h⟩ := Res.bind_ok' h
    obtain ⟨gr, h1, h⟩ := Res.bind_ok' h
    split at h
    · cases h
    · obtain ⟨_, _, h⟩ := Res.bind_ok' h
      obtain ⟨pr, h2, h⟩ := Res.bind_ok' h
      cases h
      exact ⟨⟨gr, List.mem_of_getElem? (Res.unchecked_ok h1), rfl⟩, pr, List.mem_of_getElem? (Res.unchecked_ok h2), rfl⟩

/-- Every range of a query starts at 0 or at the end of a group, and ends at the end of a group or of a set. -/
theorem range_ends {w : World V} {g i x : Query} {q : QueryAll V} (hq : q.Of w g i x) {a b : Nat}
    (h : q.getGroupRange = .ok (some (a, b))) : (a = 0 ∨ ∃ gr ∈ w.components.groups, a = gr.len) ∧
      ((∃ s ∈ w.components.components, b = s.len) ∨ ∃ gr ∈ w.components.groups, b = gr.len) := by
  have pg := present_of_views hq.get
  have pi := present_of_views hq.inc
  unfold QueryAll.getGroupRange at h
  rw [hq.world] at h
  cases hgi : q.getInfo with
  | none => rw [hgi] at h; cases h
  | some gi =>
  cases hii : q.incInfo with
  | none => rw [hgi, hii] at h; cases h
  | some ii =>
  cases hxi : q.excInfo with
  | none => rw [hgi, hii, hxi] at h; cases h
  | some xi =>
  have ig : InfoOf w.components gi (required g) := by
    rw [hq.getInfo] at hgi
    have := InfoOf.query (c := w.components) g (a := .empty) (ts := []) rfl pg hgi
    simpa using this
  have iI : InfoOf w.components ii (required i) := by
    rw [hq.incInfo] at hii
    have := InfoOf.query (c := w.components) i (a := .empty) (ts := []) rfl pi hii
    simpa using this
  rw [hgi, hii, hxi] at h
  simp only at h
  cases hadd : gi.addQuery ii with
  | none => rw [hadd] at h; cases h
  | some inc =>
    rw [hadd] at h
    simp only at h
    have hinc := ig.add iI hadd
    have hgen : (match inc.groupInfo, xi.groupInfo with
        | some inc, some exc => w.components.excludeGroupRange inc exc
        | _, _ => .ok none) = .ok (some (a, b)) → (∃ gr ∈ w.components.groups, a = gr.len) ∧ ∃ gr ∈ w.components.groups, b = gr.len := by
      intro h
      cases ha : inc.groupInfo with
      | none => rw [ha] at h; cases h
      | some a =>
        cases hb : xi.groupInfo with
        | none => rw [ha, hb] at h; cases h
        | some b =>
          rw [ha, hb] at h
          exact exclude_ends h
    cases xi with
    | empty =>
      cases inc with
      | empty => cases h
      | one v =>
        obtain ⟨t, m, c, hR, hm, hc, rfl⟩ := hinc
        cases h
        exact ⟨.inl rfl, .inl ⟨c, List.mem_of_getElem? hc, rfl⟩⟩
      | many a =>
        obtain ⟨h1, h2⟩ := include_ends h
        exact ⟨.inl h1, .inr h2⟩
    | one v =>
      obtain ⟨h1, h2⟩ := hgen (by cases inc <;> exact h)
      exact ⟨.inr h1, .inr h2⟩
    | many v =>
      obtain ⟨h1, h2⟩ := hgen (by cases inc <;> exact h)
      exact ⟨.inr h1, .inr h2⟩

/-- A part of a slice shows nothing. -/
def SlicePart.Nothing : SlicePart V → Prop
  | .entities es => es = []
  | .comps _ _ vs => vs = []
  | .unit => True

theorem sliceAllRaw_zero (es : List Entity) : ∀ vs : List (PartView V), ∃ ps, sliceAllRaw es 0 0 vs = .ok ps ∧
    ∀ p ∈ ps, p.Nothing
  | [] => ⟨[], rfl, by simp⟩
  | v :: vs => by
    obtain ⟨ps, h1, h2⟩ := sliceAllRaw_zero es vs
    have h3 : ∃ p, v.sliceRaw es 0 0 = .ok p ∧ p.Nothing := by
      cases v <;> simp [PartView.sliceRaw, SlicePart.Nothing]
    obtain ⟨p, h3, h4⟩ := h3
    refine ⟨p :: ps, by simp [sliceAllRaw, h1, h3], ?_⟩
    simpa using ⟨h4, h2⟩

/-- C08: after `clear` and after `reset`, in every reachable world, whatever was done before, no query yields an item, and
slices are empty. -/
theorem C08_query {h : History V} {w w' : World V} (hr : Reach World.empty h w) {op : Op V} (ho : op = .clear ∨ op = .reset)
    {r : Ret V} (hs : step w op = some (r, w')) {b b' : Borrows} {g i x : Query} {q : QueryAll V}
    (hq : QueryAll.new w' b g i x = .ok (q, b')) :
    q.items = .ok [] ∧ (q.slice = .ok none ∨ ∃ ps, q.slice = .ok (some ps) ∧ ∀ p ∈ ps, p.Nothing) := by
  have hr' : Reach World.empty (h ++ [(op, r)]) w' := hr.snoc hs
  have hc : w'.components = w.components.clear := by
    rcases ho with rfl | rfl
    · obtain ⟨w1, h3⟩ := clear_safe (reach_sound hr).1
      simp only [step, retRes, h3, Res.bind_ok, Res.pure_eq, Option.some.injEq, Prod.mk.injEq] at hs
      obtain ⟨_, rfl⟩ := hs
      unfold World.clear at h3
      obtain ⟨es, _, h3⟩ := Res.bind_ok' h3
      cases h3
      rfl
    · simp only [step, Option.some.injEq, Prod.mk.injEq] at hs
      obtain ⟨_, rfl⟩ := hs
      rfl
  have hgr : ∀ gr ∈ w'.components.groups, gr.len = 0 := by
    rw [hc]
    intro gr hgr
    simp only [ComponentStorage.clear, List.mem_map] at hgr
    obtain ⟨a, _, rfl⟩ := hgr
    rfl
  have hse : ∀ s ∈ w'.components.components, s.entities = [] := by
    rw [hc]
    intro s hs
    simp only [ComponentStorage.clear, List.mem_map] at hs
    obtain ⟨a, _, rfl⟩ := hs
    rfl
  have hof := QueryAll.new_ok hq
  obtain ⟨rg, h1, h2⟩ := (reach_range hr').range hof
  obtain ⟨it, h3, _⟩ := (reach_range hr').iter hof
  unfold QueryAll.items QueryAll.slice
  rw [h3, h1]
  unfold QueryAll.iter at h3
  rw [h1] at h3
  cases rg with
  | none =>
    cases h3
    refine ⟨?_, .inl rfl⟩
    have he : QueryAll.chooseEntities (shortest none q.get) (shortest none q.inc) = [] := by
      have hsh : ∀ {p : Query} {vs : List (PartView V)}, List.Forall₂ (IsView w'.components) p vs →
          shortest none vs = none ∨ shortest none vs = some [] := by
        intro p vs hv
        rcases shortest_none hv with ⟨h3, _⟩ | ⟨es, h3, t, _, idx, cs, ⟨m, _, _, h4⟩, rfl⟩
        · exact .inl h3
        · exact .inr (by rw [h3, hse cs (List.mem_of_getElem? h4)])
      rcases hsh hof.get with h4 | h4 <;> rcases hsh hof.inc with h5 | h5 <;> rw [h4, h5] <;> simp [QueryAll.chooseEntities]
    show SparseIter.fold _ = _
    unfold SparseIter.fold
    rw [he]
    rfl
  | some ab =>
    obtain ⟨a, e⟩ := ab
    obtain ⟨h4, h5⟩ := range_ends hof h1
    have ha : a = 0 := by
      rcases h4 with h4 | ⟨gr, h4, h6⟩
      · exact h4
      · rw [h6, hgr gr h4]
    have he : e = 0 := by
      rcases h5 with ⟨s, h5, h6⟩ | ⟨gr, h5, h6⟩
      · rw [h6, CompSet.len, hse s h5]; rfl
      · rw [h6, hgr gr h5]
    subst ha he
    simp only [Res.bind_ok] at h3
    obtain ⟨es, _, h3⟩ := Res.bind_ok' h3
    cases h3
    refine ⟨rfl, .inr ?_⟩
    obtain ⟨ps, h6, h7⟩ := sliceAllRaw_zero (((firstEntities q.get).or (shortest none q.inc)).getD []) q.get
    exact ⟨ps, by simp only [Res.bind_ok, h6, Res.pure_eq], h7⟩

/-- Worlds after an exchange of entities of different versions, with queries that yielded something before. -/
example : holdsAfter (mixOps ++ [.clear]) (fun _ w =>
    match QueryAll.new w [] [.entity, .ref 0] [] [] with
    | .ok (q, _) => decide (q.items = .ok [] ∧ q.slice = .ok (some [.entities [], .comps 0 0 []]))
    | _ => false) = true ∧
  holdsAfter mixOps (fun _ w =>
    match QueryAll.new w [] [.entity, .ref 0] [] [] with
    | .ok (q, _) => decide (q.items ≠ .ok [])
    | _ => false) = true := by decide

end Sparsey
