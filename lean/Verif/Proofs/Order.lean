import Verif.Proofs.EraseStore

/-!
The order in which a call goes through the types of a tuple does not matter: it works on different sets, and none of
the steps can panic.
-/

set_option autoImplicit false
set_option linter.unusedSimpArgs false

namespace Sparsey

open Res

variable {V : Type}

/-- Runs a function on the set at a position (the common part of `insertAt`, `removeEach` and `deleteEach`). -/
def ComponentStorage.onSet {α : Type} (f : CompSet V → Res (α × CompSet V)) (i : Nat) (c : ComponentStorage V) :
    Res (α × ComponentStorage V) := do
  let s ← Res.unchecked (c.components[i]?)
  let (a, s) ← f s
  pure (a, { c with components := c.components.set i s })

/-- Two steps on different sets can be exchanged. -/
theorem ComponentStorage.onSet_comm {α β γ : Type} {f : CompSet V → Res (α × CompSet V)}
    {g : CompSet V → Res (β × CompSet V)} (hf : ∀ s, f s ≠ .panic) (hg : ∀ s, g s ≠ .panic) {i j : Nat} (hij : i ≠ j)
    (c : ComponentStorage V) (k : α → β → ComponentStorage V → Res γ) :
    (do let (a, c) ← onSet f i c; let (b, c) ← onSet g j c; k a b c) =
    (do let (b, c) ← onSet g j c; let (a, c) ← onSet f i c; k a b c) := by
  unfold onSet
  cases hi : c.components[i]? with
  | none =>
    cases hj : c.components[j]? with
    | none => rfl
    | some sj =>
      cases h2 : g sj with
      | ub => simp [h2]
      | panic => exact absurd h2 (hg _)
      | ok p => simp [h2, List.getElem?_set_ne hij.symm, hi]
  | some si =>
    cases hj : c.components[j]? with
    | none =>
      cases h1 : f si with
      | ub => simp [h1]
      | panic => exact absurd h1 (hf _)
      | ok p => simp [h1, List.getElem?_set_ne hij, hj]
    | some sj =>
      cases h1 : f si with
      | panic => exact absurd h1 (hf _)
      | ub =>
        cases h2 : g sj with
        | ub => simp [h1, h2]
        | panic => exact absurd h2 (hg _)
        | ok p => simp [h1, h2, List.getElem?_set_ne hij.symm, hi]
      | ok p =>
        cases h2 : g sj with
        | ub => simp [h1, h2, List.getElem?_set_ne hij, hj]
        | panic => exact absurd h2 (hg _)
        | ok q =>
          simp [h1, h2, List.getElem?_set_ne hij, List.getElem?_set_ne hij.symm, hi, hj, List.set_comm _ _ hij]

namespace ComponentStorage

/-! ### Values -/

theorem insertAt_cons (e : Entity) (i : Nat) (v : V) (l : List (Nat × V)) (c : ComponentStorage V) :
    insertAt e ((i, v) :: l) c = (do let (_, c) ← onSet (·.insert e v) i c; insertAt e l c) := by
  rw [insertAt, onSet]
  cases c.components[i]? with
  | none => rfl
  | some s =>
    cases h : s.insert e v with
    | ok p => simp [h]
    | panic => simp [h]
    | ub => simp [h]

theorem insertAt_perm {e : Entity} {l l' : List (Nat × V)} (h : l.Perm l') : (l.map (·.1)).Nodup →
    ∀ c : ComponentStorage V, insertAt e l c = insertAt e l' c := by
  induction h with
  | nil => intro _ _; rfl
  | cons x _ ih =>
    intro hn c
    obtain ⟨i, v⟩ := x
    rw [List.map_cons, List.nodup_cons] at hn
    rw [insertAt_cons, insertAt_cons]
    exact congrArg _ (funext fun p => ih hn.2 p.2)
  | swap x y l =>
    intro hn c
    have hij : x.1 ≠ y.1 := by
      intro h
      simp [h] at hn
    obtain ⟨i, v⟩ := x
    obtain ⟨j, u⟩ := y
    simp only [insertAt_cons]
    exact onSet_comm (fun s => s.insert_ne_panic e u) (fun s => s.insert_ne_panic e v) hij.symm c
      fun _ _ c => insertAt e l c
  | trans h1 _ ih1 ih2 =>
    intro hn c
    rw [ih1 hn c, ih2 ((h1.map _).nodup_iff.1 hn) c]

theorem insertEach_cons {e : Entity} {t : TypeId} {v : V} {m : ComponentMetadata} {c : ComponentStorage V}
    (hm : c.meta? t = some m) (l : List (TypeId × V)) (mask : GroupMask) :
    insertEach e ((t, v) :: l) mask c =
      Outcome.ofRes c (onSet (·.insert e v) (c.idxOf t) c) fun p => insertEach e l (mask ||| m.insertMask) p.2 := by
  rw [insertEach, hm, c.idxOf_eq hm, onSet]
  show Outcome.ofRes c (Res.unchecked c.components[m.storageIndex]?) _ = _
  cases c.components[m.storageIndex]? with
  | none => rfl
  | some s =>
    cases h : s.insert e v with
    | ok p => simp [h, Outcome.ofRes]
    | panic => simp [h, Outcome.ofRes]
    | ub => simp [h, Outcome.ofRes]

/-- The masks of some types together. -/
def masks (f : ComponentMetadata → GroupMask) (c : ComponentStorage V) (ts : List TypeId) : GroupMask :=
  ts.foldr (fun t m => (match c.meta? t with | some md => f md | none => 0#64) ||| m) 0#64

theorem masks_perm {f : ComponentMetadata → GroupMask} {c : ComponentStorage V} {ts ts' : List TypeId} (h : ts.Perm ts') :
    c.masks f ts = c.masks f ts' := by
  unfold masks
  refine h.foldr_eq' (fun x _ y _ z => ?_) _
  rw [← BitVec.or_assoc, BitVec.or_comm _ (match c.meta? _ with | some md => f md | none => 0#64), BitVec.or_assoc]

/-- Inserting values of registered types is inserting them into the sets found beforehand. -/
theorem insertEach_eq {e : Entity} : ∀ (l : List (TypeId × V)) (mask : GroupMask) (c : ComponentStorage V),
    (∀ p ∈ l, (c.meta? p.1).isSome) →
    insertEach e l mask c = Outcome.ofRes c (insertAt e (l.map fun p => (c.idxOf p.1, p.2)) c)
      fun c' => .ok (mask ||| c.masks (·.insertMask) (l.map (·.1))) c'
  | [], mask, c, _ => by simp [insertEach, insertAt, masks, Outcome.ofRes]
  | (t, v) :: l, mask, c, hk => by
    obtain ⟨m, hm⟩ := Option.isSome_iff_exists.1 (hk (t, v) (.head _))
    rw [insertEach_cons hm, List.map_cons, insertAt_cons]
    cases h1 : onSet (·.insert e v) (c.idxOf t) c with
    | panic => simp [h1, Outcome.ofRes]
    | ub => simp [h1, Outcome.ofRes]
    | ok p =>
      have hmd : p.2.metadata = c.metadata := by
        obtain ⟨s, _, h2⟩ := Res.bind_ok' h1
        obtain ⟨s', _, h2⟩ := Res.bind_ok' h2
        cases h2
        rfl
      have h2 := insertEach_eq (e := e) l (mask ||| m.insertMask) p.2 (fun q hq => by
        have := hk q (.tail _ hq)
        unfold meta? at this ⊢
        rwa [hmd])
      rw [idxOf_same hmd] at h2
      have h3 : p.2.masks (·.insertMask) (l.map (·.1)) = c.masks (·.insertMask) (l.map (·.1)) := by
        unfold masks meta?
        rw [hmd]
      simp only [h1, Outcome.ofRes, Res.bind_ok]
      rw [h2, h3]
      cases h4 : insertAt e (l.map fun p => (c.idxOf p.1, p.2)) p.2 with
      | panic => exact absurd h4 (by apply insertAt_ne_panic)
      | ub => simp [Outcome.ofRes]
      | ok c' => simp [Outcome.ofRes, masks, hm, BitVec.or_assoc]

theorem nodup_idx {c : ComponentStorage V} (hc : Static c) {ts : List TypeId} (hn : ts.Nodup)
    (hk : ∀ t ∈ ts, (c.meta? t).isSome) : (ts.map c.idxOf).Nodup := by
  refine List.Nodup.map_on (fun t ht t' ht' h => ?_) hn
  obtain ⟨m, hm⟩ := Option.isSome_iff_exists.1 (hk t ht)
  obtain ⟨m', hm'⟩ := Option.isSome_iff_exists.1 (hk t' ht')
  rw [c.idxOf_eq hm, c.idxOf_eq hm'] at h
  exact hc.inj t t' m m' hm hm' h

theorem insertEach_perm {c : ComponentStorage V} (hc : Static c) {e : Entity} {l l' : List (TypeId × V)} (h : l.Perm l')
    (hn : (l.map (·.1)).Nodup) (hk : ∀ p ∈ l, (c.meta? p.1).isSome) (mask : GroupMask) :
    insertEach e l mask c = insertEach e l' mask c := by
  have hk' : ∀ p ∈ l', (c.meta? p.1).isSome := fun p hp => hk p (h.mem_iff.2 hp)
  rw [insertEach_eq l mask c hk, insertEach_eq l' mask c hk', masks_perm (h.map _),
    insertAt_perm (h.map fun p => (c.idxOf p.1, p.2))]
  have := nodup_idx hc hn (fun t ht => by
    obtain ⟨p, hp, rfl⟩ := List.mem_map.1 ht
    exact hk p hp)
  rw [List.map_map] at this ⊢
  exact this

/-! ### Types -/

theorem lookupAll_eq {c : ComponentStorage V} (hc : Static c) (f : ComponentMetadata → GroupMask) :
    ∀ ts : List TypeId, c.lookupAll f ts =
      if ts.all fun t => (c.meta? t).isSome then .ok (ts.map c.idxOf, c.masks f ts) else .panic
  | [] => rfl
  | t :: ts => by
    rw [lookupAll]
    cases hm : c.meta? t with
    | none => simp [hm]
    | some m =>
      have h1 := List.getElem?_eq_getElem (hc.idx t m hm)
      rw [lookupAll_eq hc f ts]
      by_cases hk : ts.all fun t => (c.meta? t).isSome
      · rw [if_pos hk, if_pos (by simp only [List.all_cons, hm, hk]; rfl)]
        simp [h1, c.idxOf_eq hm, masks, hm]
      · rw [if_neg hk, if_neg (by simp only [List.all_cons, hm]; simpa using hk)]
        rfl

theorem all_perm {α : Type} {p : α → Bool} {l l' : List α} (h : l.Perm l') : l.all p = l'.all p := by
  rw [Bool.eq_iff_iff, List.all_eq_true, List.all_eq_true]
  exact ⟨fun hh x hx => hh x (h.mem_iff.2 hx), fun hh x hx => hh x (h.mem_iff.1 hx)⟩

theorem deleteEach_cons (e : Entity) (i : Nat) (l : List Nat) (c : ComponentStorage V) :
    deleteEach e (i :: l) c = (do
      let (_, c) ← onSet (fun s => do let s ← s.delete e; pure ((), s)) i c
      deleteEach e l c) := by
  rw [deleteEach, onSet]
  cases c.components[i]? with
  | none => rfl
  | some s =>
    cases h : s.delete e with
    | ok p => simp [h]
    | panic => simp [h]
    | ub => simp [h]

theorem deleteEach_perm {e : Entity} {l l' : List Nat} (h : l.Perm l') :
    ∀ c : ComponentStorage V, deleteEach e l c = deleteEach e l' c := by
  induction h with
  | nil => intro _; rfl
  | cons x _ ih =>
    intro c
    rw [deleteEach_cons, deleteEach_cons]
    exact congrArg _ (funext fun p => ih p.2)
  | swap x y l =>
    intro c
    by_cases hij : x = y
    · rw [hij]
    have hd : ∀ s : CompSet V, (do let s ← s.delete e; pure ((), s) : Res (Unit × CompSet V)) ≠ .panic := fun s =>
      Sparsey.bind_ne_panic (delete_ne_panic s e) fun _ h => by cases h
    simp only [deleteEach_cons]
    exact onSet_comm hd hd (Ne.symm hij) c fun _ _ c => deleteEach e l c
  | trans _ _ ih1 ih2 => intro c; rw [ih1, ih2]

theorem removeEach_cons (e : Entity) (i : Nat) (l : List Nat) (c : ComponentStorage V) :
    removeEach e (i :: l) c = (do
      let (v, c) ← onSet (·.remove e) i c
      let (vs, c) ← removeEach e l c
      pure (v :: vs, c)) := by
  rw [removeEach, onSet]
  cases c.components[i]? with
  | none => rfl
  | some s =>
    cases h : s.remove e with
    | ok p => simp [h]
    | panic => simp [h]
    | ub => simp [h]

theorem removeEach_length {e : Entity} : ∀ (l : List Nat) (c : ComponentStorage V) {vs : List (Option V)}
    {c' : ComponentStorage V}, removeEach e l c = .ok (vs, c') → vs.length = l.length
  | [], c, vs, c', h => by cases h; rfl
  | i :: l, c, vs, c', h => by
    rw [removeEach_cons] at h
    obtain ⟨⟨v, c1⟩, _, h⟩ := Res.bind_ok' h
    obtain ⟨⟨vs', c2⟩, h2, h⟩ := Res.bind_ok' h
    cases h
    rw [List.length_cons, List.length_cons, removeEach_length l c1 h2]

theorem removeEach_cons₂ (e : Entity) (i j : Nat) (l : List Nat) (c : ComponentStorage V) :
    removeEach e (i :: j :: l) c = (do
      let (v, c) ← onSet (·.remove e) i c
      let (u, c) ← onSet (·.remove e) j c
      let (vs, c) ← removeEach e l c
      pure (v :: u :: vs, c)) := by
  rw [removeEach_cons]
  refine congrArg _ (funext fun p => ?_)
  obtain ⟨v, c1⟩ := p
  simp only
  rw [removeEach_cons]
  cases onSet (·.remove e) j c1 with
  | panic => rfl
  | ub => rfl
  | ok q =>
    obtain ⟨u, c2⟩ := q
    simp only [Res.bind_ok]
    cases removeEach e l c2 with
    | panic => rfl
    | ub => rfl
    | ok q => rfl

/-- The answer gives the values with their types, whatever the order. -/
theorem removeEach_perm {e : Entity} (f : TypeId → Nat) {ts ts' : List TypeId} (h : ts.Perm ts') :
    (∀ t ∈ ts, ∀ t' ∈ ts, f t = f t' → t = t') →
    ∀ c : ComponentStorage V, (removeEach e (ts.map f) c).Sim (removeEach e (ts'.map f) c) fun p p' =>
      p'.2 = p.2 ∧ (ts.zip p.1).Perm (ts'.zip p'.1) := by
  induction h with
  | nil => intro _ c; exact ⟨([], c), rfl, rfl, .nil⟩
  | cons x _ ih =>
    intro hf c
    rw [List.map_cons, List.map_cons, removeEach_cons, removeEach_cons]
    refine (Res.Sim.refl _ (R := fun p p' => p' = p) fun _ _ => rfl).bind fun p p' hp => ?_
    subst hp
    refine (ih (fun t ht t' ht' => hf t (.tail _ ht) t' (.tail _ ht')) _).bind fun q q' hq => ?_
    exact ⟨_, rfl, hq.1, by simpa using hq.2⟩
  | swap x y l =>
    intro hf c
    by_cases hij : f x = f y
    · have : x = y := hf x (by simp) y (by simp) hij
      subst this
      exact Res.Sim.refl _ fun _ _ => ⟨rfl, .refl _⟩
    · simp only [List.map_cons]
      rw [removeEach_cons₂, onSet_comm (fun s => s.remove_ne_panic e) (fun s => s.remove_ne_panic e) (Ne.symm hij) c
        (fun v u c => do let (vs, c) ← removeEach e (l.map f) c; pure (v :: u :: vs, c)), removeEach_cons₂]
      refine (Res.Sim.refl _ (R := fun p p' => p' = p) fun _ _ => rfl).bind fun p p' hp => ?_
      subst hp
      refine (Res.Sim.refl _ (R := fun p p' => p' = p) fun _ _ => rfl).bind fun p p' hp => ?_
      subst hp
      refine (Res.Sim.refl _ (R := fun p p' => p' = p) fun _ _ => rfl).bind fun p p' hp => ?_
      subst hp
      exact ⟨_, rfl, rfl, .swap _ _ _⟩
  | trans h1 _ ih1 ih2 =>
    intro hf c
    have h3 := ih1 hf c
    have h4 := ih2 (fun t ht t' ht' => hf t (h1.mem_iff.2 ht) t' (h1.mem_iff.2 ht')) c
    revert h3
    cases removeEach e (List.map f _) c with
    | ub => intro _; trivial
    | panic => intro h3; rw [show removeEach e _ c = .panic from h3] at h4; exact h4
    | ok p =>
      rintro ⟨p', h5, h6, h7⟩
      rw [h5] at h4
      obtain ⟨p'', h8, h9, h10⟩ := h4
      exact ⟨p'', h8, h9.trans h6, h7.trans h10⟩

end ComponentStorage

end Sparsey
