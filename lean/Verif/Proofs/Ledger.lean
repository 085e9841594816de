import Verif.Spec.Ledger
import Verif.Proofs.Safe
import Verif.Proofs.SetLayout
import Mathlib.Data.List.Perm.Basic

/-!
No component value is lost or duplicated: every function that changes sets conserves the values, whatever the state.
-/

set_option autoImplicit false
set_option linter.unusedSimpArgs false

namespace Sparsey
variable {V : Type}

/-! ### Lists -/

theorem perm_set {α : Type} : ∀ {l : List α} {i : Nat} {x : α} (_ : l[i]? = some x) (v : α),
    (x :: l.set i v).Perm (v :: l)
  | [], i, x, h, v => by simp at h
  | a :: l, 0, x, h, v => by
    simp at h
    subst h
    exact List.Perm.swap _ _ _
  | a :: l, i + 1, x, h, v => by
    have h' : l[i]? = some x := by simpa using h
    exact (List.Perm.swap _ _ _).trans (((perm_set h' v).cons a).trans (List.Perm.swap _ _ _))

/-- The last element moves to position `i`. -/
theorem perm_swapRemove {α : Type} {l : List α} {i n : Nat} {x y : α} (hn : l.length = n + 1) (hi : l[i]? = some x)
    (hl : l[n]? = some y) : l.Perm (x :: (l.set i y).take n) := by
  have hsplit : l = l.take n ++ [y] := by
    have h1 := List.take_append_drop n l
    have h2 : l.drop n = [y] := by
      rw [List.drop_eq_getElem_cons (by omega)]
      rw [List.getElem?_eq_getElem (by omega)] at hl
      rw [Option.some.inj hl, List.drop_of_length_le (by omega)]
    rw [h2] at h1
    exact h1.symm
  have hi' : i < n + 1 := by
    have := (List.getElem?_eq_some_iff.1 hi).1
    omega
  by_cases hin : i = n
  · subst hin
    rw [hl] at hi
    cases hi
    rw [List.take_set_of_le (Nat.le_refl _)]
    exact (List.Perm.of_eq hsplit).trans (List.perm_append_comm)
  · have hlt : i < n := by omega
    rw [List.take_set]
    have h3 : (l.take n)[i]? = some x := by rw [List.getElem?_take_of_lt hlt]; exact hi
    refine (List.Perm.of_eq hsplit).trans ((List.perm_append_comm).trans ?_)
    exact (perm_set h3 y).symm

theorem perm_swap {α : Type} {l : List α} {a b : Nat} {x y : α} (ha : l[a]? = some x) (hb : l[b]? = some y) :
    ((l.set a y).set b x).Perm l := by
  by_cases hab : a = b
  · subst hab
    rw [ha] at hb
    cases hb
    rw [List.set_set]
    exact ((perm_set ha x).cons_inv)
  · have h1 : (l.set a y)[b]? = some y := by rw [List.getElem?_set_ne hab]; exact hb
    have h2 := perm_set h1 x
    have h3 := perm_set ha y
    exact (h2.trans h3).cons_inv

/-! ### Sets -/

/-- Entities and components of a set have the same length. -/
def LenOk (s : CompSet V) : Prop := s.entities.length = s.components.length

/-- All values of a list of sets. -/
def values (l : List (CompSet V)) : List V := l.flatMap (·.components)

@[simp] theorem values_nil : values ([] : List (CompSet V)) = [] := rfl

@[simp] theorem values_cons (s : CompSet V) (l : List (CompSet V)) : values (s :: l) = s.components ++ values l := by
  simp [values]

@[simp] theorem values_append (a b : List (CompSet V)) : values (a ++ b) = values a ++ values b := by
  simp [values]

theorem values_set : ∀ {l : List (CompSet V)} {i : Nat} {s : CompSet V} (_ : l[i]? = some s) (s' : CompSet V),
    (s.components ++ values (l.set i s')).Perm (s'.components ++ values l)
  | [], i, s, h, s' => by simp at h
  | x :: l, 0, s, h, s' => by
    simp at h
    subst h
    simp only [List.set_cons_zero, values_cons, ← List.append_assoc]
    exact List.perm_append_comm.append_right _
  | x :: l, i + 1, s, h, s' => by
    have h' : l[i]? = some s := by simpa using h
    simp only [List.set_cons_succ, values_cons, ← List.append_assoc]
    refine (List.perm_append_comm.append_right _).trans ?_
    refine List.Perm.trans ?_ (List.perm_append_comm.append_right _)
    rw [List.append_assoc, List.append_assoc]
    exact (values_set h' s').append_left _

namespace LenOk

theorem new : LenOk (CompSet.new : CompSet V) := rfl

theorem insert {s s' : CompSet V} {e : Entity} {v : V} {old : Option V} (h : LenOk s)
    (hr : s.insert e v = .ok (old, s')) : LenOk s' ∧ (v :: s.components).Perm (old.toList ++ s'.components) := by
  unfold CompSet.insert at hr
  obtain ⟨slot, _, hr⟩ := Res.bind_ok' hr
  cases slot with
  | some sl =>
    obtain ⟨_, _, hr⟩ := Res.bind_ok' hr
    obtain ⟨x, hx, hr⟩ := Res.bind_ok' hr
    cases hr
    refine ⟨by simpa [LenOk] using h, ?_⟩
    exact (perm_set (Res.unchecked_ok hx) v).symm
  | none =>
    obtain ⟨sp, _, hr⟩ := Res.bind_ok' hr
    cases hr
    refine ⟨by simpa [LenOk] using h, ?_⟩
    exact (List.perm_append_comm (l₁ := [v]))

theorem remove {s s' : CompSet V} {e : Entity} {o : Option V} (h : LenOk s) (hr : s.remove e = .ok (o, s')) :
    LenOk s' ∧ s.components.Perm (o.toList ++ s'.components) := by
  unfold CompSet.remove at hr
  split at hr
  · cases hr
    exact ⟨h, List.Perm.refl _⟩
  · rename_i index sv hs
    obtain ⟨le, hle, hr⟩ := Res.bind_ok' hr
    obtain ⟨_, _, hr⟩ := Res.bind_ok' hr
    have hr : ∃ x y sp, Res.unchecked (s.components[index]?) = .ok x ∧
        Res.unchecked (s.components[s.entities.length - 1]?) = .ok y ∧ (some x, (⟨sp, (s.entities.set index le).take (s.entities.length - 1),
          (s.components.set index y).take (s.entities.length - 1)⟩ : CompSet V)) = (o, s') := by
      dsimp only at hr
      split at hr
      all_goals
        obtain ⟨sp, _, hr⟩ := Res.bind_ok' hr
        obtain ⟨x, hx, hr⟩ := Res.bind_ok' hr
        obtain ⟨y, hy, hr⟩ := Res.bind_ok' hr
        cases hr
        exact ⟨x, y, sp, hx, hy, rfl⟩
    obtain ⟨x, y, sp, hx, hy, hr⟩ := hr
    cases hr
    have hle := (List.getElem?_eq_some_iff.1 (Res.unchecked_ok hle)).1
    have hl : s.components.length = (s.entities.length - 1) + 1 := by
      unfold LenOk at h
      omega
    refine ⟨?_, perm_swapRemove hl (Res.unchecked_ok hx) (Res.unchecked_ok hy)⟩
    unfold LenOk at h ⊢
    simp only [List.length_take, List.length_set]
    omega

theorem delete {s s' : CompSet V} {e : Entity} (h : LenOk s) (hr : s.delete e = .ok s') :
    LenOk s' ∧ s.components.Perm (s.deleteDrops e ++ s'.components) := by
  unfold CompSet.delete at hr
  unfold CompSet.deleteDrops
  split at hr
  · rename_i sv hs
    cases hr
    rw [hs]
    exact ⟨h, List.Perm.refl _⟩
  · rename_i index sv hs
    rw [hs]
    obtain ⟨le, hle, hr⟩ := Res.bind_ok' hr
    obtain ⟨_, _, hr⟩ := Res.bind_ok' hr
    have hr : ∃ x y sp, Res.unchecked (s.components[index]?) = .ok x ∧
        Res.unchecked (s.components[s.entities.length - 1]?) = .ok y ∧ (⟨sp, (s.entities.set index le).take (s.entities.length - 1),
          (s.components.set index y).take (s.entities.length - 1)⟩ : CompSet V) = s' := by
      dsimp only at hr
      split at hr
      all_goals
        obtain ⟨sp, _, hr⟩ := Res.bind_ok' hr
        obtain ⟨x, hx, hr⟩ := Res.bind_ok' hr
        obtain ⟨y, hy, hr⟩ := Res.bind_ok' hr
        cases hr
        exact ⟨x, y, sp, hx, hy, rfl⟩
    obtain ⟨x, y, sp, hx, hy, hr⟩ := hr
    cases hr
    have hle := (List.getElem?_eq_some_iff.1 (Res.unchecked_ok hle)).1
    have hl : s.components.length = (s.entities.length - 1) + 1 := by
      unfold LenOk at h
      omega
    simp only [Res.unchecked_ok hx]
    refine ⟨?_, perm_swapRemove hl (Res.unchecked_ok hx) (Res.unchecked_ok hy)⟩
    unfold LenOk at h ⊢
    simp only [List.length_take, List.length_set]
    omega

theorem swap {s s' : CompSet V} {a b : Nat} (h : LenOk s) (hr : s.swap a b = .ok s') :
    LenOk s' ∧ s'.components.Perm s.components := by
  unfold CompSet.swap at hr
  obtain ⟨ea, _, hr⟩ := Res.bind_ok' hr
  obtain ⟨eb, _, hr⟩ := Res.bind_ok' hr
  obtain ⟨sp, _, hr⟩ := Res.bind_ok' hr
  obtain ⟨va, ha, hr⟩ := Res.bind_ok' hr
  obtain ⟨vb, hb, hr⟩ := Res.bind_ok' hr
  cases hr
  exact ⟨by simpa [LenOk] using h, perm_swap (Res.unchecked_ok ha) (Res.unchecked_ok hb)⟩

theorem setMut {s s' : CompSet V} {e : Entity} {v : V} {b : Bool} (h : LenOk s) (hr : s.setMut e v = .ok (b, s')) :
    LenOk s' ∧ (v :: s.components).Perm
      ((match s.sparse.get e with
        | none => [v]
        | some d => (s.components[d]?).toList) ++ s'.components) := by
  unfold CompSet.setMut at hr
  split at hr
  · rename_i hs
    cases hr
    rw [hs]
    exact ⟨h, List.Perm.refl _⟩
  · rename_i d hs
    rw [hs]
    obtain ⟨x, hx, hr⟩ := Res.bind_ok' hr
    cases hr
    simp only [Res.unchecked_ok hx]
    exact ⟨by simpa [LenOk] using h, (perm_set (Res.unchecked_ok hx) v).symm⟩

theorem setAt {s s' : CompSet V} {pos : Nat} {v : V} (h : LenOk s) (hr : s.setAt pos v = .ok s') :
    LenOk s' ∧ ∃ old, s.components[pos]? = some old ∧ (v :: s.components).Perm (old :: s'.components) := by
  unfold CompSet.setAt at hr
  obtain ⟨x, hx, hr⟩ := Res.bind_ok' hr
  cases hr
  have hx : s.components[pos]? = some x := by
    cases ho : s.components[pos]? with
    | none => rw [ho] at hx; cases hx
    | some y => rw [ho] at hx; cases hx; rfl
  exact ⟨by simpa [LenOk] using h, x, hx, (perm_set hx v).symm⟩

theorem clear (s : CompSet V) : LenOk s.clear := rfl

end LenOk

/-! ### Grouping: only swaps -/

/-- `b` holds the values of `a`, in any order, and its sets are well formed if those of `a` are. -/
def Moves (a b : List (CompSet V)) : Prop := AllSets LenOk a → AllSets LenOk b ∧ (values b).Perm (values a)

theorem Moves.refl (a : List (CompSet V)) : Moves a a := fun h => ⟨h, List.Perm.refl _⟩

theorem Moves.trans {a b c : List (CompSet V)} (h : Moves a b) (h' : Moves b c) : Moves a c := fun ha =>
  ⟨(h' (h ha).1).1, (h' (h ha).1).2.trans (h ha).2⟩

theorem swapTo_moves {s s' : CompSet V} {q x : Nat} (hs : LenOk s) (hr : swapTo s q x = .ok s') :
    LenOk s' ∧ s'.components.Perm s.components := by
  unfold swapTo at hr
  obtain ⟨d, _, hr⟩ := Res.bind_ok' hr
  by_cases hd : d ≠ q
  · rw [if_pos hd] at hr
    exact hs.swap hr
  · rw [if_neg hd] at hr
    cases hr
    exact ⟨hs, List.Perm.refl _⟩

theorem swapAllTo_moves {q x : Nat} : ∀ {l l' : List (CompSet V)}, swapAllTo q x l = .ok l' → Moves l l'
  | [], l', hr => by cases hr; exact Moves.refl _
  | s :: ss, l', hr => by
    obtain ⟨s1, h1, hr⟩ := Res.bind_ok' hr
    obtain ⟨ss1, h2, hr⟩ := Res.bind_ok' hr
    cases hr
    intro ha
    obtain ⟨h3, h4⟩ := swapTo_moves (ha s (.head _)) h1
    obtain ⟨h5, h6⟩ := swapAllTo_moves h2 (fun s hs => ha s (.tail _ hs))
    refine ⟨(AllSets.single h3).append h5, ?_⟩
    simp only [values_cons]
    exact h4.append h6

theorem swapRange_moves {l l' : List (CompSet V)} {a b q x : Nat} (hr : swapRange l a b q x = .ok l') : Moves l l' := by
  unfold swapRange at hr
  obtain ⟨seg, h1, hr⟩ := Res.bind_ok' hr
  obtain ⟨seg', h2, hr⟩ := Res.bind_ok' hr
  cases hr
  unfold compRange at h1
  split at h1
  · rename_i hab
    cases h1
    intro ha
    obtain ⟨h3, h4⟩ := swapAllTo_moves h2 (fun s hs => ha s (List.mem_of_mem_drop (List.mem_of_mem_take hs)))
    refine ⟨((AllSets.append (fun s hs => ha s (List.mem_of_mem_take hs)) h3).append
      (fun s hs => ha s (List.mem_of_mem_drop hs))), ?_⟩
    have hsplit : l = l.take a ++ (l.drop a).take (b - a) ++ l.drop b := by
      rw [List.append_assoc]
      have h5 : (l.drop a).take (b - a) ++ l.drop b = l.drop a := by
        have h6 := List.take_append_drop (b - a) (l.drop a)
        rwa [List.drop_drop, show a + (b - a) = b by omega] at h6
      rw [h5, List.take_append_drop]
    conv_rhs => rw [hsplit]
    simp only [values_append]
    exact ((h4.append_left _).append_right _)
  · cases h1

theorem groupComponents_moves {l l' : List (CompSet V)} {g g' : Group} {e : Entity}
    (hr : groupComponents l g e = .ok (l', g')) : Moves l l' := by
  unfold groupComponents at hr
  obtain ⟨l1, h1, hr⟩ := Res.bind_ok' hr
  cases hr
  exact swapRange_moves h1

theorem ungroupComponents_moves {l l' : List (CompSet V)} {g g' : Group} {e : Entity}
    (hr : ungroupComponents l g e = .ok (l', g')) : Moves l l' := by
  unfold ungroupComponents at hr
  split at hr
  · cases hr
  · obtain ⟨l1, h1, hr⟩ := Res.bind_ok' hr
    cases hr
    exact swapRange_moves h1

theorem groupLoop_moves {e : Entity} : ∀ (fuel : Nat) (m : BitVec 64) (s s' : Sets V),
    groupLoop e fuel m s = .ok s' → Moves s.1 s'.1 := by
  intro fuel
  induction fuel with
  | zero =>
    intro m s s' hr
    obtain ⟨comps, gs⟩ := s
    unfold groupLoop at hr
    split at hr
    · cases hr; exact Moves.refl _
    · cases hr
  | succ fuel ih =>
    intro m s s' hr
    obtain ⟨comps, gs⟩ := s
    unfold groupLoop at hr
    split at hr
    · cases hr; exact Moves.refl _
    · obtain ⟨g, _, hr⟩ := Res.bind_ok' hr
      obtain ⟨seg, _, hr⟩ := Res.bind_ok' hr
      obtain ⟨st, _, hr⟩ := Res.bind_ok' hr
      cases st with
      | incomplete => exact ih _ _ _ hr
      | ungrouped =>
        obtain ⟨⟨l1, g1⟩, h1, hr⟩ := Res.bind_ok' hr
        exact (groupComponents_moves h1).trans (ih _ _ _ hr)
      | grouped => exact ih _ _ _ hr

theorem ungroupStep_moves {e : Entity} {i : Nat} {s s' : Sets V} (hr : ungroupStep e i s = .ok s') : Moves s.1 s'.1 := by
  obtain ⟨comps, gs⟩ := s
  unfold ungroupStep at hr
  obtain ⟨g, _, hr⟩ := Res.bind_ok' hr
  obtain ⟨seg, _, hr⟩ := Res.bind_ok' hr
  obtain ⟨st, _, hr⟩ := Res.bind_ok' hr
  cases st with
  | incomplete => cases hr; exact Moves.refl _
  | ungrouped => cases hr; exact Moves.refl _
  | grouped =>
    obtain ⟨⟨l1, g1⟩, h1, hr⟩ := Res.bind_ok' hr
    cases hr
    exact ungroupComponents_moves h1

theorem ungroupLoop_moves {e : Entity} : ∀ (fuel : Nat) (m : BitVec 64) (s s' : Sets V),
    ungroupLoop e fuel m s = .ok s' → Moves s.1 s'.1 := by
  intro fuel
  induction fuel with
  | zero =>
    intro m s s' hr
    unfold ungroupLoop at hr
    split at hr
    · cases hr; exact Moves.refl _
    · cases hr
  | succ fuel ih =>
    intro m s s' hr
    unfold ungroupLoop at hr
    split at hr
    · cases hr; exact Moves.refl _
    · obtain ⟨s1, h1, hr⟩ := Res.bind_ok' hr
      exact (ungroupStep_moves h1).trans (ih _ _ _ hr)

theorem ungroupAllLoop_moves {e : Entity} : ∀ (n : Nat) (s s' : Sets V),
    ungroupAllLoop e n s = .ok s' → Moves s.1 s'.1
  | 0, s, s', hr => by cases hr; exact Moves.refl _
  | n + 1, s, s', hr => by
    obtain ⟨s1, h1, hr⟩ := Res.bind_ok' hr
    exact (ungroupStep_moves h1).trans (ungroupAllLoop_moves n _ _ hr)

theorem groupEntities_moves {m : GroupMask} : ∀ (es : List Entity) (s s' : Sets V),
    ComponentStorage.groupEntities m es s = .ok s' → Moves s.1 s'.1
  | [], s, s', hr => by cases hr; exact Moves.refl _
  | e :: es, s, s', hr => by
    obtain ⟨s1, h1, hr⟩ := Res.bind_ok' hr
    exact (groupLoop_moves _ _ _ _ h1).trans (groupEntities_moves es _ _ hr)

theorem withMask_moves {c c' : ComponentStorage V} {m : GroupMask} {f : Sets V → Res (Sets V)}
    (hf : ∀ s s', f s = .ok s' → Moves s.1 s'.1) (hr : c.withMask m f = .ok c') :
    Moves c.components c'.components := by
  unfold ComponentStorage.withMask at hr
  split at hr
  · cases hr; exact Moves.refl _
  · obtain ⟨⟨l, gs⟩, h1, hr⟩ := Res.bind_ok' hr
    cases hr
    exact hf _ _ h1

theorem unchecked_ne_panic {α : Type} (o : Option α) : Res.unchecked o ≠ .panic := by
  cases o <;> intro h <;> cases h

theorem ok_ne_panic {α : Type} (a : α) : Res.ok a ≠ .panic := fun h => by cases h

theorem bind_ne_panic {α β : Type} {r : Res α} {f : α → Res β} (hr : r ≠ .panic) (hf : ∀ a, f a ≠ .panic) :
    r.bind f ≠ .panic := by
  cases r with
  | ok a => exact hf a
  | panic => exact absurd rfl hr
  | ub => intro h; cases h

theorem insert_ne_panic (s : CompSet V) (e : Entity) (v : V) : s.insert e v ≠ .panic := by
  unfold CompSet.insert
  refine bind_ne_panic (unchecked_ne_panic _) fun slot => ?_
  cases slot with
  | none =>
    refine bind_ne_panic ?_ fun _ => (fun h => by cases h)
    unfold SparseVec.setUnchecked
    split <;> intro h <;> cases h
  | some sl =>
    exact bind_ne_panic (unchecked_ne_panic _) fun _ => bind_ne_panic (unchecked_ne_panic _) fun _ =>
      (fun h => by cases h)

/-! ### Counting -/

open Classical in
/-- 1 for the same value, otherwise 0. -/
noncomputable def one (a v : V) : Nat := if v = a then 1 else 0

open Classical in
/-- How often a value occurs. -/
noncomputable def cn (a : V) (l : List V) : Nat := l.count a

theorem cn_nil (a : V) : cn a [] = 0 := rfl

theorem cn_cons (a v : V) (l : List V) : cn a (v :: l) = one a v + cn a l := by
  simp only [cn, one, List.count_cons, beq_iff_eq]
  rw [Nat.add_comm]
  congr 1
  by_cases h : v = a <;> simp [h]

theorem cn_append (a : V) (l l' : List V) : cn a (l ++ l') = cn a l + cn a l' := by
  simp [cn, List.count_append]

theorem cn_perm {l l' : List V} : l.Perm l' ↔ ∀ a, cn a l = cn a l' := by
  classical
  rw [List.perm_iff_count]
  unfold cn
  constructor <;> intro h a <;> convert h a

/-! ### Storage -/

namespace ComponentStorage

/-- The values of a storage. -/
def vals (c : ComponentStorage V) : List V := values c.components

/-- All sets are well formed. -/
def Lens (c : ComponentStorage V) : Prop := AllSets LenOk c.components

/-- Replacing one set by another. -/
theorem cn_set {c : ComponentStorage V} {i : Nat} {s : CompSet V} (h : c.components[i]? = some s) (s' : CompSet V)
    (a : V) : cn a s.components + cn a (vals { c with components := c.components.set i s' }) =
      cn a s'.components + cn a c.vals := by
  have := cn_perm.1 (values_set h s') a
  simp only [cn_append] at this
  exact this

theorem insertEach_ledger {e : Entity} : ∀ (vs : List (TypeId × V)) (m : GroupMask) (c : ComponentStorage V), c.Lens →
    (insertEach e vs m c).Leaves (fun c' => c'.Lens ∧
      (vs.map (·.2) ++ c.vals).Perm (insertEachDrops e vs c ++ c'.vals))
  | [], _, c, hc => ⟨hc, List.Perm.refl _⟩
  | (t, v) :: vs, m, c, hc => by
    rw [insertEach, insertEachDrops]
    cases hm : c.meta? t with
    | none => exact ⟨hc, List.Perm.refl _⟩
    | some md =>
      simp only
      cases hs : c.components[md.storageIndex]? with
      | none => trivial
      | some s =>
        simp only [Res.unchecked_some, Outcome.ofRes_ok]
        cases hi : s.insert e v with
        | panic => exact absurd hi (insert_ne_panic _ _ _)
        | ub => trivial
        | ok p =>
          obtain ⟨old, s'⟩ := p
          obtain ⟨k1, k2⟩ := (hc s (List.mem_of_getElem? hs)).insert hi
          have ih := insertEach_ledger (e := e) vs (m ||| md.insertMask)
            { c with components := c.components.set md.storageIndex s' } (AllSets.set hc k1 _)
          simp only [Outcome.ofRes_ok]
          revert ih
          cases insertEach e vs (m ||| md.insertMask)
            { c with components := c.components.set md.storageIndex s' } with
          | ub => exact fun _ => trivial
          | _ =>
            intro ih
            refine ⟨ih.1, cn_perm.2 fun a => ?_⟩
            have h1 := cn_perm.1 ih.2 a
            have h2 := cn_perm.1 k2 a
            have h3 := cn_set hs s' a
            simp only [cn_append, cn_cons, List.map_cons] at h1 h2 h3 ⊢
            omega

theorem insertAt_ledger {e : Entity} : ∀ (l : List (Nat × V)) (c c' : ComponentStorage V), c.Lens →
    insertAt e l c = .ok c' → c'.Lens ∧ (l.map (·.2) ++ c.vals).Perm (insertAtDrops e l c ++ c'.vals)
  | [], c, c', hc, hr => by cases hr; exact ⟨hc, List.Perm.refl _⟩
  | (i, v) :: l, c, c', hc, hr => by
    obtain ⟨s, hs, hr⟩ := Res.bind_ok' hr
    obtain ⟨⟨old, s'⟩, hi, hr⟩ := Res.bind_ok' hr
    have hs := Res.unchecked_ok hs
    obtain ⟨k1, k2⟩ := (hc s (List.mem_of_getElem? hs)).insert hi
    obtain ⟨i1, i2⟩ := insertAt_ledger l { c with components := c.components.set i s' } c' (AllSets.set hc k1 _) hr
    refine ⟨i1, cn_perm.2 fun a => ?_⟩
    rw [insertAtDrops, hs]
    simp only [hi]
    have h1 := cn_perm.1 i2 a
    have h2 := cn_perm.1 k2 a
    have h3 := cn_set hs s' a
    simp only [cn_append, cn_cons, List.map_cons] at h1 h2 h3 ⊢
    omega

theorem removeEach_ledger {e : Entity} : ∀ (is : List Nat) (c c' : ComponentStorage V) (vs : List (Option V)), c.Lens →
    removeEach e is c = .ok (vs, c') → c'.Lens ∧ c.vals.Perm (vs.filterMap id ++ c'.vals)
  | [], c, c', _, hc, hr => by cases hr; exact ⟨hc, List.Perm.refl _⟩
  | i :: is, c, c', _, hc, hr => by
    obtain ⟨s, hs, hr⟩ := Res.bind_ok' hr
    obtain ⟨⟨v, s'⟩, hi, hr⟩ := Res.bind_ok' hr
    obtain ⟨⟨vs, c1⟩, h1, hr⟩ := Res.bind_ok' hr
    cases hr
    have hs := Res.unchecked_ok hs
    obtain ⟨k1, k2⟩ := (hc s (List.mem_of_getElem? hs)).remove hi
    obtain ⟨i1, i2⟩ := removeEach_ledger is { c with components := c.components.set i s' } c' vs (AllSets.set hc k1 _) h1
    refine ⟨i1, cn_perm.2 fun a => ?_⟩
    have h1 := cn_perm.1 i2 a
    have h2 := cn_perm.1 k2 a
    have h3 := cn_set hs s' a
    cases v with
    | none =>
      simp only [cn_append, cn_cons, cn_nil, Option.toList, List.filterMap_cons, id] at h1 h2 h3 ⊢
      omega
    | some v =>
      simp only [cn_append, cn_cons, cn_nil, Option.toList, List.filterMap_cons, id] at h1 h2 h3 ⊢
      omega

theorem deleteEach_ledger {e : Entity} : ∀ (is : List Nat) (c c' : ComponentStorage V), c.Lens →
    deleteEach e is c = .ok c' → c'.Lens ∧ c.vals.Perm (deleteEachDrops e is c ++ c'.vals)
  | [], c, c', hc, hr => by cases hr; exact ⟨hc, List.Perm.refl _⟩
  | i :: is, c, c', hc, hr => by
    obtain ⟨s, hs, hr⟩ := Res.bind_ok' hr
    obtain ⟨s', hi, hr⟩ := Res.bind_ok' hr
    have hs := Res.unchecked_ok hs
    obtain ⟨k1, k2⟩ := (hc s (List.mem_of_getElem? hs)).delete hi
    obtain ⟨i1, i2⟩ := deleteEach_ledger is { c with components := c.components.set i s' } c' (AllSets.set hc k1 _) hr
    refine ⟨i1, cn_perm.2 fun a => ?_⟩
    rw [deleteEachDrops, hs]
    simp only [hi]
    have h1 := cn_perm.1 i2 a
    have h2 := cn_perm.1 k2 a
    have h3 := cn_set hs s' a
    simp only [cn_append] at h1 h2 h3 ⊢
    omega

theorem deleteAll_ledger {e : Entity} : ∀ (l l' : List (CompSet V)), AllSets LenOk l → deleteAll e l = .ok l' →
    AllSets LenOk l' ∧ (values l).Perm (deleteAllDrops e l ++ values l')
  | [], l', hl, h => by cases h; exact ⟨hl, List.Perm.refl _⟩
  | s :: ss, l', hl, h => by
    obtain ⟨s', h1, h⟩ := Res.bind_ok' h
    obtain ⟨ss', h2, h⟩ := Res.bind_ok' h
    cases h
    obtain ⟨k1, k2⟩ := (hl s (.head _)).delete h1
    obtain ⟨i1, i2⟩ := deleteAll_ledger ss ss' (fun s hs => hl s (.tail _ hs)) h2
    refine ⟨(AllSets.single k1).append i1, cn_perm.2 fun a => ?_⟩
    have h1 := cn_perm.1 i2 a
    have h2 := cn_perm.1 k2 a
    simp only [deleteAllDrops, List.flatMap_cons, values_cons, cn_append] at h1 h2 ⊢
    omega

theorem takeSets_ledger : ∀ (md : List (TypeId × ComponentMetadata)) (comps comps' : List (CompSet V))
    (sets : List (TypeId × CompSet V)), AllSets LenOk comps → takeSets md comps = .ok (sets, comps') →
    AllSets LenOk comps' ∧ AllSets LenOk (sets.map (·.2)) ∧ (values comps).Perm (values (sets.map (·.2)) ++ values comps')
  | [], _, _, _, hc, h => by cases h; exact ⟨hc, (fun s hs => by cases hs), List.Perm.refl _⟩
  | (t, m) :: md, comps, comps', _, hc, h => by
    obtain ⟨s, hs, h⟩ := Res.bind_ok' h
    obtain ⟨⟨sets, c1⟩, h1, h⟩ := Res.bind_ok' h
    cases h
    have hs : comps[m.storageIndex]? = some s := by
      cases hc : comps[m.storageIndex]? with
      | none => rw [hc] at hs; cases hs
      | some x => rw [hc] at hs; cases hs; rfl
    obtain ⟨i1, i2, i3⟩ := takeSets_ledger md _ _ _ (AllSets.set hc LenOk.new _) h1
    refine ⟨i1, (AllSets.single (hc s (List.mem_of_getElem? hs))).append i2, cn_perm.2 fun a => ?_⟩
    have h1 := cn_perm.1 i3 a
    have h2 := cn_perm.1 (values_set hs CompSet.new) a
    simp only [List.map_cons, values_cons, cn_append, CompSet.new, cn_nil] at h1 h2 ⊢
    omega

/-- A list of named sets loses exactly the set that is taken out, if the names are different. -/
theorem removeSet_ledger : ∀ (sets : List (TypeId × CompSet V)) (t : TypeId), (sets.map (·.1)).Nodup →
    (values (sets.map (·.2))).Perm
      (((removeSet sets t).1.getD CompSet.new).components ++ values ((removeSet sets t).2.map (·.2)))
  | [], t, _ => List.Perm.refl _
  | (t', s) :: sets, t, hn => by
    simp only [List.map_cons, List.nodup_cons] at hn
    by_cases ht : t = t'
    · subst ht
      have hf : sets.filter (fun p => p.1 != t) = sets := by
        rw [List.filter_eq_self]
        intro p hp
        simp only [bne_iff_ne, ne_eq]
        intro he
        exact hn.1 (he ▸ List.mem_map_of_mem hp)
      simp [removeSet, List.lookup, List.filter_cons, hf]
    · have ih := removeSet_ledger sets t hn.2
      have hb : (t == t') = false := by simpa using ht
      have hb' : (t' != t) = true := by simpa using fun h => ht h.symm
      simp only [removeSet, List.lookup, List.filter_cons, hb, hb', if_true, List.map_cons, values_cons] at ih ⊢
      refine cn_perm.2 fun a => ?_
      have h1 := cn_perm.1 ih a
      simp only [cn_append] at h1 ⊢
      omega

theorem mem_of_lookup {β : Type} {t : TypeId} {s : β} : ∀ (l : List (TypeId × β)), l.lookup t = some s → (t, s) ∈ l
  | [], h => by cases h
  | (t', s') :: l, h => by
    rw [List.lookup_cons] at h
    split at h
    · rename_i ht
      have ht : t = t' := by simpa using ht
      cases h; subst ht; exact .head _
    · exact .tail _ (mem_of_lookup l h)

/-- What the loops of `set_layout` keep: the values of the placed sets and of those that wait, and the names differ. -/
def Carries (b b' : Building V) : Prop :=
  b.1.Lens → AllSets LenOk (b.2.map (·.2)) → (b.1.metadata.map Prod.fst).Nodup ∧ (b.2.map (·.1)).Nodup →
    b'.1.Lens ∧ AllSets LenOk (b'.2.map (·.2)) ∧ ((b'.1.metadata.map Prod.fst).Nodup ∧ (b'.2.map (·.1)).Nodup) ∧
      (b.1.vals ++ values (b.2.map (·.2))).Perm (b'.1.vals ++ values (b'.2.map (·.2)))

theorem Carries.refl (b : Building V) : Carries b b := fun h1 h2 h3 => ⟨h1, h2, h3, List.Perm.refl _⟩

theorem Carries.trans {a b c : Building V} (h : Carries a b) (h' : Carries b c) : Carries a c := fun h1 h2 h3 => by
  obtain ⟨k1, k2, k3, k4⟩ := h h1 h2 h3
  obtain ⟨j1, j2, j3, j4⟩ := h' k1 k2 k3
  exact ⟨j1, j2, j3, k4.trans j4⟩

theorem Carries.leaves {α : Type} {a b : Building V} {o : Outcome (Building V) α} (h : Carries a b)
    (ho : o.Leaves (Carries b)) : o.Leaves (Carries a) := by
  cases o with
  | ok x s => exact h.trans ho
  | panic s => exact h.trans ho
  | ub => trivial

theorem Carries.push (c : ComponentStorage V) (sets : List (TypeId × CompSet V)) (t : TypeId)
    (m : ComponentMetadata) :
    Carries (c, sets)
      (⟨c.groups, insertMeta c.metadata t m, c.components ++ [(removeSet sets t).1.getD CompSet.new]⟩, (removeSet sets t).2) := by
  intro h1 h2 h3
  have h4 : LenOk ((removeSet sets t).1.getD CompSet.new) := by
    cases hl : (removeSet sets t).1 with
    | none => exact LenOk.new
    | some s =>
      have : (t, s) ∈ sets := mem_of_lookup sets hl
      exact h2 s (List.mem_map.2 ⟨(t, s), this, rfl⟩)
  refine ⟨AllSets.append h1 (AllSets.single h4), ?_, ?_, ?_⟩
  · intro s hs
    obtain ⟨p, hp, rfl⟩ := List.mem_map.1 hs
    exact h2 _ (List.mem_map_of_mem (List.mem_filter.1 hp).1)
  · exact ⟨insertMeta_keys h3.1 _ _, List.Nodup.sublist (List.filter_sublist.map _) h3.2⟩
  · refine cn_perm.2 fun a => ?_
    have h5 := cn_perm.1 (removeSet_ledger sets t h3.2) a
    simp only [vals, values_append, values_cons, values_nil, cn_append, cn_nil] at h5 ⊢
    omega

theorem addComponents_carries {f : GroupFamily} {a b c : Nat} : ∀ (n idx : Nat) (x : Building V),
    (addComponents f a b c idx n x).Leaves (Carries x)
  | 0, _, x => Carries.refl x
  | n + 1, idx, (st, sets) => by
    rw [addComponents]
    refine Outcome.Leaves.ofRes (Carries.refl _) fun p _ => ?_
    obtain ⟨t, m⟩ := p
    exact (Carries.push st sets t _).leaves (addComponents_carries n (idx + 1) _)

theorem addGroups_carries {f : GroupFamily} {a b c : Nat} : ∀ (l : List Nat) (prev : Nat) (x : Building V),
    (addGroups f a b c prev l x).Leaves (Carries x)
  | [], _, x => Carries.refl x
  | n :: l, prev, (st, sets) => by
    rw [addGroups]
    refine Outcome.Leaves.ofRes (Carries.refl _) fun g _ => ?_
    have h0 : Carries (st, sets) ({ st with groups := st.groups ++ [g] }, sets) :=
      fun h1 h2 h3 => ⟨h1, h2, h3, List.Perm.refl _⟩
    refine h0.leaves (Outcome.Leaves.bind (addComponents_carries _ _ _) fun _ y hy => ?_)
    exact hy.leaves (addGroups_carries l n y)

theorem addFamilies_carries : ∀ (fs : List GroupFamily) (x : Building V), (addFamilies fs x).Leaves (Carries x)
  | [], x => Carries.refl x
  | f :: fs, (c, sets) => by
    rw [addFamilies]
    exact Outcome.Leaves.bind (addGroups_carries _ _ _) fun _ y hy => hy.leaves (addFamilies_carries fs y)

theorem addUngrouped_ledger : ∀ (l : List (TypeId × CompSet V)) (c : ComponentStorage V), c.Lens →
    AllSets LenOk (l.map (·.2)) → (c.metadata.map Prod.fst).Nodup → (addUngrouped l c).Lens ∧
      ((addUngrouped l c).metadata.map Prod.fst).Nodup ∧ (c.vals ++ values (l.map (·.2))).Perm (addUngrouped l c).vals
  | [], c, hc, _, hk => ⟨hc, hk, by simp [addUngrouped, vals]⟩
  | (t, s) :: l, c, hc, hl, hk => by
    rw [addUngrouped]
    obtain ⟨h1, h3, h2⟩ := addUngrouped_ledger l
      { c with metadata := insertMeta c.metadata t ⟨c.components.length, 0#64, 0#64, none⟩,
               components := c.components ++ [s] } (AllSets.append hc (AllSets.single (hl s (.head _))))
      (fun s hs => hl s (.tail _ hs)) (insertMeta_keys hk _ _)
    refine ⟨h1, h3, List.Perm.trans ?_ h2⟩
    simp [vals]

theorem setLayout_ledger (rank : TypeId → Nat) (c : ComponentStorage V) (l : GroupLayout) (es : List Entity)
    (hc : c.Lens) (hk : (c.metadata.map Prod.fst).Nodup) :
    (c.setLayout rank l es).Leaves (fun c' => c'.Lens ∧ (c'.metadata.map Prod.fst).Nodup ∧ c.vals.Perm (c.setLayoutDrops l ++ c'.vals)) := by
  unfold setLayout setLayoutDrops
  cases hx : c.extractSparseSets with
  | panic => exact ⟨hc, hk, List.Perm.refl _⟩
  | ub => trivial
  | ok p =>
    obtain ⟨sets, c1⟩ := p
    obtain ⟨⟨sets', comps⟩, h1, hx⟩ := Res.bind_ok' hx
    cases hx
    obtain ⟨t1, t2, t3⟩ := takeSets_ledger _ _ _ _ hc h1
    have hkeys : (sets.map (·.1)).Nodup := by rw [takeSets_fst _ _ _ _ h1]; exact hk
    have hf := addFamilies_carries l.families ((⟨[], [], comps⟩, sets) : Building V)
    simp only
    revert hf
    cases addFamilies l.families ((⟨[], [], comps⟩, sets) : Building V) with
    | ub => exact fun _ => trivial
    | panic b =>
      intro hf
      obtain ⟨c2, sets2⟩ := b
      obtain ⟨f1, f2, f3, f4⟩ := hf t1 t2 ⟨List.nodup_nil, hkeys⟩
      refine ⟨f1, f3.1, cn_perm.2 fun a => ?_⟩
      have e1 := cn_perm.1 t3 a
      have e2 := cn_perm.1 f4 a
      have e3 : sets2.flatMap (·.2.clearDrops) = values (sets2.map (·.2)) := by
        simp [values, CompSet.clearDrops, List.flatMap_map]
      simp only [vals, cn_append, e3] at e1 e2 ⊢
      omega
    | ok u b =>
      intro hf
      obtain ⟨c2, sets2⟩ := b
      obtain ⟨f1, f2, f3, f4⟩ := hf t1 t2 ⟨List.nodup_nil, hkeys⟩
      have hp := sortByRank_perm rank sets2
      obtain ⟨u1, u3, u2⟩ := addUngrouped_ledger (sortByRank rank sets2) c2 f1
        (fun s hs => f2 s ((hp.map _).mem_iff.1 hs)) f3.1
      have hv : c.vals.Perm (addUngrouped (sortByRank rank sets2) c2).vals := by
        have hp2 : (values ((sortByRank rank sets2).map (·.2))).Perm (values (sets2.map (·.2))) :=
          (hp.map _).flatMap_right _
        refine cn_perm.2 fun a => ?_
        have e1 := cn_perm.1 t3 a
        have e2 := cn_perm.1 f4 a
        have e3 := cn_perm.1 u2 a
        have e4 := cn_perm.1 hp2 a
        simp only [vals, cn_append] at e1 e2 e3 e4 ⊢
        omega
      simp only
      generalize addUngrouped (sortByRank rank sets2) c2 = c3 at u1 u3 hv ⊢
      cases GroupMask.fromTo 0 c3.groups.length with
      | panic => exact ⟨u1, u3, hv⟩
      | ub => trivial
      | ok mask =>
        simp only
        cases hg : groupEntities mask es (c3.components, c3.groups) with
        | panic => exact ⟨u1, u3, hv⟩
        | ub => trivial
        | ok p =>
          obtain ⟨m1, m2⟩ := groupEntities_moves es _ _ hg u1
          exact ⟨m1, u3, hv.trans m2.symm⟩

theorem insert_ledger (c : ComponentStorage V) (e : Entity) (vs : List (TypeId × V)) (hc : c.Lens) :
    (c.insert e vs).Leaves (fun c' => c'.Lens ∧ (vs.map (·.2) ++ c.vals).Perm (insertEachDrops e vs c ++ c'.vals)) := by
  unfold insert
  refine Outcome.Leaves.bind (insertEach_ledger vs 0#64 c hc) fun mask c1 h1 => ?_
  refine Outcome.Leaves.ofRes h1 fun c2 h2 => ?_
  have hm := withMask_moves (fun s s' h => groupLoop_moves _ _ s s' h) h2
  obtain ⟨m1, m2⟩ := hm h1.1
  exact ⟨m1, h1.2.trans (m2.symm.append_left _)⟩

theorem insertAt_ne_panic {e : Entity} : ∀ (l : List (Nat × V)) (c : ComponentStorage V), insertAt e l c ≠ .panic
  | [], _ => fun h => by cases h
  | (_, _) :: l, c => bind_ne_panic (unchecked_ne_panic _) fun _ => bind_ne_panic (insert_ne_panic _ _ _) fun _ =>
      insertAt_ne_panic l _

theorem setUnchecked_ne_panic (s : SparseVec) (i : Nat) (x : Option Slot) : s.setUnchecked i x ≠ .panic := by
  unfold SparseVec.setUnchecked
  split <;> intro h <;> cases h

theorem delete_ne_panic (s : CompSet V) (e : Entity) : s.delete e ≠ .panic := by
  unfold CompSet.delete
  split
  · intro h; cases h
  · refine bind_ne_panic (unchecked_ne_panic _) fun _ => bind_ne_panic (unchecked_ne_panic _) fun _ => ?_
    dsimp only
    split
    · exact bind_ne_panic (setUnchecked_ne_panic _ _ _) fun _ => bind_ne_panic (unchecked_ne_panic _) fun _ =>
        bind_ne_panic (unchecked_ne_panic _) fun _ => ok_ne_panic _
    · exact bind_ne_panic (ok_ne_panic _) fun _ => bind_ne_panic (unchecked_ne_panic _) fun _ =>
        bind_ne_panic (unchecked_ne_panic _) fun _ => ok_ne_panic _

theorem deleteAll_ne_panic {e : Entity} : ∀ (l : List (CompSet V)), deleteAll e l ≠ .panic
  | [] => fun h => by cases h
  | _ :: l => bind_ne_panic (delete_ne_panic _ _) fun _ => bind_ne_panic (deleteAll_ne_panic l) fun _ =>
      (fun h => by cases h)

theorem deleteEach_ne_panic {e : Entity} : ∀ (l : List Nat) (c : ComponentStorage V), deleteEach e l c ≠ .panic
  | [], _ => fun h => by cases h
  | _ :: l, c => bind_ne_panic (unchecked_ne_panic _) fun _ => bind_ne_panic (delete_ne_panic _ _) fun _ =>
      deleteEach_ne_panic l _

theorem removeEach_ne_panic {e : Entity} : ∀ (l : List Nat) (c : ComponentStorage V), removeEach e l c ≠ .panic
  | [], _ => fun h => by cases h
  | _ :: l, c => by
    refine bind_ne_panic (unchecked_ne_panic _) fun s => bind_ne_panic ?_ fun _ =>
      bind_ne_panic (removeEach_ne_panic l _) fun _ => (fun h => by cases h)
    unfold CompSet.remove
    split
    · intro h; cases h
    · refine bind_ne_panic (unchecked_ne_panic _) fun _ => bind_ne_panic (unchecked_ne_panic _) fun _ => ?_
      dsimp only
      split
      · exact bind_ne_panic (setUnchecked_ne_panic _ _ _) fun _ => bind_ne_panic (unchecked_ne_panic _) fun _ =>
          bind_ne_panic (unchecked_ne_panic _) fun _ => ok_ne_panic _
      · exact bind_ne_panic (ok_ne_panic _) fun _ => bind_ne_panic (unchecked_ne_panic _) fun _ =>
          bind_ne_panic (unchecked_ne_panic _) fun _ => ok_ne_panic _

theorem lookupAll_length (c : ComponentStorage V) (f : ComponentMetadata → GroupMask) : ∀ (ts : List TypeId)
    (idxs : List Nat) (m : GroupMask), c.lookupAll f ts = .ok (idxs, m) → idxs.length = ts.length
  | [], _, _, h => by cases h; rfl
  | t :: ts, idxs, m, h => by
    rw [lookupAll] at h
    cases hm : c.meta? t with
    | none => rw [hm] at h; cases h
    | some md =>
      rw [hm] at h
      obtain ⟨⟨is, m'⟩, h1, h⟩ := Res.bind_ok' h
      obtain ⟨_, _, h⟩ := Res.bind_ok' h
      cases h
      simp [lookupAll_length c f ts is m' h1]

theorem clear_ledger (c : ComponentStorage V) : c.clear.Lens ∧ c.clear.vals = [] := by
  refine ⟨fun s hs => ?_, ?_⟩
  · obtain ⟨s', _, rfl⟩ := List.mem_map.1 hs
    rfl
  · simp [vals, values, clear, CompSet.clear, List.flatMap_map]

theorem register_ledger (c : ComponentStorage V) (t : TypeId) (hc : c.Lens) (hk : (c.metadata.map Prod.fst).Nodup) :
    (c.register t).2.Lens ∧ ((c.register t).2.metadata.map Prod.fst).Nodup ∧ (c.register t).2.vals = c.vals := by
  unfold register
  split
  · exact ⟨hc, hk, rfl⟩
  · exact ⟨AllSets.append hc (AllSets.single LenOk.new), insertMeta_keys hk _ _, by simp [vals, CompSet.new]⟩

end ComponentStorage

/-! ### Worlds -/

namespace World
open ComponentStorage

theorem drops_extend (w : World V) (ts : List TypeId) (it : Items V) : w.drops (.extend ts it) =
    match w.components.lookupAll (·.insertMask) ts with
    | .ok (idxs, _) => extendEachDrops idxs it.items w
    | _ => it.items.flatMap (·.take ts.length) := rfl

theorem drops_destroy (w : World V) (e : Entity) : w.drops (.destroy e) =
    match w.entities.remove e with
    | .ok (true, _) => w.components.stripDrops e
    | _ => [] := rfl

theorem drops_clear (w : World V) : w.drops .clear =
    match w.entities.clear with
    | .ok _ => w.components.clearDrops
    | _ => [] := rfl

theorem drops_writeAt (w : World V) (t : TypeId) (pos : Nat) (v : V) : w.drops (.writeAt t pos v) =
    match w.components.meta? t with
    | none => [v]
    | some m =>
      match w.components.components[m.storageIndex]? with
      | none => []
      | some s =>
        match s.components[pos]? with
        | none => [v]
        | some old => [old] := rfl

theorem drops_write (w : World V) (t : TypeId) (e : Entity) (v : V) : w.drops (.write t e v) =
    match w.components.meta? t with
    | none => [v]
    | some m =>
      match w.components.components[m.storageIndex]? with
      | none => []
      | some s =>
        match s.sparse.get e with
        | none => [v]
        | some dense => (s.components[dense]?).toList := rfl

theorem zip_snd : ∀ (is : List Nat) (vs : List V), (is.zip vs).map (·.2) = vs.take is.length
  | [], _ => by simp
  | _ :: _, [] => by simp
  | _ :: is, v :: vs => by simp [zip_snd is vs]

theorem extendEach_ledger {idxs : List Nat} : ∀ (items : List (List V)) (w : World V), w.components.Lens →
    (extendEach idxs items w).Leaves (fun w' => w'.components.Lens ∧
      (items.flatMap (·.take idxs.length) ++ w.components.vals).Perm (extendEachDrops idxs items w ++ w'.components.vals))
  | [], w, hw => ⟨hw, List.Perm.refl _⟩
  | vs :: items, w, hw => by
    rw [extendEach, extendEachDrops]
    cases hc : w.entities.create with
    | panic => exact ⟨hw, List.Perm.refl _⟩
    | ub => trivial
    | ok p =>
      obtain ⟨e, es⟩ := p
      simp only [Outcome.ofRes_ok]
      cases hi : w.components.insertAt e (idxs.zip vs) with
      | panic => exact absurd hi (insertAt_ne_panic _ _)
      | ub => trivial
      | ok c =>
        simp only [Outcome.ofRes_ok]
        obtain ⟨k1, k2⟩ := insertAt_ledger _ _ _ hw hi
        have ih := extendEach_ledger (idxs := idxs) items { w with entities := es, components := c } k1
        revert ih
        cases extendEach idxs items { w with entities := es, components := c } with
        | ub => exact fun _ => trivial
        | _ =>
          intro ih
          refine ⟨ih.1, cn_perm.2 fun a => ?_⟩
          have h1 := cn_perm.1 ih.2 a
          have h2 := cn_perm.1 k2 a
          rw [zip_snd] at h2
          simp only [cn_append, List.flatMap_cons] at h1 h2 ⊢
          omega

/-- Kept by every call. -/
structure Tidy (w : World V) : Prop where
  lens : w.components.Lens
  keys : (w.components.metadata.map Prod.fst).Nodup

end World

open ComponentStorage World

theorem retRes_cases {α : Type} {w w' : World V} {r : Res α} {f : α → Ret V × World V} {x : Ret V}
    (h : retRes w r f = some (x, w')) :
    (r = .panic ∧ x = .panicked [] ∧ w' = w) ∨ ∃ a, r = .ok a ∧ f a = (x, w') := by
  cases r with
  | ok a => exact .inr ⟨a, rfl, by simpa [retRes] using h⟩
  | panic => simp [retRes] at h; exact .inl ⟨rfl, h.1.symm, h.2.symm⟩
  | ub => cases h

theorem retOutcome_cases {α : Type} {w' : World V} {made : List Entity} {r : Outcome (World V) α} {f : α → Ret V}
    {x : Ret V} (h : retOutcome made r f = some (x, w')) :
    (r = .panic w' ∧ x = .panicked made) ∨ ∃ a, r = .ok a w' ∧ x = f a := by
  cases r with
  | ok a w => simp [retOutcome] at h; exact .inr ⟨a, by rw [h.2], h.1.symm⟩
  | panic w => simp [retOutcome] at h; exact .inl ⟨by rw [h.2], h.1.symm⟩
  | ub => cases h

theorem strip_ledger {c c' : ComponentStorage V} {e : Entity} (hc : c.Lens) (h : c.strip e = .ok c') :
    c'.Lens ∧ c.vals.Perm (c.stripDrops e ++ c'.vals) := by
  obtain ⟨⟨l, gs⟩, h1, h⟩ := Res.bind_ok' h
  obtain ⟨l', h2, h⟩ := Res.bind_ok' h
  cases h
  obtain ⟨m1, m2⟩ := ungroupAllLoop_moves _ _ _ h1 hc
  obtain ⟨d1, d2⟩ := deleteAll_ledger _ _ m1 h2
  refine ⟨d1, ?_⟩
  unfold stripDrops
  rw [h1]
  exact m2.symm.trans d2

theorem strip_panic_drops {c : ComponentStorage V} {e : Entity} (h : c.strip e = .panic) : c.stripDrops e = [] := by
  unfold stripDrops
  unfold ComponentStorage.strip at h
  cases hu : ungroupAll (c.components, c.groups) e with
  | ok p =>
    rw [hu] at h
    obtain ⟨l, gs⟩ := p
    have : (deleteAll e l).bind (fun comps => Res.ok { c with groups := gs, components := comps }) = .panic := h
    exact absurd this (bind_ne_panic (deleteAll_ne_panic _) fun _ => ok_ne_panic _)
  | panic => rfl
  | ub => rfl

/-- The ledger of one call. -/
theorem step_ledger {w w' : World V} {op : Op V} {r : Ret V} (h : step w op = some (r, w')) (hw : Tidy w) :
    Tidy w' ∧ (op.given ++ w.stored).Perm (r.returned ++ (w.drops op ++ w'.stored)) := by
  have keys : op.keepsTypes → (w'.components.metadata.map Prod.fst).Nodup := fun ho => by
    rw [(step_shape h ho).md]; exact hw.keys
  have hout : ∀ {α : Type} {made : List Entity} {o : Outcome (World V) α} {f : α → Ret V},
      retOutcome made o f = some (r, w') → (∀ a, (f a).returned = []) → r.returned = [] := by
    intro α made o f h hf
    rcases retOutcome_cases h with ⟨_, rfl⟩ | ⟨a, _, rfl⟩
    · rfl
    · exact hf a
  cases op with
  | register t =>
    simp only [step, Option.some.injEq, Prod.mk.injEq] at h
    obtain ⟨h1, h2⟩ := h
    subst h1 h2
    obtain ⟨r1, r2, r3⟩ := register_ledger w.components t hw.lens hw.keys
    refine ⟨⟨r1, r2⟩, ?_⟩
    show w.components.vals.Perm (w.components.register t).2.vals
    rw [r3]
  | setLayout rank gs =>
    have hr := hout h fun _ => rfl
    have hl := setLayout_ledger rank w.components (GroupLayout.build gs).2 w.entities.asSlice hw.lens hw.keys
    have : Tidy w' ∧ w.components.vals.Perm (w.components.setLayoutDrops (GroupLayout.build gs).2 ++
        w'.components.vals) := by
      refine retOutcome_some (P := fun w' : World V => Tidy w' ∧
        w.components.vals.Perm (w.components.setLayoutDrops (GroupLayout.build gs).2 ++ w'.components.vals)) h ?_
      unfold World.setLayout
      generalize w.components.setLayout rank (GroupLayout.build gs).2 w.entities.asSlice = o at hl ⊢
      cases o with
      | ub => trivial
      | _ => exact ⟨⟨hl.1, hl.2.1⟩, hl.2.2⟩
    rw [hr]
    exact this
  | create vs =>
    have hr := hout h fun _ => rfl
    rw [hr]
    refine retOutcome_some (P := fun w' : World V => (w'.components.metadata.map Prod.fst).Nodup → Tidy w' ∧
        (vs.map (·.2) ++ w.components.vals).Perm (w.drops (.create vs) ++ w'.components.vals)) h ?_ (keys trivial)
    unfold World.create World.drops
    cases w.entities.create with
    | panic => exact fun _ => ⟨hw, List.Perm.refl _⟩
    | ub => trivial
    | ok p =>
      obtain ⟨e, es⟩ := p
      simp only [Outcome.ofRes_ok, World.insertSet]
      have := insert_ledger w.components e vs hw.lens
      generalize w.components.insert e vs = o at this ⊢
      cases o with
      | ub => trivial
      | _ => exact fun hk => ⟨⟨this.1, hk⟩, this.2⟩
  | extend ts it =>
    have hr := hout h fun _ => rfl
    rw [hr]
    refine retOutcome_some (P := fun w' : World V => (w'.components.metadata.map Prod.fst).Nodup → Tidy w' ∧
        (it.items.flatMap (·.take ts.length) ++ w.components.vals).Perm
          (w.drops (.extend ts it) ++ w'.components.vals)) h ?_ (keys trivial)
    unfold World.extend
    rw [drops_extend]
    cases hl : w.components.lookupAll (·.insertMask) ts with
    | panic => exact fun _ => ⟨hw, List.Perm.refl _⟩
    | ub => trivial
    | ok p =>
      obtain ⟨idxs, mask⟩ := p
      simp only [Outcome.ofRes_ok]
      rw [← lookupAll_length _ _ _ _ _ hl]
      have he := extendEach_ledger (idxs := idxs) it.items w hw.lens
      revert he
      cases extendEach idxs it.items w with
      | ub => exact fun _ => trivial
      | panic w1 => exact fun h1 hk => ⟨⟨h1.1, hk⟩, h1.2⟩
      | ok u w1 =>
        intro h1
        simp only [Outcome.bind_ok]
        split
        · exact fun hk => ⟨⟨h1.1, hk⟩, h1.2⟩
        · split
          · trivial
          · refine Outcome.Leaves.ofRes (fun hk => ⟨⟨h1.1, hk⟩, h1.2⟩) fun c2 h2 => ?_
            have hm := withMask_moves (fun s s' h => groupEntities_moves _ s s' h) h2
            obtain ⟨m1, m2⟩ := hm h1.1
            exact fun hk => ⟨⟨m1, hk⟩, h1.2.trans (m2.symm.append_left _)⟩
  | destroy e =>
    rcases retRes_cases h with ⟨hp, rfl, rfl⟩ | ⟨⟨b, w1⟩, h1, h2⟩
    · refine ⟨hw, ?_⟩
      have : w'.drops (.destroy e) = [] := by
        rw [drops_destroy]
        unfold World.destroy at hp
        cases hr : w'.entities.remove e with
        | panic => rfl
        | ub => rfl
        | ok p =>
          rw [hr] at hp
          obtain ⟨b, es⟩ := p
          cases b with
          | false => rfl
          | true =>
            simp only [Res.bind_ok, if_true] at hp
            cases hs : w'.components.strip e with
            | panic => exact strip_panic_drops hs
            | ok => rw [hs] at hp; cases hp
            | ub => rw [hs] at hp; cases hp
      rw [this]
      exact List.Perm.refl _
    · cases h2
      obtain ⟨⟨rem, es⟩, hr, h1⟩ := Res.bind_ok' h1
      rw [drops_destroy, hr]
      cases rem with
      | false => cases h1; exact ⟨⟨hw.lens, hw.keys⟩, List.Perm.refl _⟩
      | true =>
        simp only [if_true] at h1
        obtain ⟨c, hc, h1⟩ := Res.bind_ok' h1
        cases h1
        obtain ⟨s1, s2⟩ := strip_ledger hw.lens hc
        exact ⟨⟨s1, keys trivial⟩, s2⟩
  | createAtomic =>
    rcases retRes_cases h with ⟨hp, rfl, rfl⟩ | ⟨⟨b, w1⟩, h1, h2⟩
    · exact ⟨hw, List.Perm.refl _⟩
    · cases h2
      obtain ⟨⟨rem, es⟩, _, h1⟩ := Res.bind_ok' h1
      cases h1; exact ⟨⟨hw.lens, hw.keys⟩, List.Perm.refl _⟩
  | maintain =>
    rcases retRes_cases h with ⟨hp, rfl, rfl⟩ | ⟨w1, h1, h2⟩
    · exact ⟨hw, List.Perm.refl _⟩
    · cases h2
      obtain ⟨es, _, h1⟩ := Res.bind_ok' h1
      cases h1; exact ⟨⟨hw.lens, hw.keys⟩, List.Perm.refl _⟩
  | insert e vs =>
    have hr := hout h fun _ => rfl
    rw [hr]
    refine retOutcome_some (P := fun w' : World V => (w'.components.metadata.map Prod.fst).Nodup → Tidy w' ∧
        (vs.map (·.2) ++ w.components.vals).Perm (w.drops (.insert e vs) ++ w'.components.vals)) h ?_ (keys trivial)
    unfold World.insert World.drops
    simp only
    split
    · exact fun _ => ⟨hw, List.Perm.refl _⟩
    · simp only [World.insertSet]
      have := insert_ledger w.components e vs hw.lens
      generalize w.components.insert e vs = o at this ⊢
      cases o with
      | ub => trivial
      | _ => exact fun hk => ⟨⟨this.1, hk⟩, this.2⟩
  | remove e ts =>
    rcases retRes_cases h with ⟨hp, rfl, rfl⟩ | ⟨⟨vs, w1⟩, h1, h2⟩
    · exact ⟨hw, List.Perm.refl _⟩
    · cases h2
      obtain ⟨⟨vs, c⟩, hc, h1⟩ := Res.bind_ok' h1
      cases h1
      obtain ⟨⟨idxs, mask⟩, _, hc⟩ := Res.bind_ok' hc
      obtain ⟨c1, h2, hc⟩ := Res.bind_ok' hc
      obtain ⟨m1, m2⟩ := withMask_moves (fun s s' h => ungroupLoop_moves _ _ s s' h) h2 hw.lens
      obtain ⟨d1, d2⟩ := removeEach_ledger _ _ _ _ m1 hc
      exact ⟨⟨d1, keys trivial⟩, m2.symm.trans d2⟩
  | delete e ts =>
    rcases retRes_cases h with ⟨hp, rfl, rfl⟩ | ⟨w1, h1, h2⟩
    · refine ⟨hw, ?_⟩
      have : w'.components.deleteDrops e ts = [] := by
        unfold ComponentStorage.deleteDrops
        cases hl : w'.components.lookupAll (·.deleteMask) ts with
        | panic => rfl
        | ub => rfl
        | ok p =>
          obtain ⟨idxs, mask⟩ := p
          simp only
          cases hm : w'.components.withMask mask (ungroup · mask e) with
          | panic => rfl
          | ub => rfl
          | ok c =>
            exfalso
            simp only [World.delete, ComponentStorage.delete, hl, hm, Res.bind_ok] at hp
            exact bind_ne_panic (deleteEach_ne_panic _ _) (fun _ h => by cases h) hp
      show w'.stored.Perm (w'.components.deleteDrops e ts ++ w'.stored)
      rw [this]
      exact List.Perm.refl _
    · cases h2
      obtain ⟨c, hc, h1⟩ := Res.bind_ok' h1
      cases h1
      obtain ⟨⟨idxs, mask⟩, hl, hc⟩ := Res.bind_ok' hc
      obtain ⟨c1, h2, hc⟩ := Res.bind_ok' hc
      obtain ⟨m1, m2⟩ := withMask_moves (fun s s' h => ungroupLoop_moves _ _ s s' h) h2 hw.lens
      obtain ⟨d1, d2⟩ := deleteEach_ledger _ _ _ m1 hc
      refine ⟨⟨d1, keys trivial⟩, ?_⟩
      show w.components.vals.Perm (w.components.deleteDrops e ts ++ c.vals)
      unfold ComponentStorage.deleteDrops
      rw [hl]
      simp only [h2]
      exact m2.symm.trans d2
  | clear =>
    rw [drops_clear]
    rcases retRes_cases h with ⟨hp, rfl, rfl⟩ | ⟨w1, h1, h2⟩
    · refine ⟨hw, ?_⟩
      cases hc : w'.entities.clear with
      | panic => exact List.Perm.refl _
      | ub => exact List.Perm.refl _
      | ok es => simp [World.clear, hc] at hp
    · cases h2
      obtain ⟨es, hc, h1⟩ := Res.bind_ok' h1
      rw [hc]
      cases h1
      obtain ⟨c1, c2⟩ := clear_ledger w.components
      refine ⟨⟨c1, keys trivial⟩, ?_⟩
      show w.components.vals.Perm (w.components.vals ++ w.components.clear.vals)
      rw [c2, List.append_nil]
  | reset =>
    simp only [step, Option.some.injEq, Prod.mk.injEq] at h
    obtain ⟨h1, h2⟩ := h
    subst h1 h2
    obtain ⟨c1, c2⟩ := clear_ledger w.components
    refine ⟨⟨c1, keys trivial⟩, ?_⟩
    show w.components.vals.Perm (w.components.vals ++ w.components.clear.vals)
    rw [c2, List.append_nil]
  | writeAt t pos v =>
    rw [drops_writeAt]
    rcases retRes_cases h with ⟨hp, rfl, rfl⟩ | ⟨w1, h1, h2⟩
    · refine ⟨hw, ?_⟩
      unfold World.writeAt at hp
      cases hm : w'.components.meta? t with
      | none => exact List.Perm.refl _
      | some m =>
        rw [hm] at hp
        simp only at hp
        cases hs : w'.components.components[m.storageIndex]? with
        | none => rw [hs] at hp; cases hp
        | some s =>
          rw [hs] at hp
          simp only [Res.unchecked_some, Res.bind_ok, CompSet.setAt] at hp
          cases ho : s.components[pos]? with
          | none => simp only [hs, ho]; exact List.Perm.refl _
          | some old => rw [ho] at hp; cases hp
    · cases h2
      unfold World.writeAt at h1
      cases hm : w.components.meta? t with
      | none => rw [hm] at h1; cases h1
      | some m =>
        rw [hm] at h1
        obtain ⟨s, hs, h1⟩ := Res.bind_ok' h1
        obtain ⟨s', h2, h1⟩ := Res.bind_ok' h1
        cases h1
        have hs := Res.unchecked_ok hs
        obtain ⟨k1, old, k3, k2⟩ := (hw.lens s (List.mem_of_getElem? hs)).setAt h2
        refine ⟨⟨AllSets.set hw.lens k1 _, keys trivial⟩, ?_⟩
        simp only [hs, hm, k3]
        refine cn_perm.2 fun a => ?_
        have e1 := cn_perm.1 k2 a
        have e2 := cn_set hs s' a
        show cn a (v :: w.components.vals) = cn a (_ ++ vals { w.components with
          components := w.components.components.set m.storageIndex s' })
        simp only [cn_append, cn_cons, cn_nil] at e1 e2 ⊢
        omega
  | write t e v =>
    rw [drops_write]
    rcases retRes_cases h with ⟨hp, rfl, rfl⟩ | ⟨⟨b, w1⟩, h1, h2⟩
    · refine ⟨hw, ?_⟩
      unfold World.writeView at hp
      cases hm : w'.components.meta? t with
      | none => exact List.Perm.refl _
      | some m =>
        exfalso
        rw [hm] at hp
        refine bind_ne_panic (unchecked_ne_panic _) (fun s => bind_ne_panic ?_ fun _ => (fun h => by cases h)) hp
        unfold CompSet.setMut
        split
        · intro h; cases h
        · exact bind_ne_panic (unchecked_ne_panic _) fun _ => (fun h => by cases h)
    · cases h2
      unfold World.writeView at h1
      cases hm : w.components.meta? t with
      | none => rw [hm] at h1; cases h1
      | some m =>
        rw [hm] at h1
        obtain ⟨s, hs, h1⟩ := Res.bind_ok' h1
        obtain ⟨⟨b, s'⟩, h2, h1⟩ := Res.bind_ok' h1
        cases h1
        have hs := Res.unchecked_ok hs
        obtain ⟨k1, k2⟩ := (hw.lens s (List.mem_of_getElem? hs)).setMut h2
        refine ⟨⟨AllSets.set hw.lens k1 _, keys trivial⟩, ?_⟩
        simp only [hs, hm]
        refine cn_perm.2 fun a => ?_
        have e1 := cn_perm.1 k2 a
        have e2 := cn_set hs s' a
        show cn a (v :: w.components.vals) = cn a (_ ++ vals { w.components with
          components := w.components.components.set m.storageIndex s' })
        simp only [cn_append, cn_cons] at e1 e2 ⊢
        omega

theorem tidy_empty : Tidy (World.empty : World V) :=
  ⟨(fun s hs => by cases hs), List.nodup_nil⟩

/-- The ledger of a history that starts in a tidy world. -/
theorem drops_ledger {w w' : World V} {h : History V} {ds : List V} (hd : Drops w h ds w') (hw : Tidy w) :
    Tidy w' ∧ (allGiven h ++ w.stored).Perm (allReturned h ++ (ds ++ w'.stored)) := by
  induction hd with
  | nil => exact ⟨hw, List.Perm.refl _⟩
  | snoc _ hs ih =>
    obtain ⟨t1, t2⟩ := step_ledger hs ih.1
    refine ⟨t1, cn_perm.2 fun a => ?_⟩
    have e1 := cn_perm.1 ih.2 a
    have e2 := cn_perm.1 t2 a
    simp only [allGiven, allReturned, List.flatMap_append, List.flatMap_cons, List.flatMap_nil, List.append_nil,
      cn_append] at e1 e2 ⊢
    omega

/-- Every run has its list of drops. -/
theorem reach_drops {w w' : World V} {h : History V} (hr : Reach w h w') : ∃ ds, Drops w h ds w' := by
  induction hr with
  | nil => exact ⟨[], .nil⟩
  | snoc _ hs ih =>
    obtain ⟨ds, hd⟩ := ih
    exact ⟨_, hd.snoc hs⟩

theorem Drops.trans {w w' w'' : World V} {h h' : History V} {ds ds' : List V} (hd : Drops w h ds w')
    (hd' : Drops w' h' ds' w'') : Drops w (h ++ h') (ds ++ ds') w'' := by
  induction hd' with
  | nil => simpa using hd
  | snoc _ hs ih => rw [← List.append_assoc, ← List.append_assoc]; exact ih.snoc hs

theorem runDrops_drops : ∀ (ops : List (Op V)) (w w' : World V) (rs : List (Ret V)) (ds : List V),
    runDrops w ops = some (rs, ds, w') → Drops w (ops.zip rs) ds w'
  | [], w, w', rs, ds, h => by cases h; exact .nil
  | op :: ops, w, w', rs, ds, h => by
    rw [runDrops] at h
    cases hs : step w op with
    | none => rw [hs] at h; cases h
    | some p =>
      obtain ⟨r, w1⟩ := p
      rw [hs] at h
      simp only at h
      cases hr : runDrops w1 ops with
      | none => rw [hr] at h; cases h
      | some q =>
        obtain ⟨rs1, ds1, w2⟩ := q
        rw [hr] at h
        cases h
        have := (Drops.nil (w := w)).snoc hs
        exact this.trans (runDrops_drops ops w1 w' rs1 ds1 hr)

theorem Drops.reach {w w' : World V} {h : History V} {ds : List V} (hd : Drops w h ds w') : Reach w h w' := by
  induction hd with
  | nil => exact .nil
  | snoc _ hs ih => exact ih.snoc hs

end Sparsey
