import Verif.Spec.Rows
import Verif.Proofs.LoneStep

/-!
What views list, entity by entity: pairs of an entity and a component at the same place of a set (C65).
-/

set_option autoImplicit false
set_option linter.unusedSimpArgs false

namespace Sparsey
variable {V : Type}

theorem zip_set {α β : Type} (a : α) (b : β) : ∀ (l : List α) (m : List β) (i : Nat),
    (l.set i a).zip (m.set i b) = (l.zip m).set i (a, b)
  | [], m, i => by simp
  | x :: l, [], i => by simp
  | x :: l, y :: m, 0 => by simp
  | x :: l, y :: m, i + 1 => by simp [zip_set a b l m i]

theorem zip_take {α β : Type} : ∀ (n : Nat) (l : List α) (m : List β), (l.take n).zip (m.take n) = (l.zip m).take n
  | 0, l, m => by simp
  | n + 1, [], m => by simp
  | n + 1, x :: l, [] => by simp
  | n + 1, x :: l, y :: m => by simp [zip_take n l m]

theorem zip_getElem? {α β : Type} {l : List α} {m : List β} {i : Nat} {a : α} {b : β} (h : l[i]? = some a) (h' : m[i]? = some b) :
    (l.zip m)[i]? = some (a, b) := by
  rw [List.getElem?_zip_eq_some]
  exact ⟨h, h'⟩

theorem set_same {α : Type} {l : List α} {i : Nat} {a : α} (h : l[i]? = some a) : l.set i a = l := by
  obtain ⟨h1, h2⟩ := List.getElem?_eq_some_iff.1 h
  rw [← h2, List.set_getElem_self]

/-- Entities with components. -/
def CompSet.rows (s : CompSet V) : List (Entity × V) := s.entities.zip s.components

theorem others_perm {l l' : List (Entity × V)} (h : l.Perm l') (e : Entity) : (others e l).Perm (others e l') := h.filter _

theorem putRow_perm {l l' : List (Entity × V)} (h : l.Perm l') (p : Entity × V) : (putRow l p).Perm (putRow l' p) :=
  (others_perm h _).cons _

theorem putRows_perm : ∀ (ps : List (Entity × V)) {l l' : List (Entity × V)}, l.Perm l' → (putRows l ps).Perm (putRows l' ps)
  | [], _, _, h => h
  | p :: ps, _, _, h => putRows_perm ps (putRow_perm h p)

theorem putRows_append (l ps qs : List (Entity × V)) : putRows l (ps ++ qs) = putRows (putRows l ps) qs := List.foldl_append

theorem others_others (e : Entity) (l : List (Entity × V)) : others e (others e l) = others e l := by
  unfold others
  rw [List.filter_filter]
  simp

/-- No two rows of the same index. -/
def UniqueRows (l : List (Entity × V)) : Prop := (l.map fun p => p.1.index).Nodup

theorem others_none {e : Entity} {l : List (Entity × V)} (h : ∀ p ∈ l, p.1.index ≠ e.index) : others e l = l := by
  unfold others
  rw [List.filter_eq_self]
  intro p hp
  simpa using h p hp

/-- The row of an index and the others. -/
theorem others_split : ∀ {l : List (Entity × V)} {x e : Entity} {y : V}, UniqueRows l → (x, y) ∈ l → x.index = e.index →
    l.Perm ((x, y) :: others e l)
  | [], _, _, _, _, h, _ => by cases h
  | p :: l, x, e, y, hu, h, hi => by
    unfold UniqueRows at hu
    rw [List.map_cons, List.nodup_cons] at hu
    rcases List.mem_cons.1 h with rfl | h
    · have h1 : others e ((x, y) :: l) = others e l := by simp [others, hi]
      rw [h1, others_none]
      intro p hp he
      exact hu.1 (List.mem_map.2 ⟨p, hp, by rw [he, hi]⟩)
    · have hne : p.1.index ≠ e.index := by
        intro he
        exact hu.1 (List.mem_map.2 ⟨(x, y), h, by rw [he, hi]⟩)
      have h1 : others e (p :: l) = p :: others e l := by simp [others, hne]
      rw [h1]
      exact ((others_split hu.2 h hi).cons p).trans (List.Perm.swap _ _ _)

namespace CompSet

theorem rows_fst {s : CompSet V} (h : s.IdxOk) : s.rows.map Prod.fst = s.entities :=
  List.map_fst_zip (Nat.le_of_eq h.len.symm)

theorem IdxOk.unique {s : CompSet V} (h : s.IdxOk) : UniqueRows s.rows := by
  unfold UniqueRows
  have h1 : (s.rows.map fun p => p.1.index) = s.entities.map (·.index) := by
    rw [← rows_fst h, List.map_map]
    rfl
  rw [h1]
  exact h.rep.nodup_index

theorem insert_rows {s s' : CompSet V} {e : Entity} {v : V} {old : Option V} (h : s.IdxOk)
    (hr : s.insert e v = .ok (old, s')) : s'.rows.Perm (putRow s.rows (e, v)) := by
  unfold CompSet.insert at hr
  obtain ⟨slot, hs, hr⟩ := Res.bind_ok' hr
  have hs := Res.unchecked_ok hs
  cases slot with
  | some sl =>
    obtain ⟨x, hx, hr⟩ := Res.bind_ok' hr
    obtain ⟨y, hy, hr⟩ := Res.bind_ok' hr
    cases hr
    obtain ⟨x', hx', hi⟩ := h.rep.slot ((SparseVec.allocateAt_some _ _ _ _).1 hs)
    have hx := Res.unchecked_ok hx
    rw [hx] at hx'
    cases hx'
    have hz := zip_getElem? hx (Res.unchecked_ok hy)
    show ((s.entities.set sl.index e).zip (s.components.set sl.index v)).Perm _
    rw [zip_set]
    have h1 := perm_set hz (e, v)
    have h2 := others_split h.unique (List.mem_of_getElem? hz) hi
    exact (h1.trans ((h2.cons _).trans (List.Perm.swap _ _ _))).cons_inv
  | none =>
    obtain ⟨sp, _, hr⟩ := Res.bind_ok' hr
    cases hr
    show ((s.entities ++ [e]).zip (s.components ++ [v])).Perm _
    rw [List.zip_append h.len.symm]
    unfold putRow
    rw [others_none (e := e)]
    · exact List.perm_append_comm
    · intro p hp hi
      have hp : p.1 ∈ s.entities := by
        rw [← rows_fst h]
        exact List.mem_map_of_mem hp
      obtain ⟨d, hd⟩ := List.mem_iff_getElem?.1 hp
      obtain ⟨v', hv⟩ := h.rep.fwd d _ hd
      rw [hi] at hv
      have := (SparseVec.allocateAt_some s.sparse e.sparse _ _).2 hv
      rw [show e.index = e.sparse from rfl, hs] at this
      cases this

theorem remove_rows {s s' : CompSet V} {e : Entity} {o : Option V} (h : s.IdxOk) (hr : s.remove e = .ok (o, s')) :
    (o = none ∧ s' = s) ∨
    ∃ x v, o = some v ∧ (x, v) ∈ s.rows ∧ x.index = e.index ∧ s'.rows.Perm (others e s.rows) := by
  unfold CompSet.remove at hr
  split at hr
  · cases hr
    exact .inl ⟨rfl, rfl⟩
  · rename_i index sv hs
    right
    obtain ⟨le, hle, hr⟩ := Res.bind_ok' hr
    obtain ⟨xe, hxe, hr⟩ := Res.bind_ok' hr
    have hr : ∃ x y sp, Res.unchecked (s.components[index]?) = .ok x ∧
        Res.unchecked (s.components[s.entities.length - 1]?) = .ok y ∧ (some x, (⟨sp, (s.entities.set index le).take (s.entities.length - 1),
          (s.components.set index y).take (s.entities.length - 1)⟩ : CompSet V)) = (o, s') := by
      dsimp only at hr
      split at hr
      all_goals
        obtain ⟨sp, _, hr⟩ := Res.bind_ok' hr
        obtain ⟨x, hx, hr⟩ := Res.bind_ok' hr
        obtain ⟨y, hy, hr⟩ := Res.bind_ok' hr
        cases hr
        exact ⟨x, y, sp, hx, hy, rfl⟩
    obtain ⟨x, y, sp, hx, hy, hr⟩ := hr
    cases hr
    have hxe := Res.unchecked_ok hxe
    have hi : xe.index = e.index := by
      rcases h.rep.remove_cases e with hc | ⟨d, x', hc, hd, hi⟩
      · rw [hc] at hs; cases hs
      · rw [hc] at hs
        cases hs
        rw [hd] at hxe
        cases hxe
        exact hi
    have hz := zip_getElem? hxe (Res.unchecked_ok hx)
    refine ⟨xe, x, rfl, List.mem_of_getElem? hz, hi, ?_⟩
    show (((s.entities.set index le).take (s.entities.length - 1)).zip
      ((s.components.set index y).take (s.entities.length - 1))).Perm _
    rw [zip_take, zip_set]
    have hle' := (List.getElem?_eq_some_iff.1 (Res.unchecked_ok hle)).1
    have hl : (s.entities.zip s.components).length = (s.entities.length - 1) + 1 := by
      have := h.len
      simp only [List.length_zip]
      omega
    have h1 := perm_swapRemove hl hz (zip_getElem? (Res.unchecked_ok hle) (Res.unchecked_ok hy))
    have h2 := others_split h.unique (List.mem_of_getElem? hz) hi
    exact (h1.symm.trans h2).cons_inv

theorem swap_rows {s s' : CompSet V} {a b : Nat} (hr : s.swap a b = .ok s') : s'.rows.Perm s.rows := by
  unfold CompSet.swap at hr
  obtain ⟨ea, h1, hr⟩ := Res.bind_ok' hr
  obtain ⟨eb, h2, hr⟩ := Res.bind_ok' hr
  obtain ⟨sp, _, hr⟩ := Res.bind_ok' hr
  obtain ⟨va, h3, hr⟩ := Res.bind_ok' hr
  obtain ⟨vb, h4, hr⟩ := Res.bind_ok' hr
  cases hr
  show (((s.entities.set a eb).set b ea).zip ((s.components.set a vb).set b va)).Perm _
  rw [zip_set, zip_set]
  exact perm_swap (zip_getElem? (Res.unchecked_ok h1) (Res.unchecked_ok h3)) (zip_getElem? (Res.unchecked_ok h2) (Res.unchecked_ok h4))

theorem delete_rows {s s' : CompSet V} {e : Entity} (h : s.IdxOk) (hr : s.delete e = .ok s') :
    s' = s ∨ s'.rows.Perm (others e s.rows) := by
  obtain ⟨o, s1, h1, h2, _⟩ := h.remove e
  rw [h2] at hr
  cases hr
  rcases remove_rows h h1 with ⟨_, rfl⟩ | ⟨x, v, _, _, _, h3⟩
  · exact .inl rfl
  · exact .inr h3

theorem setMut_rows {s s' : CompSet V} {e : Entity} {v : V} {b : Bool} (h : s.IdxOk) (hr : s.setMut e v = .ok (b, s')) :
    (b = false ∧ s' = s) ∨
    (b = true ∧ ∃ x old i, s.rows[i]? = some (x, old) ∧ x.index = e.index ∧ s'.rows = s.rows.set i (x, v)) := by
  unfold CompSet.setMut at hr
  split at hr
  · cases hr
    exact .inl ⟨rfl, rfl⟩
  · rename_i d hd
    obtain ⟨old, ho, hr⟩ := Res.bind_ok' hr
    cases hr
    obtain ⟨x, hx, hi⟩ := h.rep.get_at hd
    refine .inr ⟨rfl, x, old, d, zip_getElem? hx (Res.unchecked_ok ho), hi, ?_⟩
    show s.entities.zip (s.components.set d v) = (s.entities.zip s.components).set d (x, v)
    rw [← zip_set, set_same hx]

theorem setAt_rows {s s' : CompSet V} {pos : Nat} {v : V} (h : s.IdxOk) (hr : s.setAt pos v = .ok s') :
    ∃ x old, s.rows[pos]? = some (x, old) ∧ s'.rows = s.rows.set pos (x, v) := by
  unfold CompSet.setAt at hr
  obtain ⟨old, ho, hr⟩ := Res.bind_ok' hr
  cases hr
  have ho : s.components[pos]? = some old := by
    cases hx : s.components[pos]? with
    | none => rw [hx] at ho; cases ho
    | some y => rw [hx] at ho; cases ho; rfl
  have hlt : pos < s.entities.length := by
    rw [← h.len]
    exact (List.getElem?_eq_some_iff.1 ho).1
  have hx := List.getElem?_eq_getElem hlt
  refine ⟨_, old, zip_getElem? hx ho, ?_⟩
  show s.entities.zip (s.components.set pos v) = (s.entities.zip s.components).set pos (_, v)
  rw [← zip_set, set_same hx]

end CompSet

/-! ### Grouping keeps entities and components together -/

/-- The rows of the set at a position. -/
def rowsI (l : List (CompSet V)) (i : Nat) : List (Entity × V) :=
  match l[i]? with
  | some s => s.rows
  | none => []

/-- Only the order of the rows differs. -/
def Shuffles (a b : List (CompSet V)) : Prop := ∀ i, (rowsI b i).Perm (rowsI a i)

theorem Shuffles.refl (a : List (CompSet V)) : Shuffles a a := fun _ => List.Perm.refl _

theorem Shuffles.trans {a b c : List (CompSet V)} (h : Shuffles a b) (h' : Shuffles b c) : Shuffles a c :=
  fun i => (h' i).trans (h i)

theorem swapTo_shuffles {s s' : CompSet V} {q x : Nat} (hr : swapTo s q x = .ok s') : s'.rows.Perm s.rows := by
  unfold swapTo at hr
  obtain ⟨d, _, hr⟩ := Res.bind_ok' hr
  by_cases hd : d ≠ q
  · rw [if_pos hd] at hr
    exact CompSet.swap_rows hr
  · rw [if_neg hd] at hr
    cases hr
    exact List.Perm.refl _

theorem swapAllTo_shuffles {q x : Nat} : ∀ {l l' : List (CompSet V)}, swapAllTo q x l = .ok l' → Shuffles l l'
  | [], l', hr => by cases hr; exact Shuffles.refl _
  | s :: ss, l', hr => by
    obtain ⟨s1, h1, hr⟩ := Res.bind_ok' hr
    obtain ⟨ss1, h2, hr⟩ := Res.bind_ok' hr
    cases hr
    intro i
    cases i with
    | zero => exact swapTo_shuffles h1
    | succ i => exact swapAllTo_shuffles h2 i

theorem rowsI_append_left {a b : List (CompSet V)} {i : Nat} (h : i < a.length) : rowsI (a ++ b) i = rowsI a i := by
  unfold rowsI
  rw [List.getElem?_append_left h]

theorem rowsI_append_right {a b : List (CompSet V)} {i : Nat} (h : a.length ≤ i) : rowsI (a ++ b) i = rowsI b (i - a.length) := by
  unfold rowsI
  rw [List.getElem?_append_right h]

theorem swapRange_shuffles {l l' : List (CompSet V)} {a b q x : Nat} (hr : swapRange l a b q x = .ok l') : Shuffles l l' := by
  unfold swapRange at hr
  obtain ⟨seg, h1, hr⟩ := Res.bind_ok' hr
  obtain ⟨seg', h2, hr⟩ := Res.bind_ok' hr
  cases hr
  unfold compRange at h1
  split at h1
  · rename_i hab
    cases h1
    have h3 := swapAllTo_shuffles h2
    have h4 := swapAllTo_length _ _ h2
    have hsplit : l = l.take a ++ (l.drop a).take (b - a) ++ l.drop b := by
      rw [List.append_assoc]
      have h5 : (l.drop a).take (b - a) ++ l.drop b = l.drop a := by
        have h6 := List.take_append_drop (b - a) (l.drop a)
        rwa [List.drop_drop, show a + (b - a) = b by omega] at h6
      rw [h5, List.take_append_drop]
    intro i
    conv_rhs => rw [hsplit]
    rw [List.append_assoc, List.append_assoc]
    by_cases hi : i < (l.take a).length
    · rw [rowsI_append_left hi, rowsI_append_left hi]
    · have hi' : (l.take a).length ≤ i := by omega
      rw [rowsI_append_right hi', rowsI_append_right hi']
      by_cases hj : i - (l.take a).length < seg'.length
      · rw [rowsI_append_left (a := seg') hj, rowsI_append_left (a := (l.drop a).take (b - a)) (by omega)]
        exact h3 _
      · rw [rowsI_append_right (a := seg') (by omega), rowsI_append_right (a := (l.drop a).take (b - a)) (by omega), h4]
  · cases h1

theorem groupComponents_shuffles {l l' : List (CompSet V)} {g g' : Group} {e : Entity}
    (hr : groupComponents l g e = .ok (l', g')) : Shuffles l l' := by
  unfold groupComponents at hr
  obtain ⟨l1, h1, hr⟩ := Res.bind_ok' hr
  cases hr
  exact swapRange_shuffles h1

theorem ungroupComponents_shuffles {l l' : List (CompSet V)} {g g' : Group} {e : Entity}
    (hr : ungroupComponents l g e = .ok (l', g')) : Shuffles l l' := by
  unfold ungroupComponents at hr
  split at hr
  · cases hr
  · obtain ⟨l1, h1, hr⟩ := Res.bind_ok' hr
    cases hr
    exact swapRange_shuffles h1

theorem groupLoop_shuffles {e : Entity} : ∀ (fuel : Nat) (m : BitVec 64) (s s' : Sets V),
    groupLoop e fuel m s = .ok s' → Shuffles s.1 s'.1 := by
  intro fuel
  induction fuel with
  | zero =>
    intro m s s' hr
    obtain ⟨comps, gs⟩ := s
    unfold groupLoop at hr
    split at hr
    · cases hr; exact Shuffles.refl _
    · cases hr
  | succ fuel ih =>
    intro m s s' hr
    obtain ⟨comps, gs⟩ := s
    unfold groupLoop at hr
    split at hr
    · cases hr; exact Shuffles.refl _
    · obtain ⟨g, _, hr⟩ := Res.bind_ok' hr
      obtain ⟨seg, _, hr⟩ := Res.bind_ok' hr
      obtain ⟨st, _, hr⟩ := Res.bind_ok' hr
      cases st with
      | incomplete => exact ih _ _ _ hr
      | ungrouped =>
        obtain ⟨⟨l1, g1⟩, h1, hr⟩ := Res.bind_ok' hr
        exact (groupComponents_shuffles h1).trans (ih _ _ _ hr)
      | grouped => exact ih _ _ _ hr

theorem ungroupStep_shuffles {e : Entity} {i : Nat} {s s' : Sets V} (hr : ungroupStep e i s = .ok s') :
    Shuffles s.1 s'.1 := by
  obtain ⟨comps, gs⟩ := s
  unfold ungroupStep at hr
  obtain ⟨g, _, hr⟩ := Res.bind_ok' hr
  obtain ⟨seg, _, hr⟩ := Res.bind_ok' hr
  obtain ⟨st, _, hr⟩ := Res.bind_ok' hr
  cases st with
  | incomplete => cases hr; exact Shuffles.refl _
  | ungrouped => cases hr; exact Shuffles.refl _
  | grouped =>
    obtain ⟨⟨l1, g1⟩, h1, hr⟩ := Res.bind_ok' hr
    cases hr
    exact ungroupComponents_shuffles h1

theorem ungroupLoop_shuffles {e : Entity} : ∀ (fuel : Nat) (m : BitVec 64) (s s' : Sets V),
    ungroupLoop e fuel m s = .ok s' → Shuffles s.1 s'.1 := by
  intro fuel
  induction fuel with
  | zero =>
    intro m s s' hr
    unfold ungroupLoop at hr
    split at hr
    · cases hr; exact Shuffles.refl _
    · cases hr
  | succ fuel ih =>
    intro m s s' hr
    unfold ungroupLoop at hr
    split at hr
    · cases hr; exact Shuffles.refl _
    · obtain ⟨s1, h1, hr⟩ := Res.bind_ok' hr
      exact (ungroupStep_shuffles h1).trans (ih _ _ _ hr)

theorem ungroupAllLoop_shuffles {e : Entity} : ∀ (n : Nat) (s s' : Sets V),
    ungroupAllLoop e n s = .ok s' → Shuffles s.1 s'.1
  | 0, s, s', hr => by cases hr; exact Shuffles.refl _
  | n + 1, s, s', hr => by
    obtain ⟨s1, h1, hr⟩ := Res.bind_ok' hr
    exact (ungroupStep_shuffles h1).trans (ungroupAllLoop_shuffles n _ _ hr)

theorem groupEntities_shuffles {m : GroupMask} : ∀ (es : List Entity) (s s' : Sets V),
    ComponentStorage.groupEntities m es s = .ok s' → Shuffles s.1 s'.1
  | [], s, s', hr => by cases hr; exact Shuffles.refl _
  | e :: es, s, s', hr => by
    obtain ⟨s1, h1, hr⟩ := Res.bind_ok' hr
    exact (groupLoop_shuffles _ _ _ _ h1).trans (groupEntities_shuffles es _ _ hr)

theorem withMask_shuffles {c c' : ComponentStorage V} {m : GroupMask} {f : Sets V → Res (Sets V)}
    (hf : ∀ s s', f s = .ok s' → Shuffles s.1 s'.1) (hr : c.withMask m f = .ok c') :
    Shuffles c.components c'.components ∧ c'.metadata = c.metadata := by
  unfold ComponentStorage.withMask at hr
  split at hr
  · cases hr; exact ⟨Shuffles.refl _, rfl⟩
  · obtain ⟨⟨l, gs⟩, h1, hr⟩ := Res.bind_ok' hr
    cases hr
    exact ⟨hf _ _ h1, rfl⟩

namespace ComponentStorage

/-! ### Storages -/

/-- The rows of the set of a type. -/
def rowsAt (c : ComponentStorage V) (t : TypeId) : List (Entity × V) :=
  match c.meta? t with
  | none => []
  | some m => rowsI c.components m.storageIndex

theorem rowsAt_shuffles {c c' : ComponentStorage V} (h : Shuffles c.components c'.components) (hm : c'.metadata = c.metadata)
    (t : TypeId) : (c'.rowsAt t).Perm (c.rowsAt t) := by
  unfold rowsAt meta?
  rw [hm]
  cases c.metadata.lookup t with
  | none => exact List.Perm.refl _
  | some m => exact h _

theorem rowsAt_set {c : ComponentStorage V} (hc : Static c) {t u : TypeId} {m : ComponentMetadata} (hm : c.meta? t = some m)
    (s' : CompSet V) : rowsAt { c with components := c.components.set m.storageIndex s' } u =
      if u = t then s'.rows else c.rowsAt u := by
  have hlt := hc.idx t m hm
  unfold rowsAt
  show (match c.meta? u with
    | none => []
    | some m' => rowsI (c.components.set m.storageIndex s') m'.storageIndex) = _
  by_cases hu : u = t
  · subst hu
    rw [hm, if_pos rfl]
    dsimp only
    unfold rowsI
    rw [List.getElem?_set_self hlt]
  · rw [if_neg hu]
    cases hm' : c.meta? u with
    | none => rfl
    | some m' =>
      have hne : m.storageIndex ≠ m'.storageIndex := fun h => hu (hc.inj u t m' m hm' hm h.symm)
      dsimp only
      unfold rowsI
      rw [List.getElem?_set_ne hne]

theorem rowsAt_get {c : ComponentStorage V} {t : TypeId} {m : ComponentMetadata} {s : CompSet V} (hm : c.meta? t = some m)
    (hs : c.components[m.storageIndex]? = some s) : c.rowsAt t = s.rows := by
  unfold rowsAt rowsI
  rw [hm]
  dsimp only
  rw [hs]

theorem mem_at {c : ComponentStorage V} {P : CompSet V → Prop} (hc : AllSets P c.components) {i : Nat} {s : CompSet V}
    (h : c.components[i]? = some s) : P s := hc s (List.mem_of_getElem? h)

theorem insertEach_rows {e : Entity} (he : e.index < u32Size) (t : TypeId) : ∀ (vs : List (TypeId × V)) (m : GroupMask)
    (c : ComponentStorage V), Static c → AllSets CompSet.IdxOk c.components →
    (insertEach e vs m c).Leaves (fun c' => (c'.rowsAt t).Perm
      (putRows (c.rowsAt t) ((partFor t (vs.takeWhile fun p => c.isRegistered p.1)).map fun v => (e, v))))
  | [], _, c, _, _ => List.Perm.refl _
  | (t', v) :: vs, m, c, hc, ha => by
    rw [insertEach]
    cases hm : c.meta? t' with
    | none =>
      simp only [List.takeWhile_cons, isRegistered, hm, Option.isSome_none, Bool.false_eq_true, if_false]
      exact List.Perm.refl _
    | some md =>
      simp only [List.takeWhile_cons, isRegistered, hm, Option.isSome_some, if_true]
      cases hs : c.components[md.storageIndex]? with
      | none => trivial
      | some s =>
        simp only [Res.unchecked_some, Outcome.ofRes_ok]
        cases hi : s.insert e v with
        | panic => exact absurd hi (insert_ne_panic _ _ _)
        | ub => trivial
        | ok p =>
          obtain ⟨old, s'⟩ := p
          simp only [Outcome.ofRes_ok]
          have k1 := CompSet.insert_rows (mem_at ha hs) hi
          have k2 := stable_idx.insert (mem_at ha hs) he hi
          have ih := insertEach_rows he t vs (m ||| md.insertMask) { c with components := c.components.set md.storageIndex s' }
            (hc.of_shape (Shape.set ..)) (AllSets.set ha k2 _)
          have hreg : ∀ x, isRegistered { c with components := c.components.set md.storageIndex s' } x = (c.meta? x).isSome :=
            fun _ => rfl
          simp only [hreg] at ih
          rw [rowsAt_set hc hm] at ih
          have hfin : (putRows (if t = t' then s'.rows else c.rowsAt t)
              ((partFor t (vs.takeWhile fun p => (c.meta? p.1).isSome)).map fun v => (e, v))).Perm
              (putRows (c.rowsAt t) ((partFor t ((t', v) :: vs.takeWhile fun p => (c.meta? p.1).isSome)).map fun v => (e, v))) := by
            by_cases ht : t = t'
            · subst ht
              rw [if_pos rfl]
              have : partFor t ((t, v) :: vs.takeWhile fun p => (c.meta? p.1).isSome) =
                  v :: partFor t (vs.takeWhile fun p => (c.meta? p.1).isSome) := by simp [partFor]
              rw [this, List.map_cons]
              show _root_.List.Perm _ (putRows (putRow (c.rowsAt t) (e, v)) _)
              rw [rowsAt_get hm hs]
              exact putRows_perm _ k1
            · rw [if_neg ht]
              have : partFor t ((t', v) :: vs.takeWhile fun p => (c.meta? p.1).isSome) =
                  partFor t (vs.takeWhile fun p => (c.meta? p.1).isSome) := by simp [partFor, Ne.symm ht]
              rw [this]
          revert ih
          cases insertEach e vs (m ||| md.insertMask) { c with components := c.components.set md.storageIndex s' } with
          | ub => exact fun _ => trivial
          | ok a c' => exact fun ih => List.Perm.trans ih hfin
          | panic c' => exact fun ih => List.Perm.trans ih hfin

theorem insert_rows {e : Entity} (he : e.index < u32Size) (t : TypeId) (vs : List (TypeId × V)) {c : ComponentStorage V}
    (hc : Static c) (ha : AllSets CompSet.IdxOk c.components) : (c.insert e vs).Leaves (fun c' => (c'.rowsAt t).Perm
      (putRows (c.rowsAt t) ((partFor t (vs.takeWhile fun p => c.isRegistered p.1)).map fun v => (e, v)))) := by
  unfold insert
  refine Outcome.Leaves.bind (insertEach_rows he t vs _ c hc ha) fun mask c1 h1 => ?_
  refine Outcome.Leaves.ofRes h1 fun c2 h2 => ?_
  obtain ⟨k1, k2⟩ := withMask_shuffles (fun s s' h => groupLoop_shuffles _ _ _ _ h) h2
  exact (rowsAt_shuffles k1 k2 t).trans h1

theorem insertAt_rows {e : Entity} (he : e.index < u32Size) (t : TypeId) : ∀ (ts : List TypeId) (vs : List V)
    (c c' : ComponentStorage V), Static c → AllSets CompSet.IdxOk c.components → (∀ x ∈ ts, (c.meta? x).isSome) →
    insertAt e ((ts.map c.idxOf).zip vs) c = .ok c' →
      (c'.rowsAt t).Perm (putRows (c.rowsAt t) ((partFor t (ts.zip vs)).map fun v => (e, v))) ∧ Shape c c'
  | [], _, c, c', _, _, _, hr => by cases hr; exact ⟨List.Perm.refl _, Shape.refl _⟩
  | t' :: ts, [], c, c', _, _, _, hr => by cases hr; exact ⟨List.Perm.refl _, Shape.refl _⟩
  | t' :: ts, v :: vs, c, c', hc, ha, hk, hr => by
    obtain ⟨md, hm⟩ := Option.isSome_iff_exists.1 (hk t' (.head _))
    rw [List.map_cons, List.zip_cons_cons, insertAt, c.idxOf_eq hm] at hr
    obtain ⟨s, hs, hr⟩ := Res.bind_ok' hr
    obtain ⟨⟨old, s'⟩, hi, hr⟩ := Res.bind_ok' hr
    have hs := Res.unchecked_ok hs
    have k1 := CompSet.insert_rows (mem_at ha hs) hi
    have k2 := stable_idx.insert (mem_at ha hs) he hi
    obtain ⟨i1, i2⟩ := insertAt_rows he t ts vs { c with components := c.components.set md.storageIndex s' } c'
      (hc.of_shape (Shape.set ..)) (AllSets.set ha k2 _) (fun x hx => hk x (.tail _ hx)) hr
    refine ⟨i1.trans ?_, (Shape.set ..).trans i2⟩
    rw [rowsAt_set hc hm]
    by_cases ht : t = t'
    · subst ht
      rw [if_pos rfl]
      have : partFor t ((t :: ts).zip (v :: vs)) = v :: partFor t (ts.zip vs) := by simp [partFor]
      rw [this, List.map_cons]
      show _root_.List.Perm _ (putRows (putRow (c.rowsAt t) (e, v)) _)
      rw [rowsAt_get hm hs]
      exact putRows_perm _ k1
    · rw [if_neg ht]
      have : partFor t ((t' :: ts).zip (v :: vs)) = partFor t (ts.zip vs) := by simp [partFor, Ne.symm ht]
      rw [this]

/-- What `remove` does to the rows of `t`: at most one row goes, its value is given back. -/
def Takes (t : TypeId) (e : Entity) (ts : List TypeId) (vs : List (Option V)) (rows rows' : List (Entity × V)) : Prop :=
  match (partFor t (ts.zip vs)).filterMap id with
  | [] => rows'.Perm rows
  | [v] => (∃ x, (x, v) ∈ rows ∧ x.index = e.index) ∧ rows'.Perm (others e rows)
  | _ => False

theorem removeEach_rows {e : Entity} (t : TypeId) : ∀ (ts : List TypeId) (c c' : ComponentStorage V) (vs : List (Option V)),
    Static c → AllSets CompSet.IdxOk c.components → (∀ x ∈ ts, (c.meta? x).isSome) →
    removeEach e (ts.map c.idxOf) c = .ok (vs, c') → Takes t e ts vs (c.rowsAt t) (c'.rowsAt t)
  | [], c, c', vs, _, _, _, hr => by cases hr; exact List.Perm.refl _
  | t' :: ts, c, c', _, hc, ha, hk, hr => by
    obtain ⟨md, hm⟩ := Option.isSome_iff_exists.1 (hk t' (.head _))
    rw [List.map_cons, removeEach, c.idxOf_eq hm] at hr
    obtain ⟨s, hs, hr⟩ := Res.bind_ok' hr
    obtain ⟨⟨v, s'⟩, hi, hr⟩ := Res.bind_ok' hr
    obtain ⟨⟨vs, c1⟩, h1, hr⟩ := Res.bind_ok' hr
    cases hr
    have hs := Res.unchecked_ok hs
    have k2 := stable_idx.remove (mem_at ha hs) hi
    have ih := removeEach_rows t ts { c with components := c.components.set md.storageIndex s' } c' vs
      (hc.of_shape (Shape.set ..)) (AllSets.set ha k2 _) (fun x hx => hk x (.tail _ hx)) h1
    rw [rowsAt_set hc hm] at ih
    by_cases ht : t = t'
    · subst ht
      rw [if_pos rfl] at ih
      rw [rowsAt_get hm hs]
      have hp : partFor t ((t :: ts).zip (v :: vs)) = v :: partFor t (ts.zip vs) := by simp [partFor]
      unfold Takes at ih ⊢
      rw [hp, List.filterMap_cons]
      rcases CompSet.remove_rows (mem_at ha hs) hi with ⟨rfl, rfl⟩ | ⟨x, v, rfl, k3, k4, k5⟩
      · exact ih
      · simp only [id]
        split at ih
        · rename_i h2
          have h2 : List.filterMap (fun x => x) (partFor t (ts.zip vs)) = [] := h2
          rw [h2]
          exact ⟨⟨x, k3, k4⟩, ih.trans k5⟩
        · obtain ⟨⟨x', h3, h4⟩, _⟩ := ih
          have := k5.mem_iff.1 h3
          unfold others at this
          rw [List.mem_filter] at this
          simp [h4] at this
        · exact ih.elim
    · rw [if_neg ht] at ih
      have hp : partFor t ((t' :: ts).zip (v :: vs)) = partFor t (ts.zip vs) := by simp [partFor, Ne.symm ht]
      unfold Takes at ih ⊢
      rw [hp]
      exact ih

theorem deleteEach_rows {e : Entity} (t : TypeId) : ∀ (ts : List TypeId) (c c' : ComponentStorage V),
    Static c → AllSets CompSet.IdxOk c.components → (∀ x ∈ ts, (c.meta? x).isSome) →
    deleteEach e (ts.map c.idxOf) c = .ok c' →
      (c'.rowsAt t).Perm (c.rowsAt t) ∨ t ∈ ts ∧ (c'.rowsAt t).Perm (others e (c.rowsAt t))
  | [], c, c', _, _, _, hr => by cases hr; exact .inl (List.Perm.refl _)
  | t' :: ts, c, c', hc, ha, hk, hr => by
    obtain ⟨md, hm⟩ := Option.isSome_iff_exists.1 (hk t' (.head _))
    rw [List.map_cons, deleteEach, c.idxOf_eq hm] at hr
    obtain ⟨s, hs, hr⟩ := Res.bind_ok' hr
    obtain ⟨s', hi, hr⟩ := Res.bind_ok' hr
    have hs := Res.unchecked_ok hs
    have k2 := stable_idx.delete (mem_at ha hs) hi
    have ih := deleteEach_rows t ts { c with components := c.components.set md.storageIndex s' } c'
      (hc.of_shape (Shape.set ..)) (AllSets.set ha k2 _) (fun x hx => hk x (.tail _ hx)) hr
    rw [rowsAt_set hc hm] at ih
    by_cases ht : t = t'
    · subst ht
      rw [if_pos rfl] at ih
      rw [rowsAt_get hm hs]
      rcases CompSet.delete_rows (mem_at ha hs) hi with rfl | k3
      · rcases ih with ih | ⟨ih, ih'⟩
        · exact .inl ih
        · exact .inr ⟨.tail _ ih, ih'⟩
      · right
        refine ⟨.head _, ?_⟩
        rcases ih with ih | ⟨_, ih⟩
        · exact ih.trans k3
        · have := ih.trans (others_perm k3 e)
          rwa [others_others] at this
    · rw [if_neg ht] at ih
      rcases ih with ih | ⟨ih, ih'⟩
      · exact .inl ih
      · exact .inr ⟨.tail _ ih, ih'⟩

theorem deleteAll_rows {e : Entity} : ∀ (l l' : List (CompSet V)), AllSets CompSet.IdxOk l → deleteAll e l = .ok l' →
    ∀ i, rowsI l' i = rowsI l i ∨ (rowsI l' i).Perm (others e (rowsI l i))
  | [], l', _, h, i => by cases h; exact .inl rfl
  | s :: ss, l', hl, h, i => by
    obtain ⟨s', h1, h⟩ := Res.bind_ok' h
    obtain ⟨ss', h2, h⟩ := Res.bind_ok' h
    cases h
    cases i with
    | zero =>
      rcases CompSet.delete_rows (hl s (.head _)) h1 with rfl | h3
      · exact .inl rfl
      · exact .inr h3
    | succ i => exact deleteAll_rows ss ss' (fun s hs => hl s (.tail _ hs)) h2 i

theorem strip_rows {c c' : ComponentStorage V} {e : Entity} (ha : AllSets CompSet.IdxOk c.components)
    (hr : c.strip e = .ok c') (t : TypeId) :
    (c'.rowsAt t).Perm (c.rowsAt t) ∨ (c'.rowsAt t).Perm (others e (c.rowsAt t)) := by
  unfold strip at hr
  obtain ⟨⟨comps, groups⟩, h1, hr⟩ := Res.bind_ok' hr
  obtain ⟨comps', h2, hr⟩ := Res.bind_ok' hr
  cases hr
  have k1 : Shuffles c.components comps := ungroupAllLoop_shuffles _ _ _ h1
  have k2 : AllSets CompSet.IdxOk comps := stable_idx.ungroupAllLoop _ _ _ ha h1
  unfold rowsAt
  show _root_.List.Perm (match c.meta? t with | none => [] | some m => rowsI comps' m.storageIndex) _ ∨
    _root_.List.Perm (match c.meta? t with | none => [] | some m => rowsI comps' m.storageIndex) _
  cases hm : c.meta? t with
  | none => exact .inl (List.Perm.refl _)
  | some m =>
    simp only
    rcases deleteAll_rows _ _ k2 h2 m.storageIndex with h3 | h3
    · rw [h3]
      exact .inl (k1 _)
    · exact .inr (h3.trans (others_perm (k1 _) e))

theorem remove_rows {c c' : ComponentStorage V} {e : Entity} {ts : List TypeId} {vs : List (Option V)} (hc : Static c)
    (ha : AllSets CompSet.IdxOk c.components) (hr : c.remove e ts = .ok (vs, c')) (t : TypeId) :
    Takes t e ts vs (c.rowsAt t) (c'.rowsAt t) := by
  unfold remove at hr
  obtain ⟨⟨idxs, mask⟩, h1, hr⟩ := Res.bind_ok' hr
  obtain ⟨c1, h2, hr⟩ := Res.bind_ok' hr
  obtain ⟨rfl, hk⟩ := lookupAll_idxs ts h1
  obtain ⟨k1, k2⟩ := withMask_shuffles (fun s s' h => ungroupLoop_shuffles _ _ _ _ h) h2
  have k3 := withMask_shape (fun s s' h => ungroupLoop_shape _ _ _ _ h) h2
  have k4 := Stable.withMask (fun s s' hs h => stable_idx.ungroupLoop _ _ _ _ hs h) ha h2
  rw [← idxOf_same k3.md] at hr
  have h3 := removeEach_rows t ts c1 c' vs (hc.of_shape k3) k4 (fun x hx => by rw [k3.meta?]; exact hk x hx) hr
  have k5 := rowsAt_shuffles k1 k2 t
  unfold Takes at h3 ⊢
  split at h3
  · exact h3.trans k5
  · obtain ⟨⟨x, h4, h5⟩, h6⟩ := h3
    exact ⟨⟨x, k5.mem_iff.1 h4, h5⟩, h6.trans (others_perm k5 e)⟩
  · exact h3

theorem delete_rows {c c' : ComponentStorage V} {e : Entity} {ts : List TypeId} (hc : Static c)
    (ha : AllSets CompSet.IdxOk c.components) (hr : c.delete e ts = .ok c') (t : TypeId) :
    (c'.rowsAt t).Perm (c.rowsAt t) ∨ t ∈ ts ∧ (c'.rowsAt t).Perm (others e (c.rowsAt t)) := by
  unfold delete at hr
  obtain ⟨⟨idxs, mask⟩, h1, hr⟩ := Res.bind_ok' hr
  obtain ⟨c1, h2, hr⟩ := Res.bind_ok' hr
  obtain ⟨rfl, hk⟩ := lookupAll_idxs ts h1
  obtain ⟨k1, k2⟩ := withMask_shuffles (fun s s' h => ungroupLoop_shuffles _ _ _ _ h) h2
  have k3 := withMask_shape (fun s s' h => ungroupLoop_shape _ _ _ _ h) h2
  have k4 := Stable.withMask (fun s s' hs h => stable_idx.ungroupLoop _ _ _ _ hs h) ha h2
  rw [← idxOf_same k3.md] at hr
  have k5 := rowsAt_shuffles k1 k2 t
  rcases deleteEach_rows t ts c1 c' (hc.of_shape k3) k4 (fun x hx => by rw [k3.meta?]; exact hk x hx) hr with h3 | ⟨h3, h4⟩
  · exact .inl (h3.trans k5)
  · exact .inr ⟨h3, h4.trans (others_perm k5 e)⟩

theorem clear_rows (c : ComponentStorage V) (t : TypeId) : c.clear.rowsAt t = [] := by
  unfold rowsAt
  show (match c.meta? t with | none => [] | some m => rowsI (c.components.map CompSet.clear) m.storageIndex) = []
  cases c.meta? t with
  | none => rfl
  | some m =>
    simp only
    unfold rowsI
    rw [List.getElem?_map]
    cases c.components[m.storageIndex]? <;> rfl

theorem register_rows {c : ComponentStorage V} (hc : Static c) (t' t : TypeId) : (c.register t').2.rowsAt t = c.rowsAt t := by
  unfold register
  cases hm : c.meta? t' with
  | some m => rfl
  | none =>
    simp only
    unfold rowsAt
    simp only [meta?, insertMeta_lookup]
    by_cases ht : t = t'
    · subst ht
      have : c.metadata.lookup t = none := hm
      rw [if_pos rfl, this]
      simp only
      unfold rowsI
      rw [List.getElem?_append_right (Nat.le_refl _)]
      simp [CompSet.rows, CompSet.new]
    · rw [if_neg ht]
      cases hx : c.metadata.lookup t with
      | none => rfl
      | some m =>
        simp only
        exact rowsI_append_left (hc.idx t m hx)

/-! ### Setting a layout -/

/-- The rows of a set that waits. -/
def waiting (sets : List (TypeId × CompSet V)) (t : TypeId) : List (Entity × V) :=
  match sets.lookup t with
  | some s => s.rows
  | none => []

/-- The rows of `t` wait, are placed, or are lost. -/
structure Halfway (R : List (Entity × V)) (t : TypeId) (b : Building V) : Prop where
  stat : Static b.1
  keys : (b.2.map Prod.fst).Nodup
  where_ : (b.1.meta? t = none ∧ waiting b.2 t = R) ∨ (b.2.lookup t = none ∧ (b.1.rowsAt t = R ∨ b.1.rowsAt t = []))

theorem rowsAt_push {c : ComponentStorage V} (hc : Static c) (t t' : TypeId) (m : ComponentMetadata)
    (hm : m.storageIndex = c.components.length) (s : CompSet V) (gs : List Group) :
    rowsAt ⟨gs, insertMeta c.metadata t' m, c.components ++ [s]⟩ t = if t = t' then s.rows else c.rowsAt t := by
  unfold rowsAt
  simp only [meta?, insertMeta_lookup]
  by_cases ht : t = t'
  · rw [if_pos ht, if_pos ht]
    simp only [hm]
    unfold rowsI
    simp
  · rw [if_neg ht, if_neg ht]
    cases hx : c.metadata.lookup t with
    | none => rfl
    | some m' => exact rowsI_append_left (hc.idx t m' hx)

theorem Halfway.push {R : List (Entity × V)} {t : TypeId} {c : ComponentStorage V} {sets : List (TypeId × CompSet V)}
    (h : Halfway R t (c, sets)) (t' : TypeId) (m : ComponentMetadata) (hm : m.storageIndex = c.components.length) :
    Halfway R t (⟨c.groups, insertMeta c.metadata t' m, c.components ++ [(removeSet sets t').1.getD CompSet.new]⟩,
      (removeSet sets t').2) := by
  refine ⟨h.stat.push _ _ hm _ _, h.keys.sublist (List.filter_sublist.map _), ?_⟩
  simp only
  rw [rowsAt_push h.stat _ _ _ hm]
  by_cases ht : t = t'
  · subst ht
    rw [if_pos rfl]
    right
    have hno : (removeSet sets t).2.lookup t = none := by
      unfold removeSet
      rw [lookup_none]
      simp
    refine ⟨hno, ?_⟩
    rcases h.where_ with ⟨_, h2⟩ | ⟨h1, _⟩
    · simp only [waiting] at h2
      simp only [removeSet]
      cases hl : sets.lookup t with
      | none => exact .inr rfl
      | some s =>
        rw [hl] at h2
        exact .inl h2
    · simp only at h1
      right
      simp only [removeSet, h1]
      rfl
  · rw [if_neg ht]
    have hl : (removeSet sets t').2.lookup t = sets.lookup t := lookup_filter_ne _ _ _ ht
    have hmeta : meta? (⟨c.groups, insertMeta c.metadata t' m,
        c.components ++ [(removeSet sets t').1.getD CompSet.new]⟩ : ComponentStorage V) t = c.meta? t := by
      simp only [meta?, insertMeta_lookup, if_neg ht]
    unfold waiting
    rw [hl, hmeta]
    exact h.where_

theorem Halfway.regroup {R : List (Entity × V)} {t : TypeId} {c : ComponentStorage V} {sets : List (TypeId × CompSet V)}
    (h : Halfway R t (c, sets)) (gs : List Group) : Halfway R t ({ c with groups := gs }, sets) :=
  ⟨h.stat.regroup gs, h.keys, h.where_⟩

theorem addComponents_halfway {R : List (Entity × V)} {t : TypeId} {f : GroupFamily} {a b c : Nat} : ∀ (n idx : Nat)
    (x : Building V), Halfway R t x → (addComponents f a b c idx n x).Leaves (Halfway R t)
  | 0, _, x, hx => hx
  | n + 1, idx, (st, sets), hx => by
    rw [addComponents]
    refine Outcome.Leaves.ofRes hx fun p hp => ?_
    obtain ⟨t', m⟩ := p
    obtain ⟨_, _, hp⟩ := Res.bind_ok' hp
    obtain ⟨_, _, hp⟩ := Res.bind_ok' hp
    obtain ⟨_, _, hp⟩ := Res.bind_ok' hp
    obtain ⟨_, _, hp⟩ := Res.bind_ok' hp
    cases hp
    exact addComponents_halfway n (idx + 1) _ (hx.push _ _ rfl)

theorem addGroups_halfway {R : List (Entity × V)} {t : TypeId} {f : GroupFamily} {a b c : Nat} : ∀ (l : List Nat) (prev : Nat)
    (x : Building V), Halfway R t x → (addGroups f a b c prev l x).Leaves (Halfway R t)
  | [], _, x, hx => hx
  | n :: l, prev, (st, sets), hx => by
    rw [addGroups]
    refine Outcome.Leaves.ofRes hx fun g _ => ?_
    exact Outcome.Leaves.bind (addComponents_halfway _ _ _ (hx.regroup _)) fun _ y hy => addGroups_halfway l n y hy

theorem addFamilies_halfway {R : List (Entity × V)} {t : TypeId} : ∀ (fs : List GroupFamily) (x : Building V), Halfway R t x →
    (addFamilies fs x).Leaves (Halfway R t)
  | [], x, hx => hx
  | f :: fs, (c, sets), hx => by
    rw [addFamilies]
    exact Outcome.Leaves.bind (addGroups_halfway _ _ _ hx) fun _ y hy => addFamilies_halfway fs y hy

theorem addUngrouped_rows (t : TypeId) : ∀ (l : List (TypeId × CompSet V)) (c : ComponentStorage V), Static c →
    (l.map Prod.fst).Nodup → (addUngrouped l c).rowsAt t = match l.lookup t with
      | some s => s.rows
      | none => c.rowsAt t
  | [], c, _, _ => rfl
  | (t', s) :: l, c, hc, hn => by
    rw [addUngrouped]
    simp only [List.map_cons, List.nodup_cons] at hn
    rw [addUngrouped_rows t l _ (hc.push _ _ rfl _ _) hn.2]
    rw [rowsAt_push hc _ _ _ rfl]
    by_cases ht : t = t'
    · subst ht
      have : l.lookup t = none := by
        rw [lookup_none]
        exact hn.1
      rw [this]
      simp
    · have hb : (t == t') = false := by simpa using ht
      rw [List.lookup_cons, hb, if_neg ht]

theorem rowsAt_none {c : ComponentStorage V} {t : TypeId} (h : c.meta? t = none) : c.rowsAt t = [] := by
  unfold rowsAt
  rw [h]

theorem rowsAt_setOf {c : ComponentStorage V} {t : TypeId} {s : CompSet V} (h : c.setOf t = some s) : c.rowsAt t = s.rows := by
  unfold setOf at h
  cases hm : c.meta? t with
  | none => rw [hm] at h; cases h
  | some m =>
    rw [hm] at h
    exact rowsAt_get hm h

/-- Whatever happens in `set_layout`, the rows of a type are kept or lost together. -/
theorem setLayout_rows (rank : TypeId → Nat) {c : ComponentStorage V} (hc : Static c)
    (hk : (c.metadata.map Prod.fst).Nodup) (l : GroupLayout) (es : List Entity) (t : TypeId) :
    (c.setLayout rank l es).Leaves (fun c' => (c'.rowsAt t).Perm (c.rowsAt t) ∨ c'.rowsAt t = []) := by
  obtain ⟨sets, comps0, h1, h2, _, h4, _, h6⟩ := takeSets_ok c.metadata c.components hk
    (fun t m hm => hc.idx t m ((lookup_some hk t m).2 hm))
    (fun t t' m m' hm hm' => hc.inj t t' m m' ((lookup_some hk t m).2 hm) ((lookup_some hk t' m').2 hm'))
  have hex : c.extractSparseSets = .ok (sets, ⟨[], [], comps0⟩) := by simp [extractSparseSets, h1]
  have hR : waiting sets t = c.rowsAt t := by
    unfold waiting
    rw [h6]
    unfold rowsAt
    show (match (c.meta? t).bind fun m => c.components[m.storageIndex]? with | some s => s.rows | none => []) = _
    cases c.meta? t with
    | none => rfl
    | some m => rfl
  have h0 : Halfway (c.rowsAt t) t ((⟨[], [], comps0⟩, sets) : Building V) :=
    ⟨⟨fun t m h => by simp [meta?] at h, fun t t' m m' h => by simp [meta?] at h⟩, by rw [h4]; exact hk, .inl ⟨rfl, hR⟩⟩
  have hf := addFamilies_halfway l.families _ h0
  unfold setLayout
  rw [hex]
  simp only
  revert hf
  cases hF : addFamilies l.families ((⟨[], [], comps0⟩, sets) : Building V) with
  | ub => exact fun _ => trivial
  | panic b =>
    intro hf
    obtain ⟨c2, sets2⟩ := b
    show (c2.rowsAt t).Perm _ ∨ c2.rowsAt t = []
    rcases hf.where_ with ⟨k1, _⟩ | ⟨_, k1 | k1⟩
    · exact .inr (rowsAt_none k1)
    · rw [show c2.rowsAt t = _ from k1]
      exact .inl (List.Perm.refl _)
    · exact .inr k1
  | ok u b =>
    intro hf
    obtain ⟨c2, sets2⟩ := b
    have hk2 : (sets2.map Prod.fst).Nodup := hf.keys
    have hp := sortByRank_perm rank sets2
    have hk3 : ((sortByRank rank sets2).map Prod.fst).Nodup := ((hp.map _).nodup_iff).2 hk2
    have hu := addUngrouped_rows t (sortByRank rank sets2) c2 hf.stat hk3
    rw [lookup_perm hp hk2] at hu
    have h3 : (addUngrouped (sortByRank rank sets2) c2).rowsAt t = c.rowsAt t ∨
        (addUngrouped (sortByRank rank sets2) c2).rowsAt t = [] := by
      rw [hu]
      rcases hf.where_ with ⟨k1, k2⟩ | ⟨k1, k2⟩
      · unfold waiting at k2
        simp only at k2
        rw [← k2]
        cases sets2.lookup t with
        | none => exact .inl (rowsAt_none k1)
        | some s => exact .inl rfl
      · simp only at k1
        rw [k1]
        exact k2
    simp only
    generalize addUngrouped (sortByRank rank sets2) c2 = c3 at h3 ⊢
    have h3 : (c3.rowsAt t).Perm (c.rowsAt t) ∨ c3.rowsAt t = [] := by
      rcases h3 with h3 | h3
      · rw [h3]; exact .inl (List.Perm.refl _)
      · exact .inr h3
    cases GroupMask.fromTo 0 c3.groups.length with
    | panic => exact h3
    | ub => trivial
    | ok mask =>
      simp only
      cases hg : groupEntities mask es (c3.components, c3.groups) with
      | panic => exact h3
      | ub => trivial
      | ok p =>
        obtain ⟨comps, groups⟩ := p
        have k1 := rowsAt_shuffles (c := c3) (c' := { c3 with components := comps, groups := groups })
          (groupEntities_shuffles es _ _ hg) rfl t
        rcases h3 with h3 | h3
        · exact .inl (k1.trans h3)
        · rw [h3] at k1
          exact .inr k1.eq_nil

/-- Without a panic the rows are lost exactly if the type is twice in the layout. -/
theorem setLayout_rows_ok {rank : TypeId → Nat} {c c' : ComponentStorage V} (hc : Static c)
    (hk : (c.metadata.map Prod.fst).Nodup) {l : GroupLayout} (hl : FamsOK l.families) {es : List Entity}
    (h : c.setLayout rank l es = .ok () c') (t : TypeId) :
    (c'.rowsAt t).Perm (if (layoutTypes l).count t ≤ 1 then c.rowsAt t else []) := by
  obtain ⟨c3, mask, comps, gs, rfl, hg, _, _, hset, hset2⟩ := setLayout_moved hc hk hl h
  have k1 := rowsAt_shuffles (c := c3) (c' := { c3 with components := comps, groups := gs })
    (groupEntities_shuffles es _ _ hg) rfl t
  refine k1.trans ?_
  by_cases ht : (layoutTypes l).count t ≤ 1
  · rw [if_pos ht]
    have h1 := hset t ht
    have h0 : ∀ {c : ComponentStorage V}, Static c → c.rowsAt t = ((c.setOf t).getD CompSet.new).rows := by
      intro c hc
      unfold rowsAt setOf
      cases hm : c.meta? t with
      | none => rfl
      | some m =>
        have := hc.idx t m hm
        simp only [Option.bind_some]
        unfold rowsI
        rw [List.getElem?_eq_getElem this]
        rfl
    rw [h0 hc]
    by_cases hx : t ∈ layoutTypes l
    · rw [if_pos hx] at h1
      rw [rowsAt_setOf h1]
    · rw [if_neg hx] at h1
      cases hs : c.setOf t with
      | some s =>
        rw [hs] at h1
        rw [rowsAt_setOf h1]
        exact List.Perm.refl _
      | none =>
        rw [hs] at h1
        unfold rowsAt
        cases hm : c3.meta? t with
        | none => exact List.Perm.refl _
        | some m =>
          rw [setOf_meta hm] at h1
          simp only
          unfold rowsI
          rw [h1]
          exact List.Perm.refl _
  · rw [if_neg ht, rowsAt_setOf (hset2 t (by omega))]
    exact List.Perm.refl _

end ComponentStorage
end Sparsey
