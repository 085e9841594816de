import Verif.Proofs.Opaque
import Verif.Properties.Components

/-!
C81: the values of components are opaque. Nothing that a world does depends on them: replacing them everywhere replaces
them in the answers and changes nothing else.
-/

set_option autoImplicit false
set_option linter.unusedSimpArgs false

namespace Sparsey
variable {V W : Type}

/-- A view with the values replaced. -/
def PartView.mapV (f : V → W) : PartView V → PartView W
  | .entity => .entity
  | .req x idx s => .req x idx (s.mapV f)
  | .opt x idx s => .opt x idx (s.mapV f)

theorem borrowSet_mapV (f : V → W) (c : ComponentStorage V) (h : Borrows) (x : Bool) (t : TypeId) :
    borrowSet (c.mapV f) h x t = (borrowSet c h x t).mapR fun p => (p.1, p.2.1.mapV f, p.2.2.1, p.2.2.2) := by
  unfold borrowSet
  rw [show (c.mapV f).meta? t = c.meta? t from rfl]
  cases c.meta? t with
  | none => rfl
  | some m =>
    refine Res.bind_mapR (Res.unchecked_mapR (CompSet.mapV f) c.components _) fun s => ?_
    cases x <;> exact Res.bind_mapR_same fun _ => rfl

theorem borrowPart_mapV (f : V → W) (c : ComponentStorage V) (h : Borrows) (p : Part) :
    borrowPart (c.mapV f) h p = (borrowPart c h p).mapR fun p => (p.1.mapV f, p.2.1, p.2.2) := by
  cases p with
  | entity => rfl
  | ref t => exact Res.bind_mapR (borrowSet_mapV f c h false t) fun _ => rfl
  | refMut t => exact Res.bind_mapR (borrowSet_mapV f c h true t) fun _ => rfl
  | opt t => exact Res.bind_mapR (borrowSet_mapV f c h false t) fun _ => rfl
  | optMut t => exact Res.bind_mapR (borrowSet_mapV f c h true t) fun _ => rfl

theorem borrowParts_mapV (f : V → W) (c : ComponentStorage V) (ps : Query) (h : Borrows) :
    borrowParts (c.mapV f) h ps =
      (borrowParts c h ps).mapR fun p => (p.1.map (PartView.mapV f), p.2.1, p.2.2) := by
  induction ps generalizing h with
  | nil => rfl
  | cons p ps ih =>
    refine Res.bind_mapR (borrowPart_mapV f c h p) fun a => ?_
    exact Res.bind_mapR (ih a.2.2) fun _ => rfl

theorem borrowQuery_mapV (f : V → W) (c : ComponentStorage V) (h : Borrows) (q : Query) :
    borrowQuery (c.mapV f) h q =
      (borrowQuery c h q).mapR fun p => (p.1.map (PartView.mapV f), p.2.1, p.2.2) :=
  Res.bind_mapR (borrowParts_mapV f c q h) fun _ => rfl

theorem PartView.contains_mapV (f : V → W) (e : Entity) (v : PartView V) :
    (v.mapV f).contains e = v.contains e := by
  cases v <;> rfl

theorem PartView.containsRaw_mapV (f : V → W) (i : Nat) (v : PartView V) :
    (v.mapV f).containsRaw i = v.containsRaw i := by
  cases v <;> rfl

theorem PartView.entities_mapV (f : V → W) (v : PartView V) : (v.mapV f).entities = v.entities := by
  cases v <;> rfl

theorem PartView.get_mapV (f : V → W) (e : Entity) (v : PartView V) :
    (v.mapV f).get e = (v.get e).mapR (Option.map (ItemPart.mapV f)) := by
  cases v with
  | entity => rfl
  | req x idx s =>
    simp only [mapV, get, show (s.mapV f).sparse = s.sparse from rfl]
    cases s.sparse.get e with
    | none => rfl
    | some d => exact Res.bind_mapR (Res.unchecked_mapR f s.components d) fun _ => rfl
  | opt x idx s =>
    simp only [mapV, get, show (s.mapV f).sparse = s.sparse from rfl]
    cases s.sparse.get e with
    | none => rfl
    | some d => exact Res.bind_mapR (Res.unchecked_mapR f s.components d) fun _ => rfl

theorem PartView.optRaw_mapV (f : V → W) (idx : Nat) (s : CompSet V) (e : Entity) :
    optRaw idx (s.mapV f) e = (optRaw idx s e).mapR (ItemPart.mapV f) := by
  simp only [optRaw, show (s.mapV f).sparse = s.sparse from rfl]
  cases s.sparse.getSparse e.sparse with
  | none => rfl
  | some d => exact Res.bind_mapR (Res.unchecked_mapR f s.components d) fun _ => rfl

theorem PartView.getSparseRaw_mapV (f : V → W) (e : Entity) (v : PartView V) :
    (v.mapV f).getSparseRaw e = (v.getSparseRaw e).mapR (Option.map (ItemPart.mapV f)) := by
  cases v with
  | entity => rfl
  | req x idx s =>
    simp only [mapV, getSparseRaw, show (s.mapV f).sparse = s.sparse from rfl]
    cases s.sparse.getSparse e.sparse with
    | none => rfl
    | some d => exact Res.bind_mapR (Res.unchecked_mapR f s.components d) fun _ => rfl
  | opt x idx s => exact Res.bind_mapR (optRaw_mapV f idx s e) fun _ => rfl

theorem PartView.getDenseRaw_mapV (f : V → W) (i : Nat) (e : Entity) (v : PartView V) :
    (v.mapV f).getDenseRaw i e = (v.getDenseRaw i e).mapR (ItemPart.mapV f) := by
  cases v with
  | entity => rfl
  | req x idx s => exact Res.bind_mapR (Res.unchecked_mapR f s.components i) fun _ => rfl
  | opt x idx s => exact optRaw_mapV f idx s e

theorem PartView.sliceRaw_mapV (f : V → W) (es : List Entity) (a b : Nat) (v : PartView V) :
    (v.mapV f).sliceRaw es a b = (v.sliceRaw es a b).mapR (SlicePart.mapV f) := by
  cases v with
  | entity => simp only [mapV, sliceRaw]; split <;> rfl
  | req x idx s =>
    simp only [mapV, sliceRaw, CompSet.mapV, List.length_map]
    split
    · simp [Res.mapR, SlicePart.mapV, List.map_take]
    · rfl
  | opt x idx s => rfl

theorem containsAll_mapV (f : V → W) (vs : List (PartView V)) (e : Entity) :
    containsAll (vs.map (PartView.mapV f)) e = containsAll vs e := by
  simp only [containsAll, List.all_map, Function.comp_def, PartView.contains_mapV]

theorem containsNone_mapV (f : V → W) (vs : List (PartView V)) (e : Entity) :
    containsNone (vs.map (PartView.mapV f)) e = containsNone vs e := by
  simp only [containsNone, List.all_map, Function.comp_def, PartView.contains_mapV]

theorem containsAllRaw_mapV (f : V → W) (vs : List (PartView V)) (i : Nat) :
    containsAllRaw (vs.map (PartView.mapV f)) i = containsAllRaw vs i := by
  simp only [containsAllRaw, List.all_map, Function.comp_def, PartView.containsRaw_mapV]

theorem containsNoneRaw_mapV (f : V → W) (vs : List (PartView V)) (i : Nat) :
    containsNoneRaw (vs.map (PartView.mapV f)) i = containsNoneRaw vs i := by
  simp only [containsNoneRaw, List.all_map, Function.comp_def, PartView.containsRaw_mapV]

theorem getAll_mapV (f : V → W) (e : Entity) (vs : List (PartView V)) :
    getAll e (vs.map (PartView.mapV f)) = (getAll e vs).mapR (Option.map (List.map (ItemPart.mapV f))) := by
  induction vs with
  | nil => rfl
  | cons v vs ih =>
    refine Res.bind_mapR (PartView.get_mapV f e v) fun o => ?_
    cases o with
    | none => rfl
    | some i =>
      refine Res.bind_mapR ih fun o => ?_
      cases o <;> rfl

theorem getAllSparseRaw_mapV (f : V → W) (e : Entity) (vs : List (PartView V)) :
    getAllSparseRaw e (vs.map (PartView.mapV f)) =
      (getAllSparseRaw e vs).mapR (Option.map (List.map (ItemPart.mapV f))) := by
  induction vs with
  | nil => rfl
  | cons v vs ih =>
    refine Res.bind_mapR (PartView.getSparseRaw_mapV f e v) fun o => ?_
    cases o with
    | none => rfl
    | some i =>
      refine Res.bind_mapR ih fun o => ?_
      cases o <;> rfl

theorem getAllDenseRaw_mapV (f : V → W) (i : Nat) (e : Entity) (vs : List (PartView V)) :
    getAllDenseRaw i e (vs.map (PartView.mapV f)) =
      (getAllDenseRaw i e vs).mapR (List.map (ItemPart.mapV f)) := by
  induction vs with
  | nil => rfl
  | cons v vs ih =>
    refine Res.bind_mapR (PartView.getDenseRaw_mapV f i e v) fun o => ?_
    exact Res.bind_mapR ih fun _ => rfl

theorem sliceAllRaw_mapV (f : V → W) (es : List Entity) (a b : Nat) (vs : List (PartView V)) :
    sliceAllRaw es a b (vs.map (PartView.mapV f)) =
      (sliceAllRaw es a b vs).mapR (List.map (SlicePart.mapV f)) := by
  induction vs with
  | nil => rfl
  | cons v vs ih =>
    refine Res.bind_mapR (PartView.sliceRaw_mapV f es a b v) fun o => ?_
    exact Res.bind_mapR ih fun _ => rfl

theorem shortest_mapV (f : V → W) (vs : List (PartView V)) (acc : Option (List Entity)) :
    shortest acc (vs.map (PartView.mapV f)) = shortest acc vs := by
  induction vs generalizing acc with
  | nil => cases acc <;> rfl
  | cons v vs ih =>
    simp only [List.map_cons, shortest, PartView.entities_mapV, ih]

theorem firstEntities_mapV (f : V → W) (vs : List (PartView V)) :
    firstEntities (vs.map (PartView.mapV f)) = firstEntities vs := by
  induction vs with
  | nil => rfl
  | cons v vs ih => simp only [List.map_cons, firstEntities, PartView.entities_mapV, ih]

/-- A query with the values replaced. -/
def QueryAll.mapV (f : V → W) (q : QueryAll V) : QueryAll W :=
  ⟨q.world.mapV f, q.get.map (PartView.mapV f), q.inc.map (PartView.mapV f), q.exc.map (PartView.mapV f),
    q.getInfo, q.incInfo, q.excInfo⟩

/-- A query for one entity with the values replaced. -/
def QueryOne.mapV (f : V → W) (q : QueryOne V) : QueryOne W :=
  ⟨q.get.map (PartView.mapV f), q.inc.map (PartView.mapV f), q.exc.map (PartView.mapV f)⟩

theorem QueryAll.new_mapV (f : V → W) (w : World V) (h : Borrows) (g i x : Query) :
    QueryAll.new (w.mapV f) h g i x = (QueryAll.new w h g i x).mapR fun p => (p.1.mapV f, p.2) := by
  refine Res.bind_mapR (borrowQuery_mapV f w.components h g) fun a => ?_
  refine Res.bind_mapR (borrowQuery_mapV f w.components _ i) fun b => ?_
  exact Res.bind_mapR (borrowQuery_mapV f w.components _ x) fun _ => rfl

theorem QueryOne.new_mapV (f : V → W) (w : World V) (h : Borrows) (g i x : Query) :
    QueryOne.new (w.mapV f) h g i x = (QueryOne.new w h g i x).mapR fun p => (p.1.mapV f, p.2) := by
  refine Res.bind_mapR (borrowQuery_mapV f w.components h g) fun a => ?_
  refine Res.bind_mapR (borrowQuery_mapV f w.components _ i) fun b => ?_
  exact Res.bind_mapR (borrowQuery_mapV f w.components _ x) fun _ => rfl

theorem QueryAll.getGroupRange_mapV (f : V → W) (q : QueryAll V) :
    (q.mapV f).getGroupRange = q.getGroupRange := rfl

theorem DenseIter.foldFrom_mapV (f : V → W) (a b : Nat) (es : List Entity) (vs : List (PartView V)) (n i : Nat) :
    DenseIter.foldFrom ⟨a, b, es, vs.map (PartView.mapV f)⟩ i n =
      (DenseIter.foldFrom ⟨a, b, es, vs⟩ i n).mapR (List.map (List.map (ItemPart.mapV f))) := by
  induction n generalizing i with
  | zero => rfl
  | succ n ih =>
    refine Res.bind_mapR (g := List.map (ItemPart.mapV f)) ?_ fun x => ?_
    · exact Res.bind_mapR_same fun e => getAllDenseRaw_mapV f i e vs
    · exact Res.bind_mapR (ih (i + 1)) fun _ => rfl

theorem SparseIter.item_mapV (f : V → W) (all : List Entity) (x i g : List (PartView V)) (e : Entity) :
    SparseIter.item ⟨all, x.map (PartView.mapV f), i.map (PartView.mapV f), g.map (PartView.mapV f)⟩ e =
      (SparseIter.item ⟨all, x, i, g⟩ e).mapR (Option.map (List.map (ItemPart.mapV f))) := by
  simp only [item, containsNoneRaw_mapV, containsAllRaw_mapV]
  split
  · rfl
  split
  · rfl
  exact getAllSparseRaw_mapV f e g

theorem SparseIter.foldFrom_mapV (f : V → W) (all : List Entity) (x i g : List (PartView V)) (es : List Entity) :
    SparseIter.foldFrom ⟨all, x.map (PartView.mapV f), i.map (PartView.mapV f), g.map (PartView.mapV f)⟩ es =
      (SparseIter.foldFrom ⟨all, x, i, g⟩ es).mapR (List.map (List.map (ItemPart.mapV f))) := by
  induction es with
  | nil => rfl
  | cons e es ih =>
    refine Res.bind_mapR (item_mapV f all x i g e) fun o => ?_
    cases o with
    | none => exact ih
    | some y => exact Res.bind_mapR ih fun _ => rfl

theorem QueryAll.items_mapV (f : V → W) (q : QueryAll V) :
    (q.mapV f).items = q.items.mapR (List.map (List.map (ItemPart.mapV f))) := by
  simp only [items, iter, getGroupRange_mapV]
  simp only [mapV, firstEntities_mapV, shortest_mapV]
  cases q.getGroupRange with
  | panic => rfl
  | ub => rfl
  | ok o =>
    rcases o with _ | ⟨a, b⟩
    · exact SparseIter.foldFrom_mapV f _ q.exc q.inc q.get _
    · simp only [Res.bind_ok]
      cases (firstEntities q.get).or (shortest none q.inc) with
      | none => rfl
      | some es => exact DenseIter.foldFrom_mapV f a b es q.get _ _

theorem QueryAll.slice_mapV (f : V → W) (q : QueryAll V) :
    (q.mapV f).slice = q.slice.mapR (Option.map (List.map (SlicePart.mapV f))) := by
  simp only [slice, getGroupRange_mapV]
  simp only [mapV, firstEntities_mapV, shortest_mapV]
  cases q.getGroupRange with
  | panic => rfl
  | ub => rfl
  | ok o =>
    rcases o with _ | ⟨a, b⟩
    · rfl
    · simp only [Res.bind_ok]
      exact Res.bind_mapR (sliceAllRaw_mapV f _ a b q.get) fun _ => rfl

/-- C81 (calls): replacing the values in a world and in the calls replaces them in the answers and in the world at the
end; whether there is undefined behaviour, which calls panic, the entities, their order and everything else stay. -/
theorem C81_calls (f : V → W) (ops : List (Op V)) (w : World V) :
    run (w.mapV f) (ops.map (Op.mapV f)) = (run w ops).map fun p => (p.1.map (Ret.mapV f), p.2.mapV f) := by
  induction ops generalizing w with
  | nil => rfl
  | cons op ops ih =>
    simp only [List.map_cons, run, step_mapV]
    cases step w op with
    | none => rfl
    | some p =>
      simp only [Option.map_some, ih]
      cases run p.2 ops <;> rfl

/-- C81 (reads): views and queries on the world with other values yield the same with the other values. -/
theorem C81_reads (f : V → W) (w : World V) :
    (∀ t e, (w.mapV f).viewGet t e = (w.viewGet t e).mapR (Option.map f)) ∧
    (∀ t, ((w.mapV f).borrow t >>= CompSet.asSlice) = (w.borrow t >>= CompSet.asSlice).mapR (List.map f)) ∧
    (∀ b g i x, (QueryAll.new (w.mapV f) b g i x >>= fun q => q.1.items) =
      (QueryAll.new w b g i x >>= fun q => q.1.items).mapR (List.map (List.map (ItemPart.mapV f)))) ∧
    (∀ b g i x, (QueryAll.new (w.mapV f) b g i x >>= fun q => q.1.slice) =
      (QueryAll.new w b g i x >>= fun q => q.1.slice).mapR (Option.map (List.map (SlicePart.mapV f)))) ∧
    (∀ b g i x e, (QueryOne.new (w.mapV f) b g i x >>= fun q => Res.ok (q.1.contains e)) =
      (QueryOne.new w b g i x >>= fun q => Res.ok (q.1.contains e))) ∧
    (∀ b g i x e, (QueryOne.new (w.mapV f) b g i x >>= fun q => q.1.getItem e) =
      (QueryOne.new w b g i x >>= fun q => q.1.getItem e).mapR (Option.map (List.map (ItemPart.mapV f)))) := by
  refine ⟨fun t e => ?_, fun t => ?_, fun b g i x => ?_, fun b g i x => ?_, fun b g i x e => ?_, fun b g i x e => ?_⟩
  · exact Res.bind_mapR (World.borrow_mapV f w t) fun s => CompSet.get_mapV f s e
  · refine Res.bind_mapR (World.borrow_mapV f w t) fun s => ?_
    simp only [CompSet.asSlice, CompSet.mapV, CompSet.len, List.length_map]
    by_cases h : s.entities.length ≤ s.components.length
    · simp [h, Res.mapR, List.map_take]
    · simp [h, Res.mapR]
  · exact Res.bind_mapR (QueryAll.new_mapV f w b g i x) fun q => q.1.items_mapV f
  · exact Res.bind_mapR (QueryAll.new_mapV f w b g i x) fun q => q.1.slice_mapV f
  · rw [QueryOne.new_mapV]
    cases QueryOne.new w b g i x with
    | panic => rfl
    | ub => rfl
    | ok q => simp only [Res.mapR, Res.bind_ok, QueryOne.contains, QueryOne.mapV, containsNone_mapV, containsAll_mapV]
  · refine Res.bind_mapR (QueryOne.new_mapV f w b g i x) fun q => ?_
    simp only [QueryOne.getItem, QueryOne.mapV, containsNone_mapV, containsAll_mapV]
    split
    · rfl
    split
    · rfl
    exact getAll_mapV f e q.1.get

/-- C81 (shape): the part of the answers without values is the same whatever the values are. -/
theorem C81_shape (f : V → W) (ops : List (Op V)) :
    (run World.empty (ops.map (Op.mapV f))).map (fun p => (p.1.map (Ret.mapV fun _ => ()), p.2.mapV fun _ => ())) =
      (run World.empty ops).map (fun p => (p.1.map (Ret.mapV fun _ => ()), p.2.mapV fun _ => ())) := by
  have h : ∀ ops : List (Op V), (run World.empty ops).map
      (fun p => (p.1.map (Ret.mapV fun _ => ()), p.2.mapV fun _ => ())) =
      run (World.empty : World Unit) (ops.map (Op.mapV fun _ => ())) := fun ops => (C81_calls _ ops World.empty).symm
  have h' : ∀ ops : List (Op W), (run World.empty ops).map
      (fun p => (p.1.map (Ret.mapV fun _ => ()), p.2.mapV fun _ => ())) =
      run (World.empty : World Unit) (ops.map (Op.mapV fun _ => ())) := fun ops => (C81_calls _ ops World.empty).symm
  rw [h, h', List.map_map]
  congr 1
  refine List.map_congr_left fun op _ => ?_
  cases op <;> simp [Op.mapV, Function.comp_def]

/-- Calls whose values are replaced by a function that maps some of them to the same value. -/
def opaqueOps : List (Op Nat) :=
  [.register 0, .register 1, .setLayout (fun t => t) [[0, 1]], .create [(0, 5), (1, 6)], .create [(1, 8)],
    .extend [0, 1] ⟨[[1, 2], [3, 4]], false⟩, .write 0 ⟨0, 1⟩ 9, .insert ⟨1, 1⟩ [(2, 0)], .insert ⟨1, 1⟩ [(0, 7)],
    .remove ⟨0, 1⟩ [0, 1], .destroy ⟨2, 1⟩, .remove ⟨3, 1⟩ [1, 0]]

example : (run World.empty opaqueOps).map (fun p => p.1.drop 7) = some [.panicked [], .bool true,
      .values [some 9, some 6], .bool true, .values [some 4, some 3]] ∧
    (run World.empty (opaqueOps.map (Op.mapV fun n => n % 2 == 0))).map (fun p => p.1.drop 7) = some [.panicked [], .bool true,
      .values [some false, some true], .bool true, .values [some true, some false]] := by
  constructor <;> decide +kernel

example : holdsAfter (opaqueOps.take 9) (fun _ w => decide (
      (QueryAll.new w [] [.entity, .ref 0] [.ref 1] [] >>= fun q => q.1.items) = .ok
        [[.entity ⟨0, 1⟩, .ref 2 0 9], [.entity ⟨2, 1⟩, .ref 2 1 1], [.entity ⟨3, 1⟩, .ref 2 2 3], [.entity ⟨1, 1⟩, .ref 2 3 7]] ∧
      (QueryAll.new (w.mapV fun n => n % 3) [] [.entity, .ref 0] [.ref 1] [] >>= fun q => q.1.items) = .ok
        [[.entity ⟨0, 1⟩, .ref 2 0 0], [.entity ⟨2, 1⟩, .ref 2 1 1], [.entity ⟨3, 1⟩, .ref 2 2 0], [.entity ⟨1, 1⟩, .ref 2 3 1]] ∧
      (QueryAll.new (w.mapV fun n => n % 3) [] [.ref 1] [.ref 0] [] >>= fun q => q.1.slice) =
        .ok (some [.comps 3 0 [0, 2, 1, 2]]))) = true := by decide +kernel

end Sparsey
