import Verif.Proofs.EraseLoop
import Verif.Proofs.Settled
import Mathlib.Data.List.Forall2

/-!
Two component storages that agree on the types in `K`, the second one holding nothing of other types. Every function of
`ComponentStorage` keeps them in agreement when the second storage is given only the part of the arguments with types in `K`.
-/

set_option autoImplicit false
set_option linter.unusedSimpArgs false

namespace Sparsey
variable {V : Type}

theorem CompSet.remove_ne_panic (s : CompSet V) (e : Entity) : s.remove e ≠ .panic := by
  intro h
  have := ComponentStorage.removeEach_ne_panic (e := e) [0] (⟨[], [], [s]⟩ : ComponentStorage V)
  apply this
  simp [ComponentStorage.removeEach, h]

/-- Metadata and groups are the same; the sets of types in `K` and the lengths of their groups agree; `c'` holds nothing
else. -/
structure AgreeOn (K : TypeId → Prop) (B : Nat → Prop) (c c' : ComponentStorage V) : Prop where
  md : c'.metadata = c.metadata
  mds : MetaOK c.groups c.metadata c.components.length
  pos : ∀ t m, c.meta? t = some m → (B m.storageIndex ↔ K t)
  sets : AgreeSets B (c.components, c.groups) (c'.components, c'.groups)

/-- The types that are handed to the second storage: those in `K`, and unregistered ones since they make the call panic. -/
def KeepFor (K : TypeId → Prop) (c : ComponentStorage V) (keep : TypeId → Bool) : Prop :=
  ∀ t, keep t = true ↔ K t ∨ c.meta? t = none

theorem KeepFor.of_md {K : TypeId → Prop} {c c' : ComponentStorage V} {keep : TypeId → Bool} (h : KeepFor K c keep)
    (hm : c'.metadata = c.metadata) : KeepFor K c' keep := by
  intro t
  rw [h t]
  unfold ComponentStorage.meta?
  rw [hm]

namespace AgreeOn
variable {K : TypeId → Prop} {B : Nat → Prop} {c c' : ComponentStorage V}

theorem meta? (h : AgreeOn K B c c') (t : TypeId) : c'.meta? t = c.meta? t := by
  unfold ComponentStorage.meta?
  rw [h.md]

theorem setBoth (h : AgreeOn K B c c') {t : TypeId} {m : ComponentMetadata} (hm : c.meta? t = some m) (hk : K t)
    (s : CompSet V) : AgreeOn K B { c with components := c.components.set m.storageIndex s }
      { c' with components := c'.components.set m.storageIndex s } where
  md := h.md
  mds := by simpa using h.mds
  pos := h.pos
  sets := by
    have hb := (h.pos t m hm).2 hk
    have hs := h.sets
    refine ⟨by simpa using hs.gst, hs.whole, by simpa using hs.len, fun i hi => ?_, fun i x hi hx => ?_, hs.stat, hs.grp⟩
    · have hl := hs.len
      simp only at hl
      simp only [List.getElem?_set, hl]
      split
      · rfl
      · exact hs.same i hi
    · simp only [List.getElem?_set] at hx
      split at hx
      · rename_i he
        subst he
        exact absurd hb hi
      · exact hs.fresh i x hi hx

theorem setLeft (h : AgreeOn K B c c') {t : TypeId} {m : ComponentMetadata} (hm : c.meta? t = some m) (hk : ¬ K t)
    (s : CompSet V) : AgreeOn K B { c with components := c.components.set m.storageIndex s } c' where
  md := h.md
  mds := by simpa using h.mds
  pos := h.pos
  sets := by
    have hb : ¬ B m.storageIndex := fun hc => hk ((h.pos t m hm).1 hc)
    have hs := h.sets
    refine ⟨by simpa using hs.gst, hs.whole, by simpa using hs.len, fun i hi => ?_, hs.fresh, hs.stat, hs.grp⟩
    simp only [List.getElem?_set]
    split
    · rename_i he
      subst he
      exact absurd hi hb
    · exact hs.same i hi

/-- The set of a type in `K` is the same. -/
theorem set_eq (h : AgreeOn K B c c') {t : TypeId} {m : ComponentMetadata} (hm : c.meta? t = some m) (hk : K t) :
    c'.components[m.storageIndex]? = c.components[m.storageIndex]? :=
  h.sets.same _ ((h.pos t m hm).2 hk)

theorem bounds (h : AgreeOn K B c c') : ComponentStorage.SetsBounds (c.components, c.groups) := by
  intro g hg
  obtain ⟨j, hj⟩ := List.getElem?_of_mem hg
  have := h.sets.gst.bounds j g hj
  simp only at this ⊢
  omega

theorem mask_zero (h : AgreeOn K B c c') : AgreeMask B c.groups 0#64 0#64 where
  left j hj := by simp at hj
  right j hj := by simp at hj
  same j g _ _ := rfl

/-- The masks of a type: only bits of existing groups. -/
structure MaskOf (K : TypeId → Prop) (B : Nat → Prop) (c : ComponentStorage V) (f : ComponentMetadata → GroupMask) :
    Prop where
  lt : ∀ t m j, c.meta? t = some m → (f m).getLsbD j = true → j < c.groups.length
  out : ∀ t m, c.meta? t = some m → ¬ K t → ∀ (j : Nat) (g : Group), c.groups[j]? = some g → B g.storageStart →
    (f m).getLsbD j = false

theorem insertMask (h : AgreeOn K B c c') : MaskOf K B c (·.insertMask) where
  lt t m j hm hj := by
    obtain ⟨g, _, _, h1, _⟩ := (h.mds.ins t m j hm).1 hj
    exact (List.getElem?_eq_some_iff.1 h1).1
  out t m hm hk j g hg hb := by
    by_contra hc
    obtain ⟨g1, k', g', h1, h2, h3, h4⟩ := (h.mds.ins t m j hm).1 (by simpa using hc)
    rw [hg] at h1
    cases h1
    rw [← h3] at hb
    exact hk ((h.pos t m hm).1 (h.sets.inB h2 hb _ h4))

theorem deleteMask (h : AgreeOn K B c c') : MaskOf K B c (·.deleteMask) where
  lt t m j hm hj := by
    obtain ⟨g, h1, _⟩ := (h.mds.del t m j hm).1 hj
    exact (List.getElem?_eq_some_iff.1 h1).1
  out t m hm hk j g hg hb := by
    by_contra hc
    obtain ⟨g1, h1, h4⟩ := (h.mds.del t m j hm).1 (by simpa using hc)
    rw [hg] at h1
    cases h1
    exact hk ((h.pos t m hm).1 (h.sets.inB hg hb _ h4))

end AgreeOn

theorem AgreeMask.orBoth {B : Nat → Prop} {gs : List Group} {m m' : BitVec 64} (h : AgreeMask B gs m m') {x : BitVec 64}
    (hx : ∀ j, x.getLsbD j = true → j < gs.length) : AgreeMask B gs (m ||| x) (m' ||| x) where
  left j hj := by
    rw [BitVec.getLsbD_or, Bool.or_eq_true] at hj
    exact hj.elim (h.left j) (hx j)
  right j hj := by
    rw [BitVec.getLsbD_or, Bool.or_eq_true] at hj
    exact hj.elim (h.right j) (hx j)
  same j g hg hb := by rw [BitVec.getLsbD_or, BitVec.getLsbD_or, h.same j g hg hb]

theorem AgreeMask.orLeft {B : Nat → Prop} {gs : List Group} {m m' : BitVec 64} (h : AgreeMask B gs m m') {x : BitVec 64}
    (hx : ∀ j, x.getLsbD j = true → j < gs.length)
    (ho : ∀ (j : Nat) (g : Group), gs[j]? = some g → B g.storageStart → x.getLsbD j = false) :
    AgreeMask B gs (m ||| x) m' where
  left j hj := by
    rw [BitVec.getLsbD_or, Bool.or_eq_true] at hj
    exact hj.elim (h.left j) (hx j)
  right := h.right
  same j g hg hb := by rw [BitVec.getLsbD_or, h.same j g hg hb, ho j g hg hb, Bool.or_false]

/-! ### Simulation -/

/-- Whatever the first computation does (undefined behaviour excepted), the second one does the same, with related results
and states. -/
def Outcome.Sim {σ σ' α α' : Type} (o : Outcome σ α) (o' : Outcome σ' α') (P : σ → σ' → Prop)
    (R : α → α' → σ → σ' → Prop) : Prop :=
  match o with
  | .ok a s => ∃ a' s', o' = .ok a' s' ∧ R a a' s s'
  | .panic s => ∃ s', o' = .panic s' ∧ P s s'
  | .ub => True

/-- As `Outcome.Sim`, for computations without a state. -/
def Res.Sim {α α' : Type} (o : Res α) (o' : Res α') (R : α → α' → Prop) : Prop :=
  match o with
  | .ok a => ∃ a', o' = .ok a' ∧ R a a'
  | .panic => o' = .panic
  | .ub => True

theorem Outcome.Sim.bind {σ σ' α α' β β' : Type} {o : Outcome σ α} {o' : Outcome σ' α'} {P : σ → σ' → Prop}
    {R : α → α' → σ → σ' → Prop} {S : β → β' → σ → σ' → Prop} {f : α → σ → Outcome σ β} {f' : α' → σ' → Outcome σ' β'}
    (h : o.Sim o' P R) (hf : ∀ a a' s s', R a a' s s' → (f a s).Sim (f' a' s') P S) : (o.bind f).Sim (o'.bind f') P S := by
  cases o with
  | ok a s =>
    obtain ⟨a', s', h1, h2⟩ := h
    subst h1
    exact hf a a' s s' h2
  | panic s =>
    obtain ⟨s', h1, h2⟩ := h
    subst h1
    exact ⟨s', rfl, h2⟩
  | ub => trivial

theorem Outcome.Sim.ofRes {σ σ' α α' β β' : Type} {r : Res α} {r' : Res α'} {s : σ} {s' : σ'} {P : σ → σ' → Prop}
    {R : α → α' → Prop} {S : β → β' → σ → σ' → Prop} {f : α → Outcome σ β} {f' : α' → Outcome σ' β'}
    (h : r.Sim r' R) (hp : P s s') (hf : ∀ a a', R a a' → (f a).Sim (f' a') P S) :
    (Outcome.ofRes s r f).Sim (Outcome.ofRes s' r' f') P S := by
  cases r with
  | ok a =>
    obtain ⟨a', h1, h2⟩ := h
    subst h1
    exact hf a a' h2
  | panic =>
    simp only [Res.Sim] at h
    subst h
    exact ⟨s', rfl, hp⟩
  | ub => trivial

theorem Res.Sim.bind {α α' β β' : Type} {o : Res α} {o' : Res α'} {R : α → α' → Prop} {S : β → β' → Prop}
    {f : α → Res β} {f' : α' → Res β'} (h : o.Sim o' R) (hf : ∀ a a', R a a' → (f a).Sim (f' a') S) :
    (o >>= f).Sim (o' >>= f') S := by
  cases o with
  | ok a =>
    obtain ⟨a', h1, h2⟩ := h
    subst h1
    exact hf a a' h2
  | panic =>
    simp only [Res.Sim] at h
    subst h
    rfl
  | ub => trivial

theorem Res.Sim.refl {α : Type} (o : Res α) {R : α → α → Prop} (hR : ∀ a, o = .ok a → R a a) : o.Sim o R := by
  cases o with
  | ok a => exact ⟨a, rfl, hR a rfl⟩
  | panic => rfl
  | ub => trivial

namespace AgreeOn
variable {K : TypeId → Prop} {B : Nat → Prop} {c c' : ComponentStorage V} {keep : TypeId → Bool}

theorem of_sets (h : AgreeOn K B c c') {r r' : Sets V} (hs : SetsShape (c.components, c.groups) r)
    (hr : AgreeSets B r r') : AgreeOn K B { c with components := r.1, groups := r.2 }
      { c' with components := r'.1, groups := r'.2 } where
  md := h.md
  mds := by
    have := hs.1
    simp only at this ⊢
    rw [this]
    exact h.mds.of_same hs.2
  pos := h.pos
  sets := hr

theorem withMask (h : AgreeOn K B c c') {m m' : GroupMask} {f f' : Sets V → Res (Sets V)}
    (hnp : ∀ s, ComponentStorage.SetsBounds s → f s ≠ .panic) (hsh : ∀ s r, f s = .ok r → SetsShape s r)
    (h0 : m = 0#64 → ∀ s, f s = .ok s) (h0' : m' = 0#64 → ∀ s, f' s = .ok s)
    (hf : ∀ r, f (c.components, c.groups) = .ok r → ∃ r', f' (c'.components, c'.groups) = .ok r' ∧ AgreeSets B r r') :
    (c.withMask m f).Sim (c'.withMask m' f') (AgreeOn K B) := by
  have e1 : c.withMask m f = (f (c.components, c.groups) >>= fun p => .ok { c with components := p.1, groups := p.2 }) := by
    unfold ComponentStorage.withMask
    split
    · rename_i hm
      rw [h0 hm]
      rfl
    · rfl
  have e2 : c'.withMask m' f' =
      (f' (c'.components, c'.groups) >>= fun p => .ok { c' with components := p.1, groups := p.2 }) := by
    unfold ComponentStorage.withMask
    split
    · rename_i hm
      rw [h0' hm]
      rfl
    · rfl
  rw [e1, e2]
  cases hr : f (c.components, c.groups) with
  | ub => trivial
  | panic => exact absurd hr (hnp _ h.bounds)
  | ok r =>
    obtain ⟨r', h1, h2⟩ := hf r hr
    rw [h1]
    exact ⟨_, rfl, h.of_sets (hsh _ _ hr) h2⟩

theorem groupLoop_zero (e : Entity) (s : Sets V) : group s 0#64 e = .ok s := by
  unfold group groupLoop
  rw [bitNext_none.2 rfl]

theorem ungroupLoop_zero (e : Entity) (s : Sets V) : ungroup s 0#64 e = .ok s := by
  unfold ungroup ungroupLoop
  rw [bitNextBack_none.2 rfl]

theorem groupEntities_zero : ∀ (es : List Entity) (s : Sets V), ComponentStorage.groupEntities 0#64 es s = .ok s
  | [], _ => rfl
  | e :: es, s => by rw [ComponentStorage.groupEntities, groupLoop_zero, Res.bind_ok, groupEntities_zero es s]

theorem group (h : AgreeOn K B c c') {m m' : GroupMask} (hm : AgreeMask B c.groups m m') (e : Entity) :
    (c.withMask m (Sparsey.group · m e)).Sim (c'.withMask m' (Sparsey.group · m' e)) (AgreeOn K B) :=
  h.withMask (fun _ hs => ComponentStorage.groupLoop_np _ _ _ hs) (fun _ _ hr => groupLoop_shape _ _ _ _ hr)
    (fun h0 s => by rw [h0]; exact groupLoop_zero e s) (fun h0 s => by rw [h0]; exact groupLoop_zero e s)
    (fun _ hr => h.sets.group hm hr)

theorem groupEntities (h : AgreeOn K B c c') {m m' : GroupMask} (hm : AgreeMask B c.groups m m') (es : List Entity) :
    (c.withMask m (ComponentStorage.groupEntities m es)).Sim (c'.withMask m' (ComponentStorage.groupEntities m' es))
      (AgreeOn K B) :=
  h.withMask (fun _ hs => ComponentStorage.groupEntities_np _ _ hs) (fun _ _ hr => ComponentStorage.groupEntities_shape _ _ _ hr)
    (fun h0 s => by rw [h0]; exact groupEntities_zero es s) (fun h0 s => by rw [h0]; exact groupEntities_zero es s)
    (fun _ hr => h.sets.groupEntities es hm hr)

theorem ungroup (h : AgreeOn K B c c') {m m' : GroupMask} (hm : AgreeMask B c.groups m m') (e : Entity) :
    (c.withMask m (Sparsey.ungroup · m e)).Sim (c'.withMask m' (Sparsey.ungroup · m' e)) (AgreeOn K B) :=
  h.withMask (fun _ hs => ComponentStorage.ungroupLoop_np _ _ _ hs) (fun _ _ hr => ungroupLoop_shape _ _ _ _ hr)
    (fun h0 s => by rw [h0]; exact ungroupLoop_zero e s) (fun h0 s => by rw [h0]; exact ungroupLoop_zero e s)
    (fun _ hr => h.sets.ungroup hm hr)

theorem insertEach {e : Entity} : ∀ (vs : List (TypeId × V)) {m m' : GroupMask} {c c' : ComponentStorage V},
    AgreeOn K B c c' → KeepFor K c keep → AgreeMask B c.groups m m' →
    (ComponentStorage.insertEach e vs m c).Sim
      (ComponentStorage.insertEach e (vs.filter fun p => keep p.1) m' c') (AgreeOn K B)
      (fun k k' c c' => AgreeOn K B c c' ∧ AgreeMask B c.groups k k')
  | [], m, m', c, c', h, _, hm => ⟨m', c', rfl, h, hm⟩
  | (t, v) :: vs, m, m', c, c', h, hk, hm => by
    rw [ComponentStorage.insertEach]
    cases ht : c.meta? t with
    | none =>
      rw [List.filter_cons_of_pos (by simpa using (hk t).2 (.inr ht)), ComponentStorage.insertEach, h.meta?, ht]
      exact ⟨c', rfl, h⟩
    | some md =>
      simp only
      by_cases hKt : K t
      · rw [List.filter_cons_of_pos (by simpa using (hk t).2 (.inl hKt)), ComponentStorage.insertEach, h.meta?, ht]
        simp only [h.set_eq ht hKt]
        refine Outcome.Sim.ofRes (Res.Sim.refl _ (R := Eq) fun _ _ => rfl) h ?_
        rintro s _ rfl
        refine Outcome.Sim.ofRes (Res.Sim.refl _ (R := Eq) fun _ _ => rfl) h ?_
        rintro ⟨o, s1⟩ _ rfl
        exact insertEach vs (h.setBoth ht hKt s1) (hk.of_md rfl) (hm.orBoth fun j hj => h.insertMask.lt t md j ht hj)
      · have hkt : keep t = false := by
          by_contra hc
          rcases (hk t).1 (by simpa using hc) with h1 | h1
          · exact hKt h1
          · rw [ht] at h1; cases h1
        rw [List.filter_cons_of_neg (by simpa using hkt)]
        cases hs : c.components[md.storageIndex]? with
        | none => trivial
        | some s =>
          simp only [Res.unchecked_some, Outcome.ofRes_ok]
          cases hi : s.insert e v with
          | ub => trivial
          | panic => exact absurd hi (CompSet.insert_ne_panic s e v)
          | ok p =>
            simp only [Outcome.ofRes_ok]
            exact insertEach vs (h.setLeft ht hKt p.2) (hk.of_md rfl)
              (hm.orLeft (fun j hj => h.insertMask.lt t md j ht hj) (h.insertMask.out t md ht hKt))

theorem insert (h : AgreeOn K B c c') (hk : KeepFor K c keep) (e : Entity) (vs : List (TypeId × V)) :
    (c.insert e vs).Sim (c'.insert e (vs.filter fun p => keep p.1)) (AgreeOn K B) (fun _ _ => AgreeOn K B) := by
  unfold ComponentStorage.insert
  refine Outcome.Sim.bind (insertEach vs h hk h.mask_zero) ?_
  intro m m' c1 c1' h1
  exact Outcome.Sim.ofRes (h1.1.group h1.2 e) h1.1 fun a a' ha => ⟨(), a', rfl, ha⟩

/-! ### Lookup, removal and deletion -/

theorem lookupAll (h : AgreeOn K B c c') (hk : KeepFor K c keep) {f : ComponentMetadata → GroupMask} (hf : MaskOf K B c f) :
    ∀ (ts : List TypeId), (c.lookupAll f ts).Sim (c'.lookupAll f (ts.filter keep)) fun p p' =>
      p.1 = ts.map c.idxOf ∧ p'.1 = (ts.filter keep).map c.idxOf ∧ AgreeMask B c.groups p.2 p'.2 ∧
      ∀ t ∈ ts, (c.meta? t).isSome
  | [] => ⟨([], 0#64), rfl, rfl, rfl, h.mask_zero, by simp⟩
  | t :: ts => by
    have ih := lookupAll h hk hf ts
    rw [ComponentStorage.lookupAll]
    cases ht : c.meta? t with
    | none =>
      rw [List.filter_cons_of_pos ((hk t).2 (.inr ht)), ComponentStorage.lookupAll, h.meta?, ht]
      rfl
    | some md =>
      simp only
      have hlt := h.mds.idx t md ht
      by_cases hKt : K t
      · rw [List.filter_cons_of_pos ((hk t).2 (.inl hKt)), ComponentStorage.lookupAll, h.meta?, ht]
        simp only [h.set_eq ht hKt]
        refine Res.Sim.bind ih ?_
        rintro ⟨i, m⟩ ⟨i', m'⟩ ⟨h1, h2, h3, h4⟩
        rw [List.getElem?_eq_getElem hlt]
        refine ⟨(md.storageIndex :: i', f md ||| m'), rfl, ?_, ?_, ?_, ?_⟩
        · simp only at h1
          simp [h1, c.idxOf_eq ht]
        · simp only at h2
          simp [h2, c.idxOf_eq ht]
        · simp only [BitVec.or_comm (f md)]
          exact h3.orBoth fun j hj => hf.lt t md j ht hj
        · simp [ht]; exact h4
      · have hkt : keep t = false := by
          by_contra hc
          rcases (hk t).1 (by simpa using hc) with h1 | h1
          · exact hKt h1
          · rw [ht] at h1; cases h1
        rw [List.filter_cons_of_neg (by simp [hkt])]
        cases hl : c.lookupAll f ts with
        | ub => trivial
        | panic =>
          rw [hl] at ih
          exact ih
        | ok p =>
          rw [hl] at ih
          obtain ⟨p', h0, h1, h2, h3, h4⟩ := ih
          simp only [Res.bind_ok]
          rw [List.getElem?_eq_getElem hlt]
          refine ⟨p', h0, ?_, h2, ?_, ?_⟩
          · simp [h1, c.idxOf_eq ht]
          · simp only [BitVec.or_comm (f md)]
            exact h3.orLeft (fun j hj => hf.lt t md j ht hj) (hf.out t md ht hKt)
          · simp [ht]; exact h4

/-- What `keep` does to registered types. -/
theorem keep_iff (hk : KeepFor K c keep) {t : TypeId} (ht : (c.meta? t).isSome) : keep t = true ↔ K t := by
  rw [hk t]
  constructor
  · rintro (h | h)
    · exact h
    · rw [h] at ht; cases ht
  · exact .inl

theorem removeEach {e : Entity} : ∀ (ts : List TypeId) {c c' : ComponentStorage V}, AgreeOn K B c c' → KeepFor K c keep →
    (∀ t ∈ ts, (c.meta? t).isSome) →
    (ComponentStorage.removeEach e (ts.map c.idxOf) c).Sim
      (ComponentStorage.removeEach e ((ts.filter keep).map c.idxOf) c') fun p p' =>
        AgreeOn K B p.2 p'.2 ∧ p.1.length = ts.length ∧ p'.1 = ((ts.zip p.1).filter fun q => keep q.1).map (·.2)
  | [], c, c', h, _, _ => ⟨([], c'), rfl, h, rfl, rfl⟩
  | t :: ts, c, c', h, hk, hr => by
    obtain ⟨md, ht⟩ := Option.isSome_iff_exists.1 (hr t (.head _))
    rw [List.map_cons, c.idxOf_eq ht, ComponentStorage.removeEach]
    by_cases hKt : K t
    · have hkt := (hk t).2 (.inl hKt)
      rw [List.filter_cons_of_pos hkt, List.map_cons, c.idxOf_eq ht, ComponentStorage.removeEach,
        h.set_eq ht hKt]
      refine Res.Sim.bind (Res.Sim.refl _ (R := Eq) fun _ _ => rfl) ?_
      rintro s _ rfl
      refine Res.Sim.bind (Res.Sim.refl _ (R := Eq) fun _ _ => rfl) ?_
      rintro ⟨o, s1⟩ _ rfl
      have ih := removeEach (e := e) ts (h.setBoth ht hKt s1) (hk.of_md rfl) (fun x hx => hr x (.tail _ hx))
      rw [ComponentStorage.idxOf_same (c := c)
        (c' := { c with components := c.components.set md.storageIndex s1 }) rfl] at ih
      refine Res.Sim.bind ih ?_
      rintro ⟨vs, c1⟩ ⟨vs', c1'⟩ ⟨h1, h2, h3⟩
      refine ⟨_, rfl, h1, by simp [h2], ?_⟩
      simp only at h3
      simp [hkt, h3]
    · have hkt : keep t = false := by
        by_contra hc
        exact hKt ((keep_iff hk (hr t (.head _))).1 (by simpa using hc))
      rw [List.filter_cons_of_neg (by simp [hkt])]
      cases hs : c.components[md.storageIndex]? with
      | none => trivial
      | some s =>
        simp only [Res.unchecked_some, Res.bind_ok]
        cases hi : s.remove e with
        | ub => trivial
        | panic => exact absurd hi (CompSet.remove_ne_panic s e)
        | ok p =>
          simp only [Res.bind_ok]
          have ih := removeEach (e := e) ts (h.setLeft ht hKt p.2) (hk.of_md rfl) (fun x hx => hr x (.tail _ hx))
          rw [ComponentStorage.idxOf_same (c := c)
            (c' := { c with components := c.components.set md.storageIndex p.2 }) rfl] at ih
          cases hq : ComponentStorage.removeEach e (ts.map c.idxOf)
              { c with components := c.components.set md.storageIndex p.2 } with
          | ub => trivial
          | panic => rw [hq] at ih; exact ih
          | ok q =>
            rw [hq] at ih
            obtain ⟨q', h0, h1, h2, h3⟩ := ih
            exact ⟨q', h0, h1, by simp [h2], by simp [hkt, h3]⟩

theorem deleteEach {e : Entity} : ∀ (ts : List TypeId) {c c' : ComponentStorage V}, AgreeOn K B c c' → KeepFor K c keep →
    (∀ t ∈ ts, (c.meta? t).isSome) →
    (ComponentStorage.deleteEach e (ts.map c.idxOf) c).Sim
      (ComponentStorage.deleteEach e ((ts.filter keep).map c.idxOf) c') (AgreeOn K B)
  | [], c, c', h, _, _ => ⟨c', rfl, h⟩
  | t :: ts, c, c', h, hk, hr => by
    obtain ⟨md, ht⟩ := Option.isSome_iff_exists.1 (hr t (.head _))
    rw [List.map_cons, c.idxOf_eq ht, ComponentStorage.deleteEach]
    by_cases hKt : K t
    · have hkt := (hk t).2 (.inl hKt)
      rw [List.filter_cons_of_pos hkt, List.map_cons, c.idxOf_eq ht, ComponentStorage.deleteEach,
        h.set_eq ht hKt]
      refine Res.Sim.bind (Res.Sim.refl _ (R := Eq) fun _ _ => rfl) ?_
      rintro s _ rfl
      refine Res.Sim.bind (Res.Sim.refl _ (R := Eq) fun _ _ => rfl) ?_
      rintro s1 _ rfl
      have ih := deleteEach (e := e) ts (h.setBoth ht hKt s1) (hk.of_md rfl) (fun x hx => hr x (.tail _ hx))
      rw [ComponentStorage.idxOf_same (c := c)
        (c' := { c with components := c.components.set md.storageIndex s1 }) rfl] at ih
      exact ih
    · have hkt : keep t = false := by
        by_contra hc
        exact hKt ((keep_iff hk (hr t (.head _))).1 (by simpa using hc))
      rw [List.filter_cons_of_neg (by simp [hkt])]
      cases hs : c.components[md.storageIndex]? with
      | none => trivial
      | some s =>
        simp only [Res.unchecked_some, Res.bind_ok]
        cases hi : s.delete e with
        | ub => trivial
        | panic => exact absurd hi (ComponentStorage.delete_ne_panic s e)
        | ok s1 =>
          simp only [Res.bind_ok]
          have ih := deleteEach (e := e) ts (h.setLeft ht hKt s1) (hk.of_md rfl) (fun x hx => hr x (.tail _ hx))
          rw [ComponentStorage.idxOf_same (c := c)
            (c' := { c with components := c.components.set md.storageIndex s1 }) rfl] at ih
          exact ih

theorem shape_keep {f : Sets V → Res (Sets V)} (hk : KeepFor K c keep) {m : GroupMask} {c1 : ComponentStorage V}
    (hf : ∀ s s', f s = .ok s' → SetsShape s s') (h : c.withMask m f = .ok c1) :
    KeepFor K c1 keep ∧ c1.idxOf = c.idxOf ∧ ∀ t, c1.meta? t = c.meta? t := by
  have hs := ComponentStorage.withMask_shape hf h
  exact ⟨hk.of_md hs.md, ComponentStorage.idxOf_same hs.md, hs.meta?⟩

theorem remove (h : AgreeOn K B c c') (hk : KeepFor K c keep) (e : Entity) (ts : List TypeId) :
    (c.remove e ts).Sim (c'.remove e (ts.filter keep)) fun p p' =>
      AgreeOn K B p.2 p'.2 ∧ p.1.length = ts.length ∧ p'.1 = ((ts.zip p.1).filter fun q => keep q.1).map (·.2) := by
  unfold ComponentStorage.remove
  refine Res.Sim.bind (h.lookupAll hk h.deleteMask ts) ?_
  rintro ⟨i, m⟩ ⟨i', m'⟩ ⟨h1, h2, h3, h4⟩
  simp only at h1 h2 h3 ⊢
  subst h1 h2
  have hu := h.ungroup h3 e
  cases hw : c.withMask m (Sparsey.ungroup · m e) with
  | ub => trivial
  | panic =>
    rw [hw] at hu
    simp only [Res.Sim] at hu
    rw [hu]
    rfl
  | ok c1 =>
    rw [hw] at hu
    obtain ⟨c1', h5, h6⟩ := hu
    rw [h5, Res.bind_ok, Res.bind_ok]
    obtain ⟨k1, k2, k3⟩ := shape_keep hk (fun _ _ hr => ungroupLoop_shape _ _ _ _ hr) hw
    rw [← k2]
    exact removeEach ts h6 k1 fun t ht => by rw [k3]; exact h4 t ht

theorem delete (h : AgreeOn K B c c') (hk : KeepFor K c keep) (e : Entity) (ts : List TypeId) :
    (c.delete e ts).Sim (c'.delete e (ts.filter keep)) (AgreeOn K B) := by
  unfold ComponentStorage.delete
  refine Res.Sim.bind (h.lookupAll hk h.deleteMask ts) ?_
  rintro ⟨i, m⟩ ⟨i', m'⟩ ⟨h1, h2, h3, h4⟩
  simp only at h1 h2 h3 ⊢
  subst h1 h2
  have hu := h.ungroup h3 e
  cases hw : c.withMask m (Sparsey.ungroup · m e) with
  | ub => trivial
  | panic =>
    rw [hw] at hu
    simp only [Res.Sim] at hu
    rw [hu]
    rfl
  | ok c1 =>
    rw [hw] at hu
    obtain ⟨c1', h5, h6⟩ := hu
    rw [h5, Res.bind_ok, Res.bind_ok]
    obtain ⟨k1, k2, k3⟩ := shape_keep hk (fun _ _ hr => ungroupLoop_shape _ _ _ _ hr) hw
    rw [← k2]
    exact deleteEach ts h6 k1 fun t ht => by rw [k3]; exact h4 t ht

/-! ### `extend` -/

theorem insertAt {e : Entity} : ∀ (l : List (TypeId × V)) {c c' : ComponentStorage V}, AgreeOn K B c c' → KeepFor K c keep →
    (∀ p ∈ l, (c.meta? p.1).isSome) →
    (ComponentStorage.insertAt e (l.map fun p => (c.idxOf p.1, p.2)) c).Sim
      (ComponentStorage.insertAt e ((l.filter fun p => keep p.1).map fun p => (c.idxOf p.1, p.2)) c') (AgreeOn K B)
  | [], c, c', h, _, _ => ⟨c', rfl, h⟩
  | (t, v) :: l, c, c', h, hk, hr => by
    obtain ⟨md, ht⟩ := Option.isSome_iff_exists.1 (hr (t, v) (.head _))
    simp only at ht
    rw [List.map_cons]
    simp only [c.idxOf_eq ht]
    rw [ComponentStorage.insertAt]
    by_cases hKt : K t
    · have hkt := (hk t).2 (.inl hKt)
      rw [List.filter_cons_of_pos (by simpa using hkt), List.map_cons]
      simp only [c.idxOf_eq ht]
      rw [ComponentStorage.insertAt, h.set_eq ht hKt]
      refine Res.Sim.bind (Res.Sim.refl _ (R := Eq) fun _ _ => rfl) ?_
      rintro s _ rfl
      refine Res.Sim.bind (Res.Sim.refl _ (R := Eq) fun _ _ => rfl) ?_
      rintro ⟨o, s1⟩ _ rfl
      have ih := insertAt (e := e) l (h.setBoth ht hKt s1) (hk.of_md rfl) (fun x hx => hr x (.tail _ hx))
      rw [ComponentStorage.idxOf_same (c := c)
        (c' := { c with components := c.components.set md.storageIndex s1 }) rfl] at ih
      exact ih
    · have hkt : keep t = false := by
        by_contra hc
        exact hKt ((keep_iff hk (by rw [ht]; rfl)).1 (by simpa using hc))
      rw [List.filter_cons_of_neg (by simp [hkt])]
      cases hs : c.components[md.storageIndex]? with
      | none => trivial
      | some s =>
        simp only [Res.unchecked_some, Res.bind_ok]
        cases hi : s.insert e v with
        | ub => trivial
        | panic => exact absurd hi (CompSet.insert_ne_panic s e v)
        | ok p =>
          simp only [Res.bind_ok]
          have ih := insertAt (e := e) l (h.setLeft ht hKt p.2) (hk.of_md rfl) (fun x hx => hr x (.tail _ hx))
          rw [ComponentStorage.idxOf_same (c := c)
            (c' := { c with components := c.components.set md.storageIndex p.2 }) rfl] at ih
          exact ih

/-! ### All types at once -/

theorem deleteAll_getElem {e : Entity} : ∀ {l l' : List (CompSet V)}, ComponentStorage.deleteAll e l = .ok l' → ∀ (i : Nat),
    l'[i]? = none ∧ l[i]? = none ∨ ∃ s s', l[i]? = some s ∧ l'[i]? = some s' ∧ s.delete e = .ok s'
  | [], l', h, i => by cases h; left; simp
  | s :: ss, l', h, i => by
    obtain ⟨s', h1, h⟩ := Res.bind_ok' h
    obtain ⟨ss', h2, h⟩ := Res.bind_ok' h
    cases h
    cases i with
    | zero => right; exact ⟨s, s', rfl, rfl, h1⟩
    | succ i => simpa using deleteAll_getElem h2 i

theorem deleteAll_total {e : Entity} : ∀ (l : List (CompSet V)), (∀ s ∈ l, ∃ s', s.delete e = .ok s') →
    ∃ l', ComponentStorage.deleteAll e l = .ok l'
  | [], _ => ⟨[], rfl⟩
  | s :: ss, h => by
    obtain ⟨s', h1⟩ := h s (.head _)
    obtain ⟨ss', h2⟩ := deleteAll_total ss fun x hx => h x (.tail _ hx)
    exact ⟨s' :: ss', by rw [ComponentStorage.deleteAll, h1, Res.bind_ok, h2]; rfl⟩

theorem new_delete (e : Entity) : (CompSet.new : CompSet V).delete e = .ok CompSet.new := by
  simp [CompSet.delete, CompSet.new, SparseVec.remove, SparseVec.new]

theorem _root_.Sparsey.AgreeSets.deleteAll {s s' : Sets V} (h : AgreeSets B s s') {e : Entity} {l : List (CompSet V)}
    (hr : ComponentStorage.deleteAll e s.1 = .ok l) :
    ∃ l', ComponentStorage.deleteAll e s'.1 = .ok l' ∧ AgreeSets B (l, s.2) (l', s'.2) := by
  obtain ⟨l', hl'⟩ := deleteAll_total (e := e) s'.1 (by
    intro x hx
    obtain ⟨i, hi⟩ := List.getElem?_of_mem hx
    by_cases hb : B i
    · rw [h.same i hb] at hi
      rcases deleteAll_getElem hr i with h1 | ⟨y, y', h1, h2, h3⟩
      · rw [h1.2] at hi; cases hi
      · rw [hi] at h1
        cases h1
        exact ⟨y', h3⟩
    · rw [h.fresh i x hb hi]
      exact ⟨_, new_delete e⟩)
  have n1 := ComponentStorage.deleteAll_length _ _ hr
  have n2 := ComponentStorage.deleteAll_length _ _ hl'
  refine ⟨l', hl', by simpa [n1] using h.gst, h.whole, by simp [n1, n2, h.len], fun i hi => ?_, fun i x hi hx => ?_, h.stat,
    h.grp⟩
  · have hs := h.same i hi
    rcases deleteAll_getElem hr i with h1 | ⟨y, y', h1, h2, h3⟩
    · rcases deleteAll_getElem hl' i with i1 | ⟨z, z', i1, i2, i3⟩
      · simp only
        rw [h1.1, i1.1]
      · rw [hs, h1.2] at i1
        cases i1
    · rcases deleteAll_getElem hl' i with i1 | ⟨z, z', i1, i2, i3⟩
      · rw [hs, h1] at i1
        cases i1.2
      · rw [hs, h1] at i1
        cases i1
        rw [h3] at i3
        cases i3
        simp only
        rw [h2, i2]
  · rcases deleteAll_getElem hl' i with i1 | ⟨z, z', i1, i2, i3⟩
    · simp only at hx
      rw [i1.1] at hx
      cases hx
    · have := h.fresh i z hi i1
      subst this
      rw [new_delete] at i3
      cases i3
      simp only at hx
      rw [i2] at hx
      cases hx
      rfl

theorem strip (h : AgreeOn K B c c') {e : Entity} {c1 : ComponentStorage V} (hr : c.strip e = .ok c1) :
    ∃ c1', c'.strip e = .ok c1' ∧ AgreeOn K B c1 c1' := by
  have hsh := ComponentStorage.strip_shape hr
  unfold ComponentStorage.strip at hr ⊢
  obtain ⟨⟨l, gs⟩, h1, hr⟩ := Res.bind_ok' hr
  obtain ⟨l2, h2, hr⟩ := Res.bind_ok' hr
  cases hr
  obtain ⟨⟨l', gs'⟩, h3, h4⟩ := h.sets.ungroupAll h1
  obtain ⟨l2', h5, h6⟩ := h4.deleteAll h2
  simp only at h5
  rw [h3]
  simp only [Res.bind_ok, h5]
  refine ⟨_, rfl, h.md, ?_, h.pos, h6⟩
  have := hsh.len
  simp only at this ⊢
  rw [this]
  exact h.mds.of_same hsh.stat

theorem clear (h : AgreeOn K B c c') : AgreeOn K B c.clear c'.clear where
  md := h.md
  mds := by
    have hs := ComponentStorage.clear_shape c
    have := hs.len
    rw [this]
    exact h.mds.of_same hs.stat
  pos := h.pos
  sets := by
    have hs := ComponentStorage.clear_shape c
    have hs' := ComponentStorage.clear_shape c'
    refine ⟨?_, ?_, ?_, ?_, ?_, ?_, ?_⟩
    · have := hs.len
      simp only at this ⊢
      rw [this]
      exact h.sets.gst.of_same hs.stat
    · intro k gk hk i i' hi hi' hbi
      obtain ⟨g', h3, h4⟩ := hs.stat.get hk
      exact h.sets.whole k g' h3 i i' ((InRange.stat h4 i).1 hi) ((InRange.stat h4 i').1 hi') hbi
    · have := h.sets.len
      simpa [ComponentStorage.clear] using this
    · intro i hi
      have := h.sets.same i hi
      simp only at this
      simp [ComponentStorage.clear, this]
    · intro i x hi hx
      simp only [ComponentStorage.clear, List.getElem?_map, Option.map_eq_some_iff] at hx
      obtain ⟨y, hy, hx⟩ := hx
      have := h.sets.fresh i y hi hy
      subst this
      rw [← hx]
      rfl
    · exact (hs.stat.symm.trans h.sets.stat).trans hs'.stat
    · intro j g hg hb
      simp only [ComponentStorage.clear, List.getElem?_map, Option.map_eq_some_iff] at hg ⊢
      obtain ⟨g0, hg0, rfl⟩ := hg
      exact ⟨g0, h.sets.grp j g0 hg0 hb, rfl⟩

end AgreeOn
end Sparsey
