import Verif.Spec.Alias
import Verif.Proofs.Query
import Verif.Proofs.AllSets

/-!
Lemmas about borrows and about the places that queries hand out.
-/

set_option autoImplicit false
set_option linter.unusedSimpArgs false

namespace Sparsey
variable {V : Type}

/-! ### Borrows -/

theorem Compatible.symm {α : Type} {a b : α × Bool} (h : a.1 = b.1 → a.2 = false ∧ b.2 = false) :
    b.1 = a.1 → b.2 = false ∧ a.2 = false := fun he => (h he.symm).symm

theorem Compatible.perm {α : Type} {l l' : List (α × Bool)} (hp : l.Perm l') : Compatible l ↔ Compatible l' :=
  hp.pairwise_iff (fun h => Compatible.symm h)

theorem Compatible.of_append {α : Type} {l l' : List (α × Bool)} (h : Compatible (l ++ l')) :
    Compatible l ∧ Compatible l' :=
  ⟨(List.pairwise_append.1 h).1, (List.pairwise_append.1 h).2.1⟩

/-- Renaming by an injective function. -/
theorem Compatible.map_iff {α β : Type} {f : α → β} {l : List (α × Bool)}
    (hf : ∀ a ∈ l, ∀ b ∈ l, f a.1 = f b.1 → a.1 = b.1) :
    Compatible (l.map fun p => (f p.1, p.2)) ↔ Compatible l := by
  unfold Compatible
  rw [List.pairwise_map]
  constructor
  · intro h
    exact h.imp fun {a b} hab he => hab (by rw [he])
  · intro h
    refine h.imp_of_mem fun {a b} ha hb hab he => hab (hf a ha b hb he)

/-- `AtomicRefCell`: a borrow succeeds exactly if the borrows held stay compatible. -/
theorem borrow_iff {b : Borrows} (hb : Compatible b) (x : Bool) (idx : Nat) :
    (Compatible ((idx, x) :: b) ∧
      (if x then borrowExclusive b idx else borrowShared b idx) = .ok ((idx, x) :: b)) ∨
    (¬ Compatible ((idx, x) :: b) ∧ (if x then borrowExclusive b idx else borrowShared b idx) = .panic) := by
  have hiff : Compatible ((idx, x) :: b) ↔ ∀ p ∈ b, idx = p.1 → x = false ∧ p.2 = false := by
    unfold Compatible at hb ⊢
    rw [List.pairwise_cons]
    exact ⟨fun h => h.1, fun h => ⟨h, hb⟩⟩
  rw [hiff]
  cases x with
  | true =>
    simp only [if_true, borrowExclusive]
    by_cases ha : b.any (fun p => p.1 == idx) = true
    · right
      rw [if_pos ha]
      refine ⟨fun h => ?_, rfl⟩
      obtain ⟨p, hp, hpi⟩ := List.any_eq_true.1 ha
      have := (h p hp (by simpa using (beq_iff_eq.1 hpi).symm)).1
      cases this
    · left
      rw [if_neg ha]
      refine ⟨fun p hp hi => ?_, rfl⟩
      exact absurd (List.any_eq_true.2 ⟨p, hp, by simpa using hi.symm⟩) ha
  | false =>
    simp only [Bool.false_eq_true, if_false, borrowShared]
    by_cases ha : b.any (fun p => p.1 == idx && p.2) = true
    · right
      rw [if_pos ha]
      refine ⟨fun h => ?_, rfl⟩
      obtain ⟨p, hp, hpi⟩ := List.any_eq_true.1 ha
      simp only [Bool.and_eq_true, beq_iff_eq] at hpi
      have := (h p hp hpi.1.symm).2
      rw [this] at hpi
      exact absurd hpi.2 (by simp)
    · left
      rw [if_neg ha]
      refine ⟨fun p hp hi => ⟨trivial, ?_⟩, rfl⟩
      by_contra hc
      exact ha (List.any_eq_true.2 ⟨p, hp, by simpa [hi.symm] using hc⟩)

/-- The position of the set of a type. -/
def ComponentStorage.setIdx? (c : ComponentStorage V) (t : TypeId) : Option Nat := (c.meta? t).map (·.storageIndex)

/-- The borrows held are those to the sets of the types. -/
def BorrowsOf (c : ComponentStorage V) (b : Borrows) (ts : List (TypeId × Bool)) : Prop :=
  (b.map fun p => (some p.1, p.2)).Perm (ts.map fun p => (c.setIdx? p.1, p.2))

theorem BorrowsOf.nil (c : ComponentStorage V) : BorrowsOf c [] [] := .refl _

theorem BorrowsOf.registered {c : ComponentStorage V} {b : Borrows} {ts : List (TypeId × Bool)} (h : BorrowsOf c b ts) :
    ∀ p ∈ ts, (c.meta? p.1).isSome := by
  intro p hp
  have : (c.setIdx? p.1, p.2) ∈ b.map fun p => (some p.1, p.2) := h.mem_iff.2 (List.mem_map.2 ⟨p, hp, rfl⟩)
  obtain ⟨q, _, hq⟩ := List.mem_map.1 this
  simp only [Prod.mk.injEq, ComponentStorage.setIdx?] at hq
  cases hm : c.meta? p.1 with
  | none => simp [hm] at hq
  | some m => rfl

/-- Borrows are compatible exactly if the accesses to types are. -/
theorem BorrowsOf.compatible_iff {c : ComponentStorage V} (hc : Static c) {b : Borrows} {ts : List (TypeId × Bool)}
    (h : BorrowsOf c b ts) : Compatible b ↔ Compatible ts := by
  rw [← Compatible.map_iff (f := (some : Nat → Option Nat)) (l := b) (by simp), Compatible.perm h]
  refine Compatible.map_iff (f := c.setIdx?) fun p hp q hq he => ?_
  have h1 := h.registered p hp
  have h2 := h.registered q hq
  simp only [ComponentStorage.setIdx?] at he
  cases hm : c.meta? p.1 with
  | none => rw [hm] at h1; cases h1
  | some m =>
    cases hm' : c.meta? q.1 with
    | none => rw [hm'] at h2; cases h2
    | some m' =>
      rw [hm, hm'] at he
      exact hc.inj _ _ m m' hm hm' (by simpa using he)

/-- Adding one borrow. -/
theorem BorrowsOf.cons {c : ComponentStorage V} {b : Borrows} {ts : List (TypeId × Bool)} (h : BorrowsOf c b ts)
    {t : TypeId} {m : ComponentMetadata} (hm : c.meta? t = some m) (x : Bool) :
    BorrowsOf c ((m.storageIndex, x) :: b) ((t, x) :: ts) := by
  unfold BorrowsOf
  simp only [List.map_cons, ComponentStorage.setIdx?, hm, Option.map_some]
  exact List.Perm.cons _ h

theorem borrowSet_cases {c : ComponentStorage V} (hc : Static c) {b : Borrows} {ts : List (TypeId × Bool)}
    (hb : Compatible b) (h : BorrowsOf c b ts) (x : Bool) (t : TypeId) :
    ((c.meta? t).isSome ∧ Compatible ((t, x) :: ts) ∧ ∃ idx s i, borrowSet c b x t = .ok (idx, s, i, (idx, x) :: b) ∧
      BorrowsOf c ((idx, x) :: b) ((t, x) :: ts) ∧ Compatible ((idx, x) :: b)) ∨
    (¬ ((c.meta? t).isSome ∧ Compatible ((t, x) :: ts)) ∧ borrowSet c b x t = .panic) := by
  unfold borrowSet
  cases hm : c.meta? t with
  | none => right; exact ⟨by simp, rfl⟩
  | some m =>
    have hi := hc.idx t m hm
    have hcons := h.cons hm x
    have hiff := hcons.compatible_iff hc
    simp only [List.getElem?_eq_getElem hi, Res.unchecked_some, Res.bind_ok]
    rcases borrow_iff hb x m.storageIndex with ⟨h1, h2⟩ | ⟨h1, h2⟩
    · left
      refine ⟨rfl, hiff.1 h1, m.storageIndex, c.components[m.storageIndex], m.groupInfo, ?_, hcons, h1⟩
      cases x <;> simp only [if_true, if_false, Bool.false_eq_true] at h2 ⊢ <;> rw [h2] <;> rfl
    · right
      refine ⟨fun hc => h1 (hiff.2 hc.2), ?_⟩
      cases x <;> simp only [if_true, if_false, Bool.false_eq_true] at h2 ⊢ <;> rw [h2] <;> rfl

/-- `held`: the borrow behind a view. -/
def PartView.held : PartView V → Option (Nat × Bool)
  | .entity => none
  | .req x idx _ => some (idx, x)
  | .opt x idx _ => some (idx, x)

theorem borrowPart_cases {c : ComponentStorage V} (hc : Static c) {b : Borrows} {ts : List (TypeId × Bool)}
    (hb : Compatible b) (h : BorrowsOf c b ts) (p : Part) :
    ((∀ t ∈ p.access, (c.meta? t.1).isSome) ∧ Compatible (p.access.toList ++ ts) ∧
      ∃ v i, borrowPart c b p = .ok (v, i, v.held.toList ++ b) ∧
      BorrowsOf c (v.held.toList ++ b) (p.access.toList ++ ts) ∧ Compatible (v.held.toList ++ b)) ∨
    (¬ ((∀ t ∈ p.access, (c.meta? t.1).isSome) ∧ Compatible (p.access.toList ++ ts)) ∧ borrowPart c b p = .panic) := by
  have hts := (h.compatible_iff hc).1 hb
  have key : ∀ (x : Bool) (t : TypeId) (f : Nat → CompSet V → PartView V)
      (k : CompSet V → Option GroupInfo → Option ViewGroupInfo), (∀ idx s, (f idx s).held = some (idx, x)) →
      p.access = some (t, x) →
      borrowPart c b p = (do
        let (idx, s, info, h) ← borrowSet c b x t
        pure (f idx s, k s info, h)) →
      ((∀ t ∈ p.access, (c.meta? t.1).isSome) ∧ Compatible (p.access.toList ++ ts) ∧
        ∃ v i, borrowPart c b p = .ok (v, i, v.held.toList ++ b) ∧
        BorrowsOf c (v.held.toList ++ b) (p.access.toList ++ ts) ∧ Compatible (v.held.toList ++ b)) ∨
      (¬ ((∀ t ∈ p.access, (c.meta? t.1).isSome) ∧ Compatible (p.access.toList ++ ts)) ∧
        borrowPart c b p = .panic) := by
    intro x t f k hf hp he
    rw [he, hp]
    rcases borrowSet_cases hc hb h x t with ⟨h1, h2, idx, s, i, h3, h4, h5⟩ | ⟨h1, h2⟩
    · left
      refine ⟨by simpa using h1, h2, f idx s, k s i, ?_, ?_, ?_⟩
      · rw [h3, hf]
        rfl
      · rw [hf]
        exact h4
      · rw [hf]
        exact h5
    · right
      refine ⟨by simpa using h1, ?_⟩
      rw [h2]
      rfl
  cases p with
  | entity =>
    left
    exact ⟨by simp [Part.access], hts, .entity, none, rfl, h, hb⟩
  | ref t => exact key false t (fun idx s => .req false idx s) (fun s i => some ⟨i, s.len⟩) (fun _ _ => rfl) rfl rfl
  | refMut t => exact key true t (fun idx s => .req true idx s) (fun s i => some ⟨i, s.len⟩) (fun _ _ => rfl) rfl rfl
  | opt t => exact key false t (fun idx s => .opt false idx s) (fun _ _ => none) (fun _ _ => rfl) rfl rfl
  | optMut t => exact key true t (fun idx s => .opt true idx s) (fun _ _ => none) (fun _ _ => rfl) rfl rfl

/-- The borrows of a list of views. -/
def heldBy (vs : List (PartView V)) : Borrows := vs.filterMap PartView.held

theorem accesses_cons (p : Part) (q : Query) : accesses (p :: q) = p.access.toList ++ accesses q := by
  unfold accesses
  cases h : p.access <;> simp [h]

theorem accesses_append (q q' : Query) : accesses (q ++ q') = accesses q ++ accesses q' := List.filterMap_append

theorem heldBy_cons (v : PartView V) (vs : List (PartView V)) : heldBy (v :: vs) = v.held.toList ++ heldBy vs := by
  unfold heldBy
  cases h : v.held <;> simp [h]

/-- Borrowing a query: all types are registered and the accesses are compatible with those held, or a panic. -/
theorem borrowParts_cases {c : ComponentStorage V} (hc : Static c) : ∀ (q : Query) {b : Borrows}
    {ts : List (TypeId × Bool)}, Compatible b → BorrowsOf c b ts →
    ((∀ t ∈ accesses q, (c.meta? t.1).isSome) ∧ Compatible (accesses q ++ ts) ∧
      ∃ vs is b', borrowParts c b q = .ok (vs, is, b') ∧ b'.Perm (heldBy vs ++ b) ∧
        BorrowsOf c b' (accesses q ++ ts) ∧ Compatible b') ∨
    (¬ ((∀ t ∈ accesses q, (c.meta? t.1).isSome) ∧ Compatible (accesses q ++ ts)) ∧ borrowParts c b q = .panic)
  | [], b, ts, hb, h => by
    left
    exact ⟨by simp [accesses], (h.compatible_iff hc).1 hb, [], [], b, rfl, by simp [heldBy], h, hb⟩
  | p :: q, b, ts, hb, h => by
    have hperm : (accesses (p :: q) ++ ts).Perm (accesses q ++ (p.access.toList ++ ts)) := by
      rw [accesses_cons, ← List.append_assoc]
      exact List.Perm.append_right _ List.perm_append_comm
    have hmem : (∀ t ∈ accesses (p :: q), (c.meta? t.1).isSome) ↔
        (∀ t ∈ p.access, (c.meta? t.1).isSome) ∧ ∀ t ∈ accesses q, (c.meta? t.1).isSome := by
      rw [accesses_cons]
      constructor
      · intro h
        exact ⟨fun t ht => h t (List.mem_append_left _ (by simpa using ht)),
          fun t ht => h t (List.mem_append_right _ ht)⟩
      · rintro ⟨h1, h2⟩ t ht
        rcases List.mem_append.1 ht with ht | ht
        · exact h1 t (by simpa using ht)
        · exact h2 t ht
    rw [Compatible.perm hperm, hmem]
    simp only [borrowParts]
    rcases borrowPart_cases hc hb h p with ⟨h1, h2, v, i, h3, h4, h5⟩ | ⟨h1, h2⟩
    · rw [h3]
      simp only [Res.bind_ok]
      rcases borrowParts_cases hc q h5 h4 with ⟨h6, h7, vs, is, b', h8, h9, h10, h11⟩ | ⟨h6, h7⟩
      · left
        refine ⟨⟨h1, h6⟩, h7, v :: vs, i :: is, b', by rw [h8]; rfl, ?_, ?_, h11⟩
        · rw [heldBy_cons, List.append_assoc]
          refine h9.trans ?_
          rw [← List.append_assoc, ← List.append_assoc]
          exact List.Perm.append_right _ List.perm_append_comm
        · unfold BorrowsOf at h10 ⊢
          exact h10.trans ((hperm.map _).symm)
      · right
        refine ⟨fun hcon => h6 ⟨hcon.1.2, hcon.2⟩, by rw [h7]; rfl⟩
    · right
      refine ⟨fun hcon => h1 ⟨hcon.1.1, hcon.2.of_append.2⟩, by rw [h2]; rfl⟩

/-- Borrowing the three queries in turn. -/
theorem borrow3_cases {c : ComponentStorage V} (hc : Static c) {g i x : Query} {b : Borrows}
    {ts : List (TypeId × Bool)} (hb : Compatible b) (h : BorrowsOf c b ts) :
    ((∀ t ∈ accesses (g ++ i ++ x), (c.meta? t.1).isSome) ∧ Compatible (accesses (g ++ i ++ x) ++ ts) ∧
      ∃ vg vi vx ig ii ix b₁ b₂ b₃, borrowQuery c b g = .ok (vg, ig, b₁) ∧ borrowQuery c b₁ i = .ok (vi, ii, b₂) ∧
        borrowQuery c b₂ x = .ok (vx, ix, b₃) ∧ b₃.Perm (heldBy (vg ++ vi ++ vx) ++ b) ∧
        BorrowsOf c b₃ (accesses (g ++ i ++ x) ++ ts) ∧ Compatible b₃) ∨
    (¬ ((∀ t ∈ accesses (g ++ i ++ x), (c.meta? t.1).isSome) ∧ Compatible (accesses (g ++ i ++ x) ++ ts)) ∧
      (do
        let (gv, gi, h) ← borrowQuery c b g
        let (iv, ii, h) ← borrowQuery c h i
        let (ev, ei, h) ← borrowQuery c h x
        pure (gv, gi, iv, ii, ev, ei, h)) = .panic) := by
  have hq : ∀ (q : Query) (b : Borrows), borrowQuery c b q = (borrowParts c b q >>= fun r =>
      pure (r.1, queryInfo .empty r.2.1, r.2.2)) := by
    intro q b
    rfl
  have hperm : (accesses (g ++ i ++ x) ++ ts).Perm (accesses x ++ (accesses i ++ (accesses g ++ ts))) := by
    rw [accesses_append, accesses_append]
    have h1 : ((accesses g ++ accesses i) ++ accesses x).Perm (accesses x ++ (accesses i ++ accesses g)) :=
      List.perm_append_comm.trans (List.Perm.append_left _ List.perm_append_comm)
    have := List.Perm.append_right ts h1
    simpa only [List.append_assoc] using this
  have hmem : (∀ t ∈ accesses (g ++ i ++ x), (c.meta? t.1).isSome) ↔ (∀ t ∈ accesses g, (c.meta? t.1).isSome) ∧
      (∀ t ∈ accesses i, (c.meta? t.1).isSome) ∧ ∀ t ∈ accesses x, (c.meta? t.1).isSome := by
    simp only [accesses_append, List.mem_append]
    constructor
    · intro h
      exact ⟨fun t ht => h t (.inl (.inl ht)), fun t ht => h t (.inl (.inr ht)), fun t ht => h t (.inr ht)⟩
    · rintro ⟨h1, h2, h3⟩ t ((ht | ht) | ht)
      · exact h1 t ht
      · exact h2 t ht
      · exact h3 t ht
  rw [Compatible.perm hperm, hmem]
  simp only [hq]
  rcases borrowParts_cases hc g hb h with ⟨h1, h2, vg, ig, b1, h3, h4, h5, h6⟩ | ⟨h1, h2⟩
  · rcases borrowParts_cases hc i h6 h5 with ⟨k1, k2, vi, ii, b2, k3, k4, k5, k6⟩ | ⟨k1, k2⟩
    · rcases borrowParts_cases hc x k6 k5 with ⟨m1, m2, vx, ix, b3, m3, m4, m5, m6⟩ | ⟨m1, m2⟩
      · left
        refine ⟨⟨h1, k1, m1⟩, m2, vg, vi, vx, _, _, _, b1, b2, b3, by rw [h3]; rfl, by rw [k3]; rfl, by rw [m3]; rfl,
          ?_, ?_, m6⟩
        · have e1 : heldBy (vg ++ vi ++ vx) ++ b = (heldBy vg ++ heldBy vi ++ heldBy vx) ++ b := by
            unfold heldBy
            simp only [List.filterMap_append]
          rw [e1]
          refine m4.trans ((List.Perm.append_left _ (k4.trans (List.Perm.append_left _ h4))).trans ?_)
          have h1 : ((heldBy vg ++ heldBy vi) ++ heldBy vx).Perm (heldBy vx ++ (heldBy vi ++ heldBy vg)) :=
            List.perm_append_comm.trans (List.Perm.append_left _ List.perm_append_comm)
          have := (List.Perm.append_right b h1).symm
          simpa only [List.append_assoc] using this
        · unfold BorrowsOf at m5 ⊢
          exact m5.trans ((hperm.map _).symm)
      · right
        refine ⟨fun hcon => m1 ⟨hcon.1.2.2, hcon.2⟩, ?_⟩
        simp only [h3, k3, m2, Res.bind_ok, Res.pure_eq, Res.bind_panic]
    · right
      refine ⟨fun hcon => k1 ⟨hcon.1.2.1, hcon.2.of_append.2⟩, ?_⟩
      simp only [h3, k2, Res.bind_ok, Res.pure_eq, Res.bind_panic]
  · right
    refine ⟨fun hcon => h1 ⟨hcon.1.1, hcon.2.of_append.2.of_append.2⟩, ?_⟩
    simp only [h2, Res.bind_ok, Res.pure_eq, Res.bind_panic]

end Sparsey
