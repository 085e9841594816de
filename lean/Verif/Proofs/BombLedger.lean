import Verif.Spec.BombLedger
import Verif.Proofs.Bombs

/-!
What a panicking destructor costs, in any world whose sets have as many entities as components.
-/

set_option autoImplicit false
set_option linter.unusedSimpArgs false

namespace Sparsey
variable {V : Type}

theorem Toll.none {bomb : V → Bool} {b d a : List V} (h : b.Perm (d ++ a)) : Toll bomb b d a [] [] :=
  ⟨by simpa using h, List.nil_suffix, by simp⟩

theorem upToBomb_last {bomb : V → Bool} : ∀ {l : List V}, l.any bomb = true →
    ∃ v, (upToBomb bomb l).getLast? = some v ∧ bomb v = true
  | [], h => by cases h
  | x :: l, h => by
    rw [upToBomb]
    by_cases hx : bomb x = true
    · rw [if_pos hx]
      exact ⟨x, rfl, hx⟩
    · rw [if_neg hx]
      have : l.any bomb = true := by simpa [hx] using h
      obtain ⟨v, h1, h2⟩ := upToBomb_last this
      refine ⟨v, ?_, h2⟩
      rw [List.getLast?_cons, h1]
      rfl

theorem CompSet.deleteB_toll {bomb : V → Bool} {s s1 : CompSet V} {e : Entity} {ds : List V} (hl : LenOk s)
    (h : s.deleteB bomb e = .panic (s1, ds)) :
    LenOk s1 ∧ ∃ v y, ds = [v] ∧ bomb v = true ∧ s.components = s1.components ++ [y] := by
  obtain ⟨s', v, h1, rfl, h3, h4, h5⟩ := deleteB_panic h
  rcases delete_cases h1 with ⟨k, _⟩ | ⟨index, sv, v', y, last, sp, _, k1, _, _, k2, _, rfl⟩
  · rw [h3] at k; cases k
  · unfold LenOk at hl
    have hlen : ((s.entities.set index last).take (s.entities.length - 1)).length = s.entities.length - 1 := by simp
    refine ⟨?_, v, y, h4, h5, ?_⟩
    · unfold LenOk afterBomb
      dsimp only
      rw [hlen, List.length_take]
      omega
    · unfold afterBomb
      dsimp only
      rw [hlen]
      have k3 : s.components.length = (s.entities.length - 1) + 1 := by omega
      have k4 := List.take_concat_get' s.components (s.entities.length - 1) (by omega)
      rw [List.getElem?_eq_some_iff] at k2
      obtain ⟨_, k2⟩ := k2
      rw [k2] at k4
      rw [k4, ← k3, List.take_length]

/-- A storage after a call. -/
def Booked (bomb : V → Bool) (P : List V → List V → List V → Prop) (c : ComponentStorage V) :
    Outcome (ComponentStorage V × List V) Unit → Prop
  | .ok _ (c', ds) => c'.Lens ∧ c'.metadata = c.metadata ∧ c.vals.Perm (ds ++ c'.vals)
  | .panic (c', ds) => c'.Lens ∧ c'.metadata = c.metadata ∧
      ∃ twice lost, Toll bomb c.vals ds c'.vals twice lost ∧ P ds twice lost
  | .ub => True

/-- For `delete` and `destroy`. -/
def OneFor (_ : List V) (twice lost : List V) : Prop := twice.length = lost.length ∧ lost.length ≤ 1

/-- For `clear` and `reset`. -/
def NoneFor (ds : List V) (twice lost : List V) : Prop := lost = [] ∧ (ds ≠ [] → twice ≠ [])

namespace ComponentStorage

theorem deleteEachB_toll (bomb : V → Bool) {e : Entity} : ∀ (is : List Nat) (c : ComponentStorage V) (ds : List V), c.Lens →
    match deleteEachB bomb e is c ds with
    | .ok _ (c', ds') => ∃ d, ds' = ds ++ d ∧ c'.Lens ∧ c'.metadata = c.metadata ∧ c.vals.Perm (d ++ c'.vals)
    | .panic (c', ds') => ∃ d, ds' = ds ++ d ∧ c'.Lens ∧ c'.metadata = c.metadata ∧
        ∃ twice lost, Toll bomb c.vals d c'.vals twice lost ∧ OneFor d twice lost
    | .ub => True
  | [], c, ds, hc => ⟨[], by simp, hc, rfl, List.Perm.refl _⟩
  | i :: is, c, ds, hc => by
    unfold deleteEachB
    cases hi : c.components[i]? with
    | none => trivial
    | some s =>
      simp only [Res.unchecked_some, Outcome.ofRes_ok]
      have hls := hc s (List.mem_of_getElem? hi)
      cases hd : s.deleteB bomb e with
      | ub => trivial
      | panic p =>
        obtain ⟨s1, d⟩ := p
        obtain ⟨k1, v, y, rfl, k2, k3⟩ := CompSet.deleteB_toll hls hd
        refine ⟨[v], rfl, AllSets.set hc k1 i, rfl, [v], [y], ⟨cn_perm.2 fun a => ?_, List.suffix_refl _, ?_⟩, rfl, by simp⟩
        · have h3 := cn_set hi s1 a
          rw [k3] at h3
          simp only [cn_append, cn_cons, cn_nil] at h3 ⊢
          omega
        · intro x hx
          cases hx
          exact k2
      | ok u p =>
        obtain ⟨s1, d⟩ := p
        obtain ⟨k1, rfl, _⟩ := CompSet.deleteB_ok hd
        obtain ⟨k2, k3⟩ := hls.delete k1
        have ih := deleteEachB_toll bomb (e := e) is { c with components := c.components.set i s1 } (ds ++ s.deleteDrops e)
          (AllSets.set hc k2 i)
        dsimp only
        have hset : ∀ a, cn a c.vals = cn a (s.deleteDrops e) +
            cn a (vals { c with components := c.components.set i s1 }) := fun a => by
          have j2 := cn_perm.1 k3 a
          have j3 := cn_set hi s1 a
          simp only [cn_append] at j2 j3
          omega
        revert ih
        generalize deleteEachB bomb e is { c with components := c.components.set i s1 } (ds ++ s.deleteDrops e) = o
        intro ih
        match o, ih with
        | .ub, _ => trivial
        | .ok _ (c', ds'), ⟨d', h1, h2, h3, h4⟩ =>
          refine ⟨s.deleteDrops e ++ d', by rw [h1, List.append_assoc], h2, h3, cn_perm.2 fun a => ?_⟩
          have j1 := cn_perm.1 h4 a
          have j2 := hset a
          simp only [cn_append] at j1 j2 ⊢
          omega
        | .panic (c', ds'), ⟨d', h1, h2, h3, twice, lost, ⟨t1, t2, t3⟩, h5⟩ =>
          refine ⟨s.deleteDrops e ++ d', by rw [h1, List.append_assoc], h2, h3, twice, lost,
            ⟨cn_perm.2 fun a => ?_, t2.trans (List.suffix_append _ _), t3⟩, h5⟩
          have j1 := cn_perm.1 t1 a
          have j2 := hset a
          simp only [cn_append] at j1 j2 ⊢
          omega

theorem deleteB_toll (bomb : V → Bool) (c : ComponentStorage V) (e : Entity) (ts : List TypeId) (hc : c.Lens) :
    Booked bomb OneFor c (c.deleteB bomb e ts) := by
  unfold deleteB
  have none : ∀ P : List V → List V → List V → Prop, P [] [] [] → Booked bomb P c (.panic (c, [])) := fun P hP =>
    ⟨hc, rfl, [], [], Toll.none (List.Perm.refl _), hP⟩
  cases hl : c.lookupAll (·.deleteMask) ts with
  | ub => trivial
  | panic => exact none _ ⟨rfl, by simp⟩
  | ok p =>
    obtain ⟨idxs, mask⟩ := p
    rw [Outcome.ofRes_ok]
    dsimp only
    cases hm : c.withMask mask (ungroup · mask e) with
    | ub => trivial
    | panic => exact none _ ⟨rfl, by simp⟩
    | ok c1 =>
      rw [Outcome.ofRes_ok]
      obtain ⟨m1, m2⟩ := withMask_moves (fun s s' h => ungroupLoop_moves _ _ s s' h) hm hc
      have m3 : c1.metadata = c.metadata := by
        unfold withMask at hm
        split at hm
        · cases hm; rfl
        · obtain ⟨q, _, hm⟩ := Res.bind_ok' hm
          cases hm
          rfl
      have := deleteEachB_toll bomb (e := e) idxs c1 [] m1
      revert this
      generalize deleteEachB bomb e idxs c1 [] = o
      intro h
      match o, h with
      | .ub, _ => trivial
      | .ok _ (c', ds'), ⟨d', h1, h2, h3, h4⟩ =>
        rw [List.nil_append] at h1
        subst h1
        exact ⟨h2, h3.trans m3, m2.symm.trans h4⟩
      | .panic (c', ds'), ⟨d', h1, h2, h3, twice, lost, ⟨t1, t2, t3⟩, h5⟩ =>
        rw [List.nil_append] at h1
        subst h1
        exact ⟨h2, h3.trans m3, twice, lost, ⟨(m2.symm.append_right _).trans t1, t2, t3⟩, h5⟩

theorem deleteAllB_toll (bomb : V → Bool) {e : Entity} : ∀ (l : List (CompSet V)), AllSets LenOk l →
    match deleteAllB bomb e l with
    | .ok _ (l', ds) => AllSets LenOk l' ∧ (values l).Perm (ds ++ values l')
    | .panic (l', ds) => AllSets LenOk l' ∧ ∃ twice lost, Toll bomb (values l) ds (values l') twice lost ∧ OneFor ds twice lost
    | .ub => True
  | [], h => ⟨h, List.Perm.refl _⟩
  | s :: ss, hl => by
    unfold deleteAllB
    have hls := hl s (.head _)
    have hss : AllSets LenOk ss := fun s hs => hl s (.tail _ hs)
    have cons : ∀ {s1 : CompSet V} {ss1 : List (CompSet V)}, LenOk s1 → AllSets LenOk ss1 → AllSets LenOk (s1 :: ss1) := by
      intro s1 ss1 h1 h2 x hx
      rcases List.mem_cons.1 hx with rfl | hx
      · exact h1
      · exact h2 x hx
    cases hd : s.deleteB bomb e with
    | ub => trivial
    | panic p =>
      obtain ⟨s1, d⟩ := p
      obtain ⟨k1, v, y, rfl, k2, k3⟩ := CompSet.deleteB_toll hls hd
      refine ⟨cons k1 hss, [v], [y], ⟨cn_perm.2 fun a => ?_, List.suffix_refl _, ?_⟩, rfl, by simp⟩
      · rw [values_cons, values_cons, k3]
        simp only [cn_append, cn_cons, cn_nil]
        omega
      · intro x hx
        cases hx
        exact k2
    | ok u p =>
      obtain ⟨s1, d⟩ := p
      obtain ⟨k1, rfl, _⟩ := CompSet.deleteB_ok hd
      obtain ⟨k2, k3⟩ := hls.delete k1
      have ih := deleteAllB_toll bomb (e := e) ss hss
      dsimp only
      revert ih
      generalize deleteAllB bomb e ss = o
      intro ih
      match o, ih with
      | .ub, _ => trivial
      | .ok _ (l', ds'), ⟨h1, h2⟩ =>
        refine ⟨cons k2 h1, cn_perm.2 fun a => ?_⟩
        have j1 := cn_perm.1 h2 a
        have j2 := cn_perm.1 k3 a
        simp only [values_cons, cn_append] at j1 j2 ⊢
        omega
      | .panic (l', ds'), ⟨h1, twice, lost, ⟨t1, t2, t3⟩, h5⟩ =>
        refine ⟨cons k2 h1, twice, lost, ⟨cn_perm.2 fun a => ?_, t2.trans (List.suffix_append _ _), t3⟩, h5⟩
        have j1 := cn_perm.1 t1 a
        have j2 := cn_perm.1 k3 a
        simp only [values_cons, cn_append] at j1 j2 ⊢
        omega

theorem stripB_toll (bomb : V → Bool) (c : ComponentStorage V) (e : Entity) (hc : c.Lens) :
    Booked bomb OneFor c (c.stripB bomb e) := by
  unfold stripB
  cases hl : ungroupAll (c.components, c.groups) e with
  | ub => trivial
  | panic => exact ⟨hc, rfl, [], [], Toll.none (List.Perm.refl _), rfl, by simp⟩
  | ok p =>
    obtain ⟨comps, gs⟩ := p
    rw [Outcome.ofRes_ok]
    dsimp only
    obtain ⟨m1, m2⟩ := ungroupAllLoop_moves _ _ _ hl hc
    have := deleteAllB_toll bomb (e := e) comps m1
    revert this
    generalize deleteAllB bomb e comps = o
    intro h
    match o, h with
    | .ub, _ => trivial
    | .ok _ (l', ds'), ⟨h1, h2⟩ => exact ⟨h1, rfl, m2.symm.trans h2⟩
    | .panic (l', ds'), ⟨h1, twice, lost, ⟨t1, t2, t3⟩, h5⟩ =>
      exact ⟨h1, rfl, twice, lost, ⟨(m2.symm.append_right _).trans t1, t2, t3⟩, h5⟩

theorem clearAllB_toll (bomb : V → Bool) : ∀ (l : List (CompSet V)), AllSets LenOk l →
    match clearAllB bomb l with
    | .ok _ (l', ds) => AllSets LenOk l' ∧ (values l).Perm (ds ++ values l')
    | .panic (l', ds) => AllSets LenOk l' ∧ ∃ twice, Toll bomb (values l) ds (values l') twice [] ∧ twice ≠ []
    | .ub => True
  | [], h => ⟨h, List.Perm.refl _⟩
  | s :: ss, hl => by
    have hss : AllSets LenOk ss := fun s hs => hl s (.tail _ hs)
    have cons : ∀ {s1 : CompSet V} {ss1 : List (CompSet V)}, LenOk s1 → AllSets LenOk ss1 → AllSets LenOk (s1 :: ss1) := by
      intro s1 ss1 h1 h2 x hx
      rcases List.mem_cons.1 hx with rfl | hx
      · exact h1
      · exact h2 x hx
    unfold clearAllB CompSet.clearB
    by_cases hb : s.components.any bomb = true
    · rw [if_pos hb]
      dsimp only
      obtain ⟨v, h1, h2⟩ := upToBomb_last hb
      refine ⟨cons (hl s (.head _)) hss, upToBomb bomb s.components,
        ⟨cn_perm.2 fun a => ?_, List.suffix_refl _, ?_⟩, fun h => ?_⟩
      · simp only [values_cons, cn_append, cn_nil]
        omega
      · intro x hx
        rw [h1] at hx
        cases hx
        exact h2
      · rw [h] at h1; cases h1
    · rw [if_neg hb]
      dsimp only
      have ih := clearAllB_toll bomb ss hss
      revert ih
      generalize clearAllB bomb ss = o
      intro ih
      match o, ih with
      | .ub, _ => trivial
      | .ok _ (l', ds'), ⟨h1, h2⟩ =>
        refine ⟨cons (LenOk.clear s) h1, cn_perm.2 fun a => ?_⟩
        have j1 := cn_perm.1 h2 a
        simp only [values_cons, cn_append, CompSet.clear, cn_nil] at j1 ⊢
        omega
      | .panic (l', ds'), ⟨h1, twice, ⟨t1, t2, t3⟩, h5⟩ =>
        refine ⟨cons (LenOk.clear s) h1, twice, ⟨cn_perm.2 fun a => ?_, t2.trans (List.suffix_append _ _), t3⟩, h5⟩
        have j1 := cn_perm.1 t1 a
        simp only [values_cons, cn_append, CompSet.clear, cn_nil] at j1 ⊢
        omega

theorem clearB_toll (bomb : V → Bool) (c : ComponentStorage V) (hc : c.Lens) :
    Booked bomb NoneFor c (c.clearB bomb) := by
  unfold clearB
  dsimp only
  have := clearAllB_toll bomb c.components hc
  revert this
  generalize clearAllB bomb c.components = o
  intro h
  match o, h with
  | .ub, _ => trivial
  | .ok _ (l', ds'), ⟨h1, h2⟩ => exact ⟨h1, rfl, h2⟩
  | .panic (l', ds'), ⟨h1, twice, t, h5⟩ => exact ⟨h1, rfl, twice, [], t, rfl, fun _ => h5⟩

theorem insertBomb_tidy {bomb : V → Bool} {e : Entity} : ∀ {vs : List (TypeId × V)} {c c' : ComponentStorage V}
    {ds : List V}, c.Lens → insertBomb bomb e vs c = some (c', ds) → c'.Lens ∧ c'.metadata = c.metadata
  | [], _, _, _, _, h => by cases h
  | (t, v) :: vs, c, c', ds, hc, h => by
    rw [insertBomb] at h
    cases hm : c.meta? t with
    | none => rw [hm] at h; cases h
    | some m =>
      rw [hm] at h
      dsimp only at h
      cases hs : c.components[m.storageIndex]? with
      | none => rw [hs] at h; cases h
      | some s =>
        rw [hs] at h
        dsimp only at h
        cases hi : s.insert e v with
        | panic => rw [hi] at h; cases h
        | ub => rw [hi] at h; cases h
        | ok p =>
          obtain ⟨old, s'⟩ := p
          rw [hi] at h
          dsimp only at h
          have hc' := AllSets.set hc (LenOk.insert (hc s (List.mem_of_getElem? hs)) hi).1 m.storageIndex
          by_cases hb : old.any bomb = true
          · rw [if_pos hb] at h
            cases h
            exact ⟨hc', rfl⟩
          · rw [if_neg hb, Option.map_eq_some_iff] at h
            obtain ⟨⟨c1, ds1⟩, h1, h2⟩ := h
            cases h2
            exact insertBomb_tidy (c := { c with components := c.components.set m.storageIndex s' }) hc' h1

theorem insertAtBomb_tidy {bomb : V → Bool} {e : Entity} : ∀ {vs : List (Nat × V)} {c c' : ComponentStorage V}
    {ds : List V}, c.Lens → insertAtBomb bomb e vs c = some (c', ds) → c'.Lens ∧ c'.metadata = c.metadata
  | [], _, _, _, _, h => by cases h
  | (i, v) :: vs, c, c', ds, hc, h => by
    rw [insertAtBomb] at h
    cases hs : c.components[i]? with
    | none => rw [hs] at h; cases h
    | some s =>
      rw [hs] at h
      dsimp only at h
      cases hi : s.insert e v with
      | panic => rw [hi] at h; cases h
      | ub => rw [hi] at h; cases h
      | ok p =>
        obtain ⟨old, s'⟩ := p
        rw [hi] at h
        dsimp only at h
        have hc' := AllSets.set hc (LenOk.insert (hc s (List.mem_of_getElem? hs)) hi).1 i
        by_cases hb : old.any bomb = true
        · rw [if_pos hb] at h
          cases h
          exact ⟨hc', rfl⟩
        · rw [if_neg hb, Option.map_eq_some_iff] at h
          obtain ⟨⟨c1, ds1⟩, h1, h2⟩ := h
          cases h2
          exact insertAtBomb_tidy (c := { c with components := c.components.set i s' }) hc' h1

theorem insertAt_tidy {e : Entity} : ∀ {vs : List (Nat × V)} {c c' : ComponentStorage V}, c.Lens →
    insertAt e vs c = .ok c' → c'.Lens ∧ c'.metadata = c.metadata
  | [], c, c', hc, h => by cases h; exact ⟨hc, rfl⟩
  | (i, v) :: vs, c, c', hc, h => by
    rw [insertAt] at h
    obtain ⟨s, hs, h⟩ := Res.bind_ok' h
    obtain ⟨p, hi, h⟩ := Res.bind_ok' h
    have hc' := AllSets.set hc (LenOk.insert (hc s (List.mem_of_getElem? (Res.unchecked_ok hs))) hi).1 i
    exact insertAt_tidy (c := { c with components := c.components.set i p.2 }) hc' h

end ComponentStorage

theorem World.extendBomb_tidy {bomb : V → Bool} {idxs : List Nat} : ∀ {items : List (List V)} {w w' : World V}
    {ds : List V} {made : List Entity}, w.components.Lens → World.extendBomb bomb idxs items w = some (w', ds, made) →
    w'.components.Lens ∧ w'.components.metadata = w.components.metadata
  | [], _, _, _, _, _, h => by cases h
  | vs :: items, w, w', ds, made, hc, h => by
    rw [World.extendBomb] at h
    cases hcr : w.entities.create with
    | panic => rw [hcr] at h; cases h
    | ub => rw [hcr] at h; cases h
    | ok p =>
      obtain ⟨e, es⟩ := p
      rw [hcr] at h
      dsimp only at h
      cases hb : w.components.insertAtBomb bomb e (idxs.zip vs) with
      | some q =>
        rw [hb] at h
        cases h
        exact ComponentStorage.insertAtBomb_tidy hc hb
      | none =>
        rw [hb] at h
        dsimp only at h
        cases hj : w.components.insertAt e (idxs.zip vs) with
        | panic => rw [hj] at h; cases h
        | ub => rw [hj] at h; cases h
        | ok c =>
          rw [hj] at h
          simp only [Option.map_eq_some_iff] at h
          obtain ⟨⟨w1, ds1, made1⟩, h1, h2⟩ := h
          cases h2
          obtain ⟨k1, k2⟩ := ComponentStorage.insertAt_tidy hc hj
          obtain ⟨k3, k4⟩ := World.extendBomb_tidy (w := ⟨es, c⟩) k1 h1
          exact ⟨k3, k4.trans k2⟩

open World in
/-- What is known of a call with bombs. -/
structure StepToll (bomb : V → Bool) (w w' : World V) (op : Op V) (r : Ret V) (ds : List V) : Prop where
  tidy : Tidy w'
  toll : ∃ twice lost, Toll bomb (op.given ++ w.stored) ds (r.returned ++ w'.stored) twice lost ∧ op.Limits twice lost ∧
    (twice ≠ [] → r = .panicked []) ∧ (op = .clear ∨ op = .reset → r = .panicked [] → ds ≠ [] → twice ≠ [])

open World in
theorem StepToll.plain {bomb : V → Bool} {w w' : World V} {op : Op V} {r : Ret V} {ds : List V} (ht : Tidy w')
    (h : (op.given ++ w.stored).Perm (r.returned ++ (ds ++ w'.stored))) (hl : op.Limits [] [])
    (hc : op = .clear ∨ op = .reset → r = .panicked [] → ds = []) : StepToll bomb w w' op r ds :=
  ⟨ht, [], [], Toll.none (by
    refine cn_perm.2 fun a => ?_
    have := cn_perm.1 h a
    simp only [cn_append] at this ⊢
    omega), hl, fun h => absurd rfl h, fun h1 h2 h3 => absurd (hc h1 h2) h3⟩

open World in
theorem Booked.step {bomb : V → Bool} {P : List V → List V → List V → Prop} {w w' : World V} {op : Op V} {r : Ret V}
    {ds : List V} {es : EntityStorage} {o : Outcome (ComponentStorage V × List V) Unit} {f : Unit → Ret V} (hw : Tidy w)
    (hb : Booked bomb P w.components o) (h : retB (World.withStorage es o) f = some (r, w', ds))
    (hf : (f ()).returned = []) (hg : op.given = []) (hl : op.Limits [] [])
    (hp : ∀ twice lost, P ds twice lost → op.Limits twice lost ∧ (op = .clear ∨ op = .reset → ds ≠ [] → twice ≠ []))
    (hn : f () ≠ .panicked []) : StepToll bomb w w' op r ds := by
  match o, hb with
  | .ub, _ => cases h
  | .ok _ (c, d), ⟨h1, h2, h3⟩ =>
    cases h
    refine .plain ⟨h1, by rw [h2]; exact hw.keys⟩ ?_ hl fun _ h => absurd h hn
    rw [hf, hg]
    exact h3
  | .panic (c, d), ⟨h1, h2, twice, lost, t, h3⟩ =>
    cases h
    refine ⟨⟨h1, by rw [h2]; exact hw.keys⟩, twice, lost, ?_, (hp _ _ h3).1, fun _ => rfl, fun h _ => (hp _ _ h3).2 h⟩
    rw [hg]
    exact t

open World in
theorem stepB_toll {bomb : V → Bool} {w w' : World V} {op : Op V} {r : Ret V} {ds : List V} (hw : Tidy w)
    (h : stepB bomb w op = some (r, w', ds)) : StepToll bomb w w' op r ds := by
  have others : ∀ (op : Op V), op.Limits [] [] → op ≠ .clear → op ≠ .reset → stepCalm w op = some (r, w', ds) →
      StepToll bomb w w' op r ds := by
    intro op hl h1 h2 h
    obtain ⟨hs, rfl⟩ := stepCalm_some h
    exact .plain (step_ledger hs hw).1 (step_ledger hs hw).2 hl fun h => by
      rcases h with h | h
      · exact absurd h h1
      · exact absurd h h2
  have writes : ∀ (op : Op V), op.Limits [] [] → op ≠ .clear → op ≠ .reset → (stepCalm w op).map (fun (r, w', ds) =>
      (if ds.any bomb then .panicked [] else r, w', ds)) = some (r, w', ds) →
      (∀ r' w', step w op = some (r', w') → r'.returned = []) → StepToll bomb w w' op r ds := by
    intro op hl h1' h2' h hret
    rw [Option.map_eq_some_iff] at h
    obtain ⟨⟨r1, w1, ds1⟩, h1, h2⟩ := h
    obtain ⟨hs, rfl⟩ := stepCalm_some h1
    simp only [Prod.mk.injEq] at h2
    obtain ⟨rfl, rfl, rfl⟩ := h2
    have h3 := (step_ledger hs hw).2
    have h4 := hret _ _ hs
    rw [h4] at h3
    refine .plain (step_ledger hs hw).1 ?_ hl fun h => by
      rcases h with h | h
      · exact absurd h h1'
      · exact absurd h h2'
    split
    · exact h3
    · rw [h4]
      exact h3
  have one : ∀ {op : Op V}, (∀ twice lost, OneFor ds twice lost → op.Limits twice lost) → op ≠ .clear → op ≠ .reset →
      ∀ twice lost, OneFor ds twice lost → op.Limits twice lost ∧ (op = .clear ∨ op = .reset → ds ≠ [] → twice ≠ []) := by
    intro op h h1 h2 twice lost h3
    refine ⟨h _ _ h3, fun h => ?_⟩
    rcases h with h | h
    · exact absurd h h1
    · exact absurd h h2
  cases op with
  | destroy e =>
    rw [stepB] at h
    unfold World.destroyB at h
    cases hr : w.entities.remove e with
    | ub => rw [hr] at h; cases h
    | panic =>
      rw [hr] at h
      cases h
      exact .plain hw (List.Perm.refl _) ⟨rfl, by simp⟩ (by simp)
    | ok p =>
      obtain ⟨b, es⟩ := p
      rw [hr, Outcome.ofRes_ok] at h
      dsimp only at h
      cases b with
      | false =>
        cases h
        exact .plain ⟨hw.lens, hw.keys⟩ (List.Perm.refl _) ⟨rfl, by simp⟩ (by simp)
      | true =>
        rw [if_pos rfl] at h
        have hb := ComponentStorage.stripB_toll bomb w.components e hw.lens
        have h' : retB (World.withStorage es (w.components.stripB bomb e)) (fun _ => Ret.bool true) = some (r, w', ds) := by
          rw [← h]
          generalize World.withStorage es (w.components.stripB bomb e) = o
          cases o <;> rfl
        exact hb.step hw h' rfl rfl ⟨rfl, by simp⟩ (one (fun _ _ h => h) (by simp) (by simp)) (by simp)
  | delete e ts =>
    exact (ComponentStorage.deleteB_toll bomb w.components e ts hw.lens).step hw h rfl rfl ⟨rfl, by simp⟩
      (one (fun _ _ h => h) (by simp) (by simp)) (by simp)
  | clear =>
    rw [stepB] at h
    unfold World.clearB at h
    cases hr : w.entities.clear with
    | ub => rw [hr] at h; cases h
    | panic =>
      rw [hr] at h
      cases h
      exact .plain hw (List.Perm.refl _) rfl (by simp)
    | ok es =>
      rw [hr, Outcome.ofRes_ok] at h
      exact (ComponentStorage.clearB_toll bomb w.components hw.lens).step hw h rfl rfl rfl
        (fun _ _ h => ⟨h.1, fun _ => h.2⟩) (by simp)
  | reset =>
    exact (ComponentStorage.clearB_toll bomb w.components hw.lens).step (es := w.entities.reset) hw h rfl rfl rfl
        (fun _ _ h => ⟨h.1, fun _ => h.2⟩) (by simp)
  | insert e vs =>
    rw [stepB] at h
    split at h
    · next w1 ds1 hb =>
      simp only [Option.some.injEq, Prod.mk.injEq] at h
      obtain ⟨rfl, rfl, rfl⟩ := h
      unfold World.insertBomb at hb
      split at hb
      · rw [Option.map_eq_some_iff] at hb
        obtain ⟨⟨c, ds⟩, h1, h2⟩ := hb
        simp only [Prod.mk.injEq] at h2
        obtain ⟨rfl, rfl⟩ := h2
        obtain ⟨k1, k2⟩ := ComponentStorage.insertBomb_tidy hw.lens h1
        exact .plain ⟨k1, by rw [k2]; exact hw.keys⟩ (ComponentStorage.insertBomb_ledger hw.lens h1) ⟨rfl, rfl⟩ (by simp)
      · split at hb
        · simp only [Option.some.injEq, Prod.mk.injEq] at hb
          obtain ⟨rfl, rfl⟩ := hb
          exact .plain hw (List.Perm.refl _) ⟨rfl, rfl⟩ (by simp)
        · cases hb
    · exact others _ ⟨rfl, rfl⟩ (by simp) (by simp) h
  | create vs =>
    rw [stepB] at h
    split at h
    · next w1 ds1 made hb =>
      simp only [Option.some.injEq, Prod.mk.injEq] at h
      obtain ⟨rfl, rfl, rfl⟩ := h
      unfold World.createBomb at hb
      split at hb
      · rw [Option.map_eq_some_iff] at hb
        obtain ⟨⟨c, ds⟩, h1, h2⟩ := hb
        simp only [Prod.mk.injEq] at h2
        obtain ⟨rfl, rfl, rfl⟩ := h2
        obtain ⟨k1, k2⟩ := ComponentStorage.insertBomb_tidy hw.lens h1
        exact .plain ⟨k1, by rw [k2]; exact hw.keys⟩ (ComponentStorage.insertBomb_ledger hw.lens h1) ⟨rfl, rfl⟩ (by simp)
      · cases hb
    · exact others _ ⟨rfl, rfl⟩ (by simp) (by simp) h
  | extend ts it =>
    rw [stepB] at h
    split at h
    · next w1 ds1 made hb =>
      simp only [Option.some.injEq, Prod.mk.injEq] at h
      obtain ⟨rfl, rfl, rfl⟩ := h
      unfold World.extendBombs at hb
      split at hb
      · next idxs mask hl =>
        have h1 := World.extendBomb_ledger hw.lens hb
        rw [ComponentStorage.lookupAll_length _ _ _ _ _ hl] at h1
        obtain ⟨k1, k2⟩ := World.extendBomb_tidy hw.lens hb
        exact .plain ⟨k1, by rw [k2]; exact hw.keys⟩ h1 ⟨rfl, rfl⟩ (by simp)
      · cases hb
    · exact others _ ⟨rfl, rfl⟩ (by simp) (by simp) h
  | write t e v =>
    refine writes _ ⟨rfl, rfl⟩ (by simp) (by simp) h fun r' w' hs => ?_
    rcases retRes_cases hs with ⟨_, rfl, _⟩ | ⟨p, _, h2⟩
    · rfl
    · simp only [Prod.mk.injEq] at h2
      rw [← h2.1]
      rfl
  | writeAt t pos v =>
    refine writes _ ⟨rfl, rfl⟩ (by simp) (by simp) h fun r' w' hs => ?_
    rcases retRes_cases hs with ⟨_, rfl, _⟩ | ⟨p, _, h2⟩
    · rfl
    · simp only [Prod.mk.injEq] at h2
      rw [← h2.1]
      rfl
  | _ => exact others _ ⟨rfl, rfl⟩ (by simp) (by simp) h

open World in
/-- The books of a list of calls. -/
theorem runB_toll {bomb : V → Bool} : ∀ {ops : List (Op V)} {w w' : World V} {rs : List (Ret V)} {ds : List V}, Tidy w →
    runB bomb w ops = some (rs, w', ds) → Tidy w' ∧ ∃ twice lost,
      (ops.flatMap Op.given ++ w.stored ++ twice).Perm (ds ++ (rs.flatMap Ret.returned ++ w'.stored ++ lost)) ∧
      twice.Sublist ds ∧ lost.length ≤ interrupted ops rs ∧
      ((∀ r ∈ rs, r ≠ .panicked []) → twice = [] ∧ lost = [])
  | [], w, w', rs, ds, hw, h => by
    cases h
    exact ⟨hw, [], [], by simp, List.Sublist.refl _, by simp, fun _ => ⟨rfl, rfl⟩⟩
  | op :: ops, w, w', rs, ds, hw, h => by
    rw [runB] at h
    cases h1 : stepB bomb w op with
    | none => rw [h1] at h; cases h
    | some p =>
      obtain ⟨r, w1, d1⟩ := p
      rw [h1] at h
      dsimp only at h
      cases h2 : runB bomb w1 ops with
      | none => rw [h2] at h; cases h
      | some q =>
        obtain ⟨rs2, w2, d2⟩ := q
        rw [h2] at h
        cases h
        obtain ⟨ht, tw1, lo1, t1, t2, t3, _⟩ := stepB_toll hw h1
        obtain ⟨ht', tw2, lo2, u1, u2, u3, u4⟩ := runB_toll ht h2
        have hlost : lo1.length = 0 ∨ lo1.length ≤ 1 ∧ tw1.length = lo1.length ∧ ((∃ e ts, op = .delete e ts) ∨ ∃ e, op = .destroy e) := by
          cases op with
          | delete e ts => exact .inr ⟨t2.2, t2.1, .inl ⟨_, _, rfl⟩⟩
          | destroy e => exact .inr ⟨t2.2, t2.1, .inr ⟨_, rfl⟩⟩
          | clear => left; rw [show lo1 = [] from t2]; rfl
          | reset => left; rw [show lo1 = [] from t2]; rfl
          | _ => left; rw [t2.2]; rfl
        refine ⟨ht', tw1 ++ tw2, lo1 ++ lo2, cn_perm.2 fun a => ?_, t1.tail.sublist.append u2, ?_, fun hr => ?_⟩
        · have j1 := cn_perm.1 t1.books a
          have j2 := cn_perm.1 u1 a
          simp only [List.flatMap_cons, cn_append] at j1 j2 ⊢
          omega
        · have hle : interrupted ops rs2 ≤ interrupted (op :: ops) (r :: rs2) := by
            cases op <;> cases r <;> simp [interrupted]
          rw [List.length_append]
          rcases hlost with h0 | ⟨h3, h4, h5⟩
          · omega
          · by_cases h6 : lo1 = []
            · rw [h6, List.length_nil]; omega
            · have h7 : r = .panicked [] := t3 fun h => by
                rw [h] at h4
                exact h6 (List.length_eq_zero_iff.1 h4.symm)
              have h8 : interrupted (op :: ops) (r :: rs2) = interrupted ops rs2 + 1 := by
                rcases h5 with ⟨e, ts, rfl⟩ | ⟨e, rfl⟩ <;> rw [h7] <;> rfl
              omega
        · obtain ⟨k1, k2⟩ := u4 fun r hr' => hr r (.tail _ hr')
          have h6 : tw1 = [] := by
            by_contra hne
            exact hr r (.head _) (t3 hne)
          have h7 : lo1 = [] := by
            rcases hlost with h0 | ⟨_, h4, _⟩
            · exact List.length_eq_zero_iff.1 h0
            · rw [h6] at h4
              exact List.length_eq_zero_iff.1 h4.symm
          rw [h6, h7, k1, k2]
          exact ⟨rfl, rfl⟩

end Sparsey
