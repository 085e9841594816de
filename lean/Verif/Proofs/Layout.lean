import Verif.Spec.Layout
import Verif.Model.History
import Mathlib.Data.List.Nodup
import Mathlib.Data.List.Perm.Subperm

/-!
`GroupLayout::add_group` (src/component/group_layout.rs:33-61, 101-165) on well formed layouts.
-/

set_option autoImplicit false
set_option linter.unusedSimpArgs false

namespace Sparsey

/-! ### `sort_unstable` and `dedup` -/

theorem mem_insertSorted (t x : TypeId) : ∀ l : List TypeId, x ∈ insertSorted t l ↔ x = t ∨ x ∈ l
  | [] => by simp [insertSorted]
  | y :: l => by
    rw [insertSorted]
    split
    · simp
    · rw [List.mem_cons, mem_insertSorted t x l, List.mem_cons]
      tauto

theorem mem_sortTypes (x : TypeId) : ∀ l : List TypeId, x ∈ sortTypes l ↔ x ∈ l
  | [] => by simp [sortTypes]
  | y :: l => by rw [sortTypes, mem_insertSorted, mem_sortTypes x l, List.mem_cons]

theorem insertSorted_sorted (t : TypeId) : ∀ l : List TypeId, l.Pairwise (· ≤ ·) →
    (insertSorted t l).Pairwise (· ≤ ·)
  | [], _ => by simp [insertSorted]
  | y :: l, h => by
    rw [List.pairwise_cons] at h
    rw [insertSorted]
    split
    · rename_i hle
      refine List.pairwise_cons.2 ⟨?_, List.pairwise_cons.2 h⟩
      intro z hz
      rcases List.mem_cons.1 hz with rfl | hz
      · exact hle
      · exact Nat.le_trans hle (h.1 z hz)
    · rename_i hle
      refine List.pairwise_cons.2 ⟨?_, insertSorted_sorted t l h.2⟩
      intro z hz
      rcases (mem_insertSorted t z l).1 hz with rfl | hz
      · exact Nat.le_of_lt (Nat.lt_of_not_le hle)
      · exact h.1 z hz

theorem sortTypes_sorted : ∀ l : List TypeId, (sortTypes l).Pairwise (· ≤ ·)
  | [] => by simp [sortTypes]
  | y :: l => insertSorted_sorted y _ (sortTypes_sorted l)

theorem mem_dedupTypes (x : TypeId) : ∀ l : List TypeId, x ∈ dedupTypes l ↔ x ∈ l
  | [] => by simp [dedupTypes]
  | [y] => by simp [dedupTypes]
  | y :: z :: l => by
    rw [dedupTypes]
    split
    · rename_i h
      rw [mem_dedupTypes x (z :: l), h]
      simp
    · rw [List.mem_cons, mem_dedupTypes x (z :: l), List.mem_cons (a := x) (b := y)]

theorem dedupTypes_strict : ∀ l : List TypeId, l.Pairwise (· ≤ ·) → (dedupTypes l).Pairwise (· < ·)
  | [], _ => by simp [dedupTypes]
  | [y], _ => by simp [dedupTypes]
  | y :: z :: l, h => by
    rw [List.pairwise_cons] at h
    rw [dedupTypes]
    split
    · exact dedupTypes_strict _ h.2
    · rename_i hne
      refine List.pairwise_cons.2 ⟨?_, dedupTypes_strict _ h.2⟩
      intro x hx
      have h1 := h.1 z (.head _)
      rcases List.mem_cons.1 ((mem_dedupTypes x _).1 hx) with rfl | hx
      · exact Nat.lt_of_le_of_ne h1 hne
      · exact Nat.lt_of_lt_of_le (Nat.lt_of_le_of_ne h1 hne) ((List.pairwise_cons.1 h.2).1 x hx)

/-- The normal form of the types of a group. -/
abbrev normal (g : List TypeId) : List TypeId := dedupTypes (sortTypes g)

theorem normal_nodup (g : List TypeId) : (normal g).Nodup :=
  (dedupTypes_strict _ (sortTypes_sorted g)).imp (fun h => Nat.ne_of_lt h)

theorem mem_normal (g : List TypeId) : SameTypes (normal g) g := by
  intro t
  rw [mem_dedupTypes, mem_sortTypes]

theorem normal_length (g : List TypeId) : (normal g).length = g.dedup.length := by
  refine ((List.perm_ext_iff_of_nodup (normal_nodup g) (List.nodup_dedup g)).2 fun t => ?_).length_eq
  rw [mem_normal, List.mem_dedup]

/-! ### Lists without repetitions -/

theorem Nodup.length_le_of_subset {a b : List TypeId} (h : a.Nodup) (hs : ∀ t ∈ a, t ∈ b) : a.length ≤ b.length :=
  (List.subperm_of_subset h hs).length_le

theorem Nodup.same_of_subset {a b : List TypeId} (h : a.Nodup) (hs : ∀ t ∈ a, t ∈ b) (hl : b.length ≤ a.length) :
    SameTypes a b := fun _ => ((List.subperm_of_subset h hs).perm_of_length_le hl).mem_iff

theorem SameTypes.symm {a b : List TypeId} (h : SameTypes a b) : SameTypes b a := fun t => (h t).symm
theorem SameTypes.trans {a b c : List TypeId} (h : SameTypes a b) (h' : SameTypes b c) : SameTypes a c :=
  fun t => (h t).trans (h' t)
theorem SameTypes.refl (a : List TypeId) : SameTypes a a := fun _ => Iff.rfl

theorem SameTypes.length {a b : List TypeId} (h : SameTypes a b) (ha : a.Nodup) (hb : b.Nodup) : a.length = b.length :=
  ((List.perm_ext_iff_of_nodup ha hb).2 h).length_eq

theorem take_split {l : List TypeId} {p a : Nat} (h : p ≤ a) : l.take a = l.take p ++ (l.drop p).take (a - p) := by
  rw [← List.take_add, Nat.add_sub_cancel' h]

/-! ### The search of `try_add_group` -/

/-- `f.arities` and `cs` as in `try_add_group`: what the loop has checked for the arities `pre`. -/
structure Searched (f : GroupFamily) (cs : List TypeId) (pre : List Nat) (prev : Nat) : Prop where
  last : (0 :: pre).getLast? = some prev
  lt : ∀ a ∈ pre, a < cs.length
  sub : ∀ t ∈ f.components.take prev, t ∈ cs

theorem FamilyOK.mem_le {f : GroupFamily} (hf : FamilyOK f) {a : Nat} (ha : a ∈ f.arities) :
    a ≤ f.components.length := by
  have h := hf.2.2
  obtain ⟨l, hl⟩ := List.getLast?_eq_some_iff.1 h
  have h1 := hf.1
  rw [hl] at ha h1
  rcases List.mem_append.1 ha with h2 | h2
  · exact Nat.le_of_lt ((List.pairwise_append.1 h1).2.2 a h2 _ (by simp))
  · simp at h2; omega

theorem Searched.next {f : GroupFamily} {cs : List TypeId} {pre rest : List Nat} {prev a : Nat}
    (h : Searched f cs pre prev) (hf : FamilyOK f) (ha : pre ++ a :: rest = f.arities) :
    prev < a ∧ a ≤ f.components.length := by
  have ham : a ∈ f.arities := by rw [← ha]; simp
  refine ⟨?_, hf.mem_le ham⟩
  have h1 := hf.1
  rw [← ha] at h1
  have h2 := h.last
  obtain ⟨l, hl⟩ := List.getLast?_eq_some_iff.1 h2
  have : prev ∈ 0 :: pre := by rw [hl]; simp
  rcases List.mem_cons.1 this with rfl | h3
  · have := hf.2.1 a ham; omega
  · exact (List.pairwise_append.1 h1).2.2 prev h3 a (by simp)

/-- What the result of the search means. -/
def SearchOK (f : GroupFamily) (cs : List TypeId) (pre rest : List Nat) : Res GroupFamily.Search → Prop
  | .ok .found => ∃ a ∈ f.arities, SameTypes (f.components.take a) cs
  | .ok (.insertAt none) => (∀ t ∈ f.components, t ∈ cs) ∧ f.components.length < cs.length ∧
      ∀ a ∈ f.arities, a < cs.length
  | .ok (.insertAt (some k)) => ∃ (mid : List Nat) (p a : Nat) (tail : List Nat), rest = mid ++ a :: tail ∧
      k = (pre ++ mid).length ∧ Searched f cs (pre ++ mid) p ∧ cs.length < a ∧
      ∀ t ∈ (f.components.drop p).take (a - p), t ∉ cs
  | .panic => (¬ ∀ t ∈ f.components, t ∈ cs) ∧ ¬ ∃ a ∈ f.arities, SameTypes (f.components.take a) cs
  | .ub => False

theorem search_ok {f : GroupFamily} (hf : FamilyOK f) (hn : f.components.Nodup) {cs : List TypeId} (hcs : cs.Nodup) :
    ∀ (rest pre : List Nat) (prev i : Nat), pre ++ rest = f.arities → Searched f cs pre prev → i = pre.length →
      SearchOK f cs pre rest (f.search cs i prev rest)
  | [], pre, prev, i, ha, hs, hi => by
    rw [List.append_nil] at ha
    subst ha
    have h1 := hs.last
    rw [List.getLast?_cons, hf.2.2] at h1
    simp at h1
    subst h1
    have hl : f.components.length ∈ f.arities := List.mem_of_getLast? hf.2.2
    refine ⟨fun t ht => hs.sub t (by rw [List.take_length]; exact ht), hs.lt _ hl, hs.lt⟩
  | a :: rest, pre, prev, i, ha, hs, hi => by
    obtain ⟨h1, h2⟩ := hs.next hf ha
    have ham : a ∈ f.arities := by rw [← ha]; simp
    have hseg : f.segment prev a = .ok ((f.components.drop prev).take (a - prev)) := by
      rw [GroupFamily.segment, if_pos ⟨Nat.le_of_lt h1, h2⟩]
    rw [GroupFamily.search, hseg, Res.bind_ok]
    have hsp := take_split (l := f.components) (Nat.le_of_lt h1)
    have hnt : (f.components.take a).Nodup := hn.sublist (List.take_sublist _ _)
    have hlt : (f.components.take a).length = a := by rw [List.length_take]; omega
    cases hc : compare a cs.length with
    | lt =>
      rw [Nat.compare_eq_lt] at hc
      simp only
      split
      · rename_i hall
        rw [List.all_eq_true] at hall
        have hs' : Searched f cs (pre ++ [a]) a := by
          refine ⟨by rw [← List.cons_append, List.getLast?_append]; simp, ?_, ?_⟩
          · intro b hb
            rcases List.mem_append.1 hb with hb | hb
            · exact hs.lt b hb
            · simp at hb; omega
          · intro t ht
            rw [hsp] at ht
            rcases List.mem_append.1 ht with ht | ht
            · exact hs.sub t ht
            · simpa using hall t ht
        have ih := search_ok hf hn hcs rest (pre ++ [a]) a (i + 1) (by rw [← ha]; simp) hs' (by rw [hi]; simp)
        cases hr : f.search cs (i + 1) a rest with
        | panic => rw [hr] at ih; exact ih
        | ub => rw [hr] at ih; exact ih
        | ok r =>
          rw [hr] at ih
          cases r with
          | found => exact ih
          | insertAt o =>
            cases o with
            | none => exact ih
            | some k =>
              obtain ⟨mid, p, b, tail, e1, e2, e3, e4, e5⟩ := ih
              refine ⟨a :: mid, p, b, tail, by rw [e1]; rfl, by rw [e2]; simp, ?_, e4, e5⟩
              rw [List.append_assoc] at e3
              exact e3
      · rename_i hall
        rw [List.all_eq_true] at hall
        refine ⟨fun hsub => hall fun t ht => ?_, ?_⟩
        · simpa using hsub t (List.mem_of_mem_drop (List.mem_of_mem_take ht))
        · rintro ⟨b, hb, hsame⟩
          have hlb := hsame.length (hn.sublist (List.take_sublist _ _)) hcs
          rw [List.length_take, Nat.min_eq_left (hf.mem_le hb)] at hlb
          refine hall fun t ht => ?_
          have : t ∈ f.components.take b := by
            have h3 : t ∈ f.components.take a := by rw [hsp]; exact List.mem_append_right _ ht
            exact List.IsPrefix.subset (List.take_prefix_take_left (by omega)) h3
          simpa using (hsame t).1 this
    | eq =>
      rw [Nat.compare_eq_eq] at hc
      simp only
      split
      · rename_i hall
        rw [List.all_eq_true] at hall
        refine ⟨a, ham, Nodup.same_of_subset hnt ?_ (by omega)⟩
        intro t ht
        rw [hsp] at ht
        rcases List.mem_append.1 ht with ht | ht
        · exact hs.sub t ht
        · simpa using hall t ht
      · rename_i hall
        rw [List.all_eq_true] at hall
        refine ⟨fun hsub => hall fun t ht => ?_, ?_⟩
        · simpa using hsub t (List.mem_of_mem_drop (List.mem_of_mem_take ht))
        · rintro ⟨b, hb, hsame⟩
          have hlb := hsame.length (hn.sublist (List.take_sublist _ _)) hcs
          rw [List.length_take, Nat.min_eq_left (hf.mem_le hb)] at hlb
          refine hall fun t ht => ?_
          have h3 : t ∈ f.components.take b := by
            rw [hlb, ← hc, hsp]; exact List.mem_append_right _ ht
          simpa using (hsame t).1 h3
    | gt =>
      rw [Nat.compare_eq_gt] at hc
      simp only
      split
      · rename_i hall
        rw [List.all_eq_true] at hall
        refine ⟨[], prev, a, rest, rfl, by simp [hi], by simpa using hs, hc, ?_⟩
        intro t ht
        simpa using hall t ht
      · rename_i hall
        rw [List.all_eq_true] at hall
        push Not at hall
        refine ⟨fun hsub => ?_, ?_⟩
        · have := Nodup.length_le_of_subset hn hsub
          omega
        · rintro ⟨b, hb, hsame⟩
          have hlb := hsame.length (hn.sublist (List.take_sublist _ _)) hcs
          rw [List.length_take, Nat.min_eq_left (hf.mem_le hb)] at hlb
          obtain ⟨t, ht, hct⟩ := hall
          have h4 : b ∈ pre ∨ a ≤ b := by
            rw [← ha] at hb
            rcases List.mem_append.1 hb with hb | hb
            · exact .inl hb
            · have h5 := hf.1
              rw [← ha] at h5
              have h6 := (List.pairwise_cons.1 (List.pairwise_append.1 h5).2.1).1
              rcases List.mem_cons.1 hb with rfl | hb
              · exact .inr (Nat.le_refl _)
              · exact .inr (Nat.le_of_lt (h6 b hb))
          rcases h4 with h4 | h4
          · have := hs.lt b h4
            omega
          · omega

/-! ### `try_add_group` -/

/-- The groups of a family. -/
def famGroups (f : GroupFamily) : List (List TypeId) := f.arities.map fun a => f.components.take a

/-- The group `cs` fits the family: it is one of its groups, or contains them all. -/
def Fits (f : GroupFamily) (cs : List TypeId) : Prop :=
  (∃ g ∈ famGroups f, SameTypes g cs) ∨ ∀ t ∈ f.components, t ∈ cs

theorem mem_pushMissing (t : TypeId) : ∀ (cs f : List TypeId), t ∈ GroupFamily.pushMissing f cs ↔ t ∈ f ∨ t ∈ cs
  | [], f => by simp [GroupFamily.pushMissing]
  | c :: cs, f => by
    rw [GroupFamily.pushMissing, mem_pushMissing t cs, List.mem_cons]
    split
    · rename_i h
      rw [List.contains_iff_mem] at h
      constructor
      · tauto
      · rintro (h1 | rfl | h1)
        · exact .inl h1
        · exact .inl h
        · exact .inr h1
    · simp
      tauto

theorem pushMissing_nodup : ∀ (cs f : List TypeId), f.Nodup → (GroupFamily.pushMissing f cs).Nodup
  | [], f, h => h
  | c :: cs, f, h => by
    rw [GroupFamily.pushMissing]
    refine pushMissing_nodup cs _ ?_
    split
    · exact h
    · rename_i h1
      rw [List.contains_iff_mem] at h1
      rw [List.nodup_append]
      refine ⟨h, by simp, ?_⟩
      intro x hx y hy
      simp at hy
      subst hy
      rintro rfl
      exact h1 hx

theorem pushMissing_prefix : ∀ (cs f : List TypeId), f <+: GroupFamily.pushMissing f cs
  | [], f => List.prefix_refl f
  | c :: cs, f => by
    rw [GroupFamily.pushMissing]
    refine List.IsPrefix.trans ?_ (pushMissing_prefix cs _)
    split
    · exact List.prefix_refl f
    · exact List.prefix_append f _

theorem sortByKey_perm (key : TypeId → Bool) (l : List TypeId) : (GroupFamily.sortByKey key l).Perm l := by
  unfold GroupFamily.sortByKey
  have h := List.filter_append_perm key l
  exact List.perm_append_comm.trans h

/-- What `try_add_group` does on a well formed family. -/
structure TryOK (f : GroupFamily) (cs : List TypeId) : Prop where
  /-- It declines a group without common types. -/
  apart : ¬ Meet f.components cs → f.tryAddGroup cs = .ok (false, f)
  /-- It adds a group that fits. -/
  fits : Meet f.components cs → Fits f cs → ∃ f', f.tryAddGroup cs = .ok (true, f') ∧ FamilyOK f' ∧
    f'.components.Nodup ∧ (∀ t, t ∈ f'.components ↔ t ∈ f.components ∨ t ∈ cs) ∧
    SameGroups (famGroups f') (famGroups f ++ [cs])
  /-- It panics on any other group, or silently adds a different one. -/
  unfit : Meet f.components cs → ¬ Fits f cs → f.tryAddGroup cs = .panic ∨
    ∃ f', f.tryAddGroup cs = .ok (true, f') ∧ FamilyOK f' ∧ f'.components.Nodup ∧
      (∀ t, t ∈ f'.components ↔ t ∈ f.components) ∧ (¬ ∃ g ∈ famGroups f', SameTypes g cs) ∧
      cs.length < f.components.length

theorem tryAddGroup_ok {f : GroupFamily} (hf : FamilyOK f) (hn : f.components.Nodup) {cs : List TypeId}
    (hcs : cs.Nodup) (h2 : 2 ≤ cs.length) : TryOK f cs := by
  have hmeet : (f.components.all fun c => !cs.contains c) = true ↔ ¬ Meet f.components cs := by
    rw [List.all_eq_true]
    simp [Meet]
  have hfound : (∃ g ∈ famGroups f, SameTypes g cs) ↔ ∃ a ∈ f.arities, SameTypes (f.components.take a) cs := by
    simp [famGroups]
  have hs := search_ok hf hn hcs f.arities [] 0 0 rfl
    ⟨rfl, by simp, by simp⟩ rfl
  refine ⟨fun h => ?_, fun h hfit => ?_, fun h hfit => ?_⟩
  · rw [GroupFamily.tryAddGroup, if_pos (hmeet.2 h)]
  · rw [GroupFamily.tryAddGroup, if_neg (by rw [hmeet]; exact fun hh => hh h)]
    cases hr : f.search cs 0 0 f.arities with
    | ub => rw [hr] at hs; exact hs.elim
    | panic =>
      rw [hr] at hs
      rcases hfit with hfit | hfit
      · exact (hs.2 (hfound.1 hfit)).elim
      · exact (hs.1 hfit).elim
    | ok r =>
      rw [hr] at hs
      cases r with
      | found =>
        obtain ⟨a, ha, hsame⟩ := hs
        refine ⟨f, rfl, hf, hn, fun t => ⟨.inl, ?_⟩, ?_, ?_⟩
        · rintro (h1 | h1)
          · exact h1
          · exact List.mem_of_mem_take ((hsame t).2 h1)
        · intro g hg
          exact ⟨g, List.mem_append_left _ hg, SameTypes.refl g⟩
        · intro g hg
          rcases List.mem_append.1 hg with hg | hg
          · exact ⟨g, hg, SameTypes.refl g⟩
          · simp at hg
            subst hg
            exact ⟨_, List.mem_map.2 ⟨a, ha, rfl⟩, hsame⟩
      | insertAt o =>
        cases o with
        | none =>
          obtain ⟨h3, h4, h5⟩ := hs
          have hmem : ∀ t, t ∈ GroupFamily.pushMissing f.components cs ↔ t ∈ f.components ∨ t ∈ cs := fun t =>
            mem_pushMissing t cs f.components
          have hnd := pushMissing_nodup cs f.components hn
          have hsame : SameTypes (GroupFamily.pushMissing f.components cs) cs := by
            intro t
            rw [hmem]
            exact ⟨fun h => h.elim (h3 t) id, .inr⟩
          have hlen := hsame.length hnd hcs
          have htake : ∀ a ∈ f.arities, (GroupFamily.pushMissing f.components cs).take a = f.components.take a := by
            intro a ha
            obtain ⟨l, hl⟩ := pushMissing_prefix cs f.components
            rw [← hl, List.take_append_of_le_length (hf.mem_le ha)]
          refine ⟨_, rfl, ⟨?_, ?_, ?_⟩, hnd, hmem, ?_, ?_⟩
          · rw [List.pairwise_append]
            refine ⟨hf.1, by simp, ?_⟩
            intro a ha b hb
            simp at hb
            subst hb
            exact h5 a ha
          · intro a ha
            rcases List.mem_append.1 ha with ha | ha
            · exact hf.2.1 a ha
            · simp at ha; omega
          · show (f.arities ++ [cs.length]).getLast? = some (GroupFamily.pushMissing f.components cs).length
            rw [hlen]
            simp
          · intro g hg
            simp only [famGroups, List.map_append, List.mem_append, List.mem_map] at hg
            rcases hg with ⟨a, ha, rfl⟩ | ⟨a, ha, rfl⟩
            · refine ⟨_, List.mem_append_left _ (List.mem_map.2 ⟨a, ha, rfl⟩), ?_⟩
              rw [htake a ha]
              exact SameTypes.refl _
            · refine ⟨cs, by simp, ?_⟩
              simp at ha
              rw [ha, ← hlen, List.take_length]
              exact hsame
          · intro g hg
            rcases List.mem_append.1 hg with hg | hg
            · obtain ⟨a, ha, rfl⟩ := List.mem_map.1 hg
              refine ⟨_, List.mem_map.2 ⟨a, List.mem_append_left _ ha, rfl⟩, ?_⟩
              rw [htake a ha]
              exact SameTypes.refl _
            · simp at hg
              subst hg
              refine ⟨_, List.mem_map.2 ⟨g.length, by simp, rfl⟩, ?_⟩
              rw [← hlen, List.take_length]
              exact hsame
        | some k =>
          exfalso
          obtain ⟨mid, p, a, tail, e1, e2, e3, e4, e5⟩ := hs
          have hnx := e3.next hf (a := a) (rest := tail) (by simpa using e1.symm)
          have hseg : 0 < ((f.components.drop p).take (a - p)).length := by
            rw [List.length_take, List.length_drop]; omega
          obtain ⟨t, ht⟩ := List.exists_mem_of_length_pos hseg
          rcases hfit with hfit | hfit
          · obtain ⟨b, hb, hsame⟩ := hfound.1 hfit
            have hlb := hsame.length (hn.sublist (List.take_sublist _ _)) hcs
            rw [List.length_take, Nat.min_eq_left (hf.mem_le hb)] at hlb
            rw [e1] at hb
            rcases List.mem_append.1 hb with hb | hb
            · have := e3.lt b (by simpa using hb)
              omega
            · have h5 := hf.1
              rw [e1] at h5
              have h6 := (List.pairwise_cons.1 (List.pairwise_append.1 h5).2.1).1
              rcases List.mem_cons.1 hb with rfl | hb
              · omega
              · have := h6 b hb
                omega
          · exact e5 t ht (hfit t (List.mem_of_mem_drop (List.mem_of_mem_take ht)))
  · rw [GroupFamily.tryAddGroup, if_neg (by rw [hmeet]; exact fun hh => hh h)]
    cases hr : f.search cs 0 0 f.arities with
    | ub => rw [hr] at hs; exact hs.elim
    | panic => exact .inl rfl
    | ok r =>
      rw [hr] at hs
      cases r with
      | found => exact (hfit (.inl (hfound.2 hs))).elim
      | insertAt o =>
        cases o with
        | none => exact (hfit (.inr hs.1)).elim
        | some k =>
          obtain ⟨mid, p, a, tail, e1, e2, e3, e4, e5⟩ := hs
          rw [List.nil_append] at e2 e3
          have hnx := e3.next hf (a := a) (rest := tail) e1.symm
          have hk : f.arities[k]? = some a := by rw [e1, e2]; simp
          have htk : f.arities.take k = mid := by rw [e1, e2]; simp
          have hdk : f.arities.drop k = a :: tail := by rw [e1, e2]; simp
          have hperm : (GroupFamily.sortByKey (cs.contains ·) (f.components.take a)
              ++ f.components.drop a).Perm f.components := by
            have := (sortByKey_perm (cs.contains ·) (f.components.take a)).append_right (f.components.drop a)
            rwa [List.take_append_drop] at this
          have h5 := hf.1
          rw [e1] at h5
          have h6 := List.pairwise_append.1 h5
          have h7 := List.pairwise_cons.1 h6.2.1
          refine .inr ⟨⟨GroupFamily.sortByKey (cs.contains ·) (f.components.take a) ++ f.components.drop a,
            mid ++ cs.length :: a :: tail⟩, ?_, ?_, ?_, ?_, ?_, by omega⟩
          · simp only [Res.bind_ok, hk, Res.checked, Res.assert, hnx.2, htk, hdk]
            rfl
          · refine ⟨?_, ?_, ?_⟩
            · show (mid ++ cs.length :: a :: tail).Pairwise (· < ·)
              rw [List.pairwise_append]
              refine ⟨h6.1, List.pairwise_cons.2 ⟨?_, h6.2.1⟩, ?_⟩
              · intro b hb
                rcases List.mem_cons.1 hb with rfl | hb
                · exact e4
                · have := h7.1 b hb; omega
              · intro x hx y hy
                rcases List.mem_cons.1 hy with rfl | hy
                · exact e3.lt x hx
                · exact h6.2.2 x hx y hy
            · intro b hb
              have hb : b ∈ mid ++ cs.length :: a :: tail := hb
              rw [List.mem_append, List.mem_cons] at hb
              rcases hb with hb | rfl | hb
              · exact hf.2.1 b (by rw [e1]; exact List.mem_append_left _ hb)
              · exact h2
              · exact hf.2.1 b (by rw [e1]; exact List.mem_append_right _ hb)
            · show (mid ++ cs.length :: a :: tail).getLast? = _
              have h8 := hf.2.2
              rw [e1, List.getLast?_append_of_ne_nil _ (by simp)] at h8
              rw [List.getLast?_append_of_ne_nil _ (by simp), List.getLast?_cons_cons, h8, hperm.length_eq]
          · exact (hperm.nodup_iff).2 hn
          · intro t; exact hperm.mem_iff
          · rintro ⟨g, hg, hsame⟩
            obtain ⟨b, hb, rfl⟩ := List.mem_map.1 hg
            have hseg : 0 < ((f.components.drop p).take (a - p)).length := by
              rw [List.length_take, List.length_drop]; omega
            obtain ⟨t, ht⟩ := List.exists_mem_of_length_pos hseg
            have htn := e5 t ht
            have hta : t ∈ f.components.take a := by
              rw [take_split (Nat.le_of_lt hnx.1)]; exact List.mem_append_right _ ht
            have hne : (f.components.take a).filter (fun c => !cs.contains c) ≠ [] := by
              refine List.ne_nil_of_mem (a := t) ?_
              rw [List.mem_filter]
              exact ⟨hta, by simpa using htn⟩
            obtain ⟨x, xs, hxs⟩ := List.exists_cons_of_ne_nil hne
            have hx : x ∉ cs := by
              have : x ∈ (f.components.take a).filter (fun c => !cs.contains c) := by rw [hxs]; simp
              simpa using (List.mem_filter.1 this).2
            have hb2 : 0 < b := by
              have hb : b ∈ mid ++ cs.length :: a :: tail := hb
              rw [List.mem_append, List.mem_cons] at hb
              rcases hb with hb | rfl | hb
              · have := hf.2.1 b (by rw [e1]; exact List.mem_append_left _ hb); omega
              · omega
              · have := hf.2.1 b (by rw [e1]; exact List.mem_append_right _ hb); omega
            refine hx ((hsame x).1 ?_)
            simp only [GroupFamily.sortByKey, hxs]
            cases b with
            | zero => omega
            | succ b => simp

/-! ### All families -/

theorem tryAll_apart {cs : List TypeId} : ∀ {fs : List GroupFamily}, (∀ f ∈ fs, FamilyOK f) →
    (fs.flatMap (·.components)).Nodup → cs.Nodup → 2 ≤ cs.length → (∀ f ∈ fs, ¬ Meet f.components cs) →
    GroupLayout.tryAll cs fs = .ok 0 fs
  | [], _, _, _, _, _ => rfl
  | f :: fs, hf, hn, hcs, h2, hm => by
    rw [List.flatMap_cons, List.nodup_append] at hn
    have h1 := (tryAddGroup_ok (hf f (.head _)) hn.1 hcs h2).apart (hm f (.head _))
    have h3 := tryAll_apart (fun f h => hf f (.tail _ h)) hn.2.1 hcs h2 (fun f h => hm f (.tail _ h))
    simp [GroupLayout.tryAll, h1, h3]

theorem tryAll_one {cs : List TypeId} {f : GroupFamily} {B : List GroupFamily} : ∀ {A : List GroupFamily},
    (∀ f' ∈ A ++ f :: B, FamilyOK f') → ((A ++ f :: B).flatMap (·.components)).Nodup → cs.Nodup → 2 ≤ cs.length →
    (∀ f' ∈ A, ¬ Meet f'.components cs) → (∀ f' ∈ B, ¬ Meet f'.components cs) →
    (∀ f', f.tryAddGroup cs = .ok (true, f') → GroupLayout.tryAll cs (A ++ f :: B) = .ok 1 (A ++ f' :: B)) ∧
    (f.tryAddGroup cs = .panic → GroupLayout.tryAll cs (A ++ f :: B) = .panic (A ++ f :: B))
  | [], hf, hn, hcs, h2, hA, hB => by
    rw [List.nil_append, List.flatMap_cons, List.nodup_append] at hn
    have h3 := tryAll_apart (fun f h => hf f (.tail _ h)) hn.2.1 hcs h2 hB
    refine ⟨fun f' h => ?_, fun h => ?_⟩
    · simp [GroupLayout.tryAll, h, h3]
    · simp [GroupLayout.tryAll, h]
  | a :: A, hf, hn, hcs, h2, hA, hB => by
    rw [List.cons_append, List.flatMap_cons, List.nodup_append] at hn
    have h1 := (tryAddGroup_ok (hf a (.head _)) hn.1 hcs h2).apart (hA a (.head _))
    obtain ⟨h3, h4⟩ := tryAll_one (A := A) (fun f h => hf f (.tail _ h)) hn.2.1 hcs h2 (fun f h => hA f (.tail _ h)) hB
    refine ⟨fun f' h => ?_, fun h => ?_⟩
    · simp [GroupLayout.tryAll, h1, h3 f' h]
    · simp [GroupLayout.tryAll, h1, h4 h]

theorem tryAll_count {cs : List TypeId} : ∀ {fs : List GroupFamily}, (∀ f ∈ fs, FamilyOK f) →
    (fs.flatMap (·.components)).Nodup → cs.Nodup → 2 ≤ cs.length →
    (∃ fs', GroupLayout.tryAll cs fs = .panic fs') ∨
    ∃ fs', GroupLayout.tryAll cs fs = .ok (fs.countP fun f => decide (Meet f.components cs)) fs'
  | [], _, _, _, _ => .inr ⟨[], rfl⟩
  | f :: fs, hf, hn, hcs, h2 => by
    rw [List.flatMap_cons, List.nodup_append] at hn
    have h1 := tryAddGroup_ok (hf f (.head _)) hn.1 hcs h2
    have ih := tryAll_count (cs := cs) (fun f h => hf f (.tail _ h)) hn.2.1 hcs h2
    have hcase : f.tryAddGroup cs = .panic ∨ ∃ f', f.tryAddGroup cs = .ok (decide (Meet f.components cs), f') := by
      by_cases hm : Meet f.components cs
      · by_cases hfit : Fits f cs
        · obtain ⟨f', h3, _⟩ := h1.fits hm hfit
          exact .inr ⟨f', by simp [h3, hm]⟩
        · rcases h1.unfit hm hfit with h3 | ⟨f', h3, _⟩
          · exact .inl h3
          · exact .inr ⟨f', by simp [h3, hm]⟩
      · exact .inr ⟨f, by simp [h1.apart hm, hm]⟩
    rcases hcase with h3 | ⟨f', h3⟩
    · exact .inl ⟨f :: fs, by simp [GroupLayout.tryAll, h3]⟩
    · rcases ih with ⟨fs', h4⟩ | ⟨fs', h4⟩
      · exact .inl ⟨f' :: fs', by simp [GroupLayout.tryAll, h3, h4]⟩
      · refine .inr ⟨f' :: fs', ?_⟩
        simp only [GroupLayout.tryAll, h3, h4, List.countP_cons]
        by_cases hm : Meet f.components cs <;> simp [hm]

/-! ### `add_group` -/

theorem layoutGroups_eq (l : GroupLayout) : layoutGroups l = l.families.flatMap famGroups := rfl

theorem FamilyOK.top {f : GroupFamily} (h : FamilyOK f) : f.components ∈ famGroups f := by
  refine List.mem_map.2 ⟨f.components.length, List.mem_of_getLast? h.2.2, List.take_length⟩

theorem famGroups_sub {f : GroupFamily} {g : List TypeId} (hg : g ∈ famGroups f) : ∀ t ∈ g, t ∈ f.components := by
  obtain ⟨a, _, rfl⟩ := List.mem_map.1 hg
  exact fun t ht => List.mem_of_mem_take ht

/-- Groups of one family meet. -/
theorem FamilyOK.meet {f : GroupFamily} (h : FamilyOK f) {g k : List TypeId} (hg : g ∈ famGroups f)
    (hk : k ∈ famGroups f) : Meet g k := by
  obtain ⟨a, ha, rfl⟩ := List.mem_map.1 hg
  obtain ⟨b, hb, rfl⟩ := List.mem_map.1 hk
  have h1 := h.2.1 a ha
  have h2 := h.2.1 b hb
  have h3 := h.mem_le ha
  cases hc : f.components with
  | nil => rw [hc] at h3; simp at h3; omega
  | cons x xs =>
    refine ⟨x, ?_, ?_⟩
    · cases a with
      | zero => omega
      | succ a => simp
    · cases b with
      | zero => omega
      | succ b => simp

theorem LayoutOK.apart {A B : List GroupFamily} {f : GroupFamily} (h : LayoutOK ⟨A ++ f :: B⟩) :
    f.components.Nodup ∧ ∀ f' ∈ A ++ B, ∀ t ∈ f'.components, t ∉ f.components := by
  have h1 := h.2
  unfold layoutTypes at h1
  rw [List.flatMap_append, List.flatMap_cons, List.nodup_append, List.nodup_append] at h1
  refine ⟨h1.2.1.1, ?_⟩
  intro f' hf' t ht ht'
  rcases List.mem_append.1 hf' with hf' | hf'
  · exact h1.2.2 t (List.mem_flatMap.2 ⟨f', hf', ht⟩) t (List.mem_append_left _ ht') rfl
  · exact h1.2.1.2.2 t ht' t (List.mem_flatMap.2 ⟨f', hf', ht⟩) rfl

theorem Meet.of_same {a b c : List TypeId} (h : SameTypes b c) : Meet a b ↔ Meet a c := by
  unfold Meet
  simp only [h _]

theorem Meet.symm {a b : List TypeId} : Meet a b ↔ Meet b a :=
  ⟨fun ⟨t, h1, h2⟩ => ⟨t, h2, h1⟩, fun ⟨t, h1, h2⟩ => ⟨t, h2, h1⟩⟩

/-- `Joins` in terms of families. -/
theorem LayoutOK.joins {l : GroupLayout} (h : LayoutOK l) {g cs : List TypeId} (hg : SameTypes cs g)
    (h2 : 2 ≤ cs.length) : Joins (layoutGroups l) g ↔
      (∀ f ∈ l.families, ¬ Meet f.components cs) ∨
      ∃ A f B, l.families = A ++ f :: B ∧ Meet f.components cs ∧ (∀ f' ∈ A ++ B, ¬ Meet f'.components cs) ∧
        Fits f cs := by
  have hcs : ∃ t, t ∈ cs := List.exists_mem_of_length_pos (by omega)
  constructor
  · rintro (⟨k, hk, hs⟩ | ⟨h3, h4⟩)
    · rw [layoutGroups_eq, List.mem_flatMap] at hk
      obtain ⟨f, hf, hk⟩ := hk
      obtain ⟨A, B, hAB⟩ := List.append_of_mem hf
      have hsub : ∀ t ∈ cs, t ∈ f.components := fun t ht => famGroups_sub hk t ((hs t).2 ((hg t).1 ht))
      have h' : LayoutOK ⟨A ++ f :: B⟩ := by rw [← hAB]; exact h
      refine .inr ⟨A, f, B, hAB, ?_, ?_, .inl ⟨k, hk, hs.trans hg.symm⟩⟩
      · obtain ⟨t, ht⟩ := hcs
        exact ⟨t, hsub t ht, ht⟩
      · rintro f' hf' ⟨t, ht, htc⟩
        exact h'.apart.2 f' hf' t ht (hsub t htc)
    · by_cases hm : ∀ f ∈ l.families, ¬ Meet f.components cs
      · exact .inl hm
      · push Not at hm
        obtain ⟨f, hf, hm⟩ := hm
        obtain ⟨A, B, hAB⟩ := List.append_of_mem hf
        have h' : LayoutOK ⟨A ++ f :: B⟩ := by rw [← hAB]; exact h
        have htop : ∀ f ∈ l.families, f.components ∈ layoutGroups l := fun f hf =>
          List.mem_flatMap.2 ⟨f, hf, (h.1 f hf).top⟩
        refine .inr ⟨A, f, B, hAB, hm, ?_, .inr ?_⟩
        · intro f' hf' hm'
          have hfl : f' ∈ l.families := by
            rw [hAB]
            rcases List.mem_append.1 hf' with hx | hx
            · exact List.mem_append_left _ hx
            · exact List.mem_append_right _ (.tail _ hx)
          obtain ⟨t, h5, h6⟩ := h4 _ (htop f hf) _ (htop f' hfl) ((Meet.of_same hg).1 hm) ((Meet.of_same hg).1 hm')
          exact h'.apart.2 f' hf' t h6 h5
        · intro t ht
          exact (hg t).2 (h3 _ (htop f hf) ((Meet.of_same hg).1 hm) t ht)
  · rintro (h3 | ⟨A, f, B, hAB, hm, h3, h4⟩)
    · refine .inr ⟨?_, ?_⟩
      · intro k hk hm
        obtain ⟨f, hf, hk⟩ := List.mem_flatMap.1 hk
        obtain ⟨t, h5, h6⟩ := hm
        exact (h3 f hf ⟨t, famGroups_sub hk t h5, (hg t).2 h6⟩).elim
      · intro k hk _ _ hm
        obtain ⟨f, hf, hk⟩ := List.mem_flatMap.1 hk
        obtain ⟨t, h5, h6⟩ := hm
        exact (h3 f hf ⟨t, famGroups_sub hk t h5, (hg t).2 h6⟩).elim
    · have hf : f ∈ l.families := by rw [hAB]; simp
      have hin : ∀ k ∈ layoutGroups l, Meet k g → k ∈ famGroups f := by
        rintro k hk ⟨t, h5, h6⟩
        obtain ⟨f', hf', hk⟩ := List.mem_flatMap.1 hk
        rw [hAB, List.mem_append, List.mem_cons] at hf'
        have hm' : Meet f'.components cs := ⟨t, famGroups_sub hk t h5, (hg t).2 h6⟩
        rcases hf' with hf' | rfl | hf'
        · exact (h3 f' (List.mem_append_left _ hf') hm').elim
        · exact hk
        · exact (h3 f' (List.mem_append_right _ hf') hm').elim
      rcases h4 with ⟨k, hk, hs⟩ | h4
      · exact .inl ⟨k, List.mem_flatMap.2 ⟨f, hf, hk⟩, hs.trans hg⟩
      · refine .inr ⟨?_, ?_⟩
        · intro k hk hmk t ht
          exact (hg t).1 (h4 t (famGroups_sub (hin k hk hmk) t ht))
        · intro k hk k' hk' h5 h6
          exact (h.1 f hf).meet (hin k hk h5) (hin k' hk' h6)

theorem LayoutOK.replace {A B : List GroupFamily} {f f' : GroupFamily} (h : LayoutOK ⟨A ++ f :: B⟩)
    (hf' : FamilyOK f') (hn : f'.components.Nodup)
    (hd : ∀ t ∈ f'.components, ∀ k ∈ A ++ B, t ∉ k.components) : LayoutOK ⟨A ++ f' :: B⟩ := by
  refine ⟨?_, ?_⟩
  · intro k hk
    rcases List.mem_append.1 hk with hk | hk
    · exact h.1 k (List.mem_append_left _ hk)
    · rcases List.mem_cons.1 hk with rfl | hk
      · exact hf'
      · exact h.1 k (List.mem_append_right _ (.tail _ hk))
  · have h1 := h.2
    unfold layoutTypes at h1 ⊢
    rw [List.flatMap_append, List.flatMap_cons, List.nodup_append, List.nodup_append] at h1 ⊢
    refine ⟨h1.1, ⟨hn, h1.2.1.2.1, ?_⟩, ?_⟩
    · rintro t ht u hu rfl
      obtain ⟨k, hk, hu⟩ := List.mem_flatMap.1 hu
      exact hd t ht k (List.mem_append_right _ hk) hu
    · rintro t ht u hu rfl
      rcases List.mem_append.1 hu with hu | hu
      · obtain ⟨k, hk, ht⟩ := List.mem_flatMap.1 ht
        exact hd t hu k (List.mem_append_left _ hk) ht
      · exact h1.2.2 t ht t (List.mem_append_right _ hu) rfl

theorem SameGroups.refl (gs : List (List TypeId)) : SameGroups gs gs :=
  ⟨fun g hg => ⟨g, hg, SameTypes.refl g⟩, fun g hg => ⟨g, hg, SameTypes.refl g⟩⟩

theorem SameGroups.append {a b c d : List (List TypeId)} (h : SameGroups a b) (h' : SameGroups c d) :
    SameGroups (a ++ c) (b ++ d) := by
  refine ⟨fun g hg => ?_, fun g hg => ?_⟩
  · rcases List.mem_append.1 hg with hg | hg
    · obtain ⟨k, hk, hs⟩ := h.1 g hg
      exact ⟨k, List.mem_append_left _ hk, hs⟩
    · obtain ⟨k, hk, hs⟩ := h'.1 g hg
      exact ⟨k, List.mem_append_right _ hk, hs⟩
  · rcases List.mem_append.1 hg with hg | hg
    · obtain ⟨k, hk, hs⟩ := h.2 g hg
      exact ⟨k, List.mem_append_left _ hk, hs⟩
    · obtain ⟨k, hk, hs⟩ := h'.2 g hg
      exact ⟨k, List.mem_append_right _ hk, hs⟩

theorem SameGroups.trans {a b c : List (List TypeId)} (h : SameGroups a b) (h' : SameGroups b c) :
    SameGroups a c := by
  refine ⟨fun g hg => ?_, fun g hg => ?_⟩
  · obtain ⟨k, hk, hs⟩ := h.1 g hg
    obtain ⟨k', hk', hs'⟩ := h'.1 k hk
    exact ⟨k', hk', hs.trans hs'⟩
  · obtain ⟨k, hk, hs⟩ := h'.2 g hg
    obtain ⟨k', hk', hs'⟩ := h.2 k hk
    exact ⟨k', hk', hs'.trans hs⟩

theorem SameGroups.of_perm {a b : List (List TypeId)} (h : ∀ g, g ∈ a ↔ g ∈ b) : SameGroups a b :=
  ⟨fun g hg => ⟨g, (h g).1 hg, SameTypes.refl g⟩, fun g hg => ⟨g, (h g).2 hg, SameTypes.refl g⟩⟩

/-- What `add_group` does on a well formed layout. -/
theorem addGroup_ok {l : GroupLayout} (h : LayoutOK l) {g : List TypeId} (hg : IsGroup g)
    (h16 : g.dedup.length ≤ 16) :
    (Joins (layoutGroups l) g → ∃ l', l.addGroup g = .ok () l' ∧ LayoutOK l' ∧
      SameGroups (layoutGroups l') (layoutGroups l ++ [g])) ∧
    (¬ Joins (layoutGroups l) g → (∃ l', l.addGroup g = .panic l') ∨
      ∃ l', l.addGroup g = .ok () l' ∧ LayoutOK l' ∧ (¬ ∃ k ∈ layoutGroups l', SameTypes k g) ∧
        (∀ f' ∈ l'.families, ∃ f ∈ l.families, f'.components.length = f.components.length) ∧
        ∃ k ∈ layoutGroups l, Meet k g ∧ g.dedup.length < k.length) := by
  have hcs := normal_nodup g
  have hsame := mem_normal g
  have hlen := normal_length g
  unfold IsGroup at hg
  have h2 : 2 ≤ (normal g).length := by omega
  rw [h.joins hsame h2]
  have hadd : l.addGroup g = (match GroupLayout.tryAll (normal g) l.families with
    | .ok n fs =>
      if n = 0 then .ok () ⟨fs ++ [GroupFamily.new (normal g)]⟩
      else if n = 1 then .ok () ⟨fs⟩
      else .panic ⟨fs⟩
    | .panic fs => .panic ⟨fs⟩
    | .ub => .ub) := by
    have e1 : ¬ (dedupTypes (sortTypes g)).length ≤ 1 := by
      show ¬ (normal g).length ≤ 1
      omega
    have e2 : ¬ maxGroupArity < (dedupTypes (sortTypes g)).length := by
      show ¬ 16 < (normal g).length
      omega
    simp only [GroupLayout.addGroup]
    rw [if_neg e1, if_neg e2]
    rfl
  by_cases hnone : ∀ f ∈ l.families, ¬ Meet f.components (normal g)
  · refine ⟨fun _ => ?_, fun hn => (hn (.inl hnone)).elim⟩
    rw [hadd, tryAll_apart h.1 h.2 hcs h2 hnone]
    refine ⟨⟨l.families ++ [GroupFamily.new (normal g)]⟩, rfl, ⟨?_, ?_⟩, ?_⟩
    · intro f hf
      rcases List.mem_append.1 hf with hf | hf
      · exact h.1 f hf
      · simp at hf
        subst hf
        exact ⟨by simp [GroupFamily.new], by simpa [GroupFamily.new] using h2, by simp [GroupFamily.new]⟩
    · unfold layoutTypes
      rw [List.flatMap_append, List.nodup_append]
      refine ⟨h.2, by simpa [GroupFamily.new] using hcs, ?_⟩
      rintro t ht u hu rfl
      obtain ⟨f, hf, ht⟩ := List.mem_flatMap.1 ht
      exact hnone f hf ⟨t, ht, by simpa [GroupFamily.new] using hu⟩
    · rw [layoutGroups_eq, List.flatMap_append]
      refine SameGroups.append (SameGroups.refl _) ?_
      refine ⟨fun k hk => ⟨g, by simp, ?_⟩, fun k hk => ⟨normal g, ?_, ?_⟩⟩
      · simp [famGroups, GroupFamily.new] at hk
        subst hk
        exact hsame
      · simp [famGroups, GroupFamily.new]
      · simp at hk
        subst hk
        exact hsame
  · by_cases hone : ∃ A f B, l.families = A ++ f :: B ∧ Meet f.components (normal g) ∧
      ∀ f' ∈ A ++ B, ¬ Meet f'.components (normal g)
    · obtain ⟨A, f, B, hAB, hm, hrest⟩ := hone
      have h' : LayoutOK ⟨A ++ f :: B⟩ := by rw [← hAB]; exact h
      have hap := h'.apart
      have htry := tryAddGroup_ok (h'.1 f (by simp)) hap.1 hcs h2
      obtain ⟨ho, hp⟩ := tryAll_one (A := A) (f := f) (B := B) h'.1 h'.2 hcs h2
        (fun k hk => hrest k (List.mem_append_left _ hk)) (fun k hk => hrest k (List.mem_append_right _ hk))
      refine ⟨?_, ?_⟩
      · rintro (hx | ⟨A', f1, B', hAB', hm1, hrest1, hfit⟩)
        · exact (hnone hx).elim
        · have hff : f1 = f := by
            have h5 : f ∈ l.families := by rw [hAB]; simp
            rw [hAB', List.mem_append, List.mem_cons] at h5
            rcases h5 with h5 | h5 | h5
            · exact (hrest1 f (List.mem_append_left _ h5) hm).elim
            · exact h5.symm
            · exact (hrest1 f (List.mem_append_right _ h5) hm).elim
          subst hff
          obtain ⟨f', h3, h4, h5, h6, h7⟩ := htry.fits hm hfit
          have hin : ∀ t ∈ f'.components, ∀ k ∈ A ++ B, t ∉ k.components := by
            intro t ht k hk htk
            rcases (h6 t).1 ht with h8 | h8
            · exact hap.2 k hk t htk h8
            · exact hrest k hk ⟨t, htk, h8⟩
          refine ⟨⟨A ++ f' :: B⟩, by rw [hadd, hAB, ho f' h3]; rfl, h'.replace h4 h5 hin, ?_⟩
          rw [layoutGroups_eq, layoutGroups_eq, hAB, List.flatMap_append, List.flatMap_cons,
            List.flatMap_append, List.flatMap_cons]
          have hgs : SameGroups [normal g] [g] :=
            ⟨fun k hk => ⟨g, by simp, by simp at hk; subst hk; exact hsame⟩,
             fun k hk => ⟨normal g, by simp, by simp at hk; subst hk; exact hsame⟩⟩
          refine ((SameGroups.refl _).append (h7.append (SameGroups.refl _))).trans ?_
          refine SameGroups.trans (b := (A.flatMap famGroups ++ (famGroups f1 ++ B.flatMap famGroups)) ++ [normal g])
            (SameGroups.of_perm fun k => ?_) ((SameGroups.refl _).append hgs)
          simp only [List.mem_append]
          tauto
      · intro hno
        have hnf : ¬ Fits f (normal g) := fun hfit => hno (.inr ⟨A, f, B, hAB, hm, hrest, hfit⟩)
        rcases htry.unfit hm hnf with h3 | ⟨f', h3, h4, h5, h6, h7, h8⟩
        · exact .inl ⟨⟨A ++ f :: B⟩, by rw [hadd, hAB, hp h3]⟩
        · refine .inr ⟨⟨A ++ f' :: B⟩, by rw [hadd, hAB, ho f' h3]; rfl, h'.replace h4 h5 ?_, ?_, ?_, ?_⟩
          · intro t ht k hk htk
            exact hap.2 k hk t htk ((h6 t).1 ht)
          · rintro ⟨k, hk, hs⟩
            obtain ⟨f1, hf1, hkf⟩ := List.mem_flatMap.1 hk
            have hkf : k ∈ famGroups f1 := hkf
            have hf1 : f1 ∈ A ++ f' :: B := hf1
            rw [List.mem_append, List.mem_cons] at hf1
            obtain ⟨t, ht⟩ := List.exists_mem_of_length_pos (l := normal g) (by omega)
            have hmk : Meet f1.components (normal g) :=
              ⟨t, famGroups_sub hkf t ((hs t).2 ((hsame t).1 ht)), ht⟩
            rcases hf1 with hf1 | rfl | hf1
            · exact hrest f1 (List.mem_append_left _ hf1) hmk
            · exact h7 ⟨k, hkf, hs.trans hsame.symm⟩
            · exact hrest f1 (List.mem_append_right _ hf1) hmk
          · intro f1 hf1
            have hf1 : f1 ∈ A ++ f' :: B := hf1
            rw [List.mem_append, List.mem_cons] at hf1
            rcases hf1 with hf1 | hf1 | hf1
            · exact ⟨f1, by rw [hAB]; exact List.mem_append_left _ hf1, rfl⟩
            · refine ⟨f, by rw [hAB]; simp, ?_⟩
              rw [hf1]
              exact SameTypes.length h6 h5 hap.1
            · exact ⟨f1, by rw [hAB]; exact List.mem_append_right _ (.tail _ hf1), rfl⟩
          · refine ⟨f.components, List.mem_flatMap.2 ⟨f, by rw [hAB]; simp, (h'.1 f (by simp)).top⟩,
              (Meet.of_same hsame).1 hm, by omega⟩
    · have hcount : 2 ≤ l.families.countP fun f => decide (Meet f.components (normal g)) := by
        by_contra hlt
        push Not at hnone
        obtain ⟨f, hf, hm⟩ := hnone
        obtain ⟨A, B, hAB⟩ := List.append_of_mem hf
        refine hone ⟨A, f, B, hAB, hm, ?_⟩
        intro f' hf' hm'
        rw [hAB, List.countP_append, List.countP_cons] at hlt
        rcases List.mem_append.1 hf' with hx | hx
        · have := List.countP_pos_iff (p := fun f : GroupFamily => decide (Meet f.components (normal g))) |>.2
            ⟨f', hx, by simpa using hm'⟩
          simp [hm] at hlt
          omega
        · have := List.countP_pos_iff (p := fun f : GroupFamily => decide (Meet f.components (normal g))) |>.2
            ⟨f', hx, by simpa using hm'⟩
          simp [hm] at hlt
          omega
      refine ⟨?_, fun _ => .inl ?_⟩
      · rintro (hx | ⟨A, f, B, hAB, hm, hr, _⟩)
        · exact (hnone hx).elim
        · exact (hone ⟨A, f, B, hAB, hm, hr⟩).elim
      · rcases tryAll_count h.1 h.2 hcs h2 with ⟨fs', h3⟩ | ⟨fs', h3⟩
        · exact ⟨⟨fs'⟩, by rw [hadd, h3]⟩
        · refine ⟨⟨fs'⟩, ?_⟩
          rw [hadd, h3]
          simp only
          rw [if_neg (by omega), if_neg (by omega)]

/-! ### Sequences of `add_group` calls -/

theorem LayoutOK.family_nodup {l : GroupLayout} (h : LayoutOK l) {f : GroupFamily} (hf : f ∈ l.families) :
    f.components.Nodup := by
  obtain ⟨A, B, hAB⟩ := List.append_of_mem hf
  have h' : LayoutOK ⟨A ++ f :: B⟩ := by rw [← hAB]; exact h
  exact h'.apart.1

theorem LayoutOK.group_nodup {l : GroupLayout} (h : LayoutOK l) {g : List TypeId} (hg : g ∈ layoutGroups l) :
    g.Nodup := by
  obtain ⟨f, hf, hg⟩ := List.mem_flatMap.1 hg
  obtain ⟨a, _, rfl⟩ := List.mem_map.1 hg
  exact (h.family_nodup hf).sublist (List.take_sublist _ _)

theorem LayoutOK.empty : LayoutOK .empty := ⟨by simp [GroupLayout.empty], by simp [GroupLayout.empty, layoutTypes]⟩

theorem addGroup_few {l : GroupLayout} {g : List TypeId} (hg : ¬ IsGroup g) : l.addGroup g = .ok () l := by
  have h := normal_length g
  unfold IsGroup at hg
  unfold GroupLayout.addGroup
  exact if_pos (by show (normal g).length ≤ 1; omega)

theorem addGroup_many {l : GroupLayout} {g : List TypeId} (hg : 16 < g.dedup.length) :
    l.addGroup g = .panic l := by
  have h := normal_length g
  unfold GroupLayout.addGroup
  have e1 : ¬ (dedupTypes (sortTypes g)).length ≤ 1 := by
    show ¬ (normal g).length ≤ 1
    omega
  have e2 : maxGroupArity < (dedupTypes (sortTypes g)).length := by
    show 16 < (normal g).length
    omega
  simp only
  rw [if_neg e1, if_pos e2]

theorem SameTypes.dedup_length {a b : List TypeId} (h : SameTypes a b) : a.dedup.length = b.dedup.length := by
  refine SameTypes.length (fun t => ?_) (List.nodup_dedup a) (List.nodup_dedup b)
  rw [List.mem_dedup, List.mem_dedup, h t]

/-- A successful `add_group` call keeps a layout well formed, with families of at most 16 types. -/
theorem addGroup_wf {l l' : GroupLayout} (h : LayoutOK l) (hs : ∀ f ∈ l.families, f.components.length ≤ 16)
    {g : List TypeId} (ha : l.addGroup g = .ok () l') :
    LayoutOK l' ∧ ∀ f ∈ l'.families, f.components.length ≤ 16 := by
  by_cases hg : IsGroup g
  · by_cases h16 : g.dedup.length ≤ 16
    · obtain ⟨hj, hn⟩ := addGroup_ok h hg h16
      by_cases hJ : Joins (layoutGroups l) g
      · obtain ⟨l1, h1, h2, h3⟩ := hj hJ
        rw [ha] at h1
        cases h1
        refine ⟨h2, fun f hf => ?_⟩
        have hfn := h2.family_nodup hf
        obtain ⟨k, hk, hkf⟩ := h3.1 f.components (List.mem_flatMap.2 ⟨f, hf, (h2.1 f hf).top⟩)
        rcases List.mem_append.1 hk with hk | hk
        · rw [hkf.length hfn (h.group_nodup hk)]
          obtain ⟨f0, hf0, hk⟩ := List.mem_flatMap.1 hk
          obtain ⟨a, ha, rfl⟩ := List.mem_map.1 hk
          exact Nat.le_trans (List.length_take_le _ _) (Nat.le_trans ((h.1 f0 hf0).mem_le ha) (hs f0 hf0))
        · simp at hk
          subst hk
          have := hkf.dedup_length
          rw [hfn.dedup] at this
          omega
      · rcases hn hJ with ⟨l1, h1⟩ | ⟨l1, h1, h2, _, h4, _⟩
        · rw [ha] at h1; cases h1
        · rw [ha] at h1
          cases h1
          refine ⟨h2, fun f hf => ?_⟩
          obtain ⟨f0, hf0, e⟩ := h4 f hf
          rw [e]
          exact hs f0 hf0
    · rw [addGroup_many (by omega)] at ha
      cases ha
  · rw [addGroup_few hg] at ha
    cases ha
    exact ⟨h, hs⟩

theorem addGroups_wf : ∀ {gs : List (List TypeId)} {l l' : GroupLayout}, LayoutOK l →
    (∀ f ∈ l.families, f.components.length ≤ 16) → l.addGroups gs = (false, l') →
    LayoutOK l' ∧ ∀ f ∈ l'.families, f.components.length ≤ 16
  | [], l, l', h, hs, ha => by
    cases ha
    exact ⟨h, hs⟩
  | g :: gs, l, l', h, hs, ha => by
    rw [GroupLayout.addGroups] at ha
    cases hg : l.addGroup g with
    | ok u l1 =>
      rw [hg] at ha
      obtain ⟨h1, h2⟩ := addGroup_wf h hs hg
      exact addGroups_wf h1 h2 ha
    | panic l1 => rw [hg] at ha; cases ha
    | ub => rw [hg] at ha; cases ha

theorem Joins.of_same {gs hs : List (List TypeId)} (h : SameGroups gs hs) {g : List TypeId} (hj : Joins hs g) :
    Joins gs g := by
  rcases hj with ⟨k, hk, hs⟩ | ⟨h1, h2⟩
  · obtain ⟨k', hk', e⟩ := h.2 k hk
    exact .inl ⟨k', hk', e.trans hs⟩
  · refine .inr ⟨?_, ?_⟩
    · intro k hk hm t ht
      obtain ⟨k', hk', e⟩ := h.1 k hk
      exact h1 k' hk' (Meet.symm.1 ((Meet.of_same e).1 (Meet.symm.1 hm))) t ((e t).1 ht)
    · intro a ha b hb hma hmb
      obtain ⟨a', ha', ea⟩ := h.1 a ha
      obtain ⟨b', hb', eb⟩ := h.1 b hb
      have hm := h2 a' ha' b' hb' (Meet.symm.1 ((Meet.of_same ea).1 (Meet.symm.1 hma)))
        (Meet.symm.1 ((Meet.of_same eb).1 (Meet.symm.1 hmb)))
      obtain ⟨t, h3, h4⟩ := hm
      exact ⟨t, (ea t).2 h3, (eb t).2 h4⟩

theorem addGroups_joins : ∀ (gs done : List (List TypeId)) (l : GroupLayout), LayoutOK l →
    SameGroups (layoutGroups l) (done.filter (fun g => decide (IsGroup g))) → (∀ g ∈ gs, g.dedup.length ≤ 16) →
    (∀ a g b, gs = a ++ g :: b → IsGroup g → Joins ((done ++ a).filter (fun g => decide (IsGroup g))) g) →
    ∃ l', l.addGroups gs = (false, l') ∧ LayoutOK l' ∧
      SameGroups (layoutGroups l') ((done ++ gs).filter (fun g => decide (IsGroup g)))
  | [], done, l, h, hd, _, _ => ⟨l, rfl, h, by simpa using hd⟩
  | g :: gs, done, l, h, hd, h16, hj => by
    have hrec : ∀ a k b, gs = a ++ k :: b → IsGroup k →
        Joins ((done ++ [g] ++ a).filter (fun g => decide (IsGroup g))) k := by
      intro a k b hab hk
      have := hj (g :: a) k b (by rw [hab]; rfl) hk
      rwa [List.append_cons] at this
    rw [GroupLayout.addGroups]
    by_cases hg : IsGroup g
    · have hJ : Joins (layoutGroups l) g := by
        have := hj [] g gs rfl hg
        rw [List.append_nil] at this
        exact Joins.of_same hd this
      obtain ⟨l1, h1, h2, h3⟩ := (addGroup_ok h hg (h16 g (.head _))).1 hJ
      rw [h1]
      have hd' : SameGroups (layoutGroups l1) ((done ++ [g]).filter (fun g => decide (IsGroup g))) := by
        rw [List.filter_append]
        refine h3.trans (hd.append ?_)
        simp only [List.filter_cons, hg, decide_true, if_true, List.filter_nil]
        exact SameGroups.refl _
      obtain ⟨l2, h4, h5, h6⟩ := addGroups_joins gs (done ++ [g]) l1 h2 hd' (fun k hk => h16 k (.tail _ hk)) hrec
      refine ⟨l2, h4, h5, ?_⟩
      rwa [List.append_cons]
    · rw [addGroup_few hg]
      have hd' : SameGroups (layoutGroups l) ((done ++ [g]).filter (fun g => decide (IsGroup g))) := by
        rw [List.filter_append]
        simp only [List.filter_cons, hg, decide_false, Bool.false_eq_true, if_false, List.filter_nil, List.append_nil]
        exact hd
      obtain ⟨l2, h4, h5, h6⟩ := addGroups_joins gs (done ++ [g]) l h hd' (fun k hk => h16 k (.tail _ hk)) hrec
      refine ⟨l2, h4, h5, ?_⟩
      rwa [List.append_cons]

end Sparsey
