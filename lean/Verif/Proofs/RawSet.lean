import Verif.Spec.RawSet
import Verif.Model.Bombs
import Verif.Proofs.Ledger

/-!
The memory of component sets (`RawSet`) follows their contents (`CompSet`).
-/

set_option autoImplicit false
set_option linter.unusedSimpArgs false

namespace Sparsey
variable {V : Type}

/-! ### Layouts -/

theorem roundUp_le (n a : Nat) (ha : 0 < a) : n ≤ MemLayout.roundUp n a := by
  unfold MemLayout.roundUp
  have h1 := Nat.div_add_mod (n + a - 1) a
  have h2 := Nat.mod_lt (n + a - 1) ha
  have h3 : (n + a - 1) / a * a = a * ((n + a - 1) / a) := Nat.mul_comm _ _
  omega

theorem roundUp_lt (n a : Nat) (ha : 0 < a) : MemLayout.roundUp n a < n + a := by
  unfold MemLayout.roundUp
  have h1 := Nat.div_mul_le_self (n + a - 1) a
  omega

theorem roundUp_mod (n a : Nat) : MemLayout.roundUp n a % a = 0 := by
  unfold MemLayout.roundUp
  simp

/-- The parts of a block. -/
theorem computeLayout_parts {ty : MemLayout} {cap offset : Nat} {block : MemLayout} (ha : 0 < ty.align)
    (h : computeLayout ty cap = some (block, offset)) :
    8 * cap ≤ offset ∧ offset % ty.align = 0 ∧ offset + ty.size * cap = block.size ∧
      block.align = max 8 ty.align ∧ block.size ≤ isizeMax + 1 - block.align := by
  unfold computeLayout MemLayout.array at h
  split at h
  · rename_i es cs h1 h2
    split at h1
    · split at h2
      · cases h1; cases h2
        unfold MemLayout.extend at h
        dsimp only at h
        split at h
        · rename_i hx hy hz
          cases h
          have h3 := roundUp_le (MemLayout.entity.size * cap) ty.align ha
          exact ⟨h3, roundUp_mod _ _, rfl, rfl, hz⟩
        · cases h
      · cases h2
    · cases h1
  · cases h

/-- Blocks that are not huge can be allocated. -/
theorem computeLayout_fits {ty : MemLayout} {cap : Nat} (ha : 0 < ty.align)
    (h : 8 * cap + ty.size * cap + 2 * ty.align + 8 ≤ isizeMax) : (computeLayout ty cap).isSome := by
  unfold computeLayout MemLayout.array
  have h1 : MemLayout.entity.size * cap ≤ MemLayout.maxSize MemLayout.entity.align := by
    simp only [MemLayout.entity, MemLayout.maxSize]; omega
  have h2 : ty.size * cap ≤ MemLayout.maxSize ty.align := by
    simp only [MemLayout.maxSize]; omega
  rw [if_pos h1, if_pos h2]
  simp only [MemLayout.extend]
  have h3 := roundUp_lt (MemLayout.entity.size * cap) ty.align ha
  rw [if_pos]
  · rfl
  · simp only [MemLayout.entity, MemLayout.maxSize] at h3 ⊢
    omega

/-- No block holds so many entities that doubling the capacity would overflow. -/
theorem computeLayout_cap {ty : MemLayout} {cap : Nat} {p : MemLayout × Nat} (h : computeLayout ty cap = some p) :
    cap < 2 ^ 60 := by
  unfold computeLayout MemLayout.array at h
  split at h
  · rename_i es cs h1 h2
    split at h1
    · rename_i h3
      simp only [MemLayout.entity, MemLayout.maxSize, isizeMax] at h3
      omega
    · cases h1
  · cases h

/-! ### Logs -/

theorem dropsOf_append : ∀ (a b : List (Effect V)), dropsOf (a ++ b) = dropsOf a ++ dropsOf b
  | [], _ => rfl
  | .dropped v :: a, b => by simp [dropsOf, dropsOf_append a b]
  | .alloc _ :: a, b => by simp [dropsOf, dropsOf_append a b]
  | .dealloc _ :: a, b => by simp [dropsOf, dropsOf_append a b]

theorem heapAfter_append : ∀ (a b : List (Effect V)) (bs : List MemLayout),
    heapAfter bs (a ++ b) = (heapAfter bs a).bind fun bs => heapAfter bs b
  | [], _, _ => rfl
  | .dropped v :: a, b, bs => by simp [heapAfter, heapAfter_append a b]
  | .alloc _ :: a, b, bs => by simp [heapAfter, heapAfter_append a b]
  | .dealloc c :: a, b, bs => by
    simp only [List.cons_append, heapAfter]
    split
    · exact heapAfter_append a b _
    · rfl

/-! ### Cells -/

namespace Holds
variable {α : Type} {cells : List (Option α)} {l : List α}

theorem read (h : Holds cells l) {i : Nat} {a : α} (hi : l[i]? = some a) : readCell cells i = .ok a := by
  obtain ⟨r, rfl⟩ := h
  obtain ⟨hlt, rfl⟩ := List.getElem?_eq_some_iff.1 hi
  unfold readCell
  rw [List.getElem?_append_left (by simpa using hlt)]
  simp [hlt]

theorem le (h : Holds cells l) : l.length ≤ cells.length := by
  obtain ⟨r, rfl⟩ := h
  simp

theorem set (h : Holds cells l) {i : Nat} (hi : i < l.length) (a : α) : Holds (cells.set i (some a)) (l.set i a) := by
  obtain ⟨r, rfl⟩ := h
  refine ⟨r, ?_⟩
  rw [List.set_append_left _ _ (by simpa using hi), List.map_set]

theorem write (h : Holds cells l) {i : Nat} (hi : i < l.length) (a : α) :
    writeCell cells i a = .ok (cells.set i (some a)) := by
  unfold writeCell
  rw [if_pos (Nat.lt_of_lt_of_le hi h.le)]

theorem push (h : Holds cells l) (hl : l.length < cells.length) (a : α) :
    ∃ cells', writeCell cells l.length a = .ok cells' ∧ Holds cells' (l ++ [a]) ∧ cells'.length = cells.length := by
  obtain ⟨r, rfl⟩ := h
  cases r with
  | nil => simp at hl
  | cons c r =>
    refine ⟨(l ++ [a]).map some ++ r, ?_, ⟨r, rfl⟩, by simp⟩
    unfold writeCell
    rw [if_pos hl]
    congr 1
    rw [List.set_append_right _ _ (by simp)]
    simp

theorem take (h : Holds cells l) (n : Nat) : Holds cells (l.take n) := by
  obtain ⟨r, rfl⟩ := h
  exact ⟨(l.drop n).map some ++ r, by rw [← List.append_assoc, ← List.map_append, List.take_append_drop]⟩

theorem copy (h : Holds cells l) {i j : Nat} {a : α} (hi : l[i]? = some a) (hj : j < l.length) :
    copyCell cells i j = .ok (cells.set j (some a)) := by
  have hr := h.read hi
  unfold copyCell
  unfold readCell at hr
  split at hr
  · rename_i b hb
    cases hr
    rw [hb]
    simp only
    rw [if_pos (Nat.lt_of_lt_of_le hj h.le)]
  · cases hr

theorem grown (h : Holds cells l) (n : Nat) : Holds (cells.take l.length ++ List.replicate n none) l := by
  obtain ⟨r, rfl⟩ := h
  refine ⟨List.replicate n none, ?_⟩
  rw [List.take_append_of_le_length (by simp), List.take_of_length_le (by simp)]

end Holds

/-! ### Operations -/

namespace Represents
variable {ty : MemLayout} {raw : RawSet V} {s : CompSet V}

theorem new : Represents ty (RawSet.new : RawSet V) CompSet.new :=
  ⟨rfl, rfl, rfl, ⟨[], rfl⟩, ⟨[], rfl⟩, rfl, rfl, fun _ => rfl, fun h => absurd rfl h⟩

theorem lenLe (h : Represents ty raw s) : s.entities.length ≤ raw.cap := by
  rw [← h.entityRoom]; exact h.entities.le

theorem capLt (h : Represents ty raw s) : raw.cap < 2 ^ 60 := by
  by_cases h0 : raw.cap = 0
  · omega
  · obtain ⟨b, o, h, _⟩ := h.block h0
    exact computeLayout_cap h

/-- Growing keeps the contents and makes room, or there is no layout for the new capacity and nothing happens. -/
theorem grow (h : Represents ty raw s) :
    (computeLayout ty (nextCap raw.cap) = none ∧ raw.grow ty = .panic raw) ∨
      ∃ raw', raw.grow ty = .ok () raw' ∧ Represents ty raw' s ∧ raw'.cap = nextCap raw.cap ∧
        dropsOf raw'.log = dropsOf raw.log := by
  have hc := h.capLt
  have hn : (if raw.cap = 0 then 4 else min (raw.cap + raw.cap) usizeMax) = nextCap raw.cap := by
    unfold nextCap usizeMax
    split <;> omega
  have hne : nextCap raw.cap ≠ raw.cap := by unfold nextCap; split <;> omega
  have hnz : nextCap raw.cap ≠ 0 := by unfold nextCap; split <;> omega
  have hge : raw.cap ≤ nextCap raw.cap := by unfold nextCap; split <;> omega
  have hl := h.lenLe
  have hlen := h.len
  unfold RawSet.grow
  simp only [hn]
  rw [if_neg hne]
  cases hcl : computeLayout ty (nextCap raw.cap) with
  | none => exact .inl ⟨rfl, rfl⟩
  | some p =>
    obtain ⟨block, off⟩ := p
    right
    have hr : ¬ (raw.entities.length < raw.len ∨ raw.components.length < raw.len) := by
      rw [h.entityRoom, h.componentRoom]
      omega
    simp only
    rw [if_neg hr]
    have he : Holds (raw.entities.take raw.len ++ List.replicate (nextCap raw.cap - raw.len) none) s.entities := by
      rw [h.len]; exact h.entities.grown _
    have hcs : Holds (raw.components.take raw.len ++ List.replicate (nextCap raw.cap - raw.len) none) s.components := by
      rw [h.len, ← h.same]; exact h.components.grown _
    have hel : (raw.entities.take raw.len ++ List.replicate (nextCap raw.cap - raw.len) (none : Option Entity)).length =
        nextCap raw.cap := by
      rw [List.length_append, List.length_take, List.length_replicate, h.entityRoom]; omega
    have hcl' : (raw.components.take raw.len ++ List.replicate (nextCap raw.cap - raw.len) (none : Option V)).length =
        nextCap raw.cap := by
      rw [List.length_append, List.length_take, List.length_replicate, h.componentRoom]; omega
    by_cases h0 : raw.cap = 0
    · rw [if_pos h0]
      refine ⟨_, rfl, ⟨h.sparse, h.len, h.same, he, hcs, hel, hcl', fun h1 => absurd h1 hnz,
        fun _ => ⟨block, off, hcl, ?_⟩⟩, rfl, ?_⟩
      · simp [heapAfter_append, h.noBlock h0, heapAfter]
      · simp [dropsOf_append, dropsOf]
    · rw [if_neg h0]
      obtain ⟨b, o, hb, h1⟩ := h.block h0
      rw [hb]
      refine ⟨_, rfl, ⟨h.sparse, h.len, h.same, he, hcs, hel, hcl', fun h1 => absurd h1 hnz,
        fun _ => ⟨block, off, hcl, ?_⟩⟩, rfl, ?_⟩
      · simp only [heapAfter_append, h1, heapAfter, Option.bind_some, List.mem_cons, List.not_mem_nil, or_false, or_true,
          if_true]
        by_cases hbb : block = b
        · subst hbb; simp
        · rw [List.erase_cons_tail (by simpa using hbb)]; simp
      · simp [dropsOf_append, dropsOf]

/-- Insertion does what it does by contents, or the block cannot grow. -/
theorem insert (h : Represents ty raw s) {e : Entity} {v : V} {old : Option V} {s' : CompSet V}
    (hr : s.insert e v = .ok (old, s')) :
    (raw.cap = s.entities.length ∧ computeLayout ty (nextCap raw.cap) = none ∧ ∃ raw', raw.insert ty e v = .panic raw') ∨
      ∃ raw', raw.insert ty e v = .ok old raw' ∧ Represents ty raw' s' ∧ dropsOf raw'.log = dropsOf raw.log := by
  unfold CompSet.insert at hr
  unfold RawSet.insert
  obtain ⟨slot, hslot, hr⟩ := Res.bind_ok' hr
  simp only [h.sparse, hslot, Outcome.ofRes_ok]
  cases slot with
  | some sl =>
    obtain ⟨x, hx, hr⟩ := Res.bind_ok' hr
    obtain ⟨o, ho, hr⟩ := Res.bind_ok' hr
    cases hr
    have hx := Res.unchecked_ok hx
    have ho := Res.unchecked_ok ho
    have hxl := (List.getElem?_eq_some_iff.1 hx).1
    have hol := (List.getElem?_eq_some_iff.1 ho).1
    right
    simp only [h.entities.read hx, h.entities.write hxl, h.components.read ho, h.components.write hol, Outcome.ofRes_ok]
    exact ⟨_, rfl, ⟨rfl, by simpa using h.len, by simpa using h.same, h.entities.set hxl _, h.components.set hol _,
      by simpa using h.entityRoom, by simpa using h.componentRoom, h.noBlock, h.block⟩, rfl⟩
  | none =>
    obtain ⟨sp, hsp, hr⟩ := Res.bind_ok' hr
    cases hr
    have hlen := h.len
    have hle := h.lenLe
    simp only [h.len, hsp, Outcome.ofRes_ok]
    have h1 : Represents ty { raw with sparse := sp, len := s.entities.length } { s with sparse := sp } :=
      ⟨rfl, rfl, h.same, h.entities, h.components, h.entityRoom, h.componentRoom, h.noBlock, h.block⟩
    have key : ∀ raw1, Represents ty raw1 { s with sparse := sp } → s.entities.length < raw1.cap →
        ∃ raw', (Outcome.ofRes raw1 (writeCell raw1.entities raw1.len e) fun entities =>
          Outcome.ofRes raw1 (writeCell raw1.components raw1.len v) fun components =>
          (.ok none { raw1 with entities, components, len := raw1.len + 1 } : Outcome (RawSet V) (Option V))) =
            .ok none raw' ∧ Represents ty raw' ⟨sp, s.entities ++ [e], s.components ++ [v]⟩ ∧
              dropsOf raw'.log = dropsOf raw1.log := by
      intro raw1 h2 hlt
      have h3 := h2.len
      have h4 := h2.same
      obtain ⟨c1, w1, w2, w3⟩ := h2.entities.push (by rw [h2.entityRoom]; exact hlt) e
      obtain ⟨c2, w4, w5, w6⟩ := h2.components.push (by rw [h2.componentRoom, h2.same]; exact hlt) v
      simp only at h3 h4
      rw [h3]
      rw [h4] at w4
      simp only [w1, w4, Outcome.ofRes_ok]
      exact ⟨_, rfl, ⟨h2.sparse, by simp, by simpa using h4, w2, w5, by simpa [w3] using h2.entityRoom,
        by simpa [w6] using h2.componentRoom, h2.noBlock, h2.block⟩, rfl⟩
    by_cases hc : s.entities.length = raw.cap
    · rw [if_pos hc]
      rcases h1.grow with ⟨g1, g2⟩ | ⟨raw', g1, g2, g3, g4⟩
      · left
        refine ⟨hc.symm, g1, ?_⟩
        rw [g2]
        exact ⟨_, rfl⟩
      · right
        rw [g1]
        have : s.entities.length < raw'.cap := by
          rw [g3]
          show s.entities.length < nextCap raw.cap
          unfold nextCap; split <;> omega
        obtain ⟨raw2, k1, k2, k3⟩ := key raw' g2 this
        exact ⟨raw2, k1, k2, k3.trans g4⟩
    · rw [if_neg hc]
      right
      exact key _ h1 (by show s.entities.length < raw.cap; omega)

/-- The common part of `remove` and `delete`. -/
theorem unlink (h : Represents ty raw s) {index : Nat} {sparse sp : SparseVec} {last : Entity} {x y : V}
    (hl : s.entities[s.entities.length - 1]? = some last) (hi : index < s.entities.length)
    (hsp : (if index < s.entities.length - 1 then sparse.setUnchecked last.sparse (some ⟨index, last.version⟩)
      else pure sparse) = Res.ok sp) (hx : s.components[index]? = some x)
    (hy : s.components[s.entities.length - 1]? = some y) :
    ∃ raw', raw.unlink index sparse = .ok raw' ∧ raw'.log = raw.log ∧ raw'.components = raw.components ∧
      raw'.len = s.entities.length - 1 ∧
      Represents ty raw' ⟨sp, (s.entities.set index last).take (s.entities.length - 1),
        s.components.take (s.entities.length - 1)⟩ ∧
      Represents ty { raw' with components := raw.components.set index (some y), len := s.entities.length - 1 }
        ⟨sp, (s.entities.set index last).take (s.entities.length - 1),
          (s.components.set index y).take (s.entities.length - 1)⟩ := by
  have hlen := h.len
  have hsame := h.same
  have hll := (List.getElem?_eq_some_iff.1 hl).1
  unfold RawSet.unlink
  rw [if_neg (by omega)]
  have hget : ∃ z, s.entities[index]? = some z := ⟨_, List.getElem?_eq_getElem hi⟩
  obtain ⟨z, hz⟩ := hget
  dsimp only
  rw [h.len, h.entities.read hl]
  simp only [Res.bind_ok]
  rw [h.entities.read hz]
  simp only [Res.bind_ok]
  rw [h.entities.write hi]
  simp only [Res.bind_ok]
  have hr : Represents ty { raw with sparse := sp, entities := raw.entities.set index (some last), len := s.entities.length - 1 }
      ⟨sp, (s.entities.set index last).take (s.entities.length - 1), s.components.take (s.entities.length - 1)⟩ := by
    refine ⟨rfl, by simp, by simp [hsame], (h.entities.set hi _).take _, h.components.take _,
      by simpa using h.entityRoom, h.componentRoom, h.noBlock, h.block⟩
  have hr2 : Represents ty { raw with sparse := sp, entities := raw.entities.set index (some last), len := s.entities.length - 1,
                                      components := raw.components.set index (some y) }
      ⟨sp, (s.entities.set index last).take (s.entities.length - 1),
        (s.components.set index y).take (s.entities.length - 1)⟩ := by
    refine ⟨rfl, by simp, by simp [hsame], (h.entities.set hi _).take _,
      (h.components.set (by omega) _).take _, by simpa using h.entityRoom, by simpa using h.componentRoom,
      h.noBlock, h.block⟩
  split at hsp
  · rename_i hlt
    rw [if_pos hlt, hsp]
    exact ⟨_, rfl, rfl, rfl, rfl, hr, hr2⟩
  · rename_i hlt
    rw [if_neg hlt]
    cases hsp
    exact ⟨_, rfl, rfl, rfl, rfl, hr, hr2⟩

theorem remove (h : Represents ty raw s) {e : Entity} {o : Option V} {s' : CompSet V} (hr : s.remove e = .ok (o, s')) :
    ∃ raw', raw.remove e = .ok o raw' ∧ Represents ty raw' s' ∧ dropsOf raw'.log = dropsOf raw.log := by
  unfold CompSet.remove at hr
  unfold RawSet.remove
  rw [h.sparse]
  split at hr
  · rename_i sv hs
    cases hr
    rw [hs]
    exact ⟨raw, rfl, h, rfl⟩
  · rename_i index sv hs
    rw [hs]
    obtain ⟨last, hl, hr⟩ := Res.bind_ok' hr
    obtain ⟨z, hz, hr⟩ := Res.bind_ok' hr
    have hr : ∃ x y sp, (if index < s.entities.length - 1 then sv.setUnchecked last.sparse (some ⟨index, last.version⟩)
          else pure sv) = Res.ok sp ∧ Res.unchecked (s.components[index]?) = .ok x ∧
        Res.unchecked (s.components[s.entities.length - 1]?) = .ok y ∧ (some x, (⟨sp, (s.entities.set index last).take (s.entities.length - 1),
          (s.components.set index y).take (s.entities.length - 1)⟩ : CompSet V)) = (o, s') := by
      dsimp only at hr
      by_cases hlt : index < s.entities.length - 1
      all_goals
        simp only [hlt, if_true, if_false] at hr ⊢
        obtain ⟨sp, hsp, hr⟩ := Res.bind_ok' hr
        obtain ⟨x, hx, hr⟩ := Res.bind_ok' hr
        obtain ⟨y, hy, hr⟩ := Res.bind_ok' hr
        cases hr
        exact ⟨x, y, sp, hsp, hx, hy, rfl⟩
    obtain ⟨x, y, sp, hsp, hx, hy, hr⟩ := hr
    cases hr
    have hl := Res.unchecked_ok hl
    have hz := Res.unchecked_ok hz
    have hx := Res.unchecked_ok hx
    have hy := Res.unchecked_ok hy
    have hi := (List.getElem?_eq_some_iff.1 hz).1
    have hi' := (List.getElem?_eq_some_iff.1 hx).1
    obtain ⟨raw', u1, u2, u3, u4, u5, u6⟩ := h.unlink hl hi hsp hx hy
    simp only [u1, Outcome.ofRes_ok, u3, u4, h.components.read hx, h.components.copy hy hi']
    exact ⟨_, rfl, u6, by rw [← u2]⟩

theorem delete (h : Represents ty raw s) (bomb : V → Bool) {e : Entity} {s' : CompSet V} (hr : s.delete e = .ok s') :
    ((∀ v ∈ s.deleteDrops e, bomb v = false) ∧ ∃ raw', raw.delete bomb e = .ok () raw' ∧ Represents ty raw' s' ∧
        dropsOf raw'.log = dropsOf raw.log ++ s.deleteDrops e) ∨
      ((∃ v, s.deleteDrops e = [v] ∧ bomb v = true) ∧ ∃ raw', raw.delete bomb e = .panic raw' ∧
        Represents ty raw' (CompSet.afterBomb s s') ∧ dropsOf raw'.log = dropsOf raw.log ++ s.deleteDrops e) := by
  unfold CompSet.delete at hr
  unfold RawSet.delete CompSet.deleteDrops
  rw [h.sparse]
  split at hr
  · rename_i sv hs
    cases hr
    rw [hs]
    exact .inl ⟨by simp, raw, rfl, h, by simp⟩
  · rename_i index sv hs
    rw [hs]
    obtain ⟨last, hl, hr⟩ := Res.bind_ok' hr
    obtain ⟨z, hz, hr⟩ := Res.bind_ok' hr
    have hr : ∃ x y sp, (if index < s.entities.length - 1 then sv.setUnchecked last.sparse (some ⟨index, last.version⟩)
          else pure sv) = Res.ok sp ∧ Res.unchecked (s.components[index]?) = .ok x ∧
        Res.unchecked (s.components[s.entities.length - 1]?) = .ok y ∧ (⟨sp, (s.entities.set index last).take (s.entities.length - 1),
          (s.components.set index y).take (s.entities.length - 1)⟩ : CompSet V) = s' := by
      dsimp only at hr
      by_cases hlt : index < s.entities.length - 1
      all_goals
        simp only [hlt, if_true, if_false] at hr ⊢
        obtain ⟨sp, hsp, hr⟩ := Res.bind_ok' hr
        obtain ⟨x, hx, hr⟩ := Res.bind_ok' hr
        obtain ⟨y, hy, hr⟩ := Res.bind_ok' hr
        cases hr
        exact ⟨x, y, sp, hsp, hx, hy, rfl⟩
    obtain ⟨x, y, sp, hsp, hx, hy, hr⟩ := hr
    cases hr
    have hl := Res.unchecked_ok hl
    have hz := Res.unchecked_ok hz
    have hx := Res.unchecked_ok hx
    have hy := Res.unchecked_ok hy
    have hi := (List.getElem?_eq_some_iff.1 hz).1
    have hi' := (List.getElem?_eq_some_iff.1 hx).1
    obtain ⟨raw', u1, u2, u3, u4, u5, u6⟩ := h.unlink hl hi hsp hx hy
    simp only [u1, Outcome.ofRes_ok, RawSet.dropAt, u3, h.components.read hx, hx, Option.toList]
    cases hb : bomb x with
    | false =>
      left
      refine ⟨by simpa using hb, ?_⟩
      simp only [Bool.false_eq_true, if_false, Outcome.bind_ok, u4, u3, h.components.copy hy hi', Outcome.ofRes_ok]
      refine ⟨_, rfl, ⟨u6.sparse, u6.len, u6.same, u6.entities, u6.components, u6.entityRoom, u6.componentRoom, ?_, ?_⟩, ?_⟩
      · intro h0
        simpa [heapAfter_append, heapAfter] using u6.noBlock h0
      · intro h0
        simpa [heapAfter_append, heapAfter] using u6.block h0
      · simp [dropsOf_append, dropsOf, u2]
    | true =>
      right
      refine ⟨⟨x, rfl, hb⟩, ?_⟩
      simp only [if_true, Outcome.bind_panic]
      have hlen : ((s.entities.set index last).take (s.entities.length - 1)).length = s.entities.length - 1 := by simp
      refine ⟨_, rfl, ?_, ?_⟩
      · unfold CompSet.afterBomb
        rw [hlen]
        refine ⟨u5.sparse, u5.len, u5.same, u5.entities, u3 ▸ u5.components, u5.entityRoom, u3 ▸ u5.componentRoom, ?_, ?_⟩
        · intro h0
          simpa [heapAfter_append, heapAfter] using u5.noBlock h0
        · intro h0
          simpa [heapAfter_append, heapAfter] using u5.block h0
      · simp [dropsOf_append, dropsOf, u2]

theorem get (h : Represents ty raw s) {e : Entity} {o : Option V} (hr : s.get e = .ok o) : raw.get e = .ok o := by
  unfold CompSet.get at hr
  unfold RawSet.get
  rw [h.sparse]
  split at hr
  · rename_i hs
    rw [hs]; exact hr
  · rename_i d hs
    rw [hs]
    obtain ⟨v, hv, hr⟩ := Res.bind_ok' hr
    cases hr
    simp only [h.components.read (Res.unchecked_ok hv), Res.bind_ok]
    rfl

theorem replaceMut (h : Represents ty raw s) {e : Entity} {v : V} {b : Bool} {s' : CompSet V}
    (hr : s.setMut e v = .ok (b, s')) : ∃ raw',
      raw.replaceMut e v = .ok (match s.sparse.get e with
        | none => none
        | some d => s.components[d]?) raw' ∧ Represents ty raw' s' ∧ raw'.log = raw.log := by
  unfold CompSet.setMut at hr
  unfold RawSet.replaceMut
  rw [h.sparse]
  split at hr
  · rename_i hs
    cases hr
    rw [hs]; exact ⟨raw, rfl, h, rfl⟩
  · rename_i d hs
    rw [hs]
    obtain ⟨o, ho, hr⟩ := Res.bind_ok' hr
    cases hr
    have ho := Res.unchecked_ok ho
    have hd := (List.getElem?_eq_some_iff.1 ho).1
    simp only [h.components.read ho, h.components.write hd, Outcome.ofRes_ok, ho]
    exact ⟨_, rfl, ⟨rfl, h.len, by simpa using h.same, h.entities, h.components.set hd _, h.entityRoom,
      by simpa using h.componentRoom, h.noBlock, h.block⟩, rfl⟩

theorem replaceAt (h : Represents ty raw s) {pos : Nat} {v : V} {s' : CompSet V} (hr : s.setAt pos v = .ok s') :
    ∃ old raw', s.components[pos]? = some old ∧ raw.replaceAt pos v = .ok old raw' ∧ Represents ty raw' s' ∧
      raw'.log = raw.log := by
  unfold CompSet.setAt at hr
  obtain ⟨o, ho, hr⟩ := Res.bind_ok' hr
  cases hr
  have ho : s.components[pos]? = some o := by
    cases hx : s.components[pos]? with
    | none => rw [hx] at ho; cases ho
    | some y => rw [hx] at ho; cases ho; rfl
  have hd := (List.getElem?_eq_some_iff.1 ho).1
  unfold RawSet.replaceAt
  rw [if_pos (by rw [h.len, ← h.same]; exact hd)]
  simp only [h.components.read ho, h.components.write hd, Outcome.ofRes_ok]
  exact ⟨o, _, ho, rfl, ⟨h.sparse, h.len, by simpa using h.same, h.entities, h.components.set hd _, h.entityRoom,
    by simpa using h.componentRoom, h.noBlock, h.block⟩, rfl⟩

theorem swap (h : Represents ty raw s) {a b : Nat} {s' : CompSet V} (hr : s.swap a b = .ok s') :
    ∃ raw', raw.swap a b = .ok () raw' ∧ Represents ty raw' s' ∧ raw'.log = raw.log := by
  unfold CompSet.swap at hr
  obtain ⟨ea, hea, hr⟩ := Res.bind_ok' hr
  obtain ⟨eb, heb, hr⟩ := Res.bind_ok' hr
  obtain ⟨sp, hsp, hr⟩ := Res.bind_ok' hr
  obtain ⟨va, hva, hr⟩ := Res.bind_ok' hr
  obtain ⟨vb, hvb, hr⟩ := Res.bind_ok' hr
  cases hr
  have hea := Res.unchecked_ok hea
  have heb := Res.unchecked_ok heb
  have hva := Res.unchecked_ok hva
  have hvb := Res.unchecked_ok hvb
  have h1 := (List.getElem?_eq_some_iff.1 hea).1
  have h2 := (List.getElem?_eq_some_iff.1 heb).1
  have h3 := (List.getElem?_eq_some_iff.1 hva).1
  have h4 := (List.getElem?_eq_some_iff.1 hvb).1
  unfold RawSet.swap
  simp only [h.entities.read hea, h.entities.read heb, h.sparse, hsp, h.components.read hva, h.components.read hvb,
    Outcome.ofRes_ok]
  exact ⟨_, rfl, ⟨rfl, by simpa using h.len, by simpa using h.same, (h.entities.set h1 _).set (by simpa using h2) _,
    (h.components.set h3 _).set (by simpa using h4) _, by simpa using h.entityRoom, by simpa using h.componentRoom,
    h.noBlock, h.block⟩, rfl⟩

end Represents

theorem dropFrom_spec (bomb : V → Bool) : ∀ (l pre : List V) (raw : RawSet V), Holds raw.components (pre ++ l) →
    (RawSet.dropFrom bomb pre.length l.length raw =
      if l.any bomb then .panic { raw with log := raw.log ++ (upToBomb bomb l).map .dropped }
      else .ok () { raw with log := raw.log ++ l.map .dropped })
  | [], pre, raw, _ => by simp [RawSet.dropFrom]
  | v :: l, pre, raw, h => by
    have hv : (pre ++ v :: l)[pre.length]? = some v := by simp
    simp only [List.length_cons, RawSet.dropFrom, RawSet.dropAt, h.read hv, Outcome.ofRes_ok, upToBomb]
    cases hb : bomb v with
    | true => simp [hb]
    | false =>
      simp only [Bool.false_eq_true, if_false, Outcome.bind_ok, List.any_cons, hb, Bool.false_or]
      have := dropFrom_spec bomb l (pre ++ [v]) { raw with log := raw.log ++ [.dropped v] } (by simpa using h)
      simp only [List.length_append, List.length_cons, List.length_nil, Nat.zero_add] at this
      rw [this]
      simp

theorem dropsOf_map : ∀ (l : List V), dropsOf (l.map .dropped) = l
  | [] => rfl
  | v :: l => by simp [dropsOf, dropsOf_map l]

theorem heapAfter_map : ∀ (l : List V) (bs : List MemLayout), heapAfter bs (l.map (.dropped)) = some bs
  | [], _ => rfl
  | v :: l, bs => by simp [heapAfter, heapAfter_map l bs]

namespace Represents
variable {ty : MemLayout} {raw : RawSet V} {s : CompSet V}

theorem dropLoop (h : Represents ty raw s) (bomb : V → Bool) (sp : SparseVec) :
    RawSet.dropFrom bomb 0 raw.len { raw with sparse := sp } =
      if s.components.any bomb then
        .panic { raw with sparse := sp, log := raw.log ++ (upToBomb bomb s.components).map .dropped }
      else .ok () { raw with sparse := sp, log := raw.log ++ s.components.map .dropped } := by
  have := dropFrom_spec bomb s.components [] { raw with sparse := sp } h.components
  have e : raw.len = s.components.length := by rw [h.len, h.same]
  rw [show RawSet.dropFrom bomb 0 raw.len = RawSet.dropFrom bomb 0 s.components.length by rw [e]]
  exact this

theorem clear (h : Represents ty raw s) (bomb : V → Bool) :
    if s.components.any bomb then
      raw.clear bomb = .panic { raw with sparse := s.sparse.clear, log := raw.log ++ (upToBomb bomb s.components).map .dropped }
    else ∃ raw', raw.clear bomb = .ok () raw' ∧ Represents ty raw' s.clear ∧
      dropsOf raw'.log = dropsOf raw.log ++ s.components := by
  unfold RawSet.clear
  rw [h.sparse, h.dropLoop bomb]
  split
  · rfl
  · refine ⟨_, rfl, ⟨rfl, rfl, rfl, ⟨raw.entities, rfl⟩, ⟨raw.components, rfl⟩, h.entityRoom, h.componentRoom, ?_, ?_⟩, ?_⟩
    · intro h0
      simp [heapAfter_append, h.noBlock h0, heapAfter_map]
    · intro h0
      obtain ⟨b, o, hb, h1⟩ := h.block h0
      exact ⟨b, o, hb, by simp [heapAfter_append, h1, heapAfter_map]⟩
    · simp [dropsOf_append, dropsOf_map]

/-- Dropping a set: every component once and the block, or up to the first bomb (and the block leaks). -/
theorem dropAll (h : Represents ty raw s) (bomb : V → Bool) :
    if s.components.any bomb then
      ∃ raw', raw.dropAll ty bomb = .panic raw' ∧ dropsOf raw'.log = dropsOf raw.log ++ upToBomb bomb s.components
    else ∃ raw', raw.dropAll ty bomb = .ok () raw' ∧ heapAfter [] raw'.log = some [] ∧
      dropsOf raw'.log = dropsOf raw.log ++ s.components := by
  unfold RawSet.dropAll
  have := h.dropLoop bomb raw.sparse
  rw [show RawSet.dropFrom bomb 0 raw.len raw = _ from this]
  split
  · exact ⟨_, rfl, by simp [dropsOf_append, dropsOf_map]⟩
  · simp only [Outcome.bind_ok]
    by_cases h0 : raw.cap = 0
    · rw [if_pos h0]
      exact ⟨_, rfl, by simp [heapAfter_append, h.noBlock h0, heapAfter_map], by simp [dropsOf_append, dropsOf_map]⟩
    · rw [if_neg h0]
      obtain ⟨b, o, hb, h1⟩ := h.block h0
      rw [hb]
      refine ⟨_, rfl, by simp [heapAfter_append, h1, heapAfter_map, heapAfter], ?_⟩
      simp [dropsOf_append, dropsOf_map, dropsOf]

/-- One call without panicking destructors. -/
theorem act (h : Represents ty raw s) (bomb : V → Bool) {op : SetOp V} {ret dr : List V} {s' : CompSet V}
    (hr : s.act op = .ok (ret, dr, s')) (hb : ∀ v ∈ dr, bomb v = false)
    (hf : (computeLayout ty (nextCap s.entities.length)).isSome) :
    ∃ raw', raw.act ty bomb op = .ok ret raw' ∧ Represents ty raw' s' ∧ dropsOf raw'.log = dropsOf raw.log ++ dr := by
  cases op with
  | insert e v =>
    obtain ⟨⟨old, s1⟩, h1, hr⟩ := Res.bind_ok' hr
    cases hr
    rcases h.insert h1 with ⟨k1, k2, k3⟩ | ⟨raw', k1, k2, k3⟩
    · rw [k1] at k2
      rw [k2] at hf
      cases hf
    · refine ⟨raw', ?_, k2, by simp [k3]⟩
      simp [RawSet.act, k1]
  | remove e =>
    obtain ⟨⟨o, s1⟩, h1, hr⟩ := Res.bind_ok' hr
    cases hr
    obtain ⟨raw', k1, k2, k3⟩ := h.remove h1
    refine ⟨raw', ?_, k2, by simp [k3]⟩
    simp [RawSet.act, k1]
  | delete e =>
    obtain ⟨s1, h1, hr⟩ := Res.bind_ok' hr
    cases hr
    rcases h.delete bomb h1 with ⟨_, raw', k1, k2, k3⟩ | ⟨⟨v, k1, k2⟩, _⟩
    · refine ⟨raw', ?_, k2, k3⟩
      simp [RawSet.act, k1]
    · rw [k1] at hb
      rw [hb v (.head _)] at k2
      cases k2
  | replace e v =>
    obtain ⟨⟨b, s1⟩, h1, hr⟩ := Res.bind_ok' hr
    obtain ⟨raw', k1, k2, k3⟩ := h.replaceMut h1
    simp only at hr
    cases hs : s.sparse.get e with
    | none =>
      rw [hs] at hr k1
      cases hr
      refine ⟨raw', ?_, k2, by simp [k3]⟩
      simp [RawSet.act, k1]
    | some d =>
      rw [hs] at hr k1
      cases hr
      simp only [CompSet.setMut, hs] at h1
      obtain ⟨o, ho, _⟩ := Res.bind_ok' h1
      have ho := Res.unchecked_ok ho
      refine ⟨raw', ?_, k2, by simp [k3]⟩
      simp [RawSet.act, k1, ho]
  | replaceAt pos v =>
    obtain ⟨s1, h1, hr⟩ := Res.bind_ok' hr
    cases hr
    obtain ⟨old, raw', k0, k1, k2, k3⟩ := h.replaceAt h1
    refine ⟨raw', ?_, k2, by simp [k3]⟩
    simp [RawSet.act, k1, k0]
  | swap a b =>
    obtain ⟨s1, h1, hr⟩ := Res.bind_ok' hr
    cases hr
    obtain ⟨raw', k1, k2, k3⟩ := h.swap h1
    refine ⟨raw', ?_, k2, by simp [k3]⟩
    simp [RawSet.act, k1]
  | clear =>
    cases hr
    have := h.clear bomb
    rw [if_neg (by simpa using hb)] at this
    obtain ⟨raw', k1, k2, k3⟩ := this
    refine ⟨raw', ?_, k2, k3⟩
    simp [RawSet.act, k1]

end Represents

/-- The ledger of a call by contents. -/
theorem CompSet.act_ledger {s s' : CompSet V} {op : SetOp V} {ret dr : List V} (h : LenOk s)
    (hr : s.act op = .ok (ret, dr, s')) : LenOk s' ∧ s'.entities.length ≤ s.entities.length + 1 ∧
      (op.given ++ s.components).Perm (ret ++ (dr ++ s'.components)) := by
  have hl : s.entities.length = s.components.length := h
  cases op with
  | insert e v =>
    obtain ⟨⟨old, s1⟩, h1, hr⟩ := Res.bind_ok' hr
    cases hr
    obtain ⟨k1, k2⟩ := h.insert h1
    have k3 : s'.entities.length = s'.components.length := k1
    have := k2.length_eq
    simp only [List.length_cons, List.length_append] at this
    exact ⟨k1, by omega, by simpa [SetOp.given] using k2⟩
  | remove e =>
    obtain ⟨⟨o, s1⟩, h1, hr⟩ := Res.bind_ok' hr
    cases hr
    obtain ⟨k1, k2⟩ := h.remove h1
    have k3 : s'.entities.length = s'.components.length := k1
    have := k2.length_eq
    simp only [List.length_append] at this
    exact ⟨k1, by omega, by simpa [SetOp.given] using k2⟩
  | delete e =>
    obtain ⟨s1, h1, hr⟩ := Res.bind_ok' hr
    cases hr
    obtain ⟨k1, k2⟩ := h.delete h1
    have k3 : s'.entities.length = s'.components.length := k1
    have := k2.length_eq
    simp only [List.length_append] at this
    exact ⟨k1, by omega, by simpa [SetOp.given] using k2⟩
  | replace e v =>
    obtain ⟨⟨b, s1⟩, h1, hr⟩ := Res.bind_ok' hr
    obtain ⟨k1, k2⟩ := h.setMut h1
    have k3 : s1.entities.length = s1.components.length := k1
    have k4 : s1.entities = s.entities := by
      unfold CompSet.setMut at h1
      split at h1
      · cases h1; rfl
      · obtain ⟨o, ho, h1⟩ := Res.bind_ok' h1
        cases h1; rfl
    simp only at hr
    cases hs : s.sparse.get e with
    | none =>
      rw [hs] at hr
      cases hr
      exact ⟨k1, by rw [k4]; omega, by simpa [SetOp.given, hs] using k2⟩
    | some d =>
      rw [hs] at hr
      cases hr
      exact ⟨k1, by rw [k4]; omega, by simpa [SetOp.given, hs] using k2⟩
  | replaceAt pos v =>
    obtain ⟨s1, h1, hr⟩ := Res.bind_ok' hr
    cases hr
    obtain ⟨k1, old, k3, k2⟩ := h.setAt h1
    have k4 : s'.entities.length = s'.components.length := k1
    have := k2.length_eq
    simp only [List.length_cons] at this
    exact ⟨k1, by omega, by simpa [SetOp.given, k3] using k2⟩
  | swap a b =>
    obtain ⟨s1, h1, hr⟩ := Res.bind_ok' hr
    cases hr
    obtain ⟨k1, k2⟩ := h.swap h1
    have k3 : s'.entities.length = s'.components.length := k1
    have := k2.length_eq
    exact ⟨k1, by omega, by simpa [SetOp.given] using k2.symm⟩
  | clear =>
    cases hr
    exact ⟨LenOk.clear s, by simp [CompSet.clear], by simp [SetOp.given, CompSet.clear]⟩

theorem RawSet.acts_append (ty : MemLayout) (bomb : V → Bool) : ∀ (ops : List (SetOp V)) (op : SetOp V) (raw raw' : RawSet V)
    (ret : List V), raw.acts ty bomb ops = .ok ret raw' →
    raw.acts ty bomb (ops ++ [op]) = (raw'.act ty bomb op).bind fun ret' s => .ok (ret ++ ret') s
  | [], op, raw, raw', ret, h => by
    cases h
    simp only [List.nil_append, RawSet.acts]
    cases raw.act ty bomb op <;> simp
  | o :: ops, op, raw, raw', ret, h => by
    simp only [List.cons_append, RawSet.acts] at h ⊢
    cases h1 : raw.act ty bomb o with
    | ub => simp [h1] at h
    | panic x => simp [h1] at h
    | ok r1 s1 =>
      simp only [h1, Outcome.bind_ok] at h ⊢
      cases h2 : s1.acts ty bomb ops with
      | ub => simp [h2] at h
      | panic x => simp [h2] at h
      | ok r2 s2 =>
        simp only [h2, Outcome.bind_ok] at h
        cases h
        rw [RawSet.acts_append ty bomb ops op s1 raw' r2 h2]
        cases raw'.act ty bomb op <;> simp

/-- The ledger of a run by contents; a set never has more components than it was called. -/
theorem SetRun.ledger {ops : List (SetOp V)} {ret dr : List V} {s : CompSet V} (h : SetRun ops ret dr s) :
    LenOk s ∧ s.entities.length ≤ ops.length ∧ (ops.flatMap SetOp.given).Perm (ret ++ (dr ++ s.components)) := by
  induction h with
  | nil => exact ⟨LenOk.new, Nat.le_refl _, List.Perm.refl _⟩
  | snoc _ hr ih =>
    obtain ⟨i1, i2, i3⟩ := ih
    obtain ⟨k1, k2, k3⟩ := CompSet.act_ledger i1 hr
    refine ⟨k1, by simp only [List.length_append, List.length_singleton]; omega, ?_⟩
    rw [cn_perm] at i3 k3 ⊢
    intro a
    have j1 := i3 a
    have j2 := k3 a
    simp only [List.flatMap_append, List.flatMap_cons, List.flatMap_nil, List.append_nil, cn_append] at j1 j2 ⊢
    omega

/-- The memory follows every run by contents. -/
theorem SetRun.raw {ops : List (SetOp V)} {ret dr : List V} {s : CompSet V} (h : SetRun ops ret dr s) (ty : MemLayout)
    (bomb : V → Bool) (hb : ∀ v ∈ dr, bomb v = false)
    (hf : ∀ n < ops.length, (computeLayout ty (nextCap n)).isSome) :
    ∃ raw, RawSet.new.acts ty bomb ops = .ok ret raw ∧ Represents ty raw s ∧ dropsOf raw.log = dr := by
  induction h with
  | nil => exact ⟨_, rfl, Represents.new, rfl⟩
  | @snoc ops ret dr ret' dr' s s' op h1 hr ih =>
    obtain ⟨raw, i1, i2, i3⟩ := ih (fun v hv => hb v (List.mem_append_left _ hv))
      fun n hn => hf n (by simp only [List.length_append, List.length_singleton]; omega)
    have hl := h1.ledger.2.1
    obtain ⟨raw', k1, k2, k3⟩ := i2.act bomb hr (fun v hv => hb v (List.mem_append_right _ hv))
      (hf _ (by simp only [List.length_append, List.length_singleton]; omega))
    refine ⟨raw', ?_, k2, by rw [k3, i3]⟩
    rw [RawSet.acts_append ty bomb ops op _ _ _ i1, k1]
    rfl

/-- Component types of at most half a gigabyte (and alignment; the compiler allows no larger ones) always find room: no
set has more than `2 ^ 32` components. -/
theorem computeLayout_small {ty : MemLayout} (ha : 0 < ty.align) (ha' : ty.align ≤ 2 ^ 29) (hs : ty.size ≤ 2 ^ 29) {n : Nat}
    (hn : n ≤ u32Size) : (computeLayout ty (nextCap n)).isSome := by
  apply computeLayout_fits ha
  have hc : nextCap n ≤ 2 ^ 33 := by
    unfold nextCap u32Size at *
    split <;> omega
  have := Nat.mul_le_mul hs hc
  unfold isizeMax
  omega

/-- The set `s` came about by calls, and the same calls in memory, for component type `ty`, went well and led to memory
with the contents `s`, having given back the same values and called the same destructors. -/
def Backed (ty : MemLayout) (s : CompSet V) : Prop :=
  ∃ ops ret dr raw, SetRun ops ret dr s ∧ RawSet.new.acts ty (fun _ => false) ops = .ok ret raw ∧ Represents ty raw s ∧
    dropsOf raw.log = dr

theorem Backed.act {ty : MemLayout} {s s' : CompSet V} (h : Backed ty s) {op : SetOp V} {ret dr : List V}
    (hf : (computeLayout ty (nextCap s.entities.length)).isSome) (hr : s.act op = .ok (ret, dr, s')) : Backed ty s' := by
  obtain ⟨ops, ret₀, dr₀, raw, h1, h2, h3, h4⟩ := h
  obtain ⟨raw', k1, k2, k3⟩ := h3.act (fun _ => false) hr (fun _ _ => rfl) hf
  refine ⟨ops ++ [op], ret₀ ++ ret, dr₀ ++ dr, raw', h1.snoc hr, ?_, k2, by rw [k3, h4]⟩
  rw [RawSet.acts_append ty _ ops op _ _ _ h2, k1]
  rfl

/-- Being backed by memory is kept by every call, so it holds of every set of every reachable world. -/
theorem stable_backed {ty : MemLayout} (ha : 0 < ty.align) (ha' : ty.align ≤ 2 ^ 29) (hs : ty.size ≤ 2 ^ 29) :
    Stable (fun s : CompSet V => s.IdxOk ∧ Backed ty s) := by
  have room : ∀ {s : CompSet V}, s.IdxOk → (computeLayout ty (nextCap s.entities.length)).isSome :=
    fun h => computeLayout_small ha ha' hs h.rep.length_le
  constructor
  · exact ⟨CompSet.idx_new, [], [], [], _, .nil, rfl, Represents.new, rfl⟩
  · intro s s' e v o h he hr
    exact ⟨stable_idx.insert h.1 he hr, h.2.act (op := .insert e v) (ret := o.toList) (dr := []) (room h.1) (by simp [CompSet.act, hr])⟩
  · intro s s' e o h hr
    exact ⟨stable_idx.remove h.1 hr, h.2.act (op := .remove e) (ret := o.toList) (dr := []) (room h.1) (by simp [CompSet.act, hr])⟩
  · intro s s' e h hr
    exact ⟨stable_idx.delete h.1 hr, h.2.act (op := .delete e) (ret := []) (dr := s.deleteDrops e) (room h.1) (by simp [CompSet.act, hr])⟩
  · intro s s' pos v h hr
    exact ⟨stable_idx.setAt h.1 hr, h.2.act (op := .replaceAt pos v) (ret := (s.components[pos]?).toList) (dr := [])
      (room h.1) (by simp [CompSet.act, hr])⟩
  · intro s s' e v b h hr
    refine ⟨stable_idx.setMut h.1 hr, ?_⟩
    cases hg : s.sparse.get e with
    | none => exact h.2.act (op := .replace e v) (ret := [v]) (dr := []) (room h.1) (by simp [CompSet.act, hr, hg])
    | some d =>
      exact h.2.act (op := .replace e v) (ret := (s.components[d]?).toList) (dr := []) (room h.1)
        (by simp [CompSet.act, hr, hg])
  · intro s s' a b h hr
    exact ⟨stable_idx.swap h.1 hr, h.2.act (op := .swap a b) (ret := []) (dr := []) (room h.1) (by simp [CompSet.act, hr])⟩
  · intro s h
    exact ⟨stable_idx.clear h.1, h.2.act (op := .clear) (room h.1) rfl⟩

theorem reach_backed {ty : MemLayout} (ha : 0 < ty.align) (ha' : ty.align ≤ 2 ^ 29) (hs : ty.size ≤ 2 ^ 29)
    {h : History V} {w : World V} (hr : Reach World.empty h w) : ∀ s ∈ w.components.components, Backed ty s :=
  fun s hm => ((reach_sets (stable_backed ha ha' hs) hr).sets s hm).2

end Sparsey
