import Verif.Proofs.Even
import Verif.Proofs.Hidden
import Verif.Proofs.LayoutLimits

/-!
What a caller can observe of a world that refines a map, and calls that are always `Fine`.
-/

set_option autoImplicit false
set_option linter.unusedSimpArgs false

namespace Sparsey
variable {V : Type}

namespace InvX
variable {w : World V} {s : MapWorld V} {P : Entity → Nat → Prop}

theorem contains_iff (h : InvX w s P) (e : Entity) : w.containsEntity e = true ↔ e ∈ s.life.alive :=
  h.life.contains_iff e

theorem contains_eq (h : InvX w s P) (e : Entity) : w.containsEntity e = decide (e ∈ s.life.alive) := by
  rw [Bool.eq_iff_iff, h.contains_iff, decide_eq_true_eq]

theorem registered_iff (h : InvX w s P) (t : TypeId) : w.isRegistered t = true ↔ t ∈ s.reg := by
  rw [← h.reg t]
  rfl

theorem registered_eq (h : InvX w s P) (t : TypeId) : w.isRegistered t = decide (t ∈ s.reg) := by
  rw [Bool.eq_iff_iff, h.registered_iff, decide_eq_true_eq]

theorem borrow_reg (h : InvX w s P) {t : TypeId} (ht : t ∈ s.reg) :
    ∃ c, w.borrow t = .ok c ∧ c.WF ∧ (∀ e ∈ c.entities, e ∈ s.life.alive) ∧ c.val = s.table.get t ∧
      (∀ e, e ∈ c.entities ↔ (s.table.get t e).isSome) := by
  obtain ⟨m, hm⟩ := Option.isSome_iff_exists.1 ((h.reg t).2 ht)
  obtain ⟨c, hc, hw, hs, _⟩ := h.store.set_at hm
  have hv : c.val = s.table.get t := by
    funext e
    rw [← ComponentStorage.value_eq hm hc e, h.value]
  refine ⟨c, ?_, hw, hs, hv, fun e => ?_⟩
  · simp [World.borrow, hm, hc, Res.unchecked]
  · rw [hw.mem_iff, hv]

theorem borrow_unreg (h : InvX w s P) {t : TypeId} (ht : t ∉ s.reg) : w.borrow t = .panic := by
  have hm : w.components.meta? t = none := by
    rw [← Option.not_isSome_iff_eq_none, h.reg t]
    exact ht
  simp [World.borrow, hm]

theorem viewGet (h : InvX w s P) (t : TypeId) (e : Entity) :
    w.viewGet t e = if t ∈ s.reg then .ok (s.table.get t e) else .panic := by
  by_cases ht : t ∈ s.reg
  · obtain ⟨c, hc, hw, _, hv, _⟩ := h.borrow_reg ht
    rw [if_pos ht, World.viewGet, hc, Res.bind_ok, hw.get_eq, hv]
  · rw [if_neg ht, World.viewGet, h.borrow_unreg ht, Res.bind_panic]

theorem get_dead (h : InvX w s P) {e : Entity} (he : e ∉ s.life.alive) (t : TypeId) : s.table.get t e = none := by
  rw [← Option.not_isSome_iff_eq_none]
  intro hs
  rw [← h.value] at hs
  exact he (h.store.value_sub hs)

theorem get_unreg (h : InvX w s P) {t : TypeId} (ht : t ∉ s.reg) (e : Entity) : s.table.get t e = none := by
  rw [← h.value]
  refine ComponentStorage.value_none ?_ e
  rw [← Option.not_isSome_iff_eq_none, h.reg t]
  exact ht

end InvX

/-- The entities having all types of a group and not left out are the common beginning of its sets. -/
theorem InvH.group_prefix {w : World V} {s : MapWorld V} {H : List (Entity × Nat)} (h : InvH w s H) {k : Nat} {g : Group} {ts : List TypeId} (hg : w.components.groups[k]? = some g)
    (hts : s.groups[k]? = some ts) :
    ∃ pre : List Entity, pre.Nodup ∧ pre.length = g.len ∧
      (∀ t ∈ ts, ∃ c, w.borrow t = .ok c ∧ t ∈ s.reg ∧ c.entities.take pre.length = pre) ∧
      (∀ e, e ∈ pre ↔ (∀ t ∈ ts, (s.table.get t e).isSome) ∧ (e, k) ∉ H) ∧
      ∀ e, e ∈ pre ↔ w.components.Shown e k := by
  have hst := h.store
  have hb := hst.gstat.bounds k g hg
  have hmem := h.groups.2 k g ts hg hts
  have hset : ∀ t ∈ ts, ∃ m c, w.components.meta? t = some m ∧ InRange g m.storageIndex ∧
      w.components.components[m.storageIndex]? = some c ∧ c.WF := by
    intro t ht
    obtain ⟨m, hm, hr⟩ := (hmem t).1 ht
    obtain ⟨c, hc, hw, _⟩ := hst.set_at hm
    exact ⟨m, c, hm, hr, hc, hw⟩
  have hstart : InRange g g.storageStart := ⟨Nat.le_refl _, by omega⟩
  obtain ⟨t0, m0, hm0, hi0⟩ := hst.mds.cover k g g.storageStart hg hstart
  have ht0 : t0 ∈ ts := (hmem t0).2 ⟨m0, hm0, by rw [hi0]; exact hstart⟩
  obtain ⟨m0', c0, hm0', _, hc0, hw0⟩ := hset t0 ht0
  have : m0' = m0 := by
    have h1 : w.components.meta? t0 = some m0 := hm0
    rw [h1] at hm0'
    exact (Option.some.inj hm0').symm
  subst this
  rw [hi0] at hc0
  have hlen : ∀ (i : Nat) (c : CompSet V), w.components.components[i]? = some c → InRange g i →
      g.len ≤ c.entities.length := fun i c hc hr => hst.len_le hc hg hr
  have htake : (c0.entities.take g.len).length = g.len := by
    have := hlen _ _ hc0 hstart
    simp [this]
  have hin : ∀ e, e ∈ c0.entities.take g.len ↔ InPrefix (lists w.components.components) g e := by
    intro e
    rw [List.mem_iff_getElem?]
    unfold InPrefix
    rw [lists_some hc0]
    constructor
    · rintro ⟨i, hi⟩
      rw [List.getElem?_take] at hi
      split at hi
      · exact ⟨i, by assumption, hi⟩
      · cases hi
    · rintro ⟨i, hlt, hi⟩
      exact ⟨i, by rw [List.getElem?_take, if_pos hlt, hi]⟩
  refine ⟨c0.entities.take g.len, (Rep.nodup hw0.rep).sublist (List.take_sublist _ _), htake, fun t ht => ?_,
    fun e => ?_, fun e => ?_⟩
  · obtain ⟨m, c, hm, hr, hc, hw⟩ := hset t ht
    refine ⟨c, by simp [World.borrow, hm, hc, Res.unchecked], (h.reg t).1 (by simp [hm]), ?_⟩
    rw [htake]
    refine List.ext_getElem? fun i => ?_
    rw [List.getElem?_take, List.getElem?_take]
    split
    · rename_i hi
      obtain ⟨e, he⟩ := hst.packed.aligned k g hg i hi
      have e1 := he _ hr.1 hr.2
      have e2 := he _ hstart.1 hstart.2
      rw [lists_some hc] at e1
      rw [lists_some hc0] at e2
      rw [e1, e2]
    · rfl
  · rw [hin]
    constructor
    · intro hp
      refine ⟨fun t ht => ?_, fun hc => h.out e k hc ⟨g, hg, hp⟩⟩
      obtain ⟨m, c, hm, hr, hc, hw⟩ := hset t ht
      have := (InPrefix.complete hst.packed hst.gstat hg hp) _ hr.1 hr.2
      rw [hst.mem_lists_iff hm, h.value] at this
      exact this
    · rintro ⟨hall, hn⟩
      refine (h.grouped k g e hg ?_).resolve_right hn
      intro i h1 h2
      obtain ⟨t, m, hm, hi⟩ := hst.mds.cover k g i hg ⟨h1, h2⟩
      subst hi
      rw [hst.mem_lists_iff hm, h.value]
      exact hall t ((hmem t).2 ⟨m, hm, h1, h2⟩)
  · rw [hin]
    constructor
    · exact fun hp => ⟨g, hg, hp⟩
    · rintro ⟨g', h1, h2⟩
      rw [hg] at h1
      cases h1
      exact h2

/-! ### `Uniform` depends on the keys -/

namespace Table

theorem Uniform.sub {tb tb' : Table V} {gl : List (List TypeId)} (h : tb.Uniform gl)
    (hs : ∀ p ∈ tb', ∃ q ∈ tb, q.1 = p.1) : tb'.Uniform gl := by
  intro p hp q hq ht hg
  obtain ⟨p', hp', e1⟩ := hs p hp
  obtain ⟨q', hq', e2⟩ := hs q hq
  rw [← e1, ← e2] at ht ⊢
  rw [← e1] at hg
  exact h p' hp' q' hq' ht hg

theorem mem_erase {tb : Table V} {t : TypeId} {e : Entity} {p : (TypeId × Entity) × V} (h : p ∈ tb.erase t e) :
    p ∈ tb := (List.mem_filter.1 h).1

theorem mem_eraseAll {e : Entity} {p : (TypeId × Entity) × V} : ∀ (ts : List TypeId) {tb : Table V},
    p ∈ tb.eraseAll e ts → p ∈ tb
  | [], _, h => h
  | _ :: ts, _, h => mem_erase (mem_eraseAll ts h)

theorem mem_strip {tb : Table V} {e : Entity} {p : (TypeId × Entity) × V} (h : p ∈ tb.strip e) : p ∈ tb :=
  (List.mem_filter.1 h).1

theorem mem_set {tb : Table V} {t : TypeId} {e : Entity} {v : V} {p : (TypeId × Entity) × V}
    (h : p ∈ tb.set t e v) : p = ((t, e), v) ∨ p ∈ tb := by
  rcases List.mem_cons.1 h with h | h
  · exact .inl h
  · exact .inr (List.mem_filter.1 h).1

theorem set_keys {tb : Table V} {t : TypeId} {e : Entity} {v : V} (h : (tb.get t e).isSome) :
    ∀ p ∈ tb.set t e v, ∃ q ∈ tb, q.1 = p.1 := by
  intro p hp
  rcases mem_set hp with rfl | hp
  · obtain ⟨v', hv'⟩ := mem_of_get h
    exact ⟨_, hv', rfl⟩
  · exact ⟨p, hp, rfl⟩

end Table

/-! ### Calls that exchange nothing -/

namespace World

theorem even_register (w : World V) (t : TypeId) : w.Even (.register t) := EvenPairs.nil

theorem even_createAtomic (w : World V) : w.Even .createAtomic := EvenPairs.nil

theorem even_maintain (w : World V) : w.Even .maintain := EvenPairs.nil

theorem even_clear (w : World V) : w.Even .clear := EvenPairs.nil

theorem even_reset (w : World V) : w.Even .reset := EvenPairs.nil

theorem even_write (w : World V) (t : TypeId) (e : Entity) (v : V) : w.Even (.write t e v) := EvenPairs.nil

end World

/-! ### Worlds without groups -/

namespace MapWorld
variable {s : MapWorld V}

/-- Without groups every table is fine. -/
theorem uniform_nil (tb : Table V) : tb.Uniform [] := fun _ _ _ _ _ h => by simp at h

theorem fine_ungrouped (hg : s.groups = []) {op : Op V} (hl : ∀ r gs, op ≠ .setLayout r gs)
    (hp : ∀ t pos v, op ≠ .writeAt t pos v)
    (hm : op = .maintain → s.life.freshKilled = false) : s.Fine op := by
  cases op with
  | setLayout r gs => exact absurd rfl (hl r gs)
  | maintain => exact hm rfl
  | create vs => exact .inr (.inr fun g hp => by simp [hg] at hp)
  | insert e vs => exact .inr (.inr fun g hp => by simp [hg] at hp)
  | extend ts it => exact .inr (.inr fun g hp => by simp [hg] at hp)
  | writeAt t pos v => exact absurd rfl (hp t pos v)
  | _ => trivial

theorem next_groups_ungrouped (hg : s.groups = []) {op : Op V} (hl : ∀ r gs, op ≠ .setLayout r gs) :
    (s.next op).groups = [] := by
  cases op <;> simp [next, groupsAfter, hg] at hl ⊢

end MapWorld

/-! ### Histories -/

/-- The calls of a history. -/
def calls (h : History V) : List (Op V) := h.map (·.1)

@[simp] theorem calls_append (a b : History V) : calls (a ++ b) = calls a ++ calls b := List.map_append

@[simp] theorem calls_cons (p : Op V × Ret V) (h : History V) : calls (p :: h) = p.1 :: calls h := rfl

@[simp] theorem calls_nil : calls ([] : History V) = [] := rfl

theorem reach_inv {h : History V} {w : World V} (hr : Reach World.empty h w) (hg : Good (calls h)) :
    Inv w (mapOf (calls h)) := (reach_refines hr hg).1

theorem reach_out {h : History V} {w : World V} (hr : Reach World.empty h w) (hg : Fair (calls h)) :
    InvH w (mapOf (calls h)) (hidden (calls h)) := reach_invH hr hg

theorem reach_invL {h : History V} {w : World V} (hr : Reach World.empty h w) (hg : Fair (calls h)) :
    InvL w (mapOf (calls h)) := (reach_fair hr hg).1

theorem reach_lifeL_eq {h : History V} {w : World V} (hr : Reach World.empty h w) (hg : Fair (calls h)) :
    life h = (mapOf (calls h)).life := (reach_fair hr hg).2.2

theorem reach_nextL {h : History V} {w : World V} (hr : Reach World.empty h w) (hg : Fair (calls h)) {op : Op V}
    (hf : (mapOf (calls h)).Fair op) (hv : w.Even op) :
    ∃ w', step w op = some ((mapOf (calls h)).answer op, w') ∧ InvL w' ((mapOf (calls h)).next op) :=
  step_fair (reach_invL hr hg) hf hv

theorem reach_life_eq {h : History V} {w : World V} (hr : Reach World.empty h w) (hg : Good (calls h)) :
    life h = (mapOf (calls h)).life := (reach_refines hr hg).2.2

theorem reach_next {h : History V} {w : World V} (hr : Reach World.empty h w) (hg : Good (calls h)) {op : Op V}
    (hf : (mapOf (calls h)).Fine op) (hv : w.Even op) :
    ∃ w', step w op = some ((mapOf (calls h)).answer op, w') ∧ Inv w' ((mapOf (calls h)).next op) :=
  step_refines (reach_inv hr hg) hf hv

/-- A good history keeps to the discipline of `Verif/Spec/Life.lean`. -/
theorem MapWorld.disciplined_run : ∀ (ops : List (Op V)) (s : MapWorld V), s.AllFair ops →
    s.life.disciplined = true → (s.run ops).life.disciplined = true
  | [], _, _, hd => hd
  | op :: ops, s, hf, hd => by
    refine disciplined_run ops (s.next op) hf.2 ?_
    have hmade : ∀ (es : List Entity) (l : Life), l.disciplined = true →
        (l.run (es.map .made)).disciplined = true := by
      intro es
      induction es with
      | nil => exact fun _ h => h
      | cons e es ih =>
        intro l hl
        rw [List.map_cons, Life.run_cons]
        refine ih _ ?_
        simp only [Life.step, Life.take]
        split <;> exact hl
    simp only [next]
    cases op with
    | maintain =>
      have hk : s.life.freshKilled = false := hf.1
      simp [answer, events, Life.run, Life.step, hd, hk]
    | create vs =>
      simp only [answer]
      split
      · simpa [events, Life.run] using hd
      · split
        · exact hmade [_] _ hd
        · exact hmade [_] _ hd
    | extend ts it =>
      simp only [answer]
      split
      · exact hmade _ _ hd
      · exact hmade _ _ hd
    | createAtomic =>
      simp only [answer]
      split
      · simpa [events, Life.run] using hd
      · simp only [events, Life.run, List.foldl_cons, List.foldl_nil, Life.step, Life.take]
        split <;> exact hd
    | destroy e =>
      simp only [answer]
      by_cases he : e ∈ s.life.alive
      · simpa [he, events, Life.run, Life.step] using hd
      · simpa [he, events, Life.run, Life.step] using hd
    | clear => simpa [answer, events, Life.run, Life.step] using hd
    | reset => simp [answer, events, Life.run, Life.step, Life.init]
    | insert e vs =>
      simp only [answer]
      split_ifs <;> simpa [events, Life.run] using hd
    | remove e ts =>
      simp only [answer]
      split_ifs <;> simpa [events, Life.run] using hd
    | delete e ts =>
      simp only [answer]
      split_ifs <;> simpa [events, Life.run] using hd
    | write t e v =>
      simp only [answer]
      split_ifs <;> simpa [events, Life.run] using hd
    | writeAt t pos v => simpa [answer, events, Life.run] using hd
    | register t => simpa [answer, events, Life.run] using hd
    | setLayout r gs => simpa [answer, events, Life.run] using hd

theorem Good.disciplined {h : History V} {w : World V} (hr : Reach World.empty h w) (hg : Good (calls h)) :
    Disciplined h := by
  unfold Disciplined
  rw [reach_life_eq hr hg]
  exact MapWorld.disciplined_run _ _ hg.allFine.allFair rfl

theorem Fair.disciplined {h : History V} {w : World V} (hr : Reach World.empty h w) (hg : Fair (calls h)) :
    Disciplined h := by
  unfold Disciplined
  rw [reach_lifeL_eq hr hg]
  exact MapWorld.disciplined_run _ _ hg.allFair rfl

/-! ### Interrupted calls exchange nothing -/

theorem insertEach_unreg {e : Entity} : ∀ (vs : List (TypeId × V)) (m : GroupMask) (c : ComponentStorage V),
    (∃ p ∈ vs, c.isRegistered p.1 = false) → ∀ m' c', ComponentStorage.insertEach e vs m c ≠ .ok m' c'
  | [], _, _, h, _, _ => by simp at h
  | (t, v) :: vs, m, c, h, m', c' => by
    rw [ComponentStorage.insertEach]
    split
    · intro h; cases h
    · rename_i md hmd
      have h' : ∃ p ∈ vs, c.isRegistered p.1 = false := by
        obtain ⟨p, hp, hn⟩ := h
        rcases List.mem_cons.1 hp with rfl | hp
        · simp [ComponentStorage.isRegistered, hmd] at hn
        · exact ⟨p, hp, hn⟩
      intro hok
      obtain ⟨s, _, hok⟩ := Outcome.ofRes_eq_ok hok
      obtain ⟨q, _, hok⟩ := Outcome.ofRes_eq_ok hok
      exact insertEach_unreg vs _ { c with components := c.components.set md.storageIndex q.2 } h' m' c' hok

theorem insertPairs_unreg {e : Entity} {vs : List (TypeId × V)} {c : ComponentStorage V}
    (h : ∃ p ∈ vs, c.isRegistered p.1 = false) : c.insertPairs e vs = [] := by
  unfold ComponentStorage.insertPairs
  split
  · rename_i hok
    exact absurd hok (insertEach_unreg vs _ _ h _ _)
  · rfl

theorem World.even_insert_unreg (w : World V) (e : Entity) {vs : List (TypeId × V)}
    (h : ∃ p ∈ vs, w.isRegistered p.1 = false) : w.Even (.insert e vs) := by
  simp only [World.Even, World.swaps, insertPairs_unreg h, ite_self]
  exact .nil

theorem World.even_create_unreg (w : World V) {vs : List (TypeId × V)}
    (h : ∃ p ∈ vs, w.isRegistered p.1 = false) : w.Even (.create vs) := by
  simp only [World.Even, World.swaps]
  split
  · rw [insertPairs_unreg h]
    exact .nil
  · exact .nil

theorem World.even_extend_panics (w : World V) (ts : List TypeId) (items : List (List V)) :
    w.Even (.extend ts ⟨items, true⟩) := by
  simp only [World.Even, World.swaps, World.extendPairs]
  split
  · split
    · exact .nil
    · exact .nil
  · exact .nil

/-- In worlds without groups, `maintain` is the only call that needs a guard. -/
theorem good_of_ungrouped {h : History V} {w : World V} (hr : Reach World.empty h w)
    (hn : ∀ op ∈ calls h, (∀ r gs, op ≠ .setLayout r gs) ∧ ∀ t pos v, op ≠ .writeAt t pos v)
    (hm : ∀ (h₁ h₂ : History V) (r : Ret V), h = h₁ ++ (.maintain, r) :: h₂ → (life h₁).freshKilled = false) :
    Good (calls h) ∧ (mapOf (calls h)).groups = [] := by
  induction hr with
  | nil => exact ⟨trivial, rfl⟩
  | @snoc h w₁ w₂ op r hr hs ih =>
    obtain ⟨hg, h0⟩ := ih (fun o ho => hn o (by simp [ho])) (fun h₁ h₂ r' he => hm h₁ (h₂ ++ [(op, r)]) r'
      (by simp [he]))
    obtain ⟨hop, hop'⟩ := hn op (by simp)
    have hf : (mapOf (calls h)).Fine op := MapWorld.fine_ungrouped h0 hop hop' (by
      rintro rfl
      rw [← reach_life_eq hr hg]
      exact hm h [] r rfl)
    simp only [calls_append, calls_cons, calls_nil]
    have hn0 := MapWorld.next_groups_ungrouped h0 hop
    have hv : w₁.Even op := even_of_uniform (reach_inv hr hg) hf.fair (by rw [h0]; exact MapWorld.uniform_nil _)
      (by rw [hn0]; exact MapWorld.uniform_nil _)
    exact ⟨Good.of_fine hr hg hf hv, by rw [mapOf_snoc]; exact MapWorld.next_groups_ungrouped h0 hop⟩

/-- Some reads of a world after running `ops`, to state witnesses. -/
def afterRun {α : Type} (ops : List (Op V)) (f : World V → α) : Option α := (run World.empty ops).map fun p => f p.2

end Sparsey
