import Verif.Proofs.Atomic
import Verif.Properties.Entities
import Verif.Properties.Components

/-!
Concurrent `create_atomic` calls on a shared world (C06).

`AtomicRun` gives every interleaving of any number of calls, with stale loads and spurious failures of the weak
compare-exchanges (`Verif/Model/Atomic.lean`). `C06_serial` says that the calls behave as if they were made one after
the other in the order of their returns, in every world, reachable or not. `C06_supply` gives the returned entities.
C06 itself is false after `maintain` has revived an entity, since the deque can then hold the same entity twice.
-/

set_option autoImplicit false
set_option linter.unusedSimpArgs false

namespace Sparsey

variable {V : Type}

/-- The returned entities, in the order of the returns. -/
def returned (tr : List (Nat × Option Entity)) : List Entity := tr.filterMap Prod.snd

/-- The history of the calls, as if made one after the other. -/
def atomicCalls (tr : List (Nat × Option Entity)) : History V := tr.map fun x => (.createAtomic, atomicRet x.2)

/-- C06, linearizability: in every world, every interleaving of `create_atomic` calls gives the same answers and the
same world as the calls made one after the other in the order of their returns; every call returns at most once and none
panics by an index out of bounds. -/
theorem C06_serial {w : World V} {tr : List (Nat × Option Entity)} {c : AtomicConf}
    (hr : AtomicRun w.entities.allocator.recycled (.init w.entities.allocator) tr c) :
    Reach w (atomicCalls tr) (w.afterAtomic c.mem) ∧ (tr.map Prod.fst).Nodup ∧
      (∀ i r, (i, r) ∈ tr ↔ c.pc i = .done r) ∧ ∀ i, c.pc i ≠ .failed := by
  obtain ⟨a', h1, h2, h3⟩ := atomicRun_serial hr
  obtain ⟨o1, o2⟩ := atomicRun_once (fun _ => rfl) hr
  refine ⟨?_, o1, o2, fun i hf => ?_⟩
  · have hw : w.afterAtomic c.mem = { w with entities := { w.entities with allocator := a' } } := by
      have h4 := (h3.recycled).2
      have h5 := h2.since.last
      have h6 := h2.next.last
      cases a'
      simp only at h1 h4 h5 h6
      simp [World.afterAtomic, h1, h4, h5, h6]
    rw [hw]
    have h5 := h3.reach
    rw [List.map_map] at h5
    exact h5
  · have := h2.pcs i
    rw [hf] at this
    exact this

/-- C06: the `k`-th call to return gets the `k`-th entity that the allocator can hand out, whatever the interleaving; when
nothing is left it panics. -/
theorem C06_supply {a : EntityAllocator} {tr : List (Nat × Option Entity)} {c : AtomicConf}
    (hr : AtomicRun a.recycled (.init a) tr c) (k : Nat) (hk : k < tr.length) : tr[k].2 = supply a k := by
  obtain ⟨a', _, _, h3⟩ := atomicRun_serial hr
  have := (h3.supply).2 k (by simpa using hk)
  simpa using this

/-- `returned` as a part of the history. -/
theorem atomicCalls_life (tr : List (Nat × Option Entity)) : ∀ l : Life,
    (l.run (historyEvents (atomicCalls (V := V) tr))).issued = (returned tr).reverse ++ l.issued ∧
    (l.run (historyEvents (atomicCalls (V := V) tr))).alive = l.alive ∧
    (l.run (historyEvents (atomicCalls (V := V) tr))).disciplined = l.disciplined := by
  have ht : ∀ l : Life, l.take.issued = l.issued ∧ l.take.alive = l.alive ∧ l.take.disciplined = l.disciplined := by
    intro l
    unfold Life.take
    cases l.waiting <;> exact ⟨rfl, rfl, rfl⟩
  induction tr with
  | nil => intro l; exact ⟨rfl, rfl, rfl⟩
  | cons x tr ih =>
    intro l
    obtain ⟨i, r⟩ := x
    cases r with
    | none => exact ih l
    | some e =>
      have he : historyEvents (atomicCalls (V := V) ((i, some e) :: tr)) =
          .queued e :: historyEvents (atomicCalls tr) := rfl
      rw [he]
      have hrun : ∀ evs : List Ev, l.run (.queued e :: evs) = (l.step (.queued e)).run evs := fun _ => rfl
      rw [hrun]
      obtain ⟨h1, h2, h3⟩ := ih (l.step (.queued e))
      obtain ⟨t1, t2, t3⟩ := ht l
      refine ⟨?_, ?_, ?_⟩
      · rw [h1]
        simp [returned, Life.step]
      · rw [h2]
        exact t2
      · rw [h3]
        exact t3

/-- C06 is false in general: make, destroy, `maintain` (revives `0v1`), destroy again. The deque holds `0v2` twice; two
calls that both load the counter first and of which the second fails once return the same entity. -/
theorem C06_false : ∃ (h : History Nat) (w : World Nat) (tr : List (Nat × Option Entity)) (c : AtomicConf),
    Reach World.empty h w ∧ AtomicRun w.entities.allocator.recycled (.init w.entities.allocator) tr c ∧
      ¬ (returned tr).Nodup := by
  obtain ⟨rs, w, h1, h2⟩ := reach_witness
    (ops := ([.create [], .destroy ⟨0, 1⟩, .maintain, .destroy ⟨0, 1⟩] : List (Op Nat)))
    (f := fun _ w => decide (w.entities.allocator = ⟨1, 1, [⟨0, 2⟩, ⟨0, 2⟩], 0⟩)) (by decide)
  have h2 := of_decide_eq_true h2
  have r0 := AtomicRun.nil (recycled := [⟨0, 2⟩, ⟨0, 2⟩]) (c := .init ⟨1, 1, [⟨0, 2⟩, ⟨0, 2⟩], 0⟩)
  have r1 := r0.snoc (i := 0) (.loadSince (v := 0) (by decide))
  have r2 := r1.snoc (i := 1) (.loadSince (v := 0) (by decide))
  have r3 := r2.snoc (i := 0) (.casSince (prev := 0) (by decide) (by decide))
  have r4 := r3.snoc (i := 1) (.casSinceFail (prev := 0) (v := 1) (by decide) (by decide))
  have r5 := r4.snoc (i := 1) (.casSince (prev := 1) (by decide) (by decide))
  have hx : ∃ c, AtomicRun [⟨0, 2⟩, ⟨0, 2⟩] (.init ⟨1, 1, [⟨0, 2⟩, ⟨0, 2⟩], 0⟩)
      [(0, some ⟨0, 2⟩), (1, some ⟨0, 2⟩)] c := ⟨_, r5⟩
  obtain ⟨c, hc⟩ := hx
  exact ⟨_, w, [(0, some ⟨0, 2⟩), (1, some ⟨0, 2⟩)], c, h1, by rw [h2]; exact hc, by decide⟩

/-- C06: the entities returned by concurrent `create_atomic` calls are pairwise different, different from everything
handed out before, and not alive. Missing: undisciplined histories. -/
theorem C06_partial {h : History V} {w : World V} (hr : Reach World.empty h w) (hd : Disciplined h)
    {tr : List (Nat × Option Entity)} {c : AtomicConf}
    (hc : AtomicRun w.entities.allocator.recycled (.init w.entities.allocator) tr c) :
    (returned tr).Nodup ∧ ∀ e ∈ returned tr, e ∉ (life h).issued ∧ w.containsEntity e = false := by
  obtain ⟨h1, _, _, _⟩ := C06_serial hc
  have hr' := hr.trans h1
  obtain ⟨l1, _, l3⟩ := atomicCalls_life (V := V) tr (life h)
  have hd' : Disciplined (h ++ atomicCalls tr) := by
    unfold Disciplined
    rw [life_append, l3]
    exact hd
  have hn := C01_partial hr' hd'
  rw [life_append, l1, List.nodup_append] at hn
  refine ⟨List.nodup_reverse.1 hn.1, fun e he => ?_⟩
  have hni : e ∉ (life h).issued := fun hi => hn.2.2 e (List.mem_reverse.2 he) e hi rfl
  refine ⟨hni, ?_⟩
  cases hce : w.containsEntity e with
  | false => rfl
  | true =>
    have hl := reach_life hr hd
    have hm := (hl.alive e).2 ((C02_partial hr hd e).1 hce)
    exact absurd (hl.liveIssued e (List.mem_append_right _ hm)) hni

/-- C06, progress: whatever the other calls are doing, a call that is then left to run alone (with fresh loads and
without spurious failures) returns. -/
theorem C06_progress {a : EntityAllocator} {tr : List (Nat × Option Entity)} {c : AtomicConf}
    (hr : AtomicRun a.recycled (.init a) tr c) (i : Nat) (hi : ∀ r, c.pc i ≠ .done r) :
    ∃ r m, AtomicRun a.recycled c [(i, r)] ⟨m, fun j => if j = i then .done r else c.pc j⟩ :=
  atomicRun_finish hr i hi

/-- Non-vacuity: after `calmOps` one index waits in vain (`0v3` is already handed out), so the calls get new indexes; call
1 reads stale values, fails for no reason, and returns before call 0. -/
example : ∃ (w : World Nat) (c : AtomicConf), Reach World.empty (calmOps.zip calmRets) w ∧ Disciplined (calmOps.zip calmRets) ∧
    AtomicRun w.entities.allocator.recycled (.init w.entities.allocator) [(1, some ⟨5, 1⟩), (0, some ⟨6, 1⟩)] c := by
  obtain ⟨w, hw, h1⟩ := reach_answers (ops := calmOps) (rs := calmRets) (by decide)
  have h2 : w.entities.allocator = ⟨5, 5, [⟨0, 3⟩], 1⟩ := by
    have h3 : (run World.empty calmOps).map (·.2.entities.allocator) = some ⟨5, 5, [⟨0, 3⟩], 1⟩ := by decide
    rw [hw] at h3
    exact Option.some.inj h3
  have r0 := AtomicRun.nil (recycled := [⟨0, 3⟩]) (c := .init ⟨5, 5, [⟨0, 3⟩], 1⟩)
  have r1 := r0.snoc (i := 0) (.loadSince (v := 1) (by decide))
  have r2 := r1.snoc (i := 0) (.noSince (by decide))
  have r3 := r2.snoc (i := 1) (.loadSince (v := 1) (by decide))
  have r4 := r3.snoc (i := 1) (.noSince (by decide))
  have r5 := r4.snoc (i := 0) (.loadNext (v := 5) (by decide))
  have r6 := r5.snoc (i := 1) (.loadNext (v := 5) (by decide))
  have r7 := r6.snoc (i := 1) (.casNextFail (prev := 5) (v := 5) (by decide) (by decide))
  have r8 := r7.snoc (i := 1) (.casNext (prev := 5) (by decide) (by decide))
  have r9 := r8.snoc (i := 0) (.casNextFail (prev := 5) (v := 5) (by decide) (by decide))
  have r10 := r9.snoc (i := 0) (.casNextFail (prev := 5) (v := 6) (by decide) (by decide))
  have r11 := r10.snoc (i := 0) (.casNext (prev := 6) (by decide) (by decide))
  have hx : ∃ c, AtomicRun [⟨0, 3⟩] (.init ⟨5, 5, [⟨0, 3⟩], 1⟩) [(1, some ⟨5, 1⟩), (0, some ⟨6, 1⟩)] c := ⟨_, r11⟩
  obtain ⟨c, hc⟩ := hx
  exact ⟨w, c, h1, by decide, by rw [h2]; exact hc⟩

end Sparsey
