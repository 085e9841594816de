import Verif.Proofs.Ledger

/-!
C36: component values are neither lost nor duplicated. The ledger is over the values of the calls; allocation, growth and
uninitialised memory are in `Properties/RawSet.lean`, panicking destructors too.
-/

set_option autoImplicit false
set_option linter.unusedSimpArgs false

namespace Sparsey
variable {V : Type}

/-- C36: after every history (panicking calls included) what was moved into the world is, as a multiset, what was given
back, what was dropped, and what is stored; dropping the world drops exactly what is stored. Histories end at undefined
behaviour (`C31_false`), which is what is missing for C36 in full. -/
theorem C36_partial {h : History V} {ds : List V} {w : World V} (hd : Drops World.empty h ds w) :
    (allGiven h).Perm (allReturned h ++ ds ++ w.stored) ∧ w.finalDrops = w.stored := by
  have := (drops_ledger hd tidy_empty).2
  refine ⟨?_, rfl⟩
  simpa [World.stored, World.empty, ComponentStorage.empty] using this

/-- C36, one place: if no value is moved in twice, no value is in two places: stored at two positions, dropped twice,
given back twice, or any two of these. -/
theorem C36_once_partial {h : History V} {ds : List V} {w : World V} (hd : Drops World.empty h ds w)
    (hn : (allGiven h).Nodup) :
    w.stored.Nodup ∧ ds.Nodup ∧ (allReturned h).Nodup ∧
      ∀ v ∈ allGiven h, (v ∈ allReturned h ∧ v ∉ ds ∧ v ∉ w.stored) ∨ (v ∉ allReturned h ∧ v ∈ ds ∧ v ∉ w.stored) ∨
        (v ∉ allReturned h ∧ v ∉ ds ∧ v ∈ w.stored) := by
  have hp := (C36_partial hd).1
  have h2 := hp.nodup_iff.1 hn
  rw [List.nodup_append, List.nodup_append] at h2
  obtain ⟨⟨h3, h4, h5⟩, h6, h7⟩ := h2
  refine ⟨h6, h4, h3, fun v hv => ?_⟩
  have hv := hp.mem_iff.1 hv
  simp only [List.mem_append] at hv
  rcases hv with (hv | hv) | hv
  · exact .inl ⟨hv, fun hx => h5 v hv v hx rfl, fun hx => h7 v (List.mem_append_left _ hv) v hx rfl⟩
  · exact .inr (.inl ⟨fun hx => h5 v hx v hv rfl, hv, fun hx => h7 v (List.mem_append_right _ hv) v hx rfl⟩)
  · exact .inr (.inr ⟨fun hx => h7 v (List.mem_append_left _ hx) v hv rfl,
      fun hx => h7 v (List.mem_append_right _ hx) v hv rfl, hv⟩)

/-- C36, one call in any reachable world. -/
theorem C36_step_partial {h : History V} {w w' : World V} {op : Op V} {r : Ret V} (hr : Reach World.empty h w)
    (hs : step w op = some (r, w')) : (op.given ++ w.stored).Perm (r.returned ++ (w.drops op ++ w'.stored)) := by
  obtain ⟨ds, hd⟩ := reach_drops hr
  exact (step_ledger hs (drops_ledger hd tidy_empty).1).2

/-- The theorems apply to every history. -/
theorem C36_all {h : History V} {w : World V} (hr : Reach World.empty h w) : ∃ ds, Drops World.empty h ds w :=
  reach_drops hr

/-- Calls for the examples: a group, an overwritten component, a panic for lack of a type, a panicking iterator, a write,
`remove`, `delete`, `destroy` and a call on a missing entity. -/
def ledgerOps : List (Op Nat) :=
  [.setLayout (fun t => t) [[0, 1]], .create [(0, 10), (1, 11)], .create [(0, 12)], .insert ⟨0, 1⟩ [(0, 13)],
    .insert ⟨1, 1⟩ [(1, 14), (7, 15), (0, 16)], .extend [0, 1] ⟨[[17, 18], [19, 20]], true⟩, .write 1 ⟨2, 1⟩ 21,
    .remove ⟨0, 1⟩ [0, 1], .delete ⟨1, 1⟩ [0], .destroy ⟨2, 1⟩, .insert ⟨2, 1⟩ [(0, 22)]]

/-- Non-vacuity: every value is moved in once; some are given back, some dropped, some stored. -/
example : ∃ h ds w, Drops World.empty h ds w ∧ (allGiven h).Nodup ∧ allReturned h = [13, 11] ∧
    ds = [10, 15, 16, 18, 12, 17, 21, 22] ∧ w.stored = [19, 20, 14] := by
  cases hr : runDrops World.empty ledgerOps with
  | none => exact absurd hr (by decide)
  | some p =>
    obtain ⟨rs, ds, w⟩ := p
    refine ⟨_, ds, w, runDrops_drops _ _ _ _ _ hr, ?_, ?_, ?_, ?_⟩
    · have : (runDrops World.empty ledgerOps).map (fun p => decide (allGiven (ledgerOps.zip p.1)).Nodup) = some true := by
        decide
      rw [hr] at this
      simpa using this
    · have : (runDrops World.empty ledgerOps).map (fun p => allReturned (ledgerOps.zip p.1)) = some [13, 11] := by decide
      rw [hr] at this
      simpa using this
    · have : (runDrops World.empty ledgerOps).map (·.2.1) = some [10, 15, 16, 18, 12, 17, 21, 22] := by decide
      rw [hr] at this
      simpa using this
    · have : (runDrops World.empty ledgerOps).map (·.2.2.stored) = some [19, 20, 14] := by decide
      rw [hr] at this
      simpa using this

end Sparsey
