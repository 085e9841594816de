import Verif.Proofs.Roll
import Verif.Properties.Entities

/-!
C73: what the entities of a world do, in every history. `Roll` (`Verif/Spec/Roll.lean`) is a list of entities, a queue of indexes and the
list of what `maintain` puts.
-/

set_option autoImplicit false
set_option linter.unusedSimpArgs false

namespace Sparsey
variable {V : Type}

/-- **C73.** After any calls `entities()` is the list of the roll, in this order, and `contains_entity` finds what the roll finds. -/
theorem C73 {h : History V} {w : World V} (hr : Reach World.empty h w) :
    w.entities.asSlice = (roll h).entities ∧ ∀ e, w.containsEntity e = (roll h).has e :=
  ⟨(reach_roll hr).entities.symm, fun e => ((reach_roll hr).has e).symm⟩

theorem retOutcome_made {α : Type} {made m : List Entity} {r : Outcome (World V) α} {f : α → Ret V} {w' : World V}
    (hf : ∀ a m, f a ≠ .panicked m) (h : retOutcome made r f = some (.panicked m, w')) : m = made := by
  cases r with
  | ub => cases h
  | ok a w => simp only [retOutcome, Option.some.injEq, Prod.mk.injEq] at h; exact absurd h.1 (hf _ _)
  | panic w => simp only [retOutcome, Option.some.injEq, Prod.mk.injEq, Ret.panicked.injEq] at h; exact h.1.symm

/-- **C73, answers.** After any calls the answers of the calls about entities are those of the roll: which entities they hand
out, what they find, and whether they panic. -/
theorem C73_answers {h : History V} {w w' : World V} (hr : Reach World.empty h w) {op : Op V} {a : Ret V}
    (hs : step w op = some (a, w')) : (roll h).Answers w.isRegistered op a := by
  have ri := reach_roll hr
  obtain ⟨he, hc⟩ := reach_sound hr
  have hes := step_ents he hc hs
  have h49 := (C49 hr op).1
  have hdry := fun n => (dry_iff n w w.entities rfl he he).1
  cases op with
  | create vs =>
    simp only [Roll.Answers]
    rcases ri.create with ⟨h1, h2⟩ | ⟨e, r', s', h1, h2, h3⟩
    · rw [h1]
      rcases hes with ⟨_, rfl, _⟩ | ⟨e, h4, _⟩
      · rfl
      · rw [h2] at h4; cases h4
    · rw [h1]
      simp only
      have hd : ¬ w.Dry 1 := by rw [hdry]; simp [EntityStorage.createUpTo, h2]
      simp only [World.Refuses, hd, false_or] at h49
      rcases hes with ⟨h4, _⟩ | ⟨e', h4, h5⟩
      · rw [h2] at h4; cases h4
      · rw [h2] at h4
        cases h4
        split
        · rename_i hall
          rcases h5 with rfl | rfl
          · rfl
          · obtain ⟨p, hp, hn⟩ := h49.1 ⟨_, _, hs⟩
            rw [List.all_eq_true] at hall
            rw [hall p hp] at hn
            cases hn
        · rename_i hall
          rcases h5 with rfl | rfl
          · have : ∃ p ∈ vs, w.isRegistered p.1 = false := by
              simpa using hall
            obtain ⟨m, w1, h6⟩ := h49.2 this
            rw [hs] at h6
            cases h6
          · rfl
  | extend ts it =>
    simp only [Roll.Answers]
    obtain ⟨h1, h2⟩ := RollInv.make it.items.length ri
    have hlr := lookupAll_refuses hc (·.insertMask) ts
    have hmade : ∀ m w1, step w (.extend ts it) = some (.panicked m, w1) → m = extendMade w ts it :=
      fun m w1 h => retOutcome_made (by simp) h
    by_cases hall : ts.all w.isRegistered = true
    · rw [if_pos hall]
      have hno : ¬ ∃ t ∈ ts, w.isRegistered t = false := by
        rintro ⟨t, ht, hn⟩
        rw [List.all_eq_true] at hall
        rw [hall t ht] at hn
        cases hn
      have hex : extendMade w ts it = w.entities.createUpTo it.items.length := by
        unfold extendMade
        rcases hc.lookupAll (·.insertMask) ts with h3 | ⟨idxs, mask, h3, _⟩
        · exact absurd (hlr.1 h3) hno
        · rw [h3]
      rw [hex, h2] at hmade
      simp only [World.Refuses, hno, hdry, h2, false_or] at h49
      split
      · rename_i hok
        rcases hes with ⟨rfl, _⟩ | ⟨h3, rfl | ⟨h4, _⟩⟩
        · rcases h49.1 ⟨_, _, hs⟩ with h5 | h5
          · exact absurd hok.1 h5
          · rw [hok.2] at h5; cases h5
        · rcases h49.1 ⟨_, _, hs⟩ with h5 | h5
          · exact absurd hok.1 h5
          · rw [hok.2] at h5; cases h5
        · rw [h4, h3, h1.entities, ri.entities]
          rfl
      · rename_i hok
        obtain ⟨m, w1, h6⟩ := h49.2 (by
          by_cases h7 : (roll h |>.make it.items.length).1.length = it.items.length
          · right
            cases h8 : it.thenPanics with
            | true => rfl
            | false => exact absurd ⟨h7, h8⟩ hok
          · exact .inl h7)
        have h7 := hmade m w1 h6
        rw [hs] at h6
        cases h6
        rw [h7]
    · rw [if_neg hall]
      have hun : ∃ t ∈ ts, w.isRegistered t = false := by simpa using hall
      obtain ⟨m, w1, h6⟩ := h49.2 (.inl hun)
      have h7 := hmade m w1 h6
      rw [hs] at h6
      cases h6
      rw [h7, extendMade, hlr.2 hun]
  | createAtomic =>
    simp only [Roll.Answers]
    rcases ri.createAtomic with ⟨h1, h2⟩ | ⟨e, r', s', h1, h2, h3⟩
    · rw [h1]
      rcases hes with ⟨_, rfl, _⟩ | ⟨e, h4, _⟩
      · rfl
      · rw [h2] at h4; cases h4
    · rw [h1]
      rcases hes with ⟨h4, _⟩ | ⟨e', h4, rfl⟩
      · rw [h2] at h4; cases h4
      · rw [h2] at h4
        cases h4
        rfl
  | destroy e =>
    simp only [Roll.Answers]
    rcases hes with ⟨_, rfl⟩ | ⟨b, h1, rfl⟩
    · exact absurd (h49.1 ⟨_, _, hs⟩) (by simp [World.Refuses])
    · rw [(ri.remove (V := V) h1).1]
  | insert e vs =>
    simp only [Roll.Answers]
    rw [ri.has e]
    simp only [World.Refuses, World.containsEntity] at h49
    simp only [step, World.insert] at hs h49
    cases hcon : w.entities.contains e with
    | false =>
      simp only [hcon, Bool.not_false, if_true, retOutcome, Option.some.injEq, Prod.mk.injEq] at hs
      simp [hs.1]
    | true =>
      simp only [hcon, Bool.not_true, Bool.false_eq_true, if_false, true_and] at hs h49
      simp only [if_true]
      cases hi : w.insertSet e vs with
      | ub => simp [hi, retOutcome] at hs
      | ok u w1 =>
        simp only [hi, Outcome.bind_ok, retOutcome, Option.some.injEq, Prod.mk.injEq] at hs h49
        rw [if_pos, ← hs.1]
        by_contra hall
        have hun : ∃ p ∈ vs, w.isRegistered p.1 = false := by simpa using hall
        obtain ⟨m, w2, h6⟩ := h49.2 hun
        exact absurd h6.1 (by simp)
      | panic w1 =>
        simp only [hi, Outcome.bind_panic, retOutcome, Option.some.injEq, Prod.mk.injEq] at hs h49
        obtain ⟨p, hp, hn⟩ := h49.1 ⟨_, _, rfl, rfl⟩
        rw [if_neg, ← hs.1]
        intro hall
        rw [List.all_eq_true] at hall
        rw [hall p hp] at hn
        cases hn
  | maintain => exact hes.2
  | clear => exact hes.2
  | reset => exact hes.2
  | register t => trivial
  | setLayout k gs => trivial
  | remove e ts => trivial
  | delete e ts => trivial
  | write t e v => trivial
  | writeAt t k v => trivial

/-- **C73, exhaustion.** After any calls `create_atomic` panics exactly if no index waits and every index was used. -/
theorem C73_exhausted {h : History V} {w : World V} (hr : Reach World.empty h w) :
    (∃ m w', step w .createAtomic = some (.panicked m, w')) ↔ (roll h).waiting = [] ∧ 2 ^ 32 ≤ (roll h).next := by
  have hh : (roll h).hand = none ↔ (roll h).waiting = [] ∧ 2 ^ 32 ≤ (roll h).next := by
    unfold Roll.hand
    cases (roll h).waiting with
    | nil =>
      by_cases hn : (roll h).next < 2 ^ 32
      · simp [hn]
      · simp [hn]
    | cons e ws => simp
  rw [← hh]
  rcases (reach_roll hr).createAtomic with ⟨h1, h2⟩ | ⟨e, r', s', h1, h2, h3⟩
  · simp [h1, step, World.createAtomic, h2, retRes]
  · simp [h1, step, World.createAtomic, h2, retRes]

/-! ### Examples -/

/-- make three, destroy one, `maintain` (revives it), destroy another, queue one, make one, `maintain`, destroy, make with an unknown
type -/
def rollOps : List (Op Nat) :=
  [.create [], .extend [] ⟨[[], []], false⟩, .destroy ⟨0, 1⟩, .maintain, .destroy ⟨1, 1⟩, .createAtomic, .create [], .maintain,
    .destroy ⟨0, 1⟩, .create [(9, 4)]]

/-- The answers of the model to `rollOps`. -/
def rollRets : List (Ret Nat) :=
  [.entity ⟨0, 1⟩, .entities [⟨1, 1⟩, ⟨2, 1⟩], .bool true, .unit, .bool true, .entity ⟨0, 2⟩, .entity ⟨1, 2⟩, .unit,
    .bool true, .panicked [⟨0, 2⟩]]

theorem roll_reach : ∃ w, Reach World.empty (rollOps.zip rollRets) w :=
  let ⟨w, _, h⟩ := reach_answers (ops := rollOps) (rs := rollRets) (by decide)
  ⟨w, h⟩

/-- `maintain` brings back the destroyed `0v1`; then the queued `0v2` is listed in its row, but found is still `0v1`. -/
example : roll (rollOps.zip rollRets |>.take 4) =
      ⟨⟨[(⟨2, 1⟩, ()), (⟨1, 1⟩, ()), (⟨0, 1⟩, ())], [1, 1, 1]⟩, [⟨0, 2⟩], 3, []⟩ ∧
    roll (rollOps.zip rollRets |>.take 8) =
      ⟨⟨[(⟨2, 1⟩, ()), (⟨0, 2⟩, ()), (⟨1, 2⟩, ())], [1, 1, 2]⟩, [], 3, []⟩ ∧
    (roll (rollOps.zip rollRets |>.take 8)).has ⟨0, 1⟩ = true ∧
    (roll (rollOps.zip rollRets |>.take 8)).has ⟨0, 2⟩ = false := by decide

/-- make, destroy, make, `maintain`: the list says `0v1`, the lookup finds `0v2` only. -/
example : ∃ w, Reach (V := Nat) World.empty ([.create [], .destroy ⟨0, 1⟩, .create [], .maintain].zip
      [.entity ⟨0, 1⟩, .bool true, .entity ⟨0, 2⟩, .unit]) w ∧
    w.entities.asSlice = [⟨0, 1⟩] ∧ w.containsEntity ⟨0, 1⟩ = false ∧ w.containsEntity ⟨0, 2⟩ = true := by
  obtain ⟨w, _, h⟩ := reach_answers (V := Nat) (ops := [.create [], .destroy ⟨0, 1⟩, .create [], .maintain])
    (rs := [.entity ⟨0, 1⟩, .bool true, .entity ⟨0, 2⟩, .unit]) (by decide)
  refine ⟨w, h, ?_⟩
  rw [(C73 h).1, (C73 h).2, (C73 h).2]
  decide

/-- The next answers after `rollOps`. -/
example : (roll (rollOps.zip rollRets)).Answers (fun t => t == 7) (.create [(7, 1)] : Op Nat) (.entity ⟨3, 1⟩) ∧
    (roll (rollOps.zip rollRets)).Answers (fun t => t == 7) (.create [(7, 1), (8, 1)] : Op Nat) (.panicked [⟨3, 1⟩]) ∧
    (roll (rollOps.zip rollRets)).Answers (fun t => t == 7) (.extend [7] ⟨[[1], [2]], true⟩ : Op Nat) (.panicked [⟨3, 1⟩, ⟨4, 1⟩]) ∧
    ¬ (roll (rollOps.zip rollRets)).Answers (fun t => t == 7) (.destroy ⟨0, 1⟩ : Op Nat) (.bool true) := by
  refine ⟨rfl, rfl, ?_, ?_⟩ <;> simp only [Roll.Answers] <;> decide

/-- A roll with every index used and one waiting hands out that one and then nothing. -/
example : ((⟨.empty, [⟨5, 3⟩], 2 ^ 32, []⟩ : Roll).make 2) =
    ([⟨5, 3⟩], ⟨⟨[(⟨5, 3⟩, ())], [3]⟩, [], 2 ^ 32, [⟨5, 3⟩]⟩) := by decide

end Sparsey
