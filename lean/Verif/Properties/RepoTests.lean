import Verif.Properties.HashOrder
import Verif.Model.View

/-!
The tests of the repository (`/repo/tests`) and the examples of its README, run on the model. These are checks of the
model, not theorems about all inputs. The component types `A`, `B`, `C`, `D` are 0, 1, 2, 3.
-/

set_option autoImplicit false

namespace Sparsey.RepoTests

/-- tests/iterators.rs:51-67 `test_iter`. `expected` is compared as a set. -/
def testIter (w : World Nat) (inc exc : Query) (dense : Bool) (expected : List Entity) : Bool :=
  match seeAll w [] [.entity] inc exc with
  | .ok (d, items, _) => d == dense && items.length == expected.length &&
    expected.all fun e => items.any fun it => decide (it = [.entity e])
  | _ => false

/-- tests/iterators.rs:18-20 and 40-42: the entities. -/
def create3 : List (Op Nat) :=
  [.create [(0, 0), (1, 0)], .create [(0, 1), (1, 1), (2, 1)], .create [(0, 2), (1, 2), (2, 2), (3, 2)]]

/-- tests/iterators.rs:22-28 and 44-50: the checks. -/
def checks (dense : Bool) (rs : List (Ret Nat)) (w : World Nat) : Bool :=
  match rs.reverse with
  | .entity e2 :: .entity e1 :: .entity e0 :: _ =>
    testIter w [.ref 0, .ref 1] [] dense [e0, e1, e2] &&
    testIter w [.ref 0, .ref 1, .ref 2] [] dense [e1, e2] &&
    testIter w [.ref 0, .ref 1, .ref 2, .ref 3] [] dense [e2] &&
    testIter w [.ref 0, .ref 1] [.ref 2] dense [e0] &&
    testIter w [.ref 0, .ref 1, .ref 2] [.ref 3] dense [e1]
  | _ => false

/-- tests/iterators.rs:10-29 `test_sparse`. -/
example : holdsAfter ([.register 0, .register 1, .register 2, .register 3] ++ create3) (checks false) = true := by
  decide +kernel

/-- tests/iterators.rs:31-49 `test_dense`. -/
example : holdsAfter (.setLayout anyOrder [[0, 1], [0, 1, 2], [0, 1, 2, 3]] :: create3) (checks true) = true := by
  decide +kernel

/-- `world.contains::<&T>(e)` is `c` and `world.query_one::<&T>().get(e)` is `v` (tests/components_crud.rs). -/
def reads (w : World Nat) (e : Entity) (t : TypeId) (v : Option Nat) : Bool :=
  decide (w.contains [] [.ref t] e = .ok v.isSome) &&
  decide (seeOne w [] [.ref t] [] [] e = .ok (v.isSome, v.map fun v => [.ref 0 0 v]))

/-- tests/components_crud.rs:6-53 `test_components_crud`: the calls up to each group of checks, and the checks. -/
example :
    holdsAfter [.register 0, .register 1, .create []] (fun _ w =>
      reads w ⟨0, 1⟩ 0 none && reads w ⟨0, 1⟩ 1 none) = true ∧
    holdsAfter [.register 0, .register 1, .create [], .insert ⟨0, 1⟩ [(0, 1)]] (fun _ w =>
      reads w ⟨0, 1⟩ 0 (some 1) && reads w ⟨0, 1⟩ 1 none) = true ∧
    holdsAfter [.register 0, .register 1, .create [], .insert ⟨0, 1⟩ [(0, 1)], .insert ⟨0, 1⟩ [(1, 1)]] (fun _ w =>
      reads w ⟨0, 1⟩ 0 (some 1) && reads w ⟨0, 1⟩ 1 (some 1)) = true ∧
    holdsAfter [.register 0, .register 1, .create [], .insert ⟨0, 1⟩ [(0, 1)], .insert ⟨0, 1⟩ [(1, 1)], .remove ⟨0, 1⟩ [0]]
      (fun rs w => decide (rs.getLast? = some (.values [some 1])) &&
        reads w ⟨0, 1⟩ 0 none && reads w ⟨0, 1⟩ 1 (some 1)) = true ∧
    holdsAfter [.register 0, .register 1, .create [], .insert ⟨0, 1⟩ [(0, 1)], .insert ⟨0, 1⟩ [(1, 1)], .remove ⟨0, 1⟩ [0],
        .remove ⟨0, 1⟩ [0]]
      (fun rs w => decide (rs.getLast? = some (.values [none])) &&
        reads w ⟨0, 1⟩ 0 none && reads w ⟨0, 1⟩ 1 (some 1)) = true ∧
    holdsAfter [.register 0, .register 1, .create [], .insert ⟨0, 1⟩ [(0, 1)], .insert ⟨0, 1⟩ [(1, 1)], .remove ⟨0, 1⟩ [0],
        .remove ⟨0, 1⟩ [0], .destroy ⟨0, 1⟩]
      (fun _ w => reads w ⟨0, 1⟩ 0 none && reads w ⟨0, 1⟩ 1 none) = true := by
  decide +kernel

/-- tests/entities_crud.rs:3-40 `test_entities_crud`. -/
example :
    holdsAfter (V := Nat) [] (fun _ w => w.isEmpty && decide (w.entitiesSlice = [])) = true ∧
    holdsAfter (V := Nat) [.create []] (fun rs w => decide (rs = [.entity ⟨0, 1⟩]) && !w.isEmpty &&
      w.containsEntity ⟨0, 1⟩ && decide (w.entitiesSlice = [⟨0, 1⟩])) = true ∧
    holdsAfter (V := Nat) [.create [], .create []] (fun rs w => decide (rs = [.entity ⟨0, 1⟩, .entity ⟨1, 1⟩]) && !w.isEmpty &&
      w.containsEntity ⟨0, 1⟩ && w.containsEntity ⟨1, 1⟩ && decide (w.entitiesSlice = [⟨0, 1⟩, ⟨1, 1⟩])) = true ∧
    holdsAfter (V := Nat) [.create [], .create [], .destroy ⟨0, 1⟩] (fun rs w => decide (rs.getLast? = some (.bool true)) &&
      !w.isEmpty && !w.containsEntity ⟨0, 1⟩ && w.containsEntity ⟨1, 1⟩ && decide (w.entitiesSlice = [⟨1, 1⟩])) = true ∧
    holdsAfter (V := Nat) [.create [], .create [], .destroy ⟨0, 1⟩, .destroy ⟨0, 1⟩] (fun rs _ =>
      decide (rs.getLast? = some (.bool false))) = true ∧
    holdsAfter (V := Nat) [.create [], .create [], .destroy ⟨0, 1⟩, .destroy ⟨0, 1⟩, .clear] (fun _ w =>
      w.isEmpty && !w.containsEntity ⟨0, 1⟩ && !w.containsEntity ⟨1, 1⟩ && decide (w.entitiesSlice = [])) = true := by
  decide +kernel

/-- tests/components_register.rs:6-32 `test_components_register`. -/
example :
    holdsAfter (V := Nat) [] (fun _ w => !w.isRegistered 0 && !w.isRegistered 1) = true ∧
    holdsAfter (V := Nat) [.register 0] (fun _ w => w.isRegistered 0) = true ∧
    holdsAfter (V := Nat) [.register 0, .register 1] (fun _ w => w.isRegistered 0 && w.isRegistered 1) = true ∧
    holdsAfter (V := Nat) [.register 0, .register 1, .clear] (fun _ w => w.isRegistered 0 && w.isRegistered 1) = true ∧
    holdsAfter (V := Nat) [.register 0, .register 1, .clear, .reset] (fun _ w => w.isRegistered 0 && w.isRegistered 1) = true := by
  decide +kernel

/-- README.md:20-41, positions and velocities being numbers: `for_each` visits both entities. -/
example : holdsAfter (V := Nat) [.register 0, .register 1, .create [(0, 0), (1, 12)], .create [(0, 0), (1, 23)]] (fun _ w =>
    decide (w.forEach [] [.refMut 0, .ref 1] = .ok [[.ref 0 0 0, .ref 1 0 12], [.ref 0 1 0, .ref 1 1 23]])) = true := by
  decide +kernel

/-- The slices of a query. -/
def sliceOf (w : World Nat) (held g i x : Query) : Res (Option (List (SlicePart Nat))) := do
  let (_, _, s) ← seeAll w held g i x
  pure s

/-- README.md:85-116, groups `(A, B)` and `(A, B, C, D)`; the first three slices are as described. -/
def readmeOps : List (Op Nat) :=
  [.setLayout anyOrder [[0, 1], [0, 1, 2, 3]], .create [(0, 10), (1, 20), (2, 30), (3, 40)], .create [(0, 11), (1, 21)],
   .create [(0, 12), (1, 22), (2, 32)], .create [(0, 13)]]

example : holdsAfter readmeOps (fun _ w =>
    decide (sliceOf w [] [.entity] [.ref 0, .ref 1] [] = .ok (some [.entities [⟨0, 1⟩, ⟨1, 1⟩, ⟨2, 1⟩]])) &&
    decide (sliceOf w [] [.ref 0, .ref 1] [] [] = .ok (some [.comps 0 0 [10, 11, 12], .comps 0 0 [20, 21, 22]])) &&
    decide (sliceOf w [] [.entity, .ref 0, .ref 1] [] [] =
      .ok (some [.entities [⟨0, 1⟩, ⟨1, 1⟩, ⟨2, 1⟩], .comps 0 0 [10, 11, 12], .comps 0 0 [20, 21, 22]]))) = true := by
  decide +kernel

/-- README.md:118-124 "Get all A and B components of entities with A and B, and without C and D": only the entity with
the components 11 and 21 is of this kind. The slices start with those of the entity with all four (finding 3), the iteration yields
the entity that has `C` but not `D`, too (finding 2). -/
example : holdsAfter readmeOps (fun _ w =>
    decide (seeAll w [] [.ref 0, .ref 1] [] [.ref 2, .ref 3] = .ok (true,
      [[.ref 0 1 11, .ref 0 1 21], [.ref 0 2 12, .ref 0 2 22]],
      some [.comps 0 0 [10, 11], .comps 0 0 [20, 21]]))) = true := by
  decide +kernel

end Sparsey.RepoTests
