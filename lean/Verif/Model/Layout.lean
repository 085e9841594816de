import Verif.Model.Mask

/-!
Model of `src/component/group_layout.rs` (and the ordering of `src/component/component_data.rs`).
-/

set_option autoImplicit false

namespace Sparsey

/-- `core::any::TypeId`; its order (src/component/component_data.rs:61-66) is the order of `Nat`. A
`ComponentData` is identified with its type id (component_data.rs:43-48). -/
abbrev TypeId := Nat

/-- src/component/group_layout.rs:73-76 `GroupFamily`. -/
structure GroupFamily where
  components : List TypeId
  arities : List Nat
deriving DecidableEq, Repr

/-- src/component/group_layout.rs:19-21 `GroupLayout`. -/
structure GroupLayout where
  families : List GroupFamily
deriving DecidableEq, Repr

namespace GroupLayout

/-- `Default` (src/component/group_layout.rs:18). -/
def empty : GroupLayout := ⟨[]⟩

end GroupLayout

/-- One insertion step of `sortTypes` (src/component/group_layout.rs:35). -/
def insertSorted (t : TypeId) : List TypeId → List TypeId
  | [] => [t]
  | x :: xs => if t ≤ x then t :: x :: xs else x :: insertSorted t xs

/-- `slice::sort_unstable` (src/component/group_layout.rs:35). -/
def sortTypes : List TypeId → List TypeId
  | [] => []
  | x :: xs => insertSorted x (sortTypes xs)

/-- `Vec::dedup` (src/component/group_layout.rs:36): removes consecutive repetitions. -/
def dedupTypes : List TypeId → List TypeId
  | [] => []
  | [x] => [x]
  | x :: y :: ys => if x = y then dedupTypes (y :: ys) else x :: dedupTypes (y :: ys)

namespace GroupFamily

/-- src/component/group_layout.rs:79-84 `GroupFamily::new`. -/
def new (components : List TypeId) : GroupFamily := ⟨components, [components.length]⟩

/-- `&self.components[a..b]`: panics when `a > b` or `b > len` (src/component/group_layout.rs:115, 124, 135). -/
def segment (f : GroupFamily) (a b : Nat) : Res (List TypeId) :=
  if a ≤ b ∧ b ≤ f.components.length then .ok ((f.components.drop a).take (b - a)) else .panic

/-- Outcome of the search loop of `try_add_group` (src/component/group_layout.rs:108-147). -/
inductive Search where
  /-- `return true`: a group with these components exists. -/
  | found
  /-- The loop ended; `index` is the insertion index. -/
  | insertAt (index : Option Nat)
deriving DecidableEq, Repr

/-- src/component/group_layout.rs:110-147, the loop of `try_add_group`, from position `i` on; `prev` is
`prev_arity` and the list the arities that remain. -/
def search (f : GroupFamily) (components : List TypeId) : Nat → Nat → List Nat → Res Search
  | _, _, [] => .ok (.insertAt none)
  | i, prev, arity :: rest => do
    let seg ← f.segment prev arity
    match compare arity components.length with
    | .lt =>
      if seg.all (components.contains ·) then search f components (i + 1) arity rest else .panic
    | .eq =>
      if seg.all (components.contains ·) then .ok .found else .panic
    | .gt =>
      if seg.all (fun c => !components.contains c) then .ok (.insertAt (some i)) else .panic

/-- Stable sort by a boolean key, `false` before `true` (`sort_by_cached_key`) (src/component/group_layout.rs:152). -/
def sortByKey (key : TypeId → Bool) (l : List TypeId) : List TypeId :=
  l.filter (fun c => !key c) ++ l.filter key

/-- The loop of src/component/group_layout.rs:155-159: pushes the components that are not there yet. -/
def pushMissing (f : List TypeId) : List TypeId → List TypeId
  | [] => f
  | c :: cs => pushMissing (if f.contains c then f else f ++ [c]) cs

/-- src/component/group_layout.rs:101-165 `try_add_group`. A panic leaves the family unchanged. -/
def tryAddGroup (f : GroupFamily) (components : List TypeId) : Res (Bool × GroupFamily) :=
  if f.components.all (fun c => !components.contains c) then .ok (false, f)
  else do
    match ← f.search components 0 0 f.arities with
    | .found => pure (true, f)
    | .insertAt (some index) =>
      let nextArity ← Res.checked (f.arities[index]?)
      Res.assert (nextArity ≤ f.components.length)
      pure (true,
        { components :=
            sortByKey (components.contains ·) (f.components.take nextArity)
              ++ f.components.drop nextArity
          arities := f.arities.take index ++ components.length :: f.arities.drop index })
    | .insertAt none =>
      pure (true,
        { components := pushMissing f.components components
          arities := f.arities ++ [components.length] })

end GroupFamily

namespace GroupLayout

/-- The `map(..).sum()` of src/component/group_layout.rs:47-51: tries every family in order, counting
successes. A panic in one of them leaves the families before it modified. -/
def tryAll (components : List TypeId) : List GroupFamily → Outcome (List GroupFamily) Nat
  | [] => .ok 0 []
  | f :: fs =>
    match f.tryAddGroup components with
    | .ok (b, f') =>
      match tryAll components fs with
      | .ok n fs' => .ok (n + b.toNat) (f' :: fs')
      | .panic fs' => .panic (f' :: fs')
      | .ub => .ub
    | .panic => .panic (f :: fs)
    | .ub => .ub

/-- src/component/group_layout.rs:33-61 `GroupLayout::add_group_dyn`. -/
def addGroup (l : GroupLayout) (group : List TypeId) : Outcome GroupLayout Unit :=
  let components := dedupTypes (sortTypes group)
  if components.length ≤ 1 then .ok () l
  else if maxGroupArity < components.length then .panic l
  else
    match tryAll components l.families with
    | .ok n fs =>
      if n = 0 then .ok () ⟨fs ++ [GroupFamily.new components]⟩
      else if n = 1 then .ok () ⟨fs⟩
      else .panic ⟨fs⟩
    | .panic fs => .panic ⟨fs⟩
    | .ub => .ub

end GroupLayout
end Sparsey
