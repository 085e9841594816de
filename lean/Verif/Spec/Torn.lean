import Verif.Spec.Good
import Verif.Spec.Hidden
import Verif.Model.Bombs

/-!
What the map looks like after a `delete` that a panicking destructor has interrupted, and calls on a world where this
happens again and again. No definition of the model of the component storage is used.
-/

set_option autoImplicit false

namespace Sparsey
variable {V : Type}

/-- `s'` is left of `s` by `delete e ts` interrupted at type `t` by the destructor of `v`, having dropped `ds`: the types
before `t` are gone without meeting a bomb, and so is `t`; a `z` other than `e` with a component of type `t` may hold the
dropped `v` instead of its own (src/component/component_set.rs:169-204, src/component/component_sparse_set.rs:93-119). -/
def MapWorld.Torn (bomb : V → Bool) (s : MapWorld V) (e : Entity) (ts : List TypeId) (ds : List V) (s' : MapWorld V) : Prop :=
  ∃ a t b z v, ts = a ++ t :: b ∧ t ∉ a ∧ s.table.get t e = some v ∧ bomb v = true ∧
    (∀ u ∈ (s.table.removed e a).filterMap id, bomb u = false) ∧ ds = (s.table.removed e a).filterMap id ++ [v] ∧
    (s.table.get t z).isSome ∧
    s' = { s with table :=
      if z = e then s.table.eraseAll e (a ++ [t]) else (s.table.eraseAll e (a ++ [t])).set t z v }

/-- The entities outside of groups they belong to after an interrupted `delete` that left `s'`; `h` are those before: `e` has
been taken out of all groups with one of the types, and is outside of those it still has all types of
(src/component/component_set.rs:191-198). -/
def MapWorld.hiddenTorn (s s' : MapWorld V) (h : List (Entity × Nat)) (e : Entity) (ts : List TypeId) : List (Entity × Nat) :=
  (h.filter fun p => ¬ (p.1 = e ∧ s.InGroup ts p.2)) ++
    ((List.range s.groups.length).filter fun k => s.InGroup ts k ∧ s'.Full e k).map (e, ·)

/-- Entities that a call made before it panicked. -/
def Ret.madeBefore : Ret V → List Entity
  | .panicked es => es
  | _ => []

/-- `ops` do what `op` does if the destructor of a replaced component interrupts it: they store the same components, up to
and including the one `v` that replaced it, and panic because of an unregistered type `t₀`. Nothing happens if `insert` drops
its arguments because `e` is not alive. -/
def MapWorld.Instead (s : MapWorld V) : Op V → List (Op V) → Prop
  | .insert e vs, ops => (e ∉ s.life.alive ∧ ops = []) ∨ ∃ pre t v post t₀ u, vs = pre ++ (t, v) :: post ∧ t₀ ∉ s.reg ∧
      ops = [.insert e (pre ++ [(t, v), (t₀, u)])]
  | .create vs, ops => ∃ pre t v post t₀ u, vs = pre ++ (t, v) :: post ∧ t₀ ∉ s.reg ∧
      ops = [.create (pre ++ [(t, v), (t₀, u)])]
  | .extend ts it, ops => ∃ a vs b pre t v post t₀ u, it.items = a ++ vs :: b ∧ ts.zip vs = pre ++ (t, v) :: post ∧
      t₀ ∉ s.reg ∧ ops = [.extend ts ⟨a, true⟩, .create (pre ++ [(t, v), (t₀, u)])]
  | .write t e v, ops => ops = [.write t e v]
  | _, _ => False

/-- One call on the map, with the answer `r` and dropping `ds`: as without bombs, running to the end only if it drops none; or
interrupted by a bomb. `h` and `h'` are the entities outside of groups they belong to, before and after it. -/
def MapWorld.NextB (bomb : V → Bool) (s : MapWorld V) (h : List (Entity × Nat)) (op : Op V) (r : Ret V) (ds : List V)
    (s' : MapWorld V) (h' : List (Entity × Nat)) : Prop :=
  (r = s.answer op ∧ s' = s.next op ∧ h' = s.hiddenAfter h op ∧ ((∃ es, r = .panicked es) ∨ ∀ v ∈ ds, bomb v = false)) ∨
  (∃ v ∈ ds, bomb v = true) ∧
    ((∃ e ts, op = .delete e ts ∧ r = .panicked [] ∧ s.knows ts ∧ s.Torn bomb e ts ds s' ∧ h' = s.hiddenTorn s' h e ts) ∨
     ∃ ops, s.Instead op ops ∧ r = .panicked ((s.answers ops).flatMap Ret.madeBefore) ∧ s' = s.run ops ∧
       h' = s.hiddenFrom h ops)

/-- Calls on the map. -/
def MapWorld.RunB (bomb : V → Bool) : MapWorld V → List (Entity × Nat) → List (Op V) → List (Ret V) → List V → MapWorld V →
    List (Entity × Nat) → Prop
  | s, h, [], rs, ds, s', h' => rs = [] ∧ ds = [] ∧ s' = s ∧ h' = h
  | s, h, op :: ops, rs, ds, s', h' => ∃ r rs₁ d ds₁ s₁ h₁, rs = r :: rs₁ ∧ ds = d ++ ds₁ ∧ s.NextB bomb h op r d s₁ h₁ ∧
      s₁.RunB bomb h₁ ops rs₁ ds₁ s' h'

/-- The calls whose interruption leaves a map behind. -/
def Op.tears : Op V → Bool
  | .destroy _ => false
  | .clear => false
  | .reset => false
  | _ => true

/-- Calls on the world and the map together: each one is `Fair` and `Even`, and `destroy`, `clear` and `reset` drop no bomb. -/
def FairB (bomb : V → Bool) : World V → MapWorld V → List (Op V) → Prop
  | _, _, [] => True
  | w, s, op :: ops => s.Fair op ∧ w.Even op ∧ (op.tears = false → ∀ v ∈ w.drops op, bomb v = false) ∧
      ∀ r w' ds s' h h', stepB bomb w op = some (r, w', ds) → s.NextB bomb h op r ds s' h' → FairB bomb w' s' ops

end Sparsey
