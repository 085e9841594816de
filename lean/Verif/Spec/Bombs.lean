import Verif.Model.Bombs

/-!
When a panicking destructor does no harm.
-/

set_option autoImplicit false

namespace Sparsey
variable {V : Type}

/-- If the deletion of `e` drops a bomb then in the last position of the set, where nothing has to be moved afterwards. -/
def CompSet.Harmless (bomb : V → Bool) (s : CompSet V) (e : Entity) : Prop :=
  ∀ index sv v, s.sparse.remove e = (some index, sv) → s.components[index]? = some v → bomb v = true →
    index + 1 = s.entities.length

/-- The bombs among the dropped components are in the last positions of their sets once the entity has been taken out of
the groups; `clear` and `reset` drop no bombs at all. -/
def World.Harmless (bomb : V → Bool) (w : World V) : Op V → Prop
  | .delete e ts => ∀ idxs mask c, w.components.lookupAll (·.deleteMask) ts = .ok (idxs, mask) →
      w.components.withMask mask (ungroup · mask e) = .ok c →
      ∀ i ∈ idxs, ∀ s, c.components[i]? = some s → s.Harmless bomb e
  | .destroy e => ∀ p, ungroupAll (w.components.components, w.components.groups) e = .ok p →
      ∀ s ∈ p.1, s.Harmless bomb e
  | .clear => ∀ v ∈ w.components.clearDrops, bomb v = false
  | .reset => ∀ v ∈ w.components.clearDrops, bomb v = false
  | _ => True

/-- What a call for `e` interrupted by the destructor of `v` may do to the components: those of `e` are as before or gone;
all others are as before with at most one exception, the entity `z`, which reads the dropped component `v` of `e`
instead of its own. -/
structure Damage (f f' : TypeId → Entity → Option V) (e : Entity) (t : TypeId) (z : Entity) (v : V) : Prop where
  self : ∀ t', f' t' e = f t' e ∨ f' t' e = none
  others : ∀ t' x, x ≠ e → f' t' x = f t' x ∨
    (t' = t ∧ x = z ∧ (f t z).isSome ∧ f t e = some v ∧ f' t z = some v)

end Sparsey
