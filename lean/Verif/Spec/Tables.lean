import Mathlib.Data.Nat.Notation

/-!
How long a table from indexes to rows is.
-/

set_option autoImplicit false

namespace Sparsey

/-- The lengths a table takes: none, or one more than a power of two that is at most `2^32`. -/
def IsTable (n : Nat) : Prop := n = 0 ∨ ∃ k, k ≤ 32 ∧ n = 2 ^ k + 1

/-- A table of length `n` beside one of length `max`. -/
def FitsTable (max n : Nat) : Prop := IsTable n ∧ n ≤ max

end Sparsey
