import Verif.Spec.Value
import Mathlib.Order.Defs.LinearOrder

/-!
# What a policy is (specification vocabulary)
-/

set_option autoImplicit false

namespace Bbn

/-- The outcomes `c < n` whose value is at least that of every other outcome. -/
def bestOutcomes {α : Type _} [LinearOrder α] (n : Nat) (u : Nat → α) : List Nat :=
  (List.range n).filter (fun c => ∀ c' < n, u c' ≤ u c)

end Bbn
