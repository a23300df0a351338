import Verif.Spec.Value
import Mathlib.Algebra.BigOperators.Group.Finset.Basic

/-!
# Sums over the outcomes of several variables (specification vocabulary)
-/

set_option autoImplicit false

namespace Bbn

open Finset

/-- The sum of `F` over all joint outcomes of the listed variables, the other variables kept as in `σ`. -/
def sumOver {α : Type _} [AddCommMonoid α] : List Var → (Assignment → α) → Assignment → α
  | [], F, σ => F σ
  | v :: vs, F, σ => ∑ k ∈ range v.outcomes, sumOver vs F (σ.upd v.id k)

end Bbn
