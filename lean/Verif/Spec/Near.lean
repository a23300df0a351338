import Verif.Spec.Acyclic
import Mathlib.Algebra.Order.Field.Basic
import Mathlib.Algebra.Order.Group.Abs

/-!
# Networks with slightly different tables (specification vocabulary)
-/

set_option autoImplicit false

namespace Bbn

open Finset

variable {α : Type}

/-- The two networks have the same variables and parents, and every row of probabilities of a chance variable `s` in the
one is within `δ s` of the row in the other, in total variation (half the sum of the absolute differences). -/
structure Net.Near [Field α] [LinearOrder α] (n n' : Net α) (δ : String → α) : Prop where
  vars : n'.variables = n.variables
  tables : ∀ f ∈ n.chanceTables, ∃ f' ∈ n'.chanceTables, f'.forVar = f.forVar ∧ f'.given = f.given ∧
    ∀ w, n.Allowed w → ∑ k ∈ range (n.count f.forVar),
      |n.prob f (w.set f.forVar k) - n'.prob f' (w.set f.forVar k)| ≤ 2 * δ f.forVar

/-- The sum of `δ` over the chance variables. -/
def Net.distance [AddCommMonoid α] (n : Net α) (δ : String → α) : α :=
  ((n.variables.filter (fun v => v.nodeType = .chance)).map (fun v => δ v.name)).sum

end Bbn
