import Verif.Spec.NetOptimal
import Verif.Spec.NetPolicy
import Verif.Spec.Acyclic

/-!
# When the variables of a network get their outcomes
-/

set_option autoImplicit false

namespace Bbn

variable {α : Type}

/-- Every variable can be given a time such that each chance variable comes after its parents, each decision comes after
the variables it observes, and the decisions come in the given order. -/
structure Net.Timed (n : Net α) (order : List String) (rank : String → Nat) : Prop where
  chance : ∀ f ∈ n.chanceTables, ∀ g ∈ f.given, rank g < rank f.forVar
  decision : ∀ f ∈ n.factors, n.isKind .decision f.forVar = true → ∀ g ∈ f.given, rank g < rank f.forVar
  order : order.Pairwise (fun d e => rank d < rank e)

end Bbn
