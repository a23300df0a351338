import Verif.Spec.Network

/-!
# Variables without a table (specification vocabulary)
-/

set_option autoImplicit false

namespace Bbn

variable {α : Type}

/-- The chance variables for which the network has no table. (`New` accepts such networks.) -/
def Net.tableless (n : Net α) : List NVar :=
  n.variables.filter (fun v => v.nodeType = .chance ∧ ∀ f ∈ n.factors, f.forVar ≠ v.name)

/-- The table of a variable without parents that gives every outcome the same probability. -/
def evenTable [Field α] (v : NVar) : NFactor α :=
  ⟨v.name, [], some (List.replicate v.outcomes.length (1 / (v.outcomes.length : α))), [], v.outcomes.length⟩

/-- The network where each chance variable without a table has one that gives every outcome the same probability. -/
def Net.evened [Field α] (n : Net α) : Net α := { n with factors := n.factors ++ n.tableless.map evenTable }

end Bbn
