import Verif.Spec.SameJoint

/-!
# Decisions with the same information (specification vocabulary)
-/

set_option autoImplicit false

namespace Bbn

variable {α : Type}

/-- Each decision has the same parents in both networks. -/
def Net.SameInfo (n n' : Net α) : Prop :=
  ∀ d, n.isKind .decision d = true → ∀ s,
    (∃ f ∈ n'.factors, f.forVar = d ∧ s ∈ f.given) ↔ ∃ f ∈ n.factors, f.forVar = d ∧ s ∈ f.given

end Bbn
