import Verif.Spec.Mix

/-!
# Networks of the same form
-/

set_option autoImplicit false

namespace Bbn

variable {α : Type}

/-- The two networks have the same variables, each with the same parents, and the same total-utility node. The numbers
in the tables may differ. -/
structure Net.SameForm (n m : Net α) : Prop where
  vars : m.variables = n.variables
  parents : m.factors.map (fun f => (f.forVar, f.given)) = n.factors.map (fun f => (f.forVar, f.given))
  totalNode : m.totalUtility = n.totalUtility

end Bbn
