import Verif.Spec.NetOptimal

/-!
# Remembering (specification vocabulary)
-/

set_option autoImplicit false

namespace Bbn

variable {α : Type}

/-- Who takes the decision `e` knows the decision `d`, and all that was known when it was taken: `d` and its parents are
declared as parents of `e`. -/
def Net.Remembers (n : Net α) (d e : String) : Prop := d ≠ e ∧ ∀ s, n.Known [d] s → n.Known [e] s

/-- Nothing is forgotten: of each two decisions, one remembers the other. -/
def Net.Recall (n : Net α) : Prop :=
  ∀ d ∈ n.decisions, ∀ e ∈ n.decisions, d = e ∨ n.Remembers d e ∨ n.Remembers e d

end Bbn
