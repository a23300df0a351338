import Verif.Spec.SameJoint

/-!
# Decisions taken by chance (specification vocabulary)
-/

set_option autoImplicit false

namespace Bbn

variable {α : Type}

/-- `n'` has the variables of `n`, with a chance variable in place of each decision. Chance variables have the same
probabilities as in `n`, and in place of decisions all outcomes are equally likely. -/
structure Net.Tossed [Field α] [DecidableEq α] (n n' : Net α) : Prop where
  vars : n'.variables.map (fun v => (v.name, v.nodeType, v.outcomes)) =
    n.variables.map (fun v => (v.name, if v.nodeType = .decision then .chance else v.nodeType, v.outcomes))
  chances : ∀ f ∈ n.chanceTables, ∀ f' ∈ n'.chanceTables, f'.forVar = f.forVar → ∀ w, n.Allowed w → n'.prob f' w = n.prob f w
  tosses : ∀ f' ∈ n'.chanceTables, n.isKind .decision f'.forVar = true → ∀ w, n.Allowed w →
    n'.prob f' w = 1 / (n.count f'.forVar : α)

end Bbn
