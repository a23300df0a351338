import Verif.Spec.Network

/-!
# Networks that differ in the zero of the utilities (specification vocabulary)
-/

set_option autoImplicit false

namespace Bbn

variable {α : Type}

/-- The network with the number `b u` added to all entries of the table of each utility variable `u` (the weights of a
total-utility node stay). -/
def Net.shifted [Add α] (n : Net α) (b : String → α) : Net α :=
  { n with factors := n.factors.map (fun f =>
      if n.isKind .utility f.forVar = true ∧ f.forVar ≠ n.totalName then
        { f with table := f.table.map (fun t => t.map (fun x => x + b f.forVar)) } else f) }

/-- What the total utility gains in every world. -/
def Net.totalShift [Semiring α] (n : Net α) (b : String → α) : α :=
  (n.utilityVars.map (fun u => n.weight u.name * b u.name)).sum

end Bbn
