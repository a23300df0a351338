import Verif.Spec.NetOptimal

/-!
# Networks that differ in what decisions know, or in the scale of the utilities (specification vocabulary)
-/

set_option autoImplicit false

namespace Bbn

variable {α : Type}

/-- `m` is the network `n`, except that decisions may have more parents: the same variables in the same order, the same
parents and tables for chance and utility variables; and the parents of a decision in `n` are its parents in `m` too. -/
structure Net.MoreInformed (n m : Net α) : Prop where
  vars : m.variables.map (fun v => (v.name, v.nodeType, v.outcomes)) = n.variables.map (fun v => (v.name, v.nodeType, v.outcomes))
  total : m.totalUtility = n.totalUtility
  tables : (m.factors.filter (fun f => !m.isKind .decision f.forVar)).map (fun f => (f.forVar, f.given, f.table)) =
    (n.factors.filter (fun f => !n.isKind .decision f.forVar)).map (fun f => (f.forVar, f.given, f.table))
  informed : ∀ f ∈ n.factors, n.isKind .decision f.forVar = true →
    ∃ g ∈ m.factors, g.forVar = f.forVar ∧ ∀ s ∈ f.given, s ∈ g.given

/-- The network with all utilities multiplied by a factor (the weights of a total-utility node stay). -/
def Net.rescaled [Mul α] (n : Net α) (k : α) : Net α :=
  { n with factors := n.factors.map (fun f =>
      if n.isKind .utility f.forVar = true ∧ f.forVar ≠ n.totalName then
        { f with table := f.table.map (fun t => t.map (fun x => k * x)) } else f) }

end Bbn
