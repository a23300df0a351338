import Verif.Spec.Network
import Mathlib.Logic.Relation

/-!
# What solving the policies of a network needs, and what a policy table is
-/

set_option autoImplicit false

namespace Bbn

variable {α : Type}

/-- The outcome of decision `p` is known when decision `d` is taken: `p` is a parent of `d`. -/
def Net.DecisionParent (n : Net α) (p d : String) : Prop :=
  n.isKind .decision p = true ∧ n.isKind .decision d = true ∧ ∃ f ∈ n.factors, f.forVar = d ∧ p ∈ f.given

/-- What `SolvePolicies` needs besides a valid network. -/
structure Net.Feasible (n : Net α) : Prop where
  /-- Every decision is a parent of a chance or utility variable. -/
  used : ∀ v ∈ n.variables, v.nodeType = .decision → ∃ f ∈ n.factors, f.forVar ≠ n.totalName ∧
    n.isKind .decision f.forVar = false ∧ v.name ∈ f.given
  /-- No decision informs itself, directly or through other decisions. -/
  acyclic : ∀ s, ¬ Relation.TransGen n.DecisionParent s s

/-- What `SolvePolicies` needs to have something to maximise. -/
structure Net.Solvable (n : Net α) : Prop extends n.Feasible where
  /-- There is something to maximise. -/
  utility : n.utilityVars ≠ []

/-- A policy table for the decision: the parents are other chance or decision variables, each once, and for each
joint outcome of the parents there is a probability distribution over the outcomes of the decision. -/
structure Net.PolicyTable [AddCommMonoid α] [One α] [LE α] (n : Net α) (name : String) (t : NFactor α) : Prop where
  forVar : t.forVar = name
  decision : n.isKind .decision name = true
  dims : t.dims.Nodup
  parents : ∀ s ∈ t.given, n.isKind .chance s = true ∨ n.isKind .decision s = true
  size : ∃ data, t.table = some data ∧ data.length = (t.dims.map n.count).prod
  nonneg : ∀ w : World, (∀ s ∈ t.dims, w s < n.count s) → 0 ≤ n.entry t w
  one : ∀ w : World, (∀ s ∈ t.dims, w s < n.count s) → n.rowSum t w = 1

end Bbn
