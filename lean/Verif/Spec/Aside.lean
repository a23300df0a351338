import Verif.Spec.Acyclic
import Verif.Spec.NetOptimal

/-!
# What utilities and decisions look at
-/

set_option autoImplicit false

namespace Bbn

variable {α : Type}

/-- The table gives a utility that is asked for: that of the variable `u`, or (empty name) any. -/
def Net.Asks (n : Net α) (u : String) (f : NFactor α) : Prop :=
  (∃ v ∈ n.utilityVars, v.name = f.forVar) ∧ (u = "" ∨ f.forVar = u)

instance (n : Net α) (u : String) (f : NFactor α) : Decidable (n.Asks u f) := by unfold Net.Asks; infer_instance

/-- What the utilities asked for depend on: the parents of these utility variables. -/
def Net.lookedAt (n : Net α) (u : String) : List String :=
  (n.factors.filter (fun f => n.Asks u f)).flatMap NFactor.given

/-- The decisions and what is known to them (their parents). -/
def Net.deciding (n : Net α) : List String :=
  n.decisions ++ (n.factors.filter (fun f => f.forVar ∈ n.decisions)).flatMap NFactor.given

/-- The two networks have the same utility variables with the same weights, and the same tables for those asked for. -/
structure Net.SameUtilities [Zero α] [One α] (n n' : Net α) (u : String) : Prop where
  vars : (n'.utilityVars.map NVar.name).Perm (n.utilityVars.map NVar.name)
  weights : ∀ v ∈ n.utilityVars, n'.weight v.name = n.weight v.name
  tables : ∀ f ∈ n.factors, n.Asks u f → ∃ f' ∈ n'.factors, f'.forVar = f.forVar ∧ f'.given = f.given ∧ f'.table = f.table

/-- The two networks have the same decisions, each with the same parents. -/
structure Net.SameDecisions (n n' : Net α) : Prop where
  vars : n'.decisions.Perm n.decisions
  parents : ∀ d ∈ n.decisions, ∀ s, (∃ f ∈ n'.factors, f.forVar = d ∧ s ∈ f.given) ↔ ∃ f ∈ n.factors, f.forVar = d ∧ s ∈ f.given

end Bbn
