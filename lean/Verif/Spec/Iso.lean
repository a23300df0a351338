import Verif.Spec.NetOptimal

/-!
# Networks with the same content (specification vocabulary)

Two networks have the same content if one arises from the other by giving variables other names, listing variables,
tables and parents in another order, and naming and listing the outcomes in another way.
-/

set_option autoImplicit false

namespace Bbn

variable {α : Type}

/-- The outcomes of the variables in the world `w'` of the second network are those in the world `w` of the first:
`r` gives the new name of a variable, `π s` the new position of an outcome of the variable `s`. -/
def Net.SameOutcomes (n : Net α) (r : String → String) (π : String → Nat → Nat) (w w' : World) : Prop :=
  ∀ v ∈ n.variables, v.name ≠ n.totalName → w v.name < v.outcomes.length ∧ w' (r v.name) = π v.name (w v.name)

/-- `m` has the content of `n`: `r` gives the new name of a variable, `π s` the new position of an outcome of the
variable `s`. -/
structure Net.SameContent [Zero α] [One α] (n m : Net α) (r : String → String) (π : String → Nat → Nat) : Prop where
  /-- The variables correspond: different ones have different new names, and there are no others. -/
  vars : ∀ v ∈ n.variables, ∃ v' ∈ m.variables, v'.name = r v.name ∧ v'.nodeType = v.nodeType ∧
    v'.outcomes.length = v.outcomes.length
  onto : ∀ v' ∈ m.variables, ∃ v ∈ n.variables, v'.name = r v.name
  inj : ∀ v ∈ n.variables, ∀ u ∈ n.variables, r v.name = r u.name → v.name = u.name
  /-- The new positions of the outcomes exist and differ. -/
  inside : ∀ v ∈ n.variables, ∀ k < v.outcomes.length, π v.name k < v.outcomes.length
  apart : ∀ v ∈ n.variables, ∀ j < v.outcomes.length, ∀ k < v.outcomes.length, π v.name j = π v.name k → j = k
  /-- The tables correspond: they have the same parents, in any order, and (except for decisions) the same entries. -/
  tables : ∀ f ∈ n.factors, f.forVar ≠ n.totalName → ∃ f' ∈ m.factors, f'.forVar = r f.forVar ∧
    f'.given.Perm (f.given.map r) ∧ (n.isKind .decision f.forVar = false →
      ∀ w w', n.SameOutcomes r π w w' → m.entry f' w' = n.entry f w)
  noOther : ∀ f' ∈ m.factors, f'.forVar ≠ m.totalName → ∃ f ∈ n.factors, f'.forVar = r f.forVar
  /-- The total-utility nodes correspond, with the same weights. -/
  hasTotal : m.totalUtility = none ↔ n.totalUtility = none
  total : n.totalUtility ≠ none → m.totalName = r n.totalName
  weights : ∀ u ∈ n.utilityVars, m.weight (r u.name) = n.weight u.name

/-- The stored policies correspond. -/
structure Net.SamePolicies (n m : Net α) [Zero α] (r : String → String) (π : String → Nat → Nat) : Prop where
  there : ∀ p ∈ n.policies, ∃ p' ∈ m.policies, p'.1 = r p.1 ∧
    ∀ w w', n.SameOutcomes r π w w' → p'.2.val (m.ids w') = p.2.val (n.ids w)
  back : ∀ p' ∈ m.policies, ∃ p ∈ n.policies, p'.1 = r p.1

/-- The two observations are of corresponding variables, with corresponding outcomes. -/
def Net.SameEvidence (n m : Net α) (r : String → String) (π : String → Nat → Nat) :
    List (String × String) → List (String × String) → Prop :=
  List.Forall₂ (fun e e' => e'.1 = r e.1 ∧ ∀ v ∈ n.variables, v.name = e.1 → ∀ v' ∈ m.variables, v'.name = e'.1 →
    v'.outcomes.idxOf e'.2 = π v.name (v.outcomes.idxOf e.2))

end Bbn
