import Verif.Model.Network

/-!
# Which structures `New` should accept (specification vocabulary)
-/

set_option autoImplicit false

namespace Bbn

variable {α : Type}

/-- The table for a variable: the first one listed for its name. -/
def tableFor (factors : List (NFactor α)) (v : NVar) : Option (NFactor α) := factors.find? (fun f => f.forVar = v.name)

/-- The name belongs to a utility variable. -/
def IsUtility (variables : List NVar) (g : String) : Prop := ∃ u ∈ variables, u.name = g ∧ u.nodeType = .utility

/-- The variable is a total-utility node: a utility variable with only utility variables as parents. -/
def IsTotal (variables : List NVar) (factors : List (NFactor α)) (v : NVar) : Prop :=
  v.nodeType = .utility ∧ ∃ f, tableFor factors v = some f ∧ f.given ≠ [] ∧ ∀ g ∈ f.given, IsUtility variables g

/-- The structures that `New` should accept. -/
structure Accepted (variables : List NVar) (factors : List (NFactor α)) : Prop where
  names : (variables.map NVar.name).Nodup
  parents : ∀ v ∈ variables, ∀ f, tableFor factors v = some f → ∀ g ∈ f.given, ∃ u ∈ variables, u.name = g
  utility : ∀ v ∈ variables, v.nodeType = .utility → ∃ f, tableFor factors v = some f ∧ f.given ≠ [] ∧
    ((∀ g ∈ f.given, IsUtility variables g) ∨ ∀ g ∈ f.given, ¬ IsUtility variables g)
  oneTotal : ∀ v ∈ variables, ∀ w ∈ variables, IsTotal variables factors v → IsTotal variables factors w → v = w
  weights : ∀ v ∈ variables, IsTotal variables factors v → ∀ f, tableFor factors v = some f →
    v.outcomes.length = f.given.length

end Bbn
