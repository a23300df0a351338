import Verif.Spec.Network

/-!
# Tables that do not fit their network (specification vocabulary)

Solving uses every table except that of the total-utility node, and for these tables every variable except the
total-utility node.
-/

set_option autoImplicit false

namespace Bbn

variable {α : Type}

/-- The variables of the network can be told apart and fit the solver's 16 bit fields. Nothing is said about its
tables. -/
structure Net.Plain (n : Net α) : Prop where
  names : (n.variables.map NVar.name).Nodup
  named : ∀ v ∈ n.variables, v.name ≠ ""
  few : n.variables.length ≤ 65536
  outcomes : ∀ v ∈ n.variables, 0 < v.outcomes.length ∧ v.outcomes.length < 65536

/-- The network has a variable of this name, and it is not the total-utility node. -/
def Net.Knows (n : Net α) (s : String) : Prop := ∃ v ∈ n.variables, v.name = s ∧ s ≠ n.totalName

/-- The table is for, or has as a parent, something the network does not know. -/
def Net.Unknown (n : Net α) (f : NFactor α) : Prop := f.forVar ≠ n.totalName ∧ ∃ s ∈ f.dims, ¬ n.Knows s

/-- The table of a chance or utility variable has numbers, but not as many as there are combinations of outcomes. -/
def Net.WrongSize (n : Net α) (f : NFactor α) : Prop :=
  f.forVar ≠ n.totalName ∧ (∀ s ∈ f.dims, n.Knows s) ∧ n.isKind .decision f.forVar = false ∧
    ∃ t, f.table = some t ∧ t.length ≠ (f.dims.map n.count).prod

/-- The table can be used: it is that of the total-utility node, or its variables are known and distinct and its
numbers, if it has any and is not that of a decision, are as many as there are combinations of outcomes. -/
def Net.Usable (n : Net α) (f : NFactor α) : Prop :=
  f.forVar = n.totalName ∨ ((∀ s ∈ f.dims, n.Knows s) ∧ f.dims.Nodup ∧
    (n.isKind .decision f.forVar = true ∨ f.table = none ∨ ∃ t, f.table = some t ∧ t.length = (f.dims.map n.count).prod))

/-- Some utility variable is not among the parents of the total-utility node. -/
def Net.Unweighted (n : Net α) : Prop :=
  ∃ i v j f u, n.totalUtility = some i ∧ n.variables[i]? = some v ∧ v.factor = some j ∧ n.factors[j]? = some f ∧
    u ∈ n.variables ∧ u.nodeType = .utility ∧ u.name ≠ v.name ∧ u.name ∉ f.given

/-- The total-utility node has a weight for each of its parents. -/
def Net.EnoughWeights (n : Net α) : Prop :=
  ∀ i v j f, n.totalUtility = some i → n.variables[i]? = some v → v.factor = some j → n.factors[j]? = some f →
    f.given.length ≤ f.tab.length

/-- The network with a zero in every cell of the tables of chance and utility variables that have no numbers at all. -/
def Net.filled [Zero α] (n : Net α) : Net α :=
  { n with factors := n.factors.map (fun f =>
      if f.table = none ∧ f.forVar ≠ n.totalName ∧ n.isKind .decision f.forVar = false then
        { f with table := some (List.replicate (f.dims.map n.count).prod 0) }
      else f) }

/-- The table linked to the total-utility node is for it, as `New` does it. -/
def Net.OwnTotal (n : Net α) : Prop :=
  ∀ i v j f, n.totalUtility = some i → n.variables[i]? = some v → v.factor = some j → n.factors[j]? = some f →
    f.forVar = v.name

end Bbn
