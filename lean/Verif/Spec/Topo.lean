import Verif.Model.Basic
import Mathlib.Logic.Relation

/-!
# Dependencies between decisions (specification vocabulary)
-/

set_option autoImplicit false

namespace Bbn

/-- `p` is a decision that the decision `v` directly depends on. -/
def DecEdge (deps : List (Var × List Var)) (p v : Var) : Prop :=
  ∃ e ∈ deps, e.1.id = v.id ∧ p ∈ e.2 ∧ p.nodeType = .decision

/-- No decision depends on itself, directly or through other decisions. -/
def DecAcyclic (deps : List (Var × List Var)) : Prop := ∀ v, ¬ Relation.TransGen (DecEdge deps) v v

/-- Every element is preceded by all decisions it directly depends on. -/
def TopoOrdered (deps : List (Var × List Var)) (l : List Var) : Prop :=
  ∀ l1 v l2, l = l1 ++ v :: l2 → ∀ p, DecEdge deps p v → p ∈ l1

end Bbn
