import Verif.Spec.NetOptimal

/-!
# Bayesian networks in the narrow sense (specification vocabulary)
-/

set_option autoImplicit false

namespace Bbn

variable {α : Type}

/-- No chance variable is its own ancestor: the variables can be ranked such that parents have lower ranks. -/
def Net.Acyclic (n : Net α) : Prop :=
  ∃ rank : String → Nat, ∀ f ∈ n.chanceTables, ∀ g ∈ f.given, rank g < rank f.forVar

/-- No row of a chance table is all zero (more precisely, has sum zero). -/
def Net.Regular [AddCommMonoid α] (n : Net α) : Prop := ∀ f ∈ n.chanceTables, ∀ w, n.Allowed w → n.rowSum f w ≠ 0

/-- `n.Below x y`: the chance variable `y` is a descendant of `x`. -/
inductive Net.Below (n : Net α) (x : String) : String → Prop
  | child {f : NFactor α} (hf : f ∈ n.chanceTables) (hx : x ∈ f.given) : n.Below x f.forVar
  | step {f : NFactor α} {y : String} (h : n.Below x y) (hf : f ∈ n.chanceTables) (hy : y ∈ f.given) : n.Below x f.forVar

/-- `s` is one of the variables in `l` or an ancestor of one of them. -/
def Net.Upward (n : Net α) (l : List String) (s : String) : Prop := s ∈ l ∨ ∃ y ∈ l, n.Below s y

/-- The two networks have the same variables and tables for the names in `l` and everything above them in the first
one. (Positions, colours, and the order in which variables and tables are listed may differ, and everything else.) -/
structure Net.SameAbove (n n' : Net α) (l : List String) : Prop where
  vars : ∀ v ∈ n.variables, n.Upward l v.name →
    ∃ v' ∈ n'.variables, v'.name = v.name ∧ v'.nodeType = v.nodeType ∧ v'.outcomes = v.outcomes
  tables : ∀ f ∈ n.chanceTables, n.Upward l f.forVar →
    ∃ f' ∈ n'.chanceTables, f'.forVar = f.forVar ∧ f'.given = f.given ∧ f'.table = f.table

end Bbn
