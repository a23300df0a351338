import Verif.Spec.NetOptimal

/-!
# Leaving out a variable in between
-/

set_option autoImplicit false

namespace Bbn

open Finset

variable {α : Type}

/-- `m` is `n` without the chance variable `x`, which in `n` is a parent of `y` only (among the chance variables). The other
variables are the same, with the same probabilities, except those of `y`: they are summed over the outcomes of `x`. -/
structure Net.Absorbs [Field α] [DecidableEq α] (n m : Net α) (x y : String) : Prop where
  vars : List.Forall₂ (fun v v' : NVar => v'.name = v.name ∧ v'.nodeType = v.nodeType ∧ v'.outcomes = v.outcomes)
    (n.variables.filter (fun v => v.name ≠ x)) m.variables
  ne : x ≠ y
  chance : n.isKind .chance x = true ∧ n.isKind .chance y = true
  child : ∀ f ∈ n.chanceTables, x ∈ f.given → f.forVar = y
  others : ∀ f ∈ n.chanceTables, f.forVar ≠ x → f.forVar ≠ y → ∃ g ∈ m.chanceTables, g.forVar = f.forVar ∧
    ∀ w, n.Allowed w → m.prob g w = n.prob f w
  sum : ∀ fx ∈ n.chanceTables, ∀ fy ∈ n.chanceTables, fx.forVar = x → fy.forVar = y → ∃ g ∈ m.chanceTables, g.forVar = y ∧
    ∀ w, n.Allowed w → m.prob g w = ∑ k ∈ range (n.count x), n.prob fx (w.set x k) * n.prob fy (w.set x k)

end Bbn
