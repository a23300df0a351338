import Verif.Spec.NetOptimal

/-!
# Networks over the same variables
-/

set_option autoImplicit false

namespace Bbn

variable {α : Type}

/-- The two networks have the same variables, with the same types and outcomes. Nothing is said about parents and
tables. -/
def Net.SameVars (n n' : Net α) : Prop :=
  n'.variables.map (fun v => (v.name, v.nodeType, v.outcomes)) = n.variables.map (fun v => (v.name, v.nodeType, v.outcomes))

/-- The two networks give the same probability to the outcome of a variable in every situation, for all variables but
those in `except`. The tables may be for different parents. -/
def Net.SameChances [Field α] [DecidableEq α] (n n' : Net α) (except : List String) : Prop :=
  ∀ f ∈ n.chanceTables, ∀ f' ∈ n'.chanceTables, f'.forVar = f.forVar → f.forVar ∉ except →
    ∀ w, n.Allowed w → n'.prob f' w = n.prob f w

end Bbn
