import Verif.Spec.NetOptimal

/-!
# Networks with other tables for some variables (specification vocabulary)
-/

set_option autoImplicit false

namespace Bbn

variable {α : Type}

/-- The network with other tables for the variables for which `T` gives one. -/
def Net.replaceTables (n : Net α) (T : String → Option (List α)) : Net α :=
  { n with factors := n.factors.map (fun f => { f with table := (T f.forVar).or f.table }) }

/-- The network with the number `x` at position `i` of the table `t` of the variable `s`. -/
def Net.withEntry (n : Net α) (s : String) (t : List α) (i : Nat) (x : α) : Net α :=
  n.replaceTables (fun r => if r = s then some (t.set i x) else none)

/-- The variable is a chance variable, and it and its parents are chance variables that every decision has as parents: everyone
who decides knows them. -/
def Net.KnownToAll (n : Net α) (r : String) : Prop :=
  n.isKind .chance r = true ∧ ∀ f ∈ n.factors, f.forVar = r → ∀ s ∈ f.dims, n.isKind .chance s = true ∧
    ∀ d ∈ n.decisions, ∃ g ∈ n.factors, g.forVar = d ∧ s ∈ g.given

end Bbn
