import Verif.Model.Factor
import Mathlib.Data.Finset.Lattice.Fold
import Mathlib.Data.Multiset.Lattice
import Mathlib.Data.Finset.Card

/-!
# The order of elimination (specification vocabulary)
-/

set_option autoImplicit false

namespace Bbn

variable {α : Type}

/-- The set of variable IDs of a factor. -/
def scope (f : Factor α) : Finset Nat := (f.vars.map Var.id).toFinset

/-- The scopes of all factors, without order. -/
def scopes (fs : List (Factor α)) : Multiset (Finset Nat) := (fs.map scope : List (Finset Nat))

/-- The degree of a variable: the number of variables in the union of all scopes that contain it. -/
def degreeIn (i : Nat) (S : Multiset (Finset Nat)) : Nat := ((S.filter (fun s => i ∈ s)).sup).card

/-- First by degree, then by ID. -/
def DegreeThenId (S : Multiset (Finset Nat)) (a b : Var) : Prop :=
  degreeIn a.id S < degreeIn b.id S ∨ (degreeIn a.id S = degreeIn b.id S ∧ a.id < b.id)

end Bbn
