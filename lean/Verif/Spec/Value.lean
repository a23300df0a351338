import Verif.Model.Factor

/-!
# Factors as functions of named assignments (specification vocabulary)

An assignment `σ` gives every variable ID an outcome index. The meaning of a factor is the function that maps an
assignment to the entry of the factor's data for the outcomes of its own variables.
-/

set_option autoImplicit false

namespace Bbn

/-- An assignment of outcome indices to variable IDs. -/
abbrev Assignment := Nat → Nat

/-- The outcomes of the given variables under an assignment. -/
def tupleOf (vs : List Var) (σ : Assignment) : List Nat := vs.map (fun v => σ v.id)

/-- The assignment gives each listed variable an outcome it has. -/
def Fits (σ : Assignment) (vs : List Var) : Prop := ∀ v ∈ vs, σ v.id < v.outcomes

/-- The assignment with the variable `i` changed to outcome `k`. -/
def Assignment.upd (σ : Assignment) (i k : Nat) : Assignment := fun j => if j = i then k else σ j

/-- A well-formed factor: as many entries as its variables have joint outcomes, no variable ID twice.
(`CreateFactor` ensures the first; the second is what a caller has to see to.) -/
structure Factor.WF {α : Type _} (f : Factor α) : Prop where
  len : f.data.length = size f.vars
  nodup : (f.vars.map Var.id).Nodup

/-- The same ID always means the same variable. -/
def Coherent (vs : List Var) : Prop := ∀ v ∈ vs, ∀ w ∈ vs, v.id = w.id → v = w

/-- The value of a factor at a named assignment: the entry at the row-major position of the outcomes. For
well-formed factors and fitting assignments this is what `Factor.Get` returns (`val_eq_get`). -/
def Factor.val {α : Type _} [Zero α] (f : Factor α) (σ : Assignment) : α :=
  f.data.getD (flatIndex f.vars (tupleOf f.vars σ)) 0

end Bbn
