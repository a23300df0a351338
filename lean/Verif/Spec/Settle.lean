import Verif.Spec.Network

/-!
# Decisions turned into chance variables (specification vocabulary)
-/

set_option autoImplicit false

namespace Bbn

variable {α : Type}

/-- The variable, as a chance variable if it is a decision. -/
def NVar.settled (v : NVar) : NVar := { v with nodeType := if v.nodeType = .decision then .chance else v.nodeType }

/-- The tables of the chance and utility variables, and for each decision the table that tells how it is taken. -/
def settledTables (vars : List NVar) (tables : List (NFactor α)) (policies : List (String × NFactor α)) :
    List (NFactor α) :=
  tables.filter (fun f => !(vars.any fun v => decide (v.name = f.forVar ∧ v.nodeType = .decision))) ++
    policies.map Prod.snd

end Bbn
