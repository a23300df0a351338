import Verif.Model.Tui
import Mathlib.Data.Set.Defs

/-!
# Rectangles (specification vocabulary)
-/

set_option autoImplicit false

namespace Bbn

/-- The cells of a rectangle. -/
def Bounds.cells (b : Bounds) : Set (Int × Int) := {p | b.x ≤ p.1 ∧ p.1 < b.x + b.w ∧ b.y ≤ p.2 ∧ p.2 < b.y + b.h}

/-- The index of node names is right: each node is found under its name (so names are unique). -/
def Indexed {α : Type} (nodes : List (TNode α)) (byName : List (String × Nat)) : Prop :=
  ∀ i n, nodes[i]? = some n → mapGet byName n.var.name = some i

/-- The outcomes of the node of this name. -/
def nodeOutcomes {α : Type} (nodes : List (TNode α)) (name : String) : List String :=
  ((nodes.find? (fun n => n.var.name = name)).map (fun n => n.var.outcomes)).getD []

/-- The evidence after an outcome `o` of the variable `x` was chosen, as a function: chosen again it is taken back,
another outcome is replaced, and no other variable is concerned. -/
def chosen (evidence : String → Option String) (x o : String) : String → Option String :=
  fun k => if k = x then (if evidence x = some o then none else some o) else evidence k

end Bbn
