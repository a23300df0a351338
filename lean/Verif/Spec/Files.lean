import Verif.Model.Files

/-!
# What files should contain (specification vocabulary)
-/

set_option autoImplicit false

namespace Bbn

variable {α : Type}

/-- The documented operators, each with the numbers of arguments and the numbers of parents it takes. -/
def operators : List (String × (Nat → Bool) × (Nat → Bool)) :=
  ["not", "equals", "equals-not", "if-then", "if-not-then", "if-then-not", "if-not-then-not"].map
    (fun s => (s, fun k => k == 0, fun n => n == 1)) ++
  ["and", "not-and", "and-not", "not-and-not", "or", "not-or", "or-not", "not-or-not", "xor", "cond", "not-cond",
    "cond-not", "not-cond-not", "bicond"].map (fun s => (s, fun k => k == 0, fun n => n == 2)) ++
  ["count-true", "count-false", "bits"].map (fun s => (s, fun k => k == 0, fun _ => true)) ++
  ["count-is", "count-less", "count-greater", "given", "given-not", "given-excl"].map
    (fun s => (s, fun k => k == 1, fun _ => true)) ++
  ["outcome-is", "outcome-is-not", "outcome-less", "outcome-greater"].map
    (fun s => (s, fun k => k == 2, fun n => n == 1)) ++
  ["outcome-either"].map (fun s => (s, fun k => decide (2 ≤ k), fun n => n == 1))

/-- The text of a logic node: the operator and its arguments, separated by single spaces. -/
def logicText (op : String) (args : List String) : String := String.intercalate " " (op :: args)

/-- The mistakes in a node's definition that have to be reported. -/
inductive NodeFault (lower : String → String) (v : VarYaml α) : Prop
  /-- The type is none of the documented ones. -/
  | type : v.type ≠ "" → v.type ≠ "nature" → v.type ≠ "decision" → v.type ≠ "utility" → NodeFault lower v
  /-- There are both a table and an operator. -/
  | both : v.table ≠ [] → v.logic ≠ "" → NodeFault lower v
  /-- The operator is unknown. -/
  | operator (op : String) (args : List String) : v.logic = logicText op args → v.logic ≠ "" → ' ' ∉ op.toList →
    (∀ a ∈ args, ' ' ∉ a.toList) → lower op ∉ operators.map Prod.fst → NodeFault lower v
  /-- An argument is not an integer (which also is the case after two spaces in a row). -/
  | number (op : String) (args : List String) : v.logic = logicText op args → v.logic ≠ "" → ' ' ∉ op.toList →
    (∀ a ∈ args, ' ' ∉ a.toList) → (∃ a ∈ args, a = "" ∨ ∃ c ∈ a.toList, c.isDigit = false ∧ c ≠ '-' ∧ c ≠ '+') →
    NodeFault lower v
  /-- The operator does not take this number of arguments. -/
  | arguments (op : String) (args : List String) (okArgs okParents : Nat → Bool) : v.logic = logicText op args →
    v.logic ≠ "" → ' ' ∉ op.toList → (∀ a ∈ args, ' ' ∉ a.toList) → (lower op, okArgs, okParents) ∈ operators →
    okArgs args.length = false → NodeFault lower v
  /-- The operator does not take this number of parents. -/
  | parents (op : String) (args : List String) (okArgs okParents : Nat → Bool) : v.logic = logicText op args →
    v.logic ≠ "" → ' ' ∉ op.toList → (∀ a ∈ args, ' ' ∉ a.toList) → (lower op, okArgs, okParents) ∈ operators →
    okParents v.given.length = false → NodeFault lower v

end Bbn
