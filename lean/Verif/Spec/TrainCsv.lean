import Verif.Model.TrainCsv
import Verif.Spec.Training

/-!
# What a CSV file says about a network (specification vocabulary)
-/

set_option autoImplicit false

namespace Bbn

variable {α : Type}

/-- The cell of the (first) column of this name. -/
def csvCell (header record : List String) (name : String) : String := record.getD (header.idxOf name) ""

/-- The sample a record stands for: a cell with the no-data value is a missing value; any other one is the position of
the outcome, or the number, in the cell. -/
def csvSample [Zero α] (pf : String → Option (Option α)) (n : Net α) (header : List String) (noData : String)
    (record : List String) : Sample α :=
  ⟨n.variables.map (fun v => if v.nodeType = .utility then 0 else
      if csvCell header record v.name = noData then -1 else v.outcomes.idxOf (csvCell header record v.name)),
    some (n.variables.map (fun v => if v.nodeType = .utility then
      (if csvCell header record v.name = noData then none else (pf (csvCell header record v.name)).join)
      else some 0))⟩

/-- The record has as many fields as the header, and each cell is readable: the no-data value, an outcome of the
variable, or a number for a utility variable. -/
structure CsvOK (pf : String → Option (Option α)) (n : Net α) (header : List String) (noData : String)
    (record : List String) : Prop where
  length : record.length = header.length
  outcome : ∀ v ∈ n.variables, v.nodeType ≠ .utility → csvCell header record v.name = noData ∨
    csvCell header record v.name ∈ v.outcomes
  number : ∀ v ∈ n.variables, v.nodeType = .utility → csvCell header record v.name = noData ∨
    pf (csvCell header record v.name) ≠ none

/-- The result of a training as `(network, error)`, read as one value. -/
def trainResult (r : Net α × Option String) : Except Fault (Net α) :=
  match r.2 with
  | some e => .error (.error e)
  | none => .ok r.1

end Bbn
