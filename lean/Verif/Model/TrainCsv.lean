import Verif.Model.Training

/-!
# `internal/tui/training.go`

Opening the file and `encoding/csv` are not modelled: the file is its header and the records after it. The csv reader
returns an error for a record whose number of fields differs from that of the header; this is part of the model.
`strconv.ParseFloat` is a parameter: `none` for an error, `some none` for NaN.
-/

set_option autoImplicit false

namespace Bbn

variable {α : Type}

/-- `internal/tui/training.go:87-95`: the map from outcomes to their positions (later ones win), `none` if the no-data
value is among the outcomes. -/
def outcomeMap (noData : String) : List (String × Nat) → List (String × Int) → Option (List (String × Int))
  | [], m => some (mapSet m noData (-1))
  | (o, j) :: rest, m => if o = noData then none else outcomeMap noData rest (mapSet m o j)

/-- `internal/tui/training.go:79-98`: the body of the loop of `prepare`: the column of a variable and its outcomes. -/
def prepareNode (header : List String) (noData : String) (v : NVar) : Except Fault (Nat × List (String × Int)) :=
  match slicesIndex v.name header with
  | none => .error (.error "no column in training data file")
  | some idx =>
    match outcomeMap noData v.outcomes.zipIdx [] with
    | none => .error (.error "no-data value appears as outcome")
    | some m => .ok (idx, m)

/-- `internal/tui/training.go:50-68`: the cell of a variable: its sample value and its utility value. The slices keep
their initial 0 in the places of the other kind. The NaN set in line 54 is overwritten in line 56. -/
def readCell [Zero α] (pf : String → Option (Option α)) (record : List String) (v : NVar)
    (col : Nat × List (String × Int)) : Except Fault (Int × Option α) := do
  let cell ← goGet record col.1
  if v.nodeType = .utility then
    match pf cell with
    | none => .error (.error "unable to parse utility value")
    | some u => return (0, u)
  else
    match mapGet col.2 cell with
    | none => .error (.error "outcome not available in node")
    | some k => return (k, some 0)

/-- `internal/tui/training.go:42-68`: the sample of a record. -/
def readRecord [Zero α] (pf : String → Option (Option α)) (header : List String) (nodes : List NVar)
    (cols : List (Nat × List (String × Int))) (record : List String) : Except Fault (Sample α) :=
  if record.length ≠ header.length then .error (.error "wrong number of fields") else do
    let cells ← (nodes.zip cols).mapM (fun p => readCell pf record p.1 p.2)
    return ⟨cells.map Prod.fst, some (cells.map Prod.snd)⟩

/-- `internal/tui/training.go:16-73`: `TrainNetwork`, called with the network's own variables (`internal/tui/app.go:61`,
`cmd/bbn/train.go`). The returned network is the one passed in. -/
def trainNetwork [Zero α] [Add α] [One α] [Div α] [NatCast α] (pf : String → Option (Option α)) (n : Net α)
    (header : List String) (records : List (List String)) (noData : String) : Except Fault (Net α) := do
  let cols ← n.variables.mapM (prepareNode header noData)
  let t ← newTrainer n
  let t' ← records.foldlM (fun t record => do
    let s ← readRecord pf header n.variables cols record
    addSample n t s) t
  let r ← updateNetwork t' n
  match r.2 with
  | some e => .error (.error e)
  | none => return r.1

end Bbn
