import Verif.Model.Network

/-!
# `training.go`

The scratch buffers `sample` and `utility` of `Trainer` are cleared before every use and not modelled. Counters are
unbounded natural numbers. A utility value that is NaN is `none`; infinities are not modelled.
-/

set_option autoImplicit false

namespace Bbn

variable {α : Type}

/-- `training.go:11-18`: `Trainer`, without the network it points to, which is passed to each call. -/
structure Trainer (α : Type) where
  data : List (List (List α))
  counter : List (List Nat)
  indices : List (List Nat)
deriving DecidableEq, Repr

/-- `nodeIndices[g]` of `training.go:50`, filled by `training.go:28-31`: the last variable of a name wins. -/
def nodeIndex (variables : List NVar) (g : String) : Option Nat :=
  (variables.zipIdx.reverse.find? (fun p => p.1.name = g)).map Prod.snd

/-- `training.go:47-54`: the positions of the parents. -/
def parentIndices (variables : List NVar) (given : List String) : Except Fault (List Nat) :=
  given.mapM (fun g =>
    match nodeIndex variables g with
    | some i => .ok i
    | none => .error (.panic "parent node not found"))

/-- `training.go:38-55`: the body of the second loop of `NewTrainer`: data, counter and indices of a variable. -/
def trainerNode [Zero α] (n : Net α) (v : NVar) : Except Fault (List (List α) × List Nat × List Nat) := do
  let f ← derefFactor n.factors v
  if v.outcomes.length = 0 then .error (.panic "integer divide by zero") else
    let rows := f.tab.length / v.outcomes.length
    let idx ← parentIndices n.variables f.given
    return (List.replicate rows (List.replicate v.outcomes.length 0), List.replicate rows 0, idx)

/-- `training.go:21-66`: `NewTrainer`. The first loop reads `node.Factor.Given` of all variables. -/
def newTrainer [Zero α] (n : Net α) : Except Fault (Trainer α) := do
  let _ ← n.variables.mapM (derefFactor n.factors)
  let parts ← n.variables.mapM (trainerNode n)
  return { data := parts.map (fun p => p.1), counter := parts.map (fun p => p.2.1),
           indices := parts.map (fun p => p.2.2) }

/-- A call `AddSample(sample, utility)` (`training.go:68-70`): an outcome index for each variable, negative for a missing one, and
(`none`: nil) a utility value for each variable, `none` for NaN. -/
structure Sample (α : Type) where
  values : List Int
  utility : Option (List (Option α))

/-- `t.data[i][r][k] += x` of `training.go:100,107`. -/
def addAt [Add α] (data : List (List (List α))) (i : Nat) (r k : Int) (x : α) :
    Except Fault (List (List (List α))) := do
  let d ← goGet data i
  let row ← goGetI d r
  let y ← goGetI row k
  let row' ← goSetI row k (y + x)
  let d' ← goSetI d r row'
  goSet data i d'

/-- `t.counter[i][r]++` of `training.go:101,110`. -/
def incAt (counter : List (List Nat)) (i : Nat) (r : Int) : Except Fault (List (List Nat)) := do
  let c ← goGet counter i
  let y ← goGetI c r
  let c' ← goSetI c r (y + 1)
  goSet counter i c'

/-- `training.go:83-88`: the utility values of the parents are read (and not used) if `utility` is not nil. -/
def readUtilities (utility : Option (List (Option α))) (indices : List Nat) : Except Fault Unit :=
  match utility with
  | none => .ok ()
  | some u => do
    let _ ← indices.mapM (goGet u)
    return ()

/-- `training.go:74-110`: the body of the loop of `AddSample` for the variable at position `i`. Indexing a nil
slice panics. -/
def addNode [Add α] [One α] (n : Net α) (s : Sample α) (t : Trainer α) (v : NVar) (i : Nat) :
    Except Fault (Trainer α) :=
  if v.nodeType = .decision then .ok t else do
    let indices ← goGet t.indices i
    let own ← indices.mapM (goGet s.values)
    let _ ← readUtilities s.utility indices
    let f ← derefFactor n.factors v
    match ← f.rowIndex own with
    | none => return t
    | some idx =>
      if v.nodeType = .utility then
        match ← goGet (s.utility.getD []) i with
        | none => return t
        | some u => do
          let data ← addAt t.data i idx 0 u
          let counter ← incAt t.counter i idx
          let counter ← incAt counter i idx
          return { t with
            data := data
            counter := counter }
      else do
        let k ← goGet s.values i
        if k < 0 then return t else
          let data ← addAt t.data i idx k 1
          let counter ← incAt t.counter i idx
          return { t with
            data := data
            counter := counter }

/-- `training.go:70-112`: `AddSample`. -/
def addSample [Add α] [One α] (n : Net α) (t : Trainer α) (s : Sample α) : Except Fault (Trainer α) :=
  n.variables.zipIdx.foldlM (fun t p => addNode n s t p.1 p.2) t

/-- `training.go:128-130`: the cells `k` of row `j` that are still to be written. -/
def updateCells [Div α] [NatCast α] (data : List (List α)) (cnt j cols : Nat) :
    List Nat → List α → Except Fault (List α)
  | [], tab => .ok tab
  | k :: ks, tab => do
    let row ← goGet data j
    let x ← goGet row k
    let tab' ← goSet tab (j * cols + k) (x / (cnt : α))
    updateCells data cnt j cols ks tab'

/-- `training.go:123-131`: the rows `j` that are still to be written. The second component is the error that ends
`UpdateNetwork`, if any; entries written before stay written. -/
def updateRows [Div α] [NatCast α] (data : List (List α)) (counter : List Nat) (cols : Nat) :
    List Nat → List α → Except Fault (List α × Option String)
  | [], tab => .ok (tab, none)
  | j :: js, tab => do
    let cnt ← goGet counter j
    if cnt = 0 then return (tab, some "no samples for node, table row")
    else
      let tab' ← updateCells data cnt j cols (List.range cols) tab
      updateRows data counter cols js tab'

/-- `training.go:118-132`: the loop of `UpdateNetwork` over the variables. `t.counter[i]` is indexed for each row in
Go; here once, which makes a difference only for a counter list that is too short. -/
def updateNodes [Div α] [NatCast α] (t : Trainer α) :
    List (NVar × Nat) → List (NFactor α) → Except Fault (List (NFactor α) × Option String)
  | [], fs => .ok (fs, none)
  | (v, i) :: rest, fs => do
    let data ← goGet t.data i
    match v.factor with
    | none => .error (.panic "nil pointer dereference")
    | some p =>
      let f ← goGet fs p
      if f.columns = 0 then .error (.panic "integer divide by zero") else
        let counter ← goGet t.counter i
        let r ← updateRows data counter f.columns (List.range (f.tab.length / f.columns)) f.tab
        let fs' := fs.set p { f with table := f.table.map (fun _ => r.1) }
        match r.2 with
        | some e => return (fs', some e)
        | none => updateNodes t rest fs'

/-- `training.go:115-135`: `UpdateNetwork`: the network after the call (the one that was passed to `NewTrainer`, also
if an error is returned), and the returned error (`none`: nil). -/
def updateNetwork [Div α] [NatCast α] (t : Trainer α) (n : Net α) : Except Fault (Net α × Option String) := do
  let r ← updateNodes t n.variables.zipIdx n.factors
  return ({ n with factors := r.1 }, r.2)

end Bbn
