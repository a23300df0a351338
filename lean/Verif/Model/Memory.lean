import Verif.Model.Training

/-!
# Networks in memory

`New` (`network.go:92-105`) keeps the slices it is given, sets the pointers `Factor` in the variables and the fields
`columns` and `outcomes` in the factors in place, and `UpdateNetwork` (`training.go:115-135`) writes into the `Table`
slices the user has made. Networks made from the same slices share them. In `Net` each network has tables of its own;
here, networks are references into a common memory. Simplified: a slice is a whole array (no two slices overlap in
part), and a pointer goes to an element of an array of factors.
-/

set_option autoImplicit false

namespace Bbn

variable {α : Type}

/-- `network.go:14-21`: `Variable`, with `Factor` as a pointer: the number of an array of factors, and a position. -/
structure MVar where
  name : String
  nodeType : NodeType
  outcomes : List String
  position : Int × Int
  color : String
  factor : Option (Nat × Nat)
deriving DecidableEq, Repr

/-- `network.go:24-30`: `Factor`, with `Table` as the number of an array of numbers (`none` for nil). -/
structure MFactor where
  forVar : String
  given : List String
  table : Option Nat
  outcomes : List Nat
  columns : Nat
deriving DecidableEq, Repr

/-- The arrays of variables, factors and numbers (language semantics) behind the slices of `network.go:14-30, 80-89`. -/
structure Memory (α : Type) where
  vars : List (List MVar)
  facs : List (List MFactor)
  tabs : List (List α)
deriving DecidableEq, Repr

/-- `network.go:80-89`: `Network`, with `variables` and `factors` as numbers of arrays. -/
structure MNet (α : Type) where
  name : String
  info : String
  vars : Nat
  facs : Nat
  policies : List (String × Factor α)
  vs : Option Vs
  names : List (String × NVar × Var)
  totalUtility : Option Nat

/-- A variable (`network.go:14-21`) as `Net` has it, which knows only pointers into the network's own factors. -/
def MVar.read (v : MVar) : NVar := ⟨v.name, v.nodeType, v.outcomes, v.position, v.color, v.factor.map Prod.snd⟩

/-- A factor (`network.go:24-30`) with the present content of its table. -/
def Memory.readFactor (μ : Memory α) (f : MFactor) : NFactor α :=
  ⟨f.forVar, f.given, f.table.map (fun t => μ.tabs.getD t []), f.outcomes, f.columns⟩

/-- The variables in an array (`network.go:83`), as they are at present. -/
def Memory.readVars (μ : Memory α) (a : Nat) : List NVar := (μ.vars.getD a []).map MVar.read

/-- The factors in an array (`network.go:84`), as they are at present. -/
def Memory.readFactors (μ : Memory α) (b : Nat) : List (NFactor α) := (μ.facs.getD b []).map μ.readFactor

/-- The network (`network.go:80-89`) as it is at present. -/
def Memory.net (μ : Memory α) (m : MNet α) : Net α where
  name := m.name
  info := m.info
  «variables» := μ.readVars m.vars
  factors := μ.readFactors m.facs
  policies := m.policies
  vs := m.vs
  names := m.names
  totalUtility := m.totalUtility

/-- `network.go:155-162`: the new slice `outcomes`, and whether all parents are known; after an unknown one the rest
stays zero. -/
def fillCounts (all : List NVar) : List String → List Nat × Bool
  | [] => ([], true)
  | g :: gs =>
    match outcomeCount all g with
    | none => (List.replicate (gs.length + 1) 0, false)
    | some n => ((n :: (fillCounts all gs).1), (fillCounts all gs).2)

/-- `network.go:146-163`: the second loop of `prepareVariables`, from position `i` with `left` variables to go. -/
def memLink (all : List NVar) (a b : Nat) : Nat → Nat → Memory α → Except Fault Unit × Memory α
  | _, 0, μ => (.ok (), μ)
  | i, left + 1, μ =>
    match (μ.vars.getD a [])[i]? with
    | none => (.error (.panic "index out of range"), μ)
    | some v =>
      match (μ.facs.getD b []).findIdx? (fun f => f.forVar = v.name) with
      | none => memLink all a b (i + 1) left μ
      | some k =>
        match (μ.facs.getD b [])[k]? with
        | none => (.error (.panic "index out of range"), μ)
        | some f =>
          let c := fillCounts all f.given
          let μ' : Memory α := { μ with
            vars := μ.vars.set a ((μ.vars.getD a []).set i { v with factor := some (b, k) })
            facs := μ.facs.set b ((μ.facs.getD b []).set k { f with outcomes := c.1, columns := v.outcomes.length }) }
          if c.2 then memLink all a b (i + 1) left μ' else (.error (.error "parent variable not found"), μ')

/-- `v.Factor`: the factor a variable points to, as in `network.go:178, 201` (language semantics). -/
def Memory.deref (μ : Memory α) (v : MVar) : Except Fault MFactor :=
  match v.factor with
  | none => .error (.panic "nil pointer dereference")
  | some p => goGet (μ.facs.getD p.1 []) p.2

/-- `network.go:171-205`: the loop of `prepareUtilityNodes`; `i` is the position of the first listed variable. -/
def memUtilityNodes (μ : Memory α) (all : List NVar) : Nat → List MVar → Option Nat → Except Fault (Option Nat)
  | _, [], total => .ok total
  | i, v :: vs, total =>
    if v.nodeType ≠ .utility then memUtilityNodes μ all (i + 1) vs total
    else do
      let f ← μ.deref v
      let (u, o) ← parentKinds all f.given (false, false)
      if u && o then .error (.error "utility parents and other parents")
      else if !u && !o then .error (.error "utility node has no parents")
      else if !u then memUtilityNodes μ all (i + 1) vs total
      else if total.isSome then .error (.error "multiple nodes for total utility")
      else if v.outcomes.length ≠ f.given.length then .error (.error "invalid total utility node")
      else memUtilityNodes μ all (i + 1) vs (some i)

/-- `network.go:92-105`: `New` for the array `a` of variables and the array `b` of factors, and the memory after it,
also after an error. -/
def memNew (name info : String) (a b : Nat) (μ : Memory α) : Except Fault (MNet α) × Memory α :=
  match checkNames [] (μ.readVars a) with
  | .error e => (.error e, μ)
  | .ok _ =>
    match memLink (μ.readVars a) a b 0 (μ.readVars a).length μ with
    | (.error e, μ) => (.error e, μ)
    | (.ok _, μ) =>
      match memUtilityNodes μ (μ.readVars a) 0 (μ.vars.getD a []) none with
      | .error e => (.error e, μ)
      | .ok total => (.ok ⟨name, info, a, b, [], none, [], total⟩, μ)

/-- `training.go:118-132`: the loop of `UpdateNetwork` over the variables. -/
def memUpdateNodes [Div α] [NatCast α] (t : Trainer α) :
    List (MVar × Nat) → Memory α → Except Fault (Memory α × Option String)
  | [], μ => .ok (μ, none)
  | (v, i) :: rest, μ => do
    let data ← goGet t.data i
    let f ← μ.deref v
    if f.columns = 0 then .error (.panic "integer divide by zero") else
      let counter ← goGet t.counter i
      let tab := (f.table.map (fun k => μ.tabs.getD k [])).getD []
      let r ← updateRows data counter f.columns (List.range (tab.length / f.columns)) tab
      let μ' : Memory α := { μ with tabs := match f.table with
        | none => μ.tabs
        | some k => μ.tabs.set k r.1 }
      match r.2 with
      | some e => return (μ', some e)
      | none => memUpdateNodes t rest μ'

/-- `training.go:115-135`: `UpdateNetwork`: the memory after the call and the returned error. -/
def memUpdate [Div α] [NatCast α] (t : Trainer α) (m : MNet α) (μ : Memory α) :
    Except Fault (Memory α × Option String) :=
  memUpdateNodes t (μ.vars.getD m.vars []).zipIdx μ

end Bbn
