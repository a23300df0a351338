import Verif.Model.Tui

/-!
# `internal/tui/solve.go`

A displayed number is `none` if it is NaN. Quotients with divisor 0 (NaN or infinite in Go) are `none` as well.
-/

set_option autoImplicit false

namespace Bbn

variable {α : Type}

/-- `x / y` for numbers that may be NaN, of `internal/tui/solve.go:103, 115`. Simplified: a quotient with a zero divisor
is NaN, also where Go gives an infinity. -/
def nanDiv [Zero α] [Div α] [DecidableEq α] : Option α → Option α → Option α
  | some x, some y => if y = 0 then none else some (x / y)
  | _, _ => none

/-- `x * y` for a number that may be NaN, of `internal/tui/solve.go:124`. -/
def nanMul [Mul α] (x : Option α) (y : α) : Option α := x.map (· * y)

/-- `internal/tui/solve.go:60-63, 98-101, 110-113`: the only entry of the data, NaN if there are others. -/
def onlyEntry (f : Factor α) : Option α :=
  match f.data with
  | [x] => some x
  | _ => none

/-- The displayed numbers, `map[string][]float64` (`internal/tui/solve.go:11`). -/
abbrev Shown (α : Type) := List (String × List (Option α))

/-- `internal/tui/solve.go:44-53`: `solveEvidence`, for one iteration order of the evidence. -/
def solveEvidence [Zero α] [One α] (n : Net α) (evidence : List (String × String)) (result : Shown α) :
    Except Fault (Shown α) :=
  evidence.foldlM (fun r e => do
    let p ← n.toEvidence e.1 e.2
    return mapSet r e.1 (p.map some)) result

/-- `internal/tui/solve.go:65-75`: the loop of `solveQueries`. `k` numbers the network calls. -/
def solveQueryLoop [Zero α] [One α] [Add α] [Mul α] [Div α] [DecidableEq α] (sch : Nat → NSched α)
    (evidence : List (String × String)) (ignorePolicies : Bool) :
    Nat → List String → Net α → Shown α → Except Fault (Shown α × Nat) × Net α
  | k, [], n, r => (.ok (r, k), n)
  | k, q :: qs, n, r =>
    match n.solveQuery (sch k) evidence [q] ignorePolicies with
    | (.error e, n) => (.error e, n)
    | (.ok (res, _), n) =>
      match mapGet res q with
      | none => (.error (.panic "query variable not in result"), n)
      | some p => solveQueryLoop sch evidence ignorePolicies (k + 1) qs n (mapSet r q (p.map some))

/-- `internal/tui/solve.go:105-118`: the loop over the utility nodes. -/
def solveUtilityLoop [Zero α] [One α] [Add α] [Mul α] [Div α] [DecidableEq α] (sch : Nat → NSched α)
    (evidence : List (String × String)) (ignorePolicies : Bool) (totalProb totalUtility : Option α) :
    Nat → List String → Net α → Shown α → Except Fault (Shown α) × Net α
  | _, [], n, r => (.ok r, n)
  | k, u :: us, n, r =>
    match n.solveUtility (sch k) evidence [] u ignorePolicies with
    | (.error e, n) => (.error e, n)
    | (.ok f, n) =>
      solveUtilityLoop sch evidence ignorePolicies totalProb totalUtility (k + 1) us n
        (mapSet r u [nanDiv (onlyEntry f) totalProb, totalUtility])

/-- `internal/tui/solve.go:120-128`: the numbers of the total-utility node. -/
def totalNumbers [Mul α] (node : TNode α) (totalUtility : Option α) (r : Shown α) : Except Fault (Shown α) := do
  let f ← node.deref
  let util ← f.given.zipIdx.mapM (fun p => do
    let x ← goGet ((mapGet r p.1).getD []) 0
    let w ← goGet f.tab p.2
    return nanMul x w)
  return mapSet r node.var.name (util ++ [totalUtility])

/-- `internal/tui/solve.go:80-91`: the utility nodes but the one for the total, and the latter. -/
def splitUtilities (total : Option Nat) (nodes : List (TNode α)) : List String × Option (TNode α) :=
  ((nodes.zipIdx.filter (fun p => some p.2 ≠ total ∧ p.1.var.nodeType = .utility)).map (fun p => p.1.var.name),
   total.bind (fun i => nodes[i]?))

/-- `internal/tui/solve.go:14-23`: the variables to ask for. -/
def tuiQueries (nodes : List (TNode α)) (evidence : List (String × String)) : List String :=
  (nodes.filter (fun n => n.var.nodeType ≠ .utility ∧ mapGet evidence n.var.name = none)).map (fun n => n.var.name)

/-- `internal/tui/solve.go:11-42`: `Solve`, with `solveQueries` (55-77) and `solveUtility` (79-131). -/
def tuiSolve [Zero α] [One α] [Add α] [Mul α] [Div α] [DecidableEq α] (sch : Nat → NSched α) (n : Net α)
    (evidence : List (String × String)) (nodes : List (TNode α)) (ignorePolicies : Bool) :
    Except Fault (Shown α) × Net α :=
  match solveEvidence n ((sch 0).ev evidence) [] with
  | .error e => (.error e, n)
  | .ok r =>
    match n.solveQuery (sch 0) evidence [] ignorePolicies with
    | (.error e, n) => (.error e, n)
    | (.ok (_, f), n) =>
      let totalProb := onlyEntry f
      match solveQueryLoop sch evidence ignorePolicies 1 (tuiQueries nodes evidence) n r with
      | (.error e, n) => (.error e, n)
      | (.ok (r, k), n) =>
        let (utilities, totalNode) := splitUtilities n.totalUtility nodes
        match n.solveUtility (sch k) evidence [] "" ignorePolicies with
        | (.error e, n) => (.error e, n)
        | (.ok f, n) =>
          let totalUtility := nanDiv (onlyEntry f) totalProb
          match solveUtilityLoop sch evidence ignorePolicies totalProb totalUtility (k + 1) utilities n r with
          | (.error e, n) => (.error e, n)
          | (.ok r, n) =>
            match totalNode with
            | none => (.ok r, n)
            | some node => (totalNumbers node totalUtility r, n)

end Bbn
