import Verif.Model.Basic
import Mathlib.Algebra.Ring.Int.Defs
import Mathlib.Algebra.Ring.Nat

/-!
# `ve/factor.go`
-/

set_option autoImplicit false

namespace Bbn

/-- The loop of `ve/factor.go:94-99`: from the last variable to the first, `index += indices[i]*multiplier`,
`multiplier *= outcomes`. Returns `(index, multiplier)`. Generic in the index type so that the same definition
serves Go's `int` arguments (`Int`, possibly negative) and the internally generated indices (`Nat`). -/
def indexLoop {R : Type _} [Add R] [Mul R] [Zero R] [One R] [NatCast R] : List Var → List R → R × R
  | v :: vs, i :: is =>
    let (x, m) := indexLoop vs is
    (x + i * m, m * (v.outcomes : R))
  | _, _ => (0, 1)

/-- The flat index computed by the loop of `ve/factor.go:94-99` (arity check not included). -/
def flatIndex {R : Type _} [Add R] [Mul R] [Zero R] [One R] [NatCast R] (vs : List Var) (is : List R) : R :=
  (indexLoop vs is).1

/-- `ve/factor.go:90-102`: `factorVariables.Index`. -/
def varsIndex {R : Type _} [Add R] [Mul R] [Zero R] [One R] [NatCast R] (vs : List Var) (is : List R) :
    Except Fault R :=
  if is.length ≠ vs.length then .error (.panic "wrong number of indices")
  else .ok (flatIndex vs is)

/-- The loop of `ve/factor.go:118-124`, including the early exit. `none` is the result `(0, false)`. The loop
runs from the last index to the first. -/
def noDataLoop : List Var → List Int → Option (Int × Int)
  | v :: vs, i :: is =>
    match noDataLoop vs is with
    | none => none
    | some (x, m) => if i = -1 then none else some (x + i * m, m * (v.outcomes : Int))
  | _, _ => some (0, 1)

/-- `ve/factor.go:107-127`: `factorVariables.IndexWithNoData`. The early return for no variables
(`111-113`) gives the same as the loop. -/
def indexWithNoData (vs : List Var) (is : List Int) : Except Fault (Int × Bool) :=
  if is.length ≠ vs.length then .error (.panic "wrong number of indices")
  else match noDataLoop vs is with
    | none => .ok (0, false)
    | some (x, _) => .ok (x, true)

/-- The loop of `ve/factor.go:138-141`: from the last variable to the first, `indices[i] = index % outcomes`,
`index /= outcomes`. Returns the digits and the remaining `index`. (For `outcomes = 0` Go panics; a factor with
such a variable has no data and the code never calls `Outcomes` on it.) -/
def outcomesLoop : List Var → Nat → List Nat × Nat
  | [], k => ([], k)
  | v :: vs, k =>
    let (r, q) := outcomesLoop vs k
    (q % v.outcomes :: r, q / v.outcomes)

/-- `ve/factor.go:130-142`: `factorVariables.Outcomes` writing into a slice of the right length. -/
def outcomesOf (vs : List Var) (k : Nat) : List Nat := (outcomesLoop vs k).1

/-- `ve/factor.go:146-160`: `factorVariables.increment`, from the last position to the first with early return.
Returns the updated slice and the result. -/
def increment : List Var → List Nat → List Nat × Bool
  | v :: vs, i :: is =>
    match increment vs is with
    | (r, true) => (i :: r, true)
    | (r, false) => if i + 1 < v.outcomes then ((i + 1) :: r, true) else (0 :: r, false)
  | _, is => (is, false)

/-- The number of cells of a factor over `vs`: the product computed in `ve/variables.go:42-47`. -/
def size : List Var → Nat
  | [] => 1
  | v :: vs => v.outcomes * size vs

variable {α : Type _}

/-- `ve/factor.go:31-33`: `Factor.Index`. -/
def Factor.index (f : Factor α) (is : List Int) : Except Fault Int := varsIndex f.vars is

/-- `ve/factor.go:38-40`: `Factor.IndexWithNoData`. -/
def Factor.indexWithNoData (f : Factor α) (is : List Int) : Except Fault (Int × Bool) :=
  Bbn.indexWithNoData f.vars is

/-- `ve/factor.go:44-46`: `Factor.Outcomes`, writing into a slice of the right length. -/
def Factor.outcomes (f : Factor α) (k : Nat) : List Nat := outcomesOf f.vars k

/-- `ve/factor.go:67-70`: `Factor.Get` with caller-supplied `int` indices. -/
def Factor.get (f : Factor α) (is : List Int) : Except Fault α := do
  let idx ← varsIndex f.vars is
  goGetI f.data idx

/-- `ve/factor.go:73-76`: `Factor.Set` with caller-supplied `int` indices. -/
def Factor.set (f : Factor α) (is : List Int) (x : α) : Except Fault (Factor α) := do
  let idx ← varsIndex f.vars is
  let d ← goSetI f.data idx x
  return { f with data := d }

/-- `ve/factor.go:67-70`: `Factor.Get` as called by the factor operations, with natural-number indices. -/
def Factor.getN (f : Factor α) (is : List Nat) : Except Fault α := do
  let idx ← varsIndex f.vars is
  goGet f.data idx

/-- The loop of `ve/factor.go:58-61`: over the positions `len-2 .. 0`. The argument lists are the variables and
indices without the last variable; `s` is the initial stride. -/
def rowLoop (s : Int) : List Var → List Int → Int × Int
  | v :: vs, i :: is =>
    let (x, m) := rowLoop s vs is
    (x + i * m, m * (v.outcomes : Int))
  | _, _ => (0, s)

/-- `ve/factor.go:51-64`: `Factor.RowIndex`. A factor without variables always panics: the length check cannot
succeed with `len(f.variables)-1 = -1`. -/
def Factor.rowIndex (f : Factor α) (is : List Int) : Except Fault (Int × Nat) :=
  match f.vars.getLast? with
  | none => .error (.panic "wrong number of row indices")
  | some last =>
    if is.length + 1 ≠ f.vars.length then .error (.panic "wrong number of row indices")
    else .ok ((rowLoop last.outcomes f.vars.dropLast is).1, last.outcomes)

/-- `ve/factor.go:81-84`: `Factor.Row`. -/
def Factor.row (f : Factor α) (is : List Int) : Except Fault (List α) := do
  let (idx, ln) ← f.rowIndex is
  goSlice f.data idx (idx + ln)

end Bbn
