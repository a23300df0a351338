import Verif.Model.Variables
import Mathlib.Data.BitVec

/-!
# `ve/factor.go` and `ve/variables.go` with 64-bit integers

Everywhere else in this model, the sizes and positions of tables are unbounded integers. Go's `int` has 64 bits on
64-bit platforms and wraps around silently. Here are the same functions once more, with the arithmetic of sizes and
positions as a parameter (`Mach`): that of Go (`Mach.go64`), the unbounded one (`Mach.exact`), and an unbounded one that
stops at `2^63` (`Mach.careful`).

Positions in the slices that are made by the functions themselves (`oldIndex`, `newIndex`) are counters below the number
of outcomes of a variable, which is a `uint16`: they cannot wrap around and stay natural numbers. The length of a slice
that exists is a natural number. That the memory of a computer holds less than `2^63` numbers, so that `make` can panic
or the process can be stopped for smaller tables too, is not modelled.
-/

set_option autoImplicit false

namespace Bbn

/-- Go's `int` on a 64-bit platform: addition and multiplication wrap around (Go language specification, "Integer
overflow"), as in `ve/variables.go:42-47`. `toInt` is its value, between `-2^63` and `2^63 - 1`. -/
abbrev GoInt := BitVec 64

/-- The loop of `ve/variables.go:42-47`: `rows := 1`, then `rows *= int(v.outcomes)` for each variable. -/
def rows64 (vars : List Var) : GoInt := vars.foldl (fun rows v => rows * (v.outcomes : GoInt)) 1

/-- Outcome numbers as Go integers (`ve/factor.go:90-102`). -/
def goInts (t : List Nat) : List GoInt := t.map Nat.cast

/-- The two places where sizes and positions of tables are computed: the loop of `CreateFactor`
(`ve/variables.go:42-47`) and `factorVariables.Index` (`ve/factor.go:90-102`). -/
structure Mach where
  rows : List Var → Except Fault Int
  pos : List Var → List Nat → Except Fault Int

/-- The arithmetic of Go on a 64-bit platform, in `ve/variables.go:42-47` and `ve/factor.go:90-102`. -/
def Mach.go64 : Mach where
  rows vars := .ok (rows64 vars).toInt
  pos vars t := do
    let idx ← varsIndex vars (goInts t)
    return idx.toInt

/-- Unbounded integers, as in the rest of this model. Not in the code: for comparison with `ve/variables.go:42-47` and
`ve/factor.go:90-102`. -/
def Mach.exact : Mach where
  rows vars := .ok (size vars)
  pos vars t := do
    let idx ← varsIndex vars t
    return idx

/-- Unbounded integers, but everything stops as soon as a size or position of `2^63` or more comes up. Not in the code:
for comparison with `ve/variables.go:42-47` and `ve/factor.go:90-102`. -/
def Mach.careful : Mach where
  rows vars := if size vars < 2 ^ 63 then .ok (size vars) else .error (.panic "too large")
  pos vars t := do
    let idx ← varsIndex vars t
    if idx < 2 ^ 63 then return idx else .error (.panic "too large")

variable {α : Type _}

/-- `ve/variables.go:41-63`: `CreateFactor`. `make` panics for a negative length. -/
def Vs.createFactorM [Zero α] (M : Mach) (s : Vs) (vars : List Var) (data : Option (List α)) :
    Except Fault (Factor α × Vs) := do
  let rows ← M.rows vars
  match data with
  | none =>
    if rows < 0 then .error (.panic "makeslice: len out of range")
    else .ok ({ id := s.factorCounter, data := List.replicate rows.toNat 0, vars := vars },
      { s with factorCounter := s.factorCounter + 1 })
  | some d =>
    if (d.length : Int) ≠ rows then .error (.panic "wrong data length for factor")
    else .ok ({ id := s.factorCounter, data := d, vars := vars },
      { s with factorCounter := s.factorCounter + 1 })

/-- `ve/factor.go:67-70`: `Factor.Get`, as called by the factor operations. -/
def Factor.getM (M : Mach) (f : Factor α) (is : List Nat) : Except Fault α := do
  let idx ← M.pos f.vars is
  goGetI f.data idx

/-- The loop of `ve/variables.go:92-104`. -/
def restrictLoopM (M : Mach) (vars newVars : List Var) (idx obs : Nat) :
    List α → List Nat → List α → Except Fault (List α)
  | [], _, new => .ok new
  | x :: xs, old, new => do
    let o ← goGet old idx
    let new' ←
      if o = obs then do
        let j ← M.pos newVars (old.eraseIdx idx)
        goSetI new j x
      else pure new
    restrictLoopM M vars newVars idx obs xs (increment vars old).1 new'

/-- `ve/variables.go:66-107`: `Restrict`. -/
def Vs.restrictM [Zero α] (M : Mach) (s : Vs) (f : Factor α) (v : Var) (obs : Int) : Except Fault (Factor α × Vs) :=
  if obs < 0 ∨ (v.outcomes : Int) ≤ obs then .error (.panic "observation out of range")
  else
    match lastIdx v.id f.vars with
    | none => .error (.panic "variable not in this factor")
    | some idx => do
      let newVars := otherVars v.id f.vars
      let (fNew, s) ← s.createFactorM M newVars (none : Option (List α))
      let d ← restrictLoopM M f.vars newVars idx obs.toNat f.data (List.replicate f.vars.length 0) fNew.data
      return ({ fNew with data := d }, s)

/-- The loop of `ve/variables.go:133-144`. -/
def sumOutLoopM [Add α] (M : Mach) (vars newVars : List Var) (idx : Nat) :
    List α → List Nat → List α → Except Fault (List α)
  | [], _, new => .ok new
  | x :: xs, old, new => do
    let j ← M.pos newVars (old.eraseIdx idx)
    let cur ← goGetI new j
    let new' ← goSetI new j (cur + x)
    sumOutLoopM M vars newVars idx xs (increment vars old).1 new'

/-- `ve/variables.go:110-147`: `SumOut`. -/
def Vs.sumOutM [Zero α] [Add α] (M : Mach) (s : Vs) (f : Factor α) (v : Var) : Except Fault (Factor α × Vs) :=
  match lastIdx v.id f.vars with
  | none => .error (.panic "variable not in this factor")
  | some idx => do
    let newVars := otherVars v.id f.vars
    let (fNew, s) ← s.createFactorM M newVars (none : Option (List α))
    let d ← sumOutLoopM M f.vars newVars idx f.data (List.replicate f.vars.length 0) fNew.data
    return ({ fNew with data := d }, s)

/-- One iteration of the row loop of `ve/variables.go:178-214` (see `policyRow`). The flat index `row*cols` is below
the length of the data of `f` and stays a natural number. -/
def policyRowM [Zero α] [One α] [Div α] [NatCast α] [LE α] [DecidableLE α] [LT α] [DecidableLT α] [DecidableEq α]
    (M : Mach) (f : Factor α) (newVars : List Var) (idx cols : Nat) (row : Nat) (new : List α) :
    Except Fault (List α) := do
  let newIndex := outcomesOf newVars (row * cols)
  let rowData ← (List.range cols).mapM (fun c => f.getM M (newIndex.dropLast.insertIdx idx c))
  let best := argmaxLoop 0 rowData none []
  if best.length = 0 then .error (.panic "no utility values to derive policy")
  else
    let probValue : α := 1 / (best.length : α)
    best.foldlM (fun d c => do
      let j ← M.pos newVars (newIndex.dropLast ++ [c])
      goSetI d j probValue) new

/-- `ve/variables.go:150-217`: `Policy`. -/
def Vs.policyM [Zero α] [One α] [Div α] [NatCast α] [LE α] [DecidableLE α] [LT α] [DecidableLT α] [DecidableEq α]
    (M : Mach) (s : Vs) (f : Factor α) (v : Var) : Except Fault (Factor α × Vs) :=
  match lastIdx v.id f.vars with
  | none => .error (.panic "variable not in this factor")
  | some idx => do
    let w ← goGet f.vars idx
    let newVars := otherVars v.id f.vars ++ [w]
    let (fNew, s) ← s.createFactorM M newVars (none : Option (List α))
    let cols := w.outcomes
    if cols = 0 then .error (.panic "integer divide by zero")
    else
      let rows := f.data.length / cols
      let d ← (List.range rows).foldlM (fun d row => policyRowM M f newVars idx cols row d) fNew.data
      return ({ fNew with data := d }, s)

/-- `ve/variables.go:220-255`: `Rearrange`. -/
def Vs.rearrangeM [Zero α] (M : Mach) (s : Vs) (f : Factor α) (newVars : List Var) :
    Except Fault (Factor α × Vs) := do
  if f.vars.length ≠ newVars.length then
    .error (.panic "number of old and new variables doesn't match")
  else
    let indices ← newVars.mapM (oldPos f.vars)
    if newVars.map Var.id = f.vars.map Var.id then
      s.createFactorM M f.vars (some f.data)
    else
      let (fNew, s) ← s.createFactorM M newVars (none : Option (List α))
      let d ← odoBuild newVars (fun new => f.getM M (scatter f.vars.length indices new))
        fNew.data.length (List.replicate newVars.length 0)
      return ({ fNew with data := d }, s)

/-- The loop of `ve/variables.go:288-295` for one cell. -/
def productCellM [Mul α] (M : Mach) (newIndex : List Nat) : List (Factor α × List Nat) → α → Except Fault α
  | [], acc => .ok acc
  | (f, m) :: rest, acc => do
    let oldIdx ← m.mapM (fun i => goGet newIndex i)
    let x ← f.getM M oldIdx
    productCellM M newIndex rest (acc * x)

/-- The loop of `ve/variables.go:335-342` for one cell. -/
def sumCellM [Add α] (M : Mach) (newIndex : List Nat) : List (Factor α × List Nat) → α → Except Fault α
  | [], acc => .ok acc
  | (f, m) :: rest, acc => do
    let oldIdx ← m.mapM (fun i => goGet newIndex i)
    let x ← f.getM M oldIdx
    sumCellM M newIndex rest (acc + x)

/-- `ve/variables.go:258-302`: `Product`. -/
def Vs.productM [Zero α] [One α] [Mul α] (M : Mach) (s : Vs) (factors : List (Factor α)) :
    Except Fault (Factor α × Vs) :=
  match factors with
  | [f] => s.createFactorM M f.vars (some f.data)
  | _ => do
    let (newVars, maps) := mergeAll [] (factors.map Factor.vars)
    let (fNew, s) ← s.createFactorM M newVars (none : Option (List α))
    let d ← odoBuild newVars (fun new => productCellM M new (factors.zip maps) 1)
      fNew.data.length (List.replicate newVars.length 0)
    return ({ fNew with data := d }, s)

/-- `ve/variables.go:305-349`: `Sum`. -/
def Vs.sumM [Zero α] [Add α] (M : Mach) (s : Vs) (factors : List (Factor α)) : Except Fault (Factor α × Vs) :=
  match factors with
  | [f] => s.createFactorM M f.vars (some f.data)
  | _ => do
    let (newVars, maps) := mergeAll [] (factors.map Factor.vars)
    let (fNew, s) ← s.createFactorM M newVars (none : Option (List α))
    let d ← odoBuild newVars (fun new => sumCellM M new (factors.zip maps) 0)
      fNew.data.length (List.replicate newVars.length 0)
    return ({ fNew with data := d }, s)

/-- `ve/variables.go:352-375`: `Marginal`. Positions are outcome numbers. -/
def Vs.marginalM [Zero α] [Add α] (M : Mach) (s : Vs) (f : Factor α) (v : Var) : Except Fault (Factor α × Vs) :=
  match firstIdx v.id f.vars with
  | none => .error (.panic "variable not in this factor")
  | some idx => do
    let (fNew, s) ← s.createFactorM M [v] (none : Option (List α))
    let d ← marginalLoop f.vars idx f.data (List.replicate f.vars.length 0) fNew.data
    return ({ fNew with data := d }, s)

/-- `ve/variables.go:378-394`: `Normalize`. -/
def Vs.normalizeM [Zero α] [Add α] [Div α] (M : Mach) (s : Vs) (f : Factor α) : Except Fault (Factor α × Vs) := do
  let (fNew, s) ← s.createFactorM M f.vars (some f.data)
  let sum := goSum fNew.data
  return ({ fNew with data := fNew.data.map (· / sum) }, s)

/-- `ve/variables.go:398-438`: `NormalizeFor`. The positions `i*values+j` are below the length of the data. -/
def Vs.normalizeForM [Zero α] [Add α] [Div α] [DecidableEq α] (M : Mach) (s : Vs) (f : Factor α) (v : Var) :
    Except Fault (Factor α × Vs) :=
  match firstIdx v.id f.vars with
  | none => .error (.panic "variable not in this factor")
  | some idx => do
    let w ← goGet f.vars idx
    let newVars := f.vars.eraseIdx idx ++ [w]
    let (fNew, s) ← s.rearrangeM M f newVars
    if v.outcomes = 0 then .error (.panic "integer divide by zero")
    else
      let bins := fNew.data.length / v.outcomes
      return ({ fNew with data := normBins v.outcomes bins fNew.data }, s)

/-- `ve/variables.go:441-452`: `Invert`. -/
def Vs.invertM [Zero α] [One α] [Div α] (M : Mach) (s : Vs) (f : Factor α) : Except Fault (Factor α × Vs) := do
  let (fNew, s) ← s.createFactorM M f.vars (some f.data)
  return ({ fNew with data := fNew.data.map (1 / ·) }, s)

/-- `ve/factor.go:31-33`, `90-102`: `Factor.Index`, with the loop of `indexLoop` in 64 bits. -/
def Factor.index64 (f : Factor α) (is : List GoInt) : Except Fault GoInt := varsIndex f.vars is

/-- The loop of `ve/factor.go:118-124`, including the early exit. -/
def noDataLoop64 : List Var → List GoInt → Option (GoInt × GoInt)
  | v :: vs, i :: is =>
    match noDataLoop64 vs is with
    | none => none
    | some (x, m) => if i = -1 then none else some (x + i * m, m * (v.outcomes : GoInt))
  | _, _ => some (0, 1)

/-- `ve/factor.go:38-40`, `107-127`: `Factor.IndexWithNoData`. -/
def Factor.indexWithNoData64 (f : Factor α) (is : List GoInt) : Except Fault (GoInt × Bool) :=
  if is.length ≠ f.vars.length then .error (.panic "wrong number of indices")
  else match noDataLoop64 f.vars is with
    | none => .ok (0, false)
    | some (x, _) => .ok (x, true)

/-- The loop of `ve/factor.go:58-61`. -/
def rowLoop64 (s : GoInt) : List Var → List GoInt → GoInt × GoInt
  | v :: vs, i :: is =>
    let (x, m) := rowLoop64 s vs is
    (x + i * m, m * (v.outcomes : GoInt))
  | _, _ => (0, s)

/-- `ve/factor.go:51-64`: `Factor.RowIndex`. -/
def Factor.rowIndex64 (f : Factor α) (is : List GoInt) : Except Fault (GoInt × GoInt) :=
  match f.vars.getLast? with
  | none => .error (.panic "wrong number of row indices")
  | some last =>
    if is.length + 1 ≠ f.vars.length then .error (.panic "wrong number of row indices")
    else .ok ((rowLoop64 (last.outcomes : GoInt) f.vars.dropLast is).1, (last.outcomes : GoInt))

/-- `ve/factor.go:67-70`: `Factor.Get`. -/
def Factor.get64 (f : Factor α) (is : List GoInt) : Except Fault α := do
  let idx ← varsIndex f.vars is
  goGetI f.data idx.toInt

/-- `ve/factor.go:73-76`: `Factor.Set`. -/
def Factor.set64 (f : Factor α) (is : List GoInt) (x : α) : Except Fault (Factor α) := do
  let idx ← varsIndex f.vars is
  let d ← goSetI f.data idx.toInt x
  return { f with data := d }

/-- `ve/factor.go:81-84`: `Factor.Row`. -/
def Factor.row64 (f : Factor α) (is : List GoInt) : Except Fault (List α) := do
  let (idx, ln) ← f.rowIndex64 is
  goSlice f.data idx.toInt (idx + ln).toInt

end Bbn
