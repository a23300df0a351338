import Verif.Model.Factor

/-!
# `ve/variables.go`

Every operation takes the `Variables` instance and returns the new factor together with the instance after the
call (only the factor counter changes).
-/

set_option autoImplicit false

namespace Bbn

/-- `ve/variables.go:10-14`: `Variables`. `ids` is the set of keys of the map. -/
structure Vs where
  factorCounter : Nat
  variables : List Var
  ids : List Nat
deriving DecidableEq, Repr

/-- `ve/variables.go:17-21`: `NewVariables`. -/
def Vs.new : Vs := { factorCounter := 0, variables := [], ids := [] }

/-- `ve/variables.go:24-36`: `AddVariable`. `index` is converted to `uint16`; the argument `outcomes` is
already a `uint16` (the caller's conversion is modelled at the call site). Nothing is added to `ids`. -/
def Vs.addVariable (s : Vs) (id : Nat) (t : NodeType) (outcomes : Nat) : Except Fault (Var × Vs) :=
  if id ∈ s.ids then .error (.panic "there is already a variable with this ID")
  else
    let v : Var := { id := id, index := s.variables.length % 65536, outcomes := outcomes, nodeType := t }
    .ok (v, { s with variables := s.variables ++ [v] })

variable {α : Type _}

/-- `ve/variables.go:41-63`: `CreateFactor`. `none` is a nil data slice. -/
def Vs.createFactor [Zero α] (s : Vs) (vars : List Var) (data : Option (List α)) :
    Except Fault (Factor α × Vs) :=
  let rows := size vars
  match data with
  | none => .ok ({ id := s.factorCounter, data := List.replicate rows 0, vars := vars },
      { s with factorCounter := s.factorCounter + 1 })
  | some d =>
    if d.length ≠ rows then .error (.panic "wrong data length for factor")
    else .ok ({ id := s.factorCounter, data := d, vars := vars },
      { s with factorCounter := s.factorCounter + 1 })

/-- The index search of `ve/variables.go:74-81` (also `115-122`, `154-160`), without `break`: the last position
whose variable has the given ID. -/
def lastIdx (id : Nat) : List Var → Option Nat
  | [] => none
  | v :: vs =>
    match lastIdx id vs with
    | some i => some (i + 1)
    | none => if v.id = id then some 0 else none

/-- The index search of `ve/variables.go:354-359` (also `400-405`), with `break`: the first position whose
variable has the given ID. -/
def firstIdx (id : Nat) : List Var → Option Nat
  | [] => none
  | v :: vs => if v.id = id then some 0 else (firstIdx id vs).map (· + 1)

/-- `newVars` of `ve/variables.go:74-81`: the variables with another ID, in order. -/
def otherVars (id : Nat) (vars : List Var) : List Var := vars.filter (fun v => v.id ≠ id)

/-- The loop of `ve/variables.go:92-104`. State: the remaining data, `oldIndex`, and the data of `fNew`.
The two copy loops of lines 94-99 are `eraseIdx`. -/
def restrictLoop (vars newVars : List Var) (idx obs : Nat) :
    List α → List Nat → List α → Except Fault (List α)
  | [], _, new => .ok new
  | x :: xs, old, new => do
    let o ← goGet old idx
    let new' ←
      if o = obs then do
        let j ← varsIndex newVars (old.eraseIdx idx)
        goSet new j x
      else pure new
    restrictLoop vars newVars idx obs xs (increment vars old).1 new'

/-- `ve/variables.go:66-107`: `Restrict`. `obs` is Go's `int`. -/
def Vs.restrict [Zero α] (s : Vs) (f : Factor α) (v : Var) (obs : Int) : Except Fault (Factor α × Vs) :=
  if obs < 0 ∨ (v.outcomes : Int) ≤ obs then .error (.panic "observation out of range")
  else
    match lastIdx v.id f.vars with
    | none => .error (.panic "variable not in this factor")
    | some idx => do
      let newVars := otherVars v.id f.vars
      let (fNew, s) ← s.createFactor newVars (none : Option (List α))
      let d ← restrictLoop f.vars newVars idx obs.toNat f.data (List.replicate f.vars.length 0) fNew.data
      return ({ fNew with data := d }, s)

/-- The loop of `ve/variables.go:133-144`. -/
def sumOutLoop [Add α] (vars newVars : List Var) (idx : Nat) :
    List α → List Nat → List α → Except Fault (List α)
  | [], _, new => .ok new
  | x :: xs, old, new => do
    let j ← varsIndex newVars (old.eraseIdx idx)
    let cur ← goGet new j
    let new' ← goSet new j (cur + x)
    sumOutLoop vars newVars idx xs (increment vars old).1 new'

/-- `ve/variables.go:110-147`: `SumOut`. -/
def Vs.sumOut [Zero α] [Add α] (s : Vs) (f : Factor α) (v : Var) : Except Fault (Factor α × Vs) :=
  match lastIdx v.id f.vars with
  | none => .error (.panic "variable not in this factor")
  | some idx => do
    let newVars := otherVars v.id f.vars
    let (fNew, s) ← s.createFactor newVars (none : Option (List α))
    let d ← sumOutLoop f.vars newVars idx f.data (List.replicate f.vars.length 0) fNew.data
    return ({ fNew with data := d }, s)

/-- The loop of `ve/variables.go:193-201`: running maximum with the list of positions that attain it.
`none` is the initial `-Inf`. The test `u ≤ u` on `none` stands for `u > -Inf ∨ u = -Inf`, which in Go is false
only for NaN; in both Go branches the result is the one-element list. -/
def argmaxLoop [LE α] [DecidableLE α] [LT α] [DecidableLT α] [DecidableEq α] :
    Nat → List α → Option α → List Nat → List Nat
  | _, [], _, acc => acc
  | c, u :: us, none, acc =>
    if u ≤ u then argmaxLoop (c + 1) us (some u) [c] else argmaxLoop (c + 1) us none acc
  | c, u :: us, some m, acc =>
    if m < u then argmaxLoop (c + 1) us (some u) [c]
    else if u = m then argmaxLoop (c + 1) us (some m) (acc ++ [c])
    else argmaxLoop (c + 1) us (some m) acc

/-- One iteration of the row loop of `ve/variables.go:178-214`: reads the row (lines 180-191), finds the best
outcomes (192-201), and writes `1/len` for each of them (207-211). The copy loops of lines 183-189 are
`insertIdx` into the indices without the last one. -/
def policyRow [Zero α] [One α] [Div α] [NatCast α] [LE α] [DecidableLE α] [LT α] [DecidableLT α] [DecidableEq α]
    (f : Factor α) (newVars : List Var) (idx cols : Nat) (row : Nat) (new : List α) :
    Except Fault (List α) := do
  let newIndex := outcomesOf newVars (row * cols)
  let rowData ← (List.range cols).mapM (fun c => f.getN (newIndex.dropLast.insertIdx idx c))
  let best := argmaxLoop 0 rowData none []
  if best.length = 0 then .error (.panic "no utility values to derive policy")
  else
    let probValue : α := 1 / (best.length : α)
    best.foldlM (fun d c => do
      let j ← varsIndex newVars (newIndex.dropLast ++ [c])
      goSet d j probValue) new

/-- `ve/variables.go:150-217`: `Policy`. -/
def Vs.policy [Zero α] [One α] [Div α] [NatCast α] [LE α] [DecidableLE α] [LT α] [DecidableLT α] [DecidableEq α]
    (s : Vs) (f : Factor α) (v : Var) : Except Fault (Factor α × Vs) :=
  match lastIdx v.id f.vars with
  | none => .error (.panic "variable not in this factor")
  | some idx => do
    let w ← goGet f.vars idx
    let newVars := otherVars v.id f.vars ++ [w]
    let (fNew, s) ← s.createFactor newVars (none : Option (List α))
    let cols := w.outcomes
    if cols = 0 then .error (.panic "integer divide by zero")
    else
      let rows := f.data.length / cols
      let d ← (List.range rows).foldlM (fun d row => policyRow f newVars idx cols row d) fNew.data
      return ({ fNew with data := d }, s)

/-- The loop shape `for i := range fNew.data { fNew.data[i] = g(newIndex); fNew.variables.increment(newIndex) }`
shared by `Rearrange`, `Product` and `Sum` (`ve/variables.go:245-252, 286-299, 333-346`). -/
def odoBuild (vars : List Var) (g : List Nat → Except Fault α) : Nat → List Nat → Except Fault (List α)
  | 0, _ => .ok []
  | n + 1, idx => do
    let x ← g idx
    let xs ← odoBuild vars g n (increment vars idx).1
    return x :: xs

/-- `slices.Index` (library function, used in `ve/variables.go:231, 268, 315`): the first position of an element, by `==`. -/
def slicesIndex {β : Type _} [DecidableEq β] (x : β) : List β → Option Nat
  | [] => none
  | y :: ys => if y = x then some 0 else (slicesIndex x ys).map (· + 1)

/-- The loop of `ve/variables.go:246-248`: `oldIndex[indices[j]] = newIndex[j]`. `oldIndex` starts as zeros;
positions that are never written stay zero. -/
def scatter (n : Nat) (indices newIndex : List Nat) : List Nat :=
  (indices.zip newIndex).foldl (fun old p => old.set p.1 p.2) (List.replicate n 0)

/-- `ve/variables.go:231-234`: the position of a requested variable in the old factor, or the panic. -/
def oldPos (vars : List Var) (v : Var) : Except Fault Nat :=
  match slicesIndex v vars with
  | some i => .ok i
  | none => .error (.panic "variable not in original factor")

/-- `ve/variables.go:220-255`: `Rearrange`. The loop of lines 227-236 is `mapM`; `varsEqual` compares IDs. -/
def Vs.rearrange [Zero α] (s : Vs) (f : Factor α) (variables : List Var) : Except Fault (Factor α × Vs) := do
  if f.vars.length ≠ variables.length then
    .error (.panic "number of old and new variables doesn't match")
  else
    let indices ← variables.mapM (oldPos f.vars)
    if variables.map Var.id = f.vars.map Var.id then
      s.createFactor f.vars (some f.data)
    else
      let (fNew, s) ← s.createFactor variables (none : Option (List α))
      let d ← odoBuild variables (fun new => f.getN (scatter f.vars.length indices new))
        fNew.data.length (List.replicate variables.length 0)
      return ({ fNew with data := d }, s)

/-- The inner loop of `ve/variables.go:267-274`: merges the variables of one factor into `newVars` and records
their positions. -/
def mergeVars : List Var → List Var → List Var × List Nat
  | newVars, [] => (newVars, [])
  | newVars, v :: vs =>
    match slicesIndex v newVars with
    | some idx =>
      let (nv, m) := mergeVars newVars vs
      (nv, idx :: m)
    | none =>
      let (nv, m) := mergeVars (newVars ++ [v]) vs
      (nv, newVars.length :: m)

/-- The loop of `ve/variables.go:263-276`: the union of the variables of all factors in order of first
appearance, and the position map of each factor. -/
def mergeAll : List Var → List (List Var) → List Var × List (List Nat)
  | newVars, [] => (newVars, [])
  | newVars, vars :: rest =>
    let (nv, m) := mergeVars newVars vars
    let (nv', ms) := mergeAll nv rest
    (nv', m :: ms)

/-- The loop of `ve/variables.go:288-295` for one cell: `product *= fOld.Get(oldIdx)`, with
`oldIdx[k] = newIndex[m[k]]`. -/
def productCell [Mul α] (newIndex : List Nat) : List (Factor α × List Nat) → α → Except Fault α
  | [], acc => .ok acc
  | (f, m) :: rest, acc => do
    let oldIdx ← m.mapM (fun i => goGet newIndex i)
    let x ← f.getN oldIdx
    productCell newIndex rest (acc * x)

/-- The loop of `ve/variables.go:335-342` for one cell: `sum += fOld.Get(oldIdx)`. -/
def sumCell [Add α] (newIndex : List Nat) : List (Factor α × List Nat) → α → Except Fault α
  | [], acc => .ok acc
  | (f, m) :: rest, acc => do
    let oldIdx ← m.mapM (fun i => goGet newIndex i)
    let x ← f.getN oldIdx
    sumCell newIndex rest (acc + x)

/-- `ve/variables.go:258-302`: `Product`. -/
def Vs.product [Zero α] [One α] [Mul α] (s : Vs) (factors : List (Factor α)) : Except Fault (Factor α × Vs) :=
  match factors with
  | [f] => s.createFactor f.vars (some f.data)
  | _ => do
    let (newVars, maps) := mergeAll [] (factors.map Factor.vars)
    let (fNew, s) ← s.createFactor newVars (none : Option (List α))
    let d ← odoBuild newVars (fun new => productCell new (factors.zip maps) 1)
      fNew.data.length (List.replicate newVars.length 0)
    return ({ fNew with data := d }, s)

/-- `ve/variables.go:305-349`: `Sum`. -/
def Vs.sum [Zero α] [Add α] (s : Vs) (factors : List (Factor α)) : Except Fault (Factor α × Vs) :=
  match factors with
  | [f] => s.createFactor f.vars (some f.data)
  | _ => do
    let (newVars, maps) := mergeAll [] (factors.map Factor.vars)
    let (fNew, s) ← s.createFactor newVars (none : Option (List α))
    let d ← odoBuild newVars (fun new => sumCell new (factors.zip maps) 0)
      fNew.data.length (List.replicate newVars.length 0)
    return ({ fNew with data := d }, s)

/-- The loop of `ve/variables.go:370-373`. -/
def marginalLoop [Add α] (vars : List Var) (idx : Nat) :
    List α → List Nat → List α → Except Fault (List α)
  | [], _, new => .ok new
  | x :: xs, old, new => do
    let o ← goGet old idx
    let cur ← goGet new o
    let new' ← goSet new o (cur + x)
    marginalLoop vars idx xs (increment vars old).1 new'

/-- `ve/variables.go:352-375`: `Marginal`. The new factor has the argument `variable`, not the factor's own
copy of it. -/
def Vs.marginal [Zero α] [Add α] (s : Vs) (f : Factor α) (v : Var) : Except Fault (Factor α × Vs) :=
  match firstIdx v.id f.vars with
  | none => .error (.panic "variable not in this factor")
  | some idx => do
    let (fNew, s) ← s.createFactor [v] (none : Option (List α))
    let d ← marginalLoop f.vars idx f.data (List.replicate f.vars.length 0) fNew.data
    return ({ fNew with data := d }, s)

/-- `ve/variables.go:381-384` and the inner sum of `425-428`: `sum := 0.0; sum += v`. -/
def goSum [Zero α] [Add α] (l : List α) : α := l.foldl (· + ·) 0

/-- `ve/variables.go:378-394`: `Normalize`. -/
def Vs.normalize [Zero α] [Add α] [Div α] (s : Vs) (f : Factor α) : Except Fault (Factor α × Vs) := do
  let (fNew, s) ← s.createFactor f.vars (some f.data)
  let sum := goSum fNew.data
  return ({ fNew with data := fNew.data.map (· / sum) }, s)

/-- The loop body of `ve/variables.go:425-434` for one bin. -/
def normBin [Zero α] [Add α] [Div α] [DecidableEq α] (bin : List α) : List α :=
  let sum := goSum bin
  if sum = 0 then bin else bin.map (· / sum)

/-- The loop of `ve/variables.go:424-435`: `bins` consecutive bins of `values` entries. -/
def normBins [Zero α] [Add α] [Div α] [DecidableEq α] (values : Nat) : Nat → List α → List α
  | 0, d => d
  | n + 1, d => normBin (d.take values) ++ normBins values n (d.drop values)

/-- `ve/variables.go:398-438`: `NormalizeFor`. Lines 411-418 move the variable to the last place. -/
def Vs.normalizeFor [Zero α] [Add α] [Div α] [DecidableEq α] (s : Vs) (f : Factor α) (v : Var) :
    Except Fault (Factor α × Vs) :=
  match firstIdx v.id f.vars with
  | none => .error (.panic "variable not in this factor")
  | some idx => do
    let w ← goGet f.vars idx
    let newVars := f.vars.eraseIdx idx ++ [w]
    let (fNew, s) ← s.rearrange f newVars
    if v.outcomes = 0 then .error (.panic "integer divide by zero")
    else
      let bins := fNew.data.length / v.outcomes
      return ({ fNew with data := normBins v.outcomes bins fNew.data }, s)

/-- `ve/variables.go:441-452`: `Invert`. -/
def Vs.invert [Zero α] [One α] [Div α] (s : Vs) (f : Factor α) : Except Fault (Factor α × Vs) := do
  let (fNew, s) ← s.createFactor f.vars (some f.data)
  return ({ fNew with data := fNew.data.map (1 / ·) }, s)

end Bbn
