import Verif.Model.Variables

/-!
# `ve/ve.go`

The Go map `factors map[int]*Factor` is a list of factors; the key is always the factor's own ID. Go leaves the
iteration order of maps open, also between two iterations of the same map. Every `range` over a map is therefore
modelled by an arbitrary schedule (`Sched`), indexed by a counter (`tick`) that grows with every iteration.
-/

set_option autoImplicit false

namespace Bbn

/-- `ve/ve.go:10-13`: `Evidence`. -/
structure Evid where
  var : Var
  value : Int
deriving DecidableEq, Repr

/-- The entries of `l` at the positions `o` (language semantics: the order of the iterations in `ve/ve.go:81, 111, 167,
287`). -/
def atPositions {A : Type} (o : List Nat) (l : List A) : List A := o.filterMap (fun i => l[i]?)

/-- The iteration orders chosen by the Go run-time for the `n`-th iteration over a map (language semantics), as in
`ve/ve.go:81, 111, 167, 204, 287, 479`. The order of
a map of factors is a rearrangement of the positions, which may depend on the keys but not on the numbers in the
tables. -/
structure Sched (α : Type) where
  ord : Nat → List Nat → List Nat
  var : Nat → List Var → List Var
  dep : Nat → List (Var × List Var) → List (Var × List Var)
  ord_perm : ∀ n ids, (ord n ids).Perm (List.range ids.length)
  var_perm : ∀ n l, (var n l).Perm l
  dep_perm : ∀ n l, (dep n l).Perm l

/-- The entries of a map of factors in the order of the `n`-th iteration (language semantics), as in `ve/ve.go:81`. -/
def Sched.fac {α : Type} (s : Sched α) (n : Nat) (l : List (Factor α)) : List (Factor α) :=
  atPositions (s.ord n (l.map Factor.id)) l

theorem atPositions_range {A : Type} (l : List A) : atPositions (List.range l.length) l = l := by
  induction l with
  | nil => rfl
  | cons a l ih =>
    unfold atPositions at ih ⊢
    rw [List.length_cons, List.range_succ_eq_map, List.filterMap_cons, List.filterMap_map]
    exact congrArg (a :: ·) ih

theorem atPositions_perm {A : Type} {o : List Nat} {l : List A} (h : o.Perm (List.range l.length)) :
    (atPositions o l).Perm l := by
  have := h.filterMap (fun i => l[i]?)
  exact this.trans (List.Perm.of_eq (atPositions_range l))

theorem Sched.fac_perm {α : Type} (s : Sched α) (n : Nat) (l : List (Factor α)) : (s.fac n l).Perm l := by
  apply atPositions_perm
  have := s.ord_perm n (l.map Factor.id)
  rwa [List.length_map] at this

/-- `ve/ve.go:16-22`: `VE`. `deps` are the entries of the dependency map, `weights` is `none` for nil.
Not in the code: `tick` counts map iterations, `log` records the IDs of the eliminated hidden variables in
order (nothing reads it). -/
structure VE (α : Type) where
  vs : Vs
  eliminated : List Bool
  deps : List (Var × List Var)
  factors : List (Factor α)
  weights : Option (List α)
  tick : Nat
  log : List Nat

variable {α : Type}

/-- Map assignment `m[f.id] = f`: replaces an entry with the same key (language semantics), as in `ve/ve.go:31-33`. -/
def insertFactor (fs : List (Factor α)) (f : Factor α) : List (Factor α) :=
  fs.filter (fun g => g.id ≠ f.id) ++ [f]

/-- `delete(m, id)` (language semantics), as in `ve/ve.go:90-92`. -/
def deleteFactor (fs : List (Factor α)) (id : Nat) : List (Factor α) := fs.filter (fun g => g.id ≠ id)

/-- `m[id]` for a map of pointers, where the result is used: a missing entry is a nil dereference (language
semantics), as in `ve/ve.go:375-382`. -/
def lookupFactor (fs : List (Factor α)) (id : Nat) : Except Fault (Factor α) :=
  match fs.find? (fun g => g.id = id) with
  | some f => .ok f
  | none => .error (.panic "nil pointer dereference")

/-- `ve/ve.go:29-42`: `New`. -/
def VE.new (vs : Vs) (factors : List (Factor α)) (deps : List (Var × List Var)) (weights : Option (List α)) : VE α :=
  { vs := vs, eliminated := List.replicate vs.variables.length false, deps := deps,
    factors := factors.foldl insertFactor [], weights := weights, tick := 0, log := [] }

/-- The state of `sortTopologicalRecursive` (`ve/ve.go:471`): `visited`, `result`, and the tick. -/
abbrev TopoState := List Bool × List Var × Nat

/-- `ve/ve.go:481-487`: the loop over the parents, with the recursive call as an argument. `slices.Index` returns
-1 if the parent is missing, which makes `visited[-1]` panic in the recursive call. -/
def topoParents (dec : List Var) (call : Nat → TopoState → Except Fault TopoState) :
    List Var → TopoState → Except Fault TopoState
  | [], st => .ok st
  | p :: ps, st =>
    if p.nodeType ≠ .decision then topoParents dec call ps st
    else
      match slicesIndex p dec with
      | none => .error (.panic "index out of range [-1]")
      | some idx => do
        let st ← call idx st
        topoParents dec call ps st

/-- `ve/ve.go:479-489`: the loop over the dependency map. -/
def topoEntries (dec : List Var) (call : Nat → TopoState → Except Fault TopoState) (v : Var) :
    List (Var × List Var) → TopoState → Except Fault TopoState
  | [], st => .ok st
  | e :: es, st =>
    if e.1.id = v.id then do
      let st ← topoParents dec call e.2 st
      topoEntries dec call v es st
    else topoEntries dec call v es st

/-- `ve/ve.go:471-492`: `sortTopologicalRecursive`. The recursion marks a new entry of `visited` before it
descends, so its depth is at most `len(dec) + 1`; `fuel` bounds the depth (see `sortTopological`). -/
def topoRec (sch : Sched α) (dec : List Var) (deps : List (Var × List Var)) :
    Nat → Nat → TopoState → Except Fault TopoState
  | 0, _, _ => .error (.error "out of fuel")
  | fuel + 1, index, (visited, result, tick) => do
    let seen ← goGet visited index
    if seen then return (visited, result, tick)
    else
      let visited ← goSet visited index true
      let v ← goGet dec index
      let (visited, result, tick) ← topoEntries dec (topoRec sch dec deps fuel) v (sch.dep tick deps)
        (visited, result, tick + 1)
      return (visited, result ++ [v], tick)

/-- `ve/ve.go:460-469`: `sortTopological`. -/
def sortTopological (sch : Sched α) (dec : List Var) (deps : List (Var × List Var)) (tick : Nat) :
    Except Fault (List Var × Nat) := do
  let (_, result, tick) ← (List.range dec.length).foldlM
    (fun (st : TopoState) i => topoRec sch dec deps (dec.length + 1) i st)
    (List.replicate dec.length false, [], tick)
  return (result, tick)

/-- `ve/ve.go:50-58`: `getDecisions`. -/
def VE.getDecisions (sch : Sched α) (st : VE α) : Except Fault (List Var × Nat) :=
  sortTopological sch (st.vs.variables.filter (fun v => v.nodeType = .decision)) st.deps st.tick

/-- The factors of the map, in the order of the next iteration (language semantics), as in `ve/ve.go:369`. -/
def VE.iter (sch : Sched α) (st : VE α) : List (Factor α) := sch.fac st.tick st.factors

/-- `ve/ve.go:375-382`: the second loop of `restrictEvidence`. -/
def restrictIds [Zero α] (e : Evid) : List Nat → VE α → Except Fault (VE α)
  | [], st => .ok st
  | i :: is, st => do
    let fac ← lookupFactor st.factors i
    let (fac2, vs) ← st.vs.restrict fac e.var e.value
    restrictIds e is { st with vs := vs, factors := insertFactor (deleteFactor st.factors i) fac2 }

/-- `ve/ve.go:367-383`: `restrictEvidence`. Membership is by struct equality. -/
def VE.restrictEvidence [Zero α] (sch : Sched α) (st : VE α) (e : Evid) : Except Fault (VE α) :=
  let indices := ((st.iter sch).filter (fun f => e.var ∈ f.vars)).map Factor.id
  restrictIds e indices { st with tick := st.tick + 1 }

/-- `ve/ve.go:61-65`: `eliminateEvidence`. -/
def VE.eliminateEvidence [Zero α] (sch : Sched α) (st : VE α) (evidence : List Evid) : Except Fault (VE α) :=
  evidence.foldlM (fun st e => st.restrictEvidence sch e) st

/-- Deletion of several keys: `ve/ve.go:90-92`, `132-134`, `419-421`. -/
def deleteAll (fs : List (Factor α)) (ids : List Nat) : List (Factor α) := ids.foldl deleteFactor fs

/-- `ve/ve.go:70`: the condition on `except`. -/
def notExcept (except : Option Var) (u : Var) : Bool :=
  match except with
  | none => true
  | some e => u.id ≠ e.id

/-- `ve/ve.go:67-93`: `removeUtilities`. -/
def VE.removeUtilities (sch : Sched α) (st : VE α) (except : Option Var) : VE α :=
  let utils := st.vs.variables.filter (fun u => u.nodeType = .utility ∧ notExcept except u)
  if utils.length = 0 then st
  else
    let indices := ((st.iter sch).filter (fun f => utils.any (fun u => u ∈ f.vars))).map Factor.id
    { st with factors := deleteAll st.factors indices, tick := st.tick + 1 }

/-- `ve/ve.go:112-123`: position of the first utility variable that occurs in the factor. -/
def firstUtil (utils : List Var) (f : Factor α) : Option Nat := utils.findIdx? (fun u => u ∈ f.vars)

/-- `ve/ve.go:114-118`: scales a utility factor with the weight at position `i`, if there are weights. -/
def scaleUtil [Zero α] [One α] [Mul α] (weights : Option (List α)) (i : Nat) (f : Factor α) (vs : Vs) :
    Except Fault (Factor α × Vs) :=
  match weights with
  | none => .ok (f, vs)
  | some ws => do
    let w ← goGet ws i
    vs.product [f, { id := 0, data := [w], vars := [] }]

/-- `ve/ve.go:111-124`: the loop that collects (and scales) the utility factors. Returns the keys and the factors. -/
def collectUtils [Zero α] [One α] [Mul α] (utils : List Var) (weights : Option (List α)) :
    List (Factor α) → Vs → Except Fault (List Nat × List (Factor α) × Vs)
  | [], vs => .ok ([], [], vs)
  | f :: fs, vs =>
    match firstUtil utils f with
    | none => collectUtils utils weights fs vs
    | some i => do
      let (scaled, vs) ← scaleUtil weights i f vs
      let (ids, facs, vs) ← collectUtils utils weights fs vs
      return (f.id :: ids, scaled :: facs, vs)

/-- `ve/ve.go:127-130`: sums out all utility variables. -/
def sumOutUtils [Zero α] [Add α] : List Var → Factor α → Vs → List Bool → Except Fault (Factor α × Vs × List Bool)
  | [], sum, vs, elim => .ok (sum, vs, elim)
  | u :: us, sum, vs, elim => do
    let (sum, vs) ← vs.sumOut sum u
    let elim ← goSet elim u.index true
    sumOutUtils us sum vs elim

/-- `ve/ve.go:95-137`: `sumUtilities`. -/
def VE.sumUtilities [Zero α] [One α] [Add α] [Mul α] (sch : Sched α) (st : VE α) : Except Fault (VE α) :=
  let utils := st.vs.variables.filter (fun u => u.nodeType = .utility)
  if utils.length = 0 then .ok st
  else do
    let (indices, factors, vs) ← collectUtils utils st.weights (st.iter sch) st.vs
    let (sum, vs) ← vs.sum factors
    let (sum, vs, elim) ← sumOutUtils utils sum vs st.eliminated
    return { st with vs := vs, eliminated := elim, tick := st.tick + 1,
                     factors := insertFactor (deleteAll st.factors indices) sum }

/-- `ve/ve.go:203-207`: marks the parents of one decision. The map lookup `ve.dependencies[dec]` is by struct
equality. -/
def markParents (deps : List (Var × List Var)) (acc : List Bool) (dec : Var) : Except Fault (List Bool) :=
  match deps.find? (fun e => e.1 = dec) with
  | none => .ok acc
  | some e => e.2.foldlM (fun acc v => goSet acc v.index true) acc

/-- `ve/ve.go:193-225`: `getDecisionParents`. -/
def VE.getDecisionParents (sch : Sched α) (st : VE α) (single : Bool) : Except Fault (List Bool × Nat) := do
  let (decisions, tick) ← st.getDecisions sch
  let considered := if single then decisions.reverse.take 1 else decisions.reverse
  let parents ← considered.foldlM (markParents st.deps) (List.replicate st.vs.variables.length false)
  return (parents, tick)

/-- `ve/ve.go:171-175`: adds the variables whose ID is not there yet. -/
def addIds (newVars vars : List Var) : List Var :=
  vars.foldl (fun acc v => if acc.any (fun w => w.id = v.id) then acc else acc ++ [v]) newVars

/-- `ve/ve.go:167-177`: the degree of a hidden variable, for one iteration order of the factors. -/
def degreeOf (v : Var) (fs : List (Factor α)) : Nat :=
  (fs.foldl (fun acc f => if f.vars.any (fun w => w.id = v.id) then addIds acc f.vars else acc) []).length

/-- `ve/ve.go:166-184`: the list of hidden variables with their degrees. Each degree is computed in a separate
iteration over the factors. -/
def degrees (sch : Sched α) (fs : List (Factor α)) : Nat → List Var → List (Var × Nat)
  | _, [] => []
  | tick, v :: vs => (v, degreeOf v (sch.fac tick fs)) :: degrees sch fs (tick + 1) vs

/-- `ve/ve.go:149-154`: inserts into the map `hidden`, keyed by ID. -/
def insertHidden (h : List Var) (v : Var) : List Var := h.filter (fun w => w.id ≠ v.id) ++ [v]

/-- `ve/ve.go:147-160`: the map of hidden variables. The loop over the variables is a fold over the variables with
their positions. -/
def hiddenVars (vars : List Var) (eliminated isDecisionParent : List Bool) (evidence : List Evid) (query : List Var) :
    Except Fault (List Var) := do
  let hidden ← (vars.zipIdx).foldlM (fun h (p : Var × Nat) => do
    if p.1.nodeType ≠ .chance then return h
    else
      let el ← goGet eliminated p.2
      if el then return h
      else
        let par ← goGet isDecisionParent p.1.index
        if par then return h else return insertHidden h p.1) []
  let hidden := hidden.filter (fun v => evidence.all (fun e => e.var.id ≠ v.id))
  return hidden.filter (fun v => query.all (fun q => q.id ≠ v.id))

/-- `ve/ve.go:385-425`: `removeHidden`. -/
def VE.removeHidden [Zero α] [One α] [Add α] [Mul α] (sch : Sched α) (st : VE α) (v : Var) : Except Fault (VE α) := do
  let factors := (st.iter sch).filter (fun f => f.vars.any (fun w => w.id = v.id))
  let (prod, vs) ← st.vs.product factors
  let (prod, vs) ← vs.sumOut prod v
  let elim ← goSet st.eliminated v.index true
  return { st with vs := vs, eliminated := elim, tick := st.tick + 1, log := st.log ++ [v.id],
                   factors := insertFactor (deleteAll st.factors (factors.map Factor.id)) prod }

/-- Part of `stableSort` (`ve/ve.go:186`): puts an element before the first one that it may precede. -/
def insertBy {A : Type} (le : A → A → Bool) (a : A) : List A → List A
  | [] => [a]
  | b :: l => if le a b then a :: b :: l else b :: insertBy le a l

/-- `slices.SortStableFunc` (library function, used in `ve/ve.go:186`): the sorted list in which elements that compare as equal keep their order. Written
as insertion sort, so that it can be evaluated; the lemma `stableSort_eq` says that merge sort gives the same. -/
def stableSort {A : Type} (le : A → A → Bool) (l : List A) : List A := l.foldr (insertBy le) []

/-- `ve/ve.go:144-191`: `eliminateHidden`. `slices.SortFunc` is not stable, but the IDs are distinct (map keys), so
its result is the one sorted list, here computed by `stableSort`, like that of `slices.SortStableFunc`. -/
def VE.eliminateHidden [Zero α] [One α] [Add α] [Mul α] (sch : Sched α) (st : VE α) (evidence : List Evid)
    (query : List Var) (single : Bool) : Except Fault (VE α) := do
  let (isDecisionParent, tick) ← st.getDecisionParents sch single
  let hidden ← hiddenVars st.vs.variables st.eliminated isDecisionParent evidence query
  let hiddenList := degrees sch st.factors (tick + 1) (sch.var tick hidden)
  let hiddenList := stableSort (fun a b => a.1.id ≤ b.1.id) hiddenList
  let hiddenList := stableSort (fun a b => a.2 ≤ b.2) hiddenList
  hiddenList.foldlM (fun st p => st.removeHidden sch p.1) { st with tick := tick + 1 + hidden.length }

/-- `ve/ve.go:427-458`: `multiplyAll`, also `summarize` (227-229). -/
def VE.multiplyAll [Zero α] [One α] [Mul α] (sch : Sched α) (st : VE α) : Except Fault (Factor α × VE α) := do
  let (f, vs) ← st.vs.product (st.iter sch)
  return (f, { st with vs := vs, tick := st.tick + 1, factors := insertFactor [] f })

/-- `ve/ve.go:244-260`: `solve`. -/
def VE.solve [Zero α] [One α] [Add α] [Mul α] (sch : Sched α) (st : VE α) (evidence : List Evid) (query : List Var)
    (utility : Bool) (utilityVar : Option Var) : Except Fault (Factor α × VE α) := do
  let st ← st.eliminateEvidence sch evidence
  let st ←
    if utility then
      match utilityVar with
      | none => st.sumUtilities sch
      | some u => pure (st.removeUtilities sch (some u))
    else pure (st.removeUtilities sch none)
  let st ← st.eliminateHidden sch evidence query false
  st.multiplyAll sch

/-- `ve/ve.go:232-234`: `SolveQuery`. -/
def VE.solveQuery [Zero α] [One α] [Add α] [Mul α] (sch : Sched α) (st : VE α) (evidence : List Evid)
    (query : List Var) : Except Fault (Factor α × VE α) := st.solve sch evidence query false none

/-- `ve/ve.go:240-242`: `SolveUtility`. -/
def VE.solveUtility [Zero α] [One α] [Add α] [Mul α] (sch : Sched α) (st : VE α) (evidence : List Evid)
    (query : List Var) (utilityVar : Option Var) : Except Fault (Factor α × VE α) :=
  st.solve sch evidence query true utilityVar

/-- `ve/ve.go:328-365`: `findDecisionFactors`, called with an empty `result`. `hasParent` is always true, so the
first loop takes every factor that contains the decision, and the second loop then finds nothing new. -/
def VE.findDecisionFactors (sch : Sched α) (st : VE α) (decision : Var) : List (Factor α) :=
  let result := (st.iter sch).filter (fun f => decision ∈ f.vars)
  if result.length = 0 then
    (sch.fac (st.tick + 1) st.factors).filter (fun f => decision ∈ f.vars ∧ ¬ 1 < f.vars.length)
  else result

/-- Writing `ve.variables.variables[i].nodeType = ChanceNode` (`ve/ve.go:314`). -/
def setChance (vars : List Var) (i : Nat) : Except Fault (List Var) := do
  let v ← goGet vars i
  goSet vars i (v.withNodeType .chance)

/-- `ve/ve.go:291-302`: the product of the factors of a decision; a single factor is used as it is. -/
def decisionProduct [Zero α] [One α] [Mul α] (vs : Vs) : List (Factor α) → Except Fault (Factor α × Vs)
  | [] => .error (.panic "found no factors containing variable")
  | [f] => .ok (f, vs)
  | fs => vs.product fs

/-- One iteration of the loop of `ve/ve.go:281-323`. Returns the utility factor and the policy. -/
def VE.solvePolicy [Zero α] [One α] [Add α] [Mul α] [Div α] [NatCast α] [LE α] [DecidableLE α] [LT α]
    [DecidableLT α] [DecidableEq α] (sch : Sched α) (st : VE α) (single : Bool) (dec : Var) :
    Except Fault ((Var × Factor α × Factor α) × VE α) := do
  let (fac, vs) ← decisionProduct st.vs (st.findDecisionFactors sch dec)
  let (policy, vs) ← vs.policy fac dec
  let vars ← setChance vs.variables dec.index
  let st' := { st with vs := { vs with «variables» := vars }, tick := st.tick + 2,
                       factors := insertFactor st.factors policy }
  let st' ← st'.eliminateHidden sch [] [] single
  return ((dec, fac, policy), st')

/-- `ve/ve.go:278-326`: `solvePolicies`. The argument is the list of decisions in the order of solving (last
first). The result lists the entries of the map in the order of insertion; a later entry with the same key would
replace the earlier one (decisions are distinct). -/
def VE.solvePolicyList [Zero α] [One α] [Add α] [Mul α] [Div α] [NatCast α] [LE α] [DecidableLE α] [LT α]
    [DecidableLT α] [DecidableEq α] (sch : Sched α) (single : Bool) :
    List Var → VE α → Except Fault (List (Var × Factor α × Factor α) × VE α)
  | [], st => .ok ([], st)
  | dec :: decs, st => do
    let (p, st) ← st.solvePolicy sch single dec
    if single then return ([p], st)
    else
      let (ps, st) ← solvePolicyList sch single decs st
      return (p :: ps, st)

/-- `ve/ve.go:265-276`: `SolvePolicies`. `none` is the nil map. -/
def VE.solvePolicies [Zero α] [One α] [Add α] [Mul α] [Div α] [NatCast α] [LE α] [DecidableLE α] [LT α]
    [DecidableLT α] [DecidableEq α] (sch : Sched α) (st : VE α) (single : Bool) :
    Except Fault (Option (List (Var × Factor α × Factor α)) × VE α) := do
  let (decisions, tick) ← st.getDecisions sch
  let st := { st with tick := tick }
  if decisions.length = 0 then return (none, st)
  else
    let st ← st.sumUtilities sch
    let st ← st.eliminateHidden sch [] [] single
    let (ps, st) ← st.solvePolicyList sch single decisions.reverse
    return (some ps, st)

end Bbn
