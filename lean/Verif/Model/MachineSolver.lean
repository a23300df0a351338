import Verif.Model.Machine
import Verif.Model.Network

/-!
# `ve/ve.go` and `network.go` with 64-bit integers

The functions of `Model/VE` and `Model/Network` that create or read tables, once more, with the arithmetic of sizes and
positions as a parameter. Nothing else differs, and the simplifications are those of the originals.
-/

set_option autoImplicit false

namespace Bbn

variable {α : Type}

/-- `ve/ve.go:375-382`: the second loop of `restrictEvidence`. -/
def restrictIdsM [Zero α] (M : Mach) (e : Evid) : List Nat → VE α → Except Fault (VE α)
  | [], st => .ok st
  | i :: is, st => do
    let fac ← lookupFactor st.factors i
    let (fac2, vs) ← st.vs.restrictM M fac e.var e.value
    restrictIdsM M e is { st with vs := vs, factors := insertFactor (deleteFactor st.factors i) fac2 }

/-- `ve/ve.go:367-383`: `restrictEvidence`. Membership is by struct equality. -/
def VE.restrictEvidenceM [Zero α] (M : Mach) (sch : Sched α) (st : VE α) (e : Evid) : Except Fault (VE α) :=
  let indices := ((st.iter sch).filter (fun f => e.var ∈ f.vars)).map Factor.id
  restrictIdsM M e indices { st with tick := st.tick + 1 }

/-- `ve/ve.go:61-65`: `eliminateEvidence`. -/
def VE.eliminateEvidenceM [Zero α] (M : Mach) (sch : Sched α) (st : VE α) (evidence : List Evid) : Except Fault (VE α) :=
  evidence.foldlM (fun st e => st.restrictEvidenceM M sch e) st

/-- `ve/ve.go:114-118`: scales a utility factor with the weight at position `i`, if there are weights. -/
def scaleUtilM [Zero α] [One α] [Mul α] (M : Mach) (weights : Option (List α)) (i : Nat) (f : Factor α) (vs : Vs) :
    Except Fault (Factor α × Vs) :=
  match weights with
  | none => .ok (f, vs)
  | some ws => do
    let w ← goGet ws i
    vs.productM M [f, { id := 0, data := [w], vars := [] }]

/-- `ve/ve.go:111-124`: the loop that collects (and scales) the utility factors. Returns the keys and the factors. -/
def collectUtilsM [Zero α] [One α] [Mul α] (M : Mach) (utils : List Var) (weights : Option (List α)) :
    List (Factor α) → Vs → Except Fault (List Nat × List (Factor α) × Vs)
  | [], vs => .ok ([], [], vs)
  | f :: fs, vs =>
    match firstUtil utils f with
    | none => collectUtilsM M utils weights fs vs
    | some i => do
      let (scaled, vs) ← scaleUtilM M weights i f vs
      let (ids, facs, vs) ← collectUtilsM M utils weights fs vs
      return (f.id :: ids, scaled :: facs, vs)

/-- `ve/ve.go:127-130`: sums out all utility variables. -/
def sumOutUtilsM [Zero α] [Add α] (M : Mach) : List Var → Factor α → Vs → List Bool → Except Fault (Factor α × Vs × List Bool)
  | [], sum, vs, elim => .ok (sum, vs, elim)
  | u :: us, sum, vs, elim => do
    let (sum, vs) ← vs.sumOutM M sum u
    let elim ← goSet elim u.index true
    sumOutUtilsM M us sum vs elim

/-- `ve/ve.go:95-137`: `sumUtilities`. -/
def VE.sumUtilitiesM [Zero α] [One α] [Add α] [Mul α] (M : Mach) (sch : Sched α) (st : VE α) : Except Fault (VE α) :=
  let utils := st.vs.variables.filter (fun u => u.nodeType = .utility)
  if utils.length = 0 then .ok st
  else do
    let (indices, factors, vs) ← collectUtilsM M utils st.weights (st.iter sch) st.vs
    let (sum, vs) ← vs.sumM M factors
    let (sum, vs, elim) ← sumOutUtilsM M utils sum vs st.eliminated
    return { st with vs := vs, eliminated := elim, tick := st.tick + 1,
                     factors := insertFactor (deleteAll st.factors indices) sum }

/-- `ve/ve.go:385-425`: `removeHidden`. -/
def VE.removeHiddenM [Zero α] [One α] [Add α] [Mul α] (M : Mach) (sch : Sched α) (st : VE α) (v : Var) : Except Fault (VE α) := do
  let factors := (st.iter sch).filter (fun f => f.vars.any (fun w => w.id = v.id))
  let (prod, vs) ← st.vs.productM M factors
  let (prod, vs) ← vs.sumOutM M prod v
  let elim ← goSet st.eliminated v.index true
  return { st with vs := vs, eliminated := elim, tick := st.tick + 1, log := st.log ++ [v.id],
                   factors := insertFactor (deleteAll st.factors (factors.map Factor.id)) prod }

/-- `ve/ve.go:144-191`: `eliminateHidden`. -/
def VE.eliminateHiddenM [Zero α] [One α] [Add α] [Mul α] (M : Mach) (sch : Sched α) (st : VE α) (evidence : List Evid)
    (query : List Var) (single : Bool) : Except Fault (VE α) := do
  let (isDecisionParent, tick) ← st.getDecisionParents sch single
  let hidden ← hiddenVars st.vs.variables st.eliminated isDecisionParent evidence query
  let hiddenList := degrees sch st.factors (tick + 1) (sch.var tick hidden)
  let hiddenList := stableSort (fun a b => a.1.id ≤ b.1.id) hiddenList
  let hiddenList := stableSort (fun a b => a.2 ≤ b.2) hiddenList
  hiddenList.foldlM (fun st p => st.removeHiddenM M sch p.1) { st with tick := tick + 1 + hidden.length }

/-- `ve/ve.go:427-458`: `multiplyAll`, also `summarize` (227-229). -/
def VE.multiplyAllM [Zero α] [One α] [Mul α] (M : Mach) (sch : Sched α) (st : VE α) : Except Fault (Factor α × VE α) := do
  let (f, vs) ← st.vs.productM M (st.iter sch)
  return (f, { st with vs := vs, tick := st.tick + 1, factors := insertFactor [] f })

/-- `ve/ve.go:244-260`: `solve`. -/
def VE.solveM [Zero α] [One α] [Add α] [Mul α] (M : Mach) (sch : Sched α) (st : VE α) (evidence : List Evid) (query : List Var)
    (utility : Bool) (utilityVar : Option Var) : Except Fault (Factor α × VE α) := do
  let st ← st.eliminateEvidenceM M sch evidence
  let st ←
    if utility then
      match utilityVar with
      | none => st.sumUtilitiesM M sch
      | some u => pure (st.removeUtilities sch (some u))
    else pure (st.removeUtilities sch none)
  let st ← st.eliminateHiddenM M sch evidence query false
  st.multiplyAllM M sch

/-- `ve/ve.go:232-234`: `SolveQuery`. -/
def VE.solveQueryM [Zero α] [One α] [Add α] [Mul α] (M : Mach) (sch : Sched α) (st : VE α) (evidence : List Evid)
    (query : List Var) : Except Fault (Factor α × VE α) := st.solveM M sch evidence query false none

/-- `ve/ve.go:240-242`: `SolveUtility`. -/
def VE.solveUtilityM [Zero α] [One α] [Add α] [Mul α] (M : Mach) (sch : Sched α) (st : VE α) (evidence : List Evid)
    (query : List Var) (utilityVar : Option Var) : Except Fault (Factor α × VE α) :=
  st.solveM M sch evidence query true utilityVar

/-- `ve/ve.go:291-302`: the product of the factors of a decision; a single factor is used as it is. -/
def decisionProductM [Zero α] [One α] [Mul α] (M : Mach) (vs : Vs) : List (Factor α) → Except Fault (Factor α × Vs)
  | [] => .error (.panic "found no factors containing variable")
  | [f] => .ok (f, vs)
  | fs => vs.productM M fs

/-- One iteration of the loop of `ve/ve.go:281-323`. Returns the utility factor and the policy. -/
def VE.solvePolicyM [Zero α] [One α] [Add α] [Mul α] [Div α] [NatCast α] [LE α] [DecidableLE α] [LT α]
    [DecidableLT α] [DecidableEq α] (M : Mach) (sch : Sched α) (st : VE α) (single : Bool) (dec : Var) :
    Except Fault ((Var × Factor α × Factor α) × VE α) := do
  let (fac, vs) ← decisionProductM M st.vs (st.findDecisionFactors sch dec)
  let (policy, vs) ← vs.policyM M fac dec
  let vars ← setChance vs.variables dec.index
  let st' := { st with vs := { vs with «variables» := vars }, tick := st.tick + 2,
                       factors := insertFactor st.factors policy }
  let st' ← st'.eliminateHiddenM M sch [] [] single
  return ((dec, fac, policy), st')

/-- `ve/ve.go:278-326`: `solvePolicies`. The argument is the list of decisions in the order of solving (last
first). The result lists the entries of the map in the order of insertion; a later entry with the same key would
replace the earlier one (decisions are distinct). -/
def VE.solvePolicyListM [Zero α] [One α] [Add α] [Mul α] [Div α] [NatCast α] [LE α] [DecidableLE α] [LT α]
    [DecidableLT α] [DecidableEq α] (M : Mach) (sch : Sched α) (single : Bool) :
    List Var → VE α → Except Fault (List (Var × Factor α × Factor α) × VE α)
  | [], st => .ok ([], st)
  | dec :: decs, st => do
    let (p, st) ← st.solvePolicyM M sch single dec
    if single then return ([p], st)
    else
      let (ps, st) ← solvePolicyListM M sch single decs st
      return (p :: ps, st)

/-- `ve/ve.go:265-276`: `SolvePolicies`. `none` is the nil map. -/
def VE.solvePoliciesM [Zero α] [One α] [Add α] [Mul α] [Div α] [NatCast α] [LE α] [DecidableLE α] [LT α]
    [DecidableLT α] [DecidableEq α] (M : Mach) (sch : Sched α) (st : VE α) (single : Bool) :
    Except Fault (Option (List (Var × Factor α × Factor α)) × VE α) := do
  let (decisions, tick) ← st.getDecisions sch
  let st := { st with tick := tick }
  if decisions.length = 0 then return (none, st)
  else
    let st ← st.sumUtilitiesM M sch
    let st ← st.eliminateHiddenM M sch [] [] single
    let (ps, st) ← st.solvePolicyListM M sch single decisions.reverse
    return (some ps, st)

/-- `network.go:445-488`: one iteration of the factor loop of `toVE`. State: factors, dependencies, `vars`. -/
def Net.addTableM [Zero α] [Add α] [Div α] [DecidableEq α] (M : Mach) (n : Net α) (names : List (String × NVar × Var))
    (st : List (Factor α) × List (Var × List Var) × Vs) (f : NFactor α) :
    Except Fault (List (Factor α) × List (Var × List Var) × Vs) :=
  if f.forVar = n.totalName then .ok st
  else
    match mapGet names f.forVar with
    | none => .error (.error "variable for factor not found")
    | some e => do
      let given ← givenVars names f.given
      if e.2.nodeType = .decision then return (st.1, mapSet st.2.1 e.2 given, st.2.2)
      else if e.1.nodeType = .decision then return st
      else
        let (fac, vs) ← st.2.2.createFactorM M (given ++ [e.2]) f.table
        if e.1.nodeType = .chance then
          let (fac, vs) ← vs.normalizeForM M fac e.2
          return (st.1 ++ [fac], st.2.1, vs)
        else return (st.1 ++ [fac], st.2.1, vs)

/-- `network.go:538-563`: `policyFactors`, for one iteration order of the policies. -/
def Net.policyFactorsM [Zero α] (M : Mach) (n : Net α) (varIDs : List (NVar × Var)) (evidence : List (String × String)) :
    List (String × Factor α) → Vs → Except Fault (List (Factor α) × Vs)
  | [], vs => .ok ([], vs)
  | p :: ps, vs =>
    if (mapGet evidence p.1).isSome then n.policyFactorsM M varIDs evidence ps vs
    else do
      let vars ← p.2.vars.mapM (n.policyVar varIDs)
      let (fac, vs) ← vs.createFactorM M vars (some p.2.data)
      let (facs, vs) ← n.policyFactorsM M varIDs evidence ps vs
      return (fac :: facs, vs)

/-- `network.go:410-500`: `toVE`, as the `k`-th solver of a call. -/
def Net.toVEM [Zero α] [Add α] [Div α] [DecidableEq α] (M : Mach) (sch : NSched α) (k : Nat) (n : Net α)
    (evidence : List (String × String)) : Except Fault (VE α × List (String × NVar × Var)) := do
  let (varIDs, vs) ← n.addVariables 0 n.variables Vs.new
  let names := n.nameMap 0 varIDs []
  let (fs, deps, vs) ← n.factors.foldlM (n.addTableM M names) ([], [], vs)
  let (ps, vs) ← n.policyFactorsM M varIDs evidence (sch.pol k n.policies) vs
  let weights ← n.utilityWeights
  return (VE.new vs (fs ++ ps) deps weights, names)

/-- `n.ve, n.variableNames, err = n.toVE(evidence)` (`network.go:238`, `349`): on an error both become nil. -/
def Net.enterM [Zero α] [Add α] [Div α] [DecidableEq α] (M : Mach) (sch : NSched α) (k : Nat) (n : Net α)
    (evidence : List (String × String)) : Except Fault (VE α) × Net α :=
  match n.toVEM M sch k evidence with
  | .ok (ve, names) => (.ok ve, { n with vs := some ve.vs, names := names })
  | .error (.error m) => (.error (.error m), { n with vs := none, names := [] })
  | .error (.panic m) => (.error (.panic m), n)

/-- `network.go:354-388`: the second part of `solve`. -/
def solveNamedM [Zero α] [One α] [Add α] [Mul α] (M : Mach) (sch : NSched α) (ve : VE α) (names : List (String × NVar × Var))
    (evidence : List (String × String)) (query : List String) (utility : Bool) (utilityVar : String) :
    Except Fault (Factor α × VE α) := do
  let ev ← (sch.ev evidence).mapM (evidenceOf names)
  let q ← query.mapM (queryOf names)
  if utility then
    let u ← utilityOf names utilityVar
    ve.solveUtilityM M (sch.ve 0) ev q u
  else ve.solveQueryM M (sch.ve 0) ev q

/-- `network.go:342-389`: `solve`. After a fault in the second part the solver's factor counter is left as it was
before (in Go it may have grown; it only numbers later factors). -/
def Net.solveM [Zero α] [One α] [Add α] [Mul α] [Div α] [DecidableEq α] (M : Mach) (sch : NSched α) (n : Net α)
    (evidence : List (String × String)) (query : List String) (utility : Bool) (utilityVar : String)
    (ignorePolicies : Bool) : Except Fault (Factor α) × Net α :=
  match n.enterM M sch 0 (if ignorePolicies then evidence else []) with
  | (.error e, n) => (.error e, n)
  | (.ok ve, n) =>
    match solveNamedM M sch ve n.names evidence query utility utilityVar with
    | .error e => (.error e, n)
    | .ok (f, ve) => (.ok f, { n with vs := some ve.vs })

/-- `network.go:566-568`: `Normalize`. -/
def Net.normalizeM [Zero α] [Add α] [Div α] (M : Mach) (n : Net α) (f : Factor α) : Except Fault (Factor α) × Net α :=
  n.withVs (fun vs => vs.normalizeM M f)

/-- `network.go:571-574`: `NormalizeUtility`. -/
def Net.normalizeUtilityM [Zero α] [One α] [Mul α] [Div α] (M : Mach) (n : Net α) (utility probs : Factor α) :
    Except Fault (Factor α) × Net α :=
  n.withVs (fun vs => do
    let (inv, vs) ← vs.invertM M probs
    vs.productM M [utility, inv])

/-- `network.go:577-583`: `Marginal`. -/
def Net.marginalM [Zero α] [Add α] (M : Mach) (n : Net α) (f : Factor α) (v : String) : Except Fault (Factor α) × Net α :=
  match mapGet n.names v with
  | none => (.error (.panic "marginal: variable not found"), n)
  | some vv => n.withVs (fun vs => vs.marginalM M f vv.2)

/-- `network.go:319-323`: the loop of `SolveQuery` over the query variables. -/
def Net.queryLoopM [Zero α] [Add α] [Div α] (M : Mach) (f : Factor α) :
    List String → List (String × List α) → Net α → Except Fault (List (String × List α)) × Net α
  | [], result, n => (.ok result, n)
  | q :: qs, result, n =>
    match n.marginalM M f q with
    | (.error e, n) => (.error e, n)
    | (.ok m, n) =>
      match n.normalizeM M m with
      | (.error e, n) => (.error e, n)
      | (.ok g, n) => Net.queryLoopM M f qs (mapSet result q g.data) n

/-- `network.go:312-326`: `SolveQuery`. -/
def Net.solveQueryM [Zero α] [One α] [Add α] [Mul α] [Div α] [DecidableEq α] (M : Mach) (sch : NSched α) (n : Net α)
    (evidence : List (String × String)) (query : List String) (ignorePolicies : Bool) :
    Except Fault (List (String × List α) × Factor α) × Net α :=
  match n.solveM M sch evidence query false "" ignorePolicies with
  | (.error e, n) => (.error e, n)
  | (.ok f, n) =>
    match Net.queryLoopM M f query [] n with
    | (.error e, n) => (.error e, n)
    | (.ok r, n) => (.ok (r, f), n)

/-- `network.go:337-339`: `SolveUtility`. -/
def Net.solveUtilityM [Zero α] [One α] [Add α] [Mul α] [Div α] [DecidableEq α] (M : Mach) (sch : NSched α) (n : Net α)
    (evidence : List (String × String)) (query : List String) (utilityVar : String) (ignorePolicies : Bool) :
    Except Fault (Factor α) × Net α :=
  n.solveM M sch evidence query true utilityVar ignorePolicies

/-- `network.go:586-589`: `Rearrange`. -/
def Net.rearrangeM [Zero α] (M : Mach) (n : Net α) (f : Factor α) (names : List String) : Except Fault (Factor α) × Net α :=
  match n.rearrangeVariables f names with
  | .error e => (.error e, n)
  | .ok vars => n.withVs (fun vs => vs.rearrangeM M f vars)

/-- `network.go:236-256`: the loop of `SolvePolicies`; the first argument is the number of iterations left, the
second counts the iterations. -/
def Net.policyStepsM [Zero α] [One α] [Add α] [Mul α] [Div α] [NatCast α] [LE α] [DecidableLE α] [LT α]
    [DecidableLT α] [DecidableEq α] (M : Mach) (sch : NSched α) (stepwise : Bool) :
    Nat → Nat → Net α → Except Fault Unit × Net α
  | 0, _, n => (.ok (), n)
  | left + 1, k, n =>
    match n.enterM M sch k [] with
    | (.error e, n) => (.error e, n)
    | (.ok ve, n) =>
      match ve.solvePoliciesM M (sch.ve k) stepwise with
      | .error e => (.error e, n)
      | .ok (none, ve) => (.ok (), { n with vs := some ve.vs })
      | .ok (some solved, ve) =>
        Net.policyStepsM M sch stepwise left (k + 1)
          { n with vs := some ve.vs, policies := (sch.names k n.names).foldl (storePolicy solved) n.policies }

/-- `network.go:259-286`: one returned policy. Lines 262-274 move the decision to the last place. -/
def Net.policyTableM [Zero α] (M : Mach) (n : Net α) (vs : Vs) (name : String) (f : Factor α) :
    Except Fault (NFactor α × Vs) :=
  match mapGet n.names name with
  | none => .error (.panic "nil pointer dereference")
  | some vv =>
    match firstIdx vv.2.id f.vars with
    | none => .error (.panic "index out of range [-1]")
    | some idx => do
      let w ← goGet f.vars idx
      let newVars := f.vars.eraseIdx idx ++ [w]
      let (g, vs) ← vs.rearrangeM M f newVars
      let given ← newVars.dropLast.mapM (fun v => do
        let x ← goGet n.variables v.id
        return x.name)
      return ({ forVar := name, given := given, table := some g.data, outcomes := [], columns := 0 }, vs)

/-- `network.go:258-287`: the loop that builds the result. -/
def Net.policyTablesM [Zero α] (M : Mach) (n : Net α) :
    List (String × Factor α) → Vs → List (String × NFactor α) → Except Fault (List (String × NFactor α) × Vs)
  | [], vs, acc => .ok (acc, vs)
  | p :: ps, vs, acc => do
    let (t, vs) ← n.policyTableM M vs p.1 p.2
    n.policyTablesM M ps vs (mapSet acc p.1 t)

/-- `network.go:232-290`: `SolvePolicies`. -/
def Net.solvePoliciesM [Zero α] [One α] [Add α] [Mul α] [Div α] [NatCast α] [LE α] [DecidableLE α] [LT α]
    [DecidableLT α] [DecidableEq α] (M : Mach) (sch : NSched α) (n : Net α) (stepwise : Bool) :
    Except Fault (List (String × NFactor α)) × Net α :=
  let steps := n.countDecisionSteps stepwise
  match Net.policyStepsM M sch stepwise steps 0 { n with policies := [] } with
  | (.error e, n) => (.error e, n)
  | (.ok (), n) => n.withVs (fun vs => n.policyTablesM M (sch.pol steps n.policies) vs [])

end Bbn
