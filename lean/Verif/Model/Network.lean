import Verif.Model.VE

/-!
# `network.go`

A network call returns its result together with the network after the call (`n.policies`, `n.ve` and
`n.variableNames` are the mutable parts). Go maps are association lists; every `range` over a map goes through an
arbitrary schedule (`NSched`).
-/

set_option autoImplicit false

namespace Bbn

variable {α : Type}

/-- `network.go:14-21`: `Variable`. `factor` is the pointer into the network's factors, as a position (`none` for
nil). A pointer the user sets themselves, against the comment in the source, is not modelled. -/
structure NVar where
  name : String
  nodeType : NodeType
  outcomes : List String
  position : Int × Int
  color : String
  factor : Option Nat
deriving DecidableEq, Repr

/-- `network.go:24-30`: `Factor`. `table` is `none` for a nil slice. -/
structure NFactor (α : Type) where
  forVar : String
  given : List String
  table : Option (List α)
  outcomes : List Nat
  columns : Nat
deriving DecidableEq, Repr

/-- The entries of the table (`network.go:27`); a nil slice has none. -/
def NFactor.tab (f : NFactor α) : List α := f.table.getD []

/-- The loop of `network.go:62-70`, from the last index to the first. `none` is the result `false`. -/
def rowIndexLoop : List (Int × Nat) → Int → Int → Option Int
  | [], idx, _ => some idx
  | (i, n) :: rest, idx, stride => if i < 0 then none else rowIndexLoop rest (idx + i * stride) (stride * n)

/-- `network.go:52-72`: `rowIndex`. The early return for no indices gives what the loop gives. -/
def NFactor.rowIndex (f : NFactor α) (indices : List Int) : Except Fault (Option Int) :=
  if indices.length ≠ f.outcomes.length then .error (.panic "factor can't use that many indices")
  else .ok (rowIndexLoop (indices.zip f.outcomes).reverse 0 1)

/-- `network.go:37-43`: `Row`. `none` is the result `nil, false`. The capacity of the table is taken to be its
length. -/
def NFactor.row (f : NFactor α) (indices : List Int) : Except Fault (Option (List α)) := do
  match ← f.rowIndex indices with
  | none => return none
  | some idx =>
    let r ← goSlice f.tab idx (idx + f.columns)
    return some r

/-- Reading a map entry (language semantics), as in `network.go:157`. -/
def mapGet {κ β : Type} [DecidableEq κ] (m : List (κ × β)) (k : κ) : Option β :=
  (m.find? (fun e => e.1 = k)).map Prod.snd

/-- Writing a map entry, which replaces an entry with the same key (language semantics), as in `network.go:252`. -/
def mapSet {κ β : Type} [DecidableEq κ] (m : List (κ × β)) (k : κ) (x : β) : List (κ × β) :=
  m.filter (fun e => e.1 ≠ k) ++ [(k, x)]

/-- `network.go:80-89`: `Network`. `vs` is `n.ve.Variables()`, `none` if `n.ve` is nil; nothing else of `n.ve` is
read later. `names` is `n.variableNames` (each entry with the network's variable and the solver's variable); a nil
map is an empty one. `totalUtility` is `none` for -1. -/
structure Net (α : Type) where
  name : String
  info : String
  «variables» : List NVar
  factors : List (NFactor α)
  policies : List (String × Factor α)
  vs : Option Vs
  names : List (String × NVar × Var)
  totalUtility : Option Nat

/-- `network.go:137-144`: the first loop of `prepareVariables`, the check for duplicate names. -/
def checkNames : List String → List NVar → Except Fault Unit
  | _, [] => .ok ()
  | seen, v :: vs =>
    if v.name ∈ seen then .error (.error "duplicate variable name") else checkNames (seen ++ [v.name]) vs

/-- `outcomes[g]` of `network.go:157`, filled by `network.go:143`. -/
def outcomeCount (variables : List NVar) (g : String) : Option Nat :=
  (variables.find? (fun v => v.name = g)).map (fun v => v.outcomes.length)

/-- `network.go:156-162`: the outcome counts of the parents. -/
def parentCounts (variables : List NVar) (given : List String) : Except Fault (List Nat) :=
  given.mapM (fun g =>
    match outcomeCount variables g with
    | some n => .ok n
    | none => .error (.error "parent variable not found"))

/-- `network.go:146-163`: the second loop of `prepareVariables`, which links each variable to the first factor for
its name. -/
def linkFactors (all : List NVar) : List NVar → List (NFactor α) → Except Fault (List NVar × List (NFactor α))
  | [], fs => .ok ([], fs)
  | v :: vs, fs =>
    match fs.findIdx? (fun f => f.forVar = v.name) with
    | none => do
      let (vs', fs') ← linkFactors all vs fs
      return (v :: vs', fs')
    | some i => do
      let f ← goGet fs i
      let counts ← parentCounts all f.given
      let (vs', fs') ← linkFactors all vs (fs.set i { f with outcomes := counts, columns := v.outcomes.length })
      return ({ v with factor := some i } :: vs', fs')

/-- `v.Factor.Given` (and other fields): a nil dereference if the variable has no factor, as in
`network.go:178, 201, 523`. -/
def derefFactor (fs : List (NFactor α)) (v : NVar) : Except Fault (NFactor α) :=
  match v.factor with
  | none => .error (.panic "nil pointer dereference")
  | some i => goGet fs i

/-- `network.go:178-188`: the loop over the parents of a utility node: are there utility parents, are there others? -/
def parentKinds (all : List NVar) : List String → Bool × Bool → Except Fault (Bool × Bool)
  | [], acc => .ok acc
  | g :: gs, (u, o) =>
    match all.find? (fun v => v.name = g) with
    | none => .error (.error "parent node not found")
    | some p => if p.nodeType = .utility then parentKinds all gs (true, o) else parentKinds all gs (u, true)

/-- `network.go:171-205`: the loop of `prepareUtilityNodes`; `i` is the position of the first listed variable. -/
def utilityNodes (all : List NVar) (fs : List (NFactor α)) :
    Nat → List NVar → Option Nat → Except Fault (Option Nat)
  | _, [], total => .ok total
  | i, v :: vs, total =>
    if v.nodeType ≠ .utility then utilityNodes all fs (i + 1) vs total
    else do
      let f ← derefFactor fs v
      let (u, o) ← parentKinds all f.given (false, false)
      if u && o then .error (.error "utility parents and other parents")
      else if !u && !o then .error (.error "utility node has no parents")
      else if !u then utilityNodes all fs (i + 1) vs total
      else if total.isSome then .error (.error "multiple nodes for total utility")
      else if v.outcomes.length ≠ f.given.length then .error (.error "invalid total utility node")
      else utilityNodes all fs (i + 1) vs (some i)

/-- `network.go:92-105`: `New`, with `prepareVariables` (134-166) and `prepareUtilityNodes` (169-207). -/
def newNet (name info : String) (variables : List NVar) (factors : List (NFactor α)) : Except Fault (Net α) := do
  checkNames [] variables
  let (vars, fs) ← linkFactors variables variables factors
  let total ← utilityNodes vars fs 0 vars none
  return { name := name, info := info, «variables» := vars, factors := fs, policies := [], vs := none, names := [],
           totalUtility := total }

/-- The iteration orders chosen by the Go run-time during one call (language semantics). `ve k` is for the `k`-th
solver of the call. The order of the map of policies is a rearrangement of the positions, which may depend on the names
but not on the numbers in the tables. -/
structure NSched (α : Type) where
  ve : Nat → Sched α
  polOrd : Nat → List String → List Nat
  ev : List (String × String) → List (String × String)
  names : Nat → List (String × NVar × Var) → List (String × NVar × Var)
  polOrd_perm : ∀ n l, (polOrd n l).Perm (List.range l.length)
  ev_perm : ∀ l, (ev l).Perm l
  names_perm : ∀ n l, (names n l).Perm l

/-- The entries of the map of policies in the order of the `n`-th iteration (language semantics). -/
def NSched.pol (s : NSched α) (n : Nat) (l : List (String × Factor α)) : List (String × Factor α) :=
  atPositions (s.polOrd n (l.map Prod.fst)) l

theorem NSched.pol_perm (s : NSched α) (n : Nat) (l : List (String × Factor α)) : (s.pol n l).Perm l := by
  apply atPositions_perm
  have := s.polOrd_perm n (l.map Prod.fst)
  rwa [List.length_map] at this

/-- `_, ok := n.policies[name]` of `network.go:426, 551`. -/
def Net.hasPolicy (n : Net α) (name : String) : Bool := (mapGet n.policies name).isSome

/-- The zero value of `variable` (`network.go:74-77`; language semantics): the entry of the total-utility node in
`varIDs`. -/
def zeroVariable : NVar × Var := (⟨"", .chance, [], (0, 0), "", none⟩, ⟨0, 0, 0, .chance⟩)

/-- `network.go:424-430`: the node type of a variable in the solver. -/
def Net.solverType (n : Net α) (v : NVar) : NodeType :=
  if v.nodeType = .decision ∧ n.hasPolicy v.name then .chance else v.nodeType

/-- `network.go:418-441`: the first loop of `toVE`. Returns `varIDs` and `vars`. The number of outcomes is
converted to `uint16`. -/
def Net.addVariables (n : Net α) : Nat → List NVar → Vs → Except Fault (List (NVar × Var) × Vs)
  | _, [], vs => .ok ([], vs)
  | i, v :: rest, vs =>
    if some i = n.totalUtility then do
      let (l, vs) ← n.addVariables (i + 1) rest vs
      return (zeroVariable :: l, vs)
    else do
      let (w, vs) ← vs.addVariable i (n.solverType v) (v.outcomes.length % 65536)
      let (l, vs) ← n.addVariables (i + 1) rest vs
      return ((v, w) :: l, vs)

/-- `varNames` of `network.go:418-441`; `i` is the position of the first listed variable. -/
def Net.nameMap (n : Net α) : Nat → List (NVar × Var) → List (String × NVar × Var) → List (String × NVar × Var)
  | _, [], m => m
  | i, e :: rest, m =>
    if some i = n.totalUtility then n.nameMap (i + 1) rest m
    else n.nameMap (i + 1) rest (mapSet m e.1.name e)

/-- `totalUtilityName` of `network.go:416-421`. -/
def Net.totalName (n : Net α) : String :=
  match n.totalUtility with
  | none => ""
  | some i => ((n.variables[i]?).map NVar.name).getD ""

/-- `network.go:457-464`: the solver variables of the parents. -/
def givenVars (names : List (String × NVar × Var)) (given : List String) : Except Fault (List Var) :=
  given.mapM (fun g =>
    match mapGet names g with
    | some e => .ok e.2
    | none => .error (.error "variable in factor not found"))

/-- `network.go:445-488`: one iteration of the factor loop of `toVE`. State: factors, dependencies, `vars`. -/
def Net.addTable [Zero α] [Add α] [Div α] [DecidableEq α] (n : Net α) (names : List (String × NVar × Var))
    (st : List (Factor α) × List (Var × List Var) × Vs) (f : NFactor α) :
    Except Fault (List (Factor α) × List (Var × List Var) × Vs) :=
  if f.forVar = n.totalName then .ok st
  else
    match mapGet names f.forVar with
    | none => .error (.error "variable for factor not found")
    | some e => do
      let given ← givenVars names f.given
      if e.2.nodeType = .decision then return (st.1, mapSet st.2.1 e.2 given, st.2.2)
      else if e.1.nodeType = .decision then return st
      else
        let (fac, vs) ← st.2.2.createFactor (given ++ [e.2]) f.table
        if e.1.nodeType = .chance then
          let (fac, vs) ← vs.normalizeFor fac e.2
          return (st.1 ++ [fac], st.2.1, vs)
        else return (st.1 ++ [fac], st.2.1, vs)

/-- `network.go:546-557`: a variable of a policy; solved decisions become chance variables. -/
def Net.policyVar (n : Net α) (varIDs : List (NVar × Var)) (v : Var) : Except Fault Var :=
  if v.nodeType = .decision then do
    let e ← goGet varIDs v.id
    if n.hasPolicy e.1.name then return v.withNodeType .chance else return v
  else .ok v

/-- `network.go:538-563`: `policyFactors`, for one iteration order of the policies. -/
def Net.policyFactors [Zero α] (n : Net α) (varIDs : List (NVar × Var)) (evidence : List (String × String)) :
    List (String × Factor α) → Vs → Except Fault (List (Factor α) × Vs)
  | [], vs => .ok ([], vs)
  | p :: ps, vs =>
    if (mapGet evidence p.1).isSome then n.policyFactors varIDs evidence ps vs
    else do
      let vars ← p.2.vars.mapM (n.policyVar varIDs)
      let (fac, vs) ← vs.createFactor vars (some p.2.data)
      let (facs, vs) ← n.policyFactors varIDs evidence ps vs
      return (fac :: facs, vs)

/-- `network.go:507-517`: the names of the utility nodes without the total-utility node. -/
def Net.utilityNames (n : Net α) : List String :=
  (n.variables.zipIdx.filter (fun p => some p.2 ≠ n.totalUtility ∧ p.1.nodeType = .utility)).map (fun p => p.1.name)

/-- `network.go:526-532`: the weight of one utility node. -/
def weightFor (table : List α) (parents : List String) (u : String) : Except Fault α :=
  match slicesIndex u parents with
  | none => .error (.error "utility node not included in total utility")
  | some i => goGet table i

/-- `network.go:503-535`: `prepareUtilityWeights`. -/
def Net.utilityWeights (n : Net α) : Except Fault (Option (List α)) :=
  match n.totalUtility with
  | none => .ok none
  | some i => do
    let v ← goGet n.variables i
    let f ← derefFactor n.factors v
    let ws ← n.utilityNames.mapM (weightFor f.tab f.given)
    return some ws

/-- `network.go:410-500`: `toVE`, as the `k`-th solver of a call. -/
def Net.toVE [Zero α] [Add α] [Div α] [DecidableEq α] (sch : NSched α) (k : Nat) (n : Net α)
    (evidence : List (String × String)) : Except Fault (VE α × List (String × NVar × Var)) := do
  let (varIDs, vs) ← n.addVariables 0 n.variables Vs.new
  let names := n.nameMap 0 varIDs []
  let (fs, deps, vs) ← n.factors.foldlM (n.addTable names) ([], [], vs)
  let (ps, vs) ← n.policyFactors varIDs evidence (sch.pol k n.policies) vs
  let weights ← n.utilityWeights
  return (VE.new vs (fs ++ ps) deps weights, names)

/-- `n.ve, n.variableNames, err = n.toVE(evidence)` (`network.go:238`, `349`): on an error both become nil. -/
def Net.enter [Zero α] [Add α] [Div α] [DecidableEq α] (sch : NSched α) (k : Nat) (n : Net α)
    (evidence : List (String × String)) : Except Fault (VE α) × Net α :=
  match n.toVE sch k evidence with
  | .ok (ve, names) => (.ok ve, { n with vs := some ve.vs, names := names })
  | .error (.error m) => (.error (.error m), { n with vs := none, names := [] })
  | .error (.panic m) => (.error (.panic m), n)

/-- `network.go:355-365`: one entry of the evidence. -/
def evidenceOf (names : List (String × NVar × Var)) (e : String × String) : Except Fault Evid :=
  match mapGet names e.1 with
  | none => .error (.error "evidence variable not found")
  | some vv =>
    match slicesIndex e.2 vv.1.outcomes with
    | none => .error (.error "outcome for evidence variable not found")
    | some i => .ok ⟨vv.2, i⟩

/-- `network.go:367-374`: one query variable. -/
def queryOf (names : List (String × NVar × Var)) (q : String) : Except Fault Var :=
  match mapGet names q with
  | none => .error (.error "query variable not found")
  | some vv => .ok vv.2

/-- `network.go:377-384`: the utility variable; the empty string means all. -/
def utilityOf (names : List (String × NVar × Var)) (u : String) : Except Fault (Option Var) :=
  if u = "" then .ok none
  else
    match mapGet names u with
    | none => .error (.error "utility query variable not found")
    | some vv => .ok (some vv.2)

/-- `network.go:354-388`: the second part of `solve`. -/
def solveNamed [Zero α] [One α] [Add α] [Mul α] (sch : NSched α) (ve : VE α) (names : List (String × NVar × Var))
    (evidence : List (String × String)) (query : List String) (utility : Bool) (utilityVar : String) :
    Except Fault (Factor α × VE α) := do
  let ev ← (sch.ev evidence).mapM (evidenceOf names)
  let q ← query.mapM (queryOf names)
  if utility then
    let u ← utilityOf names utilityVar
    ve.solveUtility (sch.ve 0) ev q u
  else ve.solveQuery (sch.ve 0) ev q

/-- `network.go:342-389`: `solve`. After a fault in the second part the solver's factor counter is left as it was
before (in Go it may have grown; it only numbers later factors). -/
def Net.solve [Zero α] [One α] [Add α] [Mul α] [Div α] [DecidableEq α] (sch : NSched α) (n : Net α)
    (evidence : List (String × String)) (query : List String) (utility : Bool) (utilityVar : String)
    (ignorePolicies : Bool) : Except Fault (Factor α) × Net α :=
  match n.enter sch 0 (if ignorePolicies then evidence else []) with
  | (.error e, n) => (.error e, n)
  | (.ok ve, n) =>
    match solveNamed sch ve n.names evidence query utility utilityVar with
    | .error e => (.error e, n)
    | .ok (f, ve) => (.ok f, { n with vs := some ve.vs })

/-- Runs an operation of `n.ve.Variables()`; a nil `n.ve` is a nil dereference, as in
`network.go:567, 572, 582, 588`. -/
def Net.withVs {β : Type} (n : Net α) (op : Vs → Except Fault (β × Vs)) : Except Fault β × Net α :=
  match n.vs with
  | none => (.error (.panic "nil pointer dereference"), n)
  | some vs =>
    match op vs with
    | .error e => (.error e, n)
    | .ok (x, vs) => (.ok x, { n with vs := some vs })

/-- `network.go:566-568`: `Normalize`. -/
def Net.normalize [Zero α] [Add α] [Div α] (n : Net α) (f : Factor α) : Except Fault (Factor α) × Net α :=
  n.withVs (fun vs => vs.normalize f)

/-- `network.go:571-574`: `NormalizeUtility`. -/
def Net.normalizeUtility [Zero α] [One α] [Mul α] [Div α] (n : Net α) (utility probs : Factor α) :
    Except Fault (Factor α) × Net α :=
  n.withVs (fun vs => do
    let (inv, vs) ← vs.invert probs
    vs.product [utility, inv])

/-- `network.go:577-583`: `Marginal`. -/
def Net.marginal [Zero α] [Add α] (n : Net α) (f : Factor α) (v : String) : Except Fault (Factor α) × Net α :=
  match mapGet n.names v with
  | none => (.error (.panic "marginal: variable not found"), n)
  | some vv => n.withVs (fun vs => vs.marginal f vv.2)

/-- `network.go:319-323`: the loop of `SolveQuery` over the query variables. -/
def Net.queryLoop [Zero α] [Add α] [Div α] (f : Factor α) :
    List String → List (String × List α) → Net α → Except Fault (List (String × List α)) × Net α
  | [], result, n => (.ok result, n)
  | q :: qs, result, n =>
    match n.marginal f q with
    | (.error e, n) => (.error e, n)
    | (.ok m, n) =>
      match n.normalize m with
      | (.error e, n) => (.error e, n)
      | (.ok g, n) => Net.queryLoop f qs (mapSet result q g.data) n

/-- `network.go:312-326`: `SolveQuery`. -/
def Net.solveQuery [Zero α] [One α] [Add α] [Mul α] [Div α] [DecidableEq α] (sch : NSched α) (n : Net α)
    (evidence : List (String × String)) (query : List String) (ignorePolicies : Bool) :
    Except Fault (List (String × List α) × Factor α) × Net α :=
  match n.solve sch evidence query false "" ignorePolicies with
  | (.error e, n) => (.error e, n)
  | (.ok f, n) =>
    match Net.queryLoop f query [] n with
    | (.error e, n) => (.error e, n)
    | (.ok r, n) => (.ok (r, f), n)

/-- `network.go:337-339`: `SolveUtility`. -/
def Net.solveUtility [Zero α] [One α] [Add α] [Mul α] [Div α] [DecidableEq α] (sch : NSched α) (n : Net α)
    (evidence : List (String × String)) (query : List String) (utilityVar : String) (ignorePolicies : Bool) :
    Except Fault (Factor α) × Net α :=
  n.solve sch evidence query true utilityVar ignorePolicies

/-- `network.go:395-407`: `ToEvidence`. -/
def Net.toEvidence [Zero α] [One α] (n : Net α) (v value : String) : Except Fault (List α) :=
  match mapGet n.names v with
  | none => .error (.error "evidence variable not found")
  | some vv =>
    match slicesIndex value vv.1.outcomes with
    | none => .error (.error "outcome for evidence variable not found")
    | some i => goSet (List.replicate vv.1.outcomes.length 0) i 1

/-- `network.go:622-632`: `variableIndex`; `none` is the result `-1, false`. -/
def Net.variableIndex (n : Net α) (f : Factor α) (v : String) : Except Fault (Option Nat) :=
  match mapGet n.names v with
  | none => .error (.panic "variable not found in network")
  | some vv => .ok (firstIdx vv.2.id f.vars)

/-- `network.go:596-603` and `605-608`: the position of a requested variable, or the panic. -/
def Net.requestedIndex (n : Net α) (f : Factor α) (v : String) : Except Fault Nat := do
  match ← n.variableIndex f v with
  | none => .error (.panic "variable to rearrange not in factor")
  | some i => return i

/-- `network.go:591-620`: `rearrangeVariables`. `variables[len(variables)-1]` panics for an empty list. -/
def Net.rearrangeVariables (n : Net α) (f : Factor α) (names : List String) : Except Fault (List Var) := do
  let idxs ← names.dropLast.mapM (n.requestedIndex f)
  match names.getLast? with
  | none => .error (.panic "index out of range [-1]")
  | some l =>
    let li ← n.requestedIndex f l
    let first ← idxs.mapM (goGet f.vars)
    let last ← goGet f.vars li
    let rest := (f.vars.zipIdx.filter (fun p => p.2 ∉ idxs ∧ ¬ p.1.is last)).map Prod.fst
    return first ++ rest ++ [last]

/-- `network.go:586-589`: `Rearrange`. -/
def Net.rearrange [Zero α] (n : Net α) (f : Factor α) (names : List String) : Except Fault (Factor α) × Net α :=
  match n.rearrangeVariables f names with
  | .error e => (.error e, n)
  | .ok vars => n.withVs (fun vs => vs.rearrange f vars)

/-- `network.go:292-306`: `countDecisionSteps`. -/
def Net.countDecisionSteps (n : Net α) (stepwise : Bool) : Nat :=
  if !stepwise then 1
  else
    let decisions := (n.variables.filter (fun v => v.nodeType = .decision)).length
    if decisions = 0 then 1 else decisions

/-- `network.go:248-255`: one iteration of the loop that stores the solved policies. -/
def storePolicy (solved : List (Var × Factor α × Factor α)) (policies : List (String × Factor α))
    (e : String × NVar × Var) : List (String × Factor α) :=
  if e.2.2.nodeType ≠ .decision then policies
  else
    match mapGet solved e.2.2 with
    | none => policies
    | some p => mapSet policies e.1 p.2

/-- `network.go:236-256`: the loop of `SolvePolicies`; the first argument is the number of iterations left, the
second counts the iterations. -/
def Net.policySteps [Zero α] [One α] [Add α] [Mul α] [Div α] [NatCast α] [LE α] [DecidableLE α] [LT α]
    [DecidableLT α] [DecidableEq α] (sch : NSched α) (stepwise : Bool) :
    Nat → Nat → Net α → Except Fault Unit × Net α
  | 0, _, n => (.ok (), n)
  | left + 1, k, n =>
    match n.enter sch k [] with
    | (.error e, n) => (.error e, n)
    | (.ok ve, n) =>
      match ve.solvePolicies (sch.ve k) stepwise with
      | .error e => (.error e, n)
      | .ok (none, ve) => (.ok (), { n with vs := some ve.vs })
      | .ok (some solved, ve) =>
        Net.policySteps sch stepwise left (k + 1)
          { n with vs := some ve.vs, policies := (sch.names k n.names).foldl (storePolicy solved) n.policies }

/-- `network.go:259-286`: one returned policy. Lines 262-274 move the decision to the last place. -/
def Net.policyTable [Zero α] (n : Net α) (vs : Vs) (name : String) (f : Factor α) :
    Except Fault (NFactor α × Vs) :=
  match mapGet n.names name with
  | none => .error (.panic "nil pointer dereference")
  | some vv =>
    match firstIdx vv.2.id f.vars with
    | none => .error (.panic "index out of range [-1]")
    | some idx => do
      let w ← goGet f.vars idx
      let newVars := f.vars.eraseIdx idx ++ [w]
      let (g, vs) ← vs.rearrange f newVars
      let given ← newVars.dropLast.mapM (fun v => do
        let x ← goGet n.variables v.id
        return x.name)
      return ({ forVar := name, given := given, table := some g.data, outcomes := [], columns := 0 }, vs)

/-- `network.go:258-287`: the loop that builds the result. -/
def Net.policyTables [Zero α] (n : Net α) :
    List (String × Factor α) → Vs → List (String × NFactor α) → Except Fault (List (String × NFactor α) × Vs)
  | [], vs, acc => .ok (acc, vs)
  | p :: ps, vs, acc => do
    let (t, vs) ← n.policyTable vs p.1 p.2
    n.policyTables ps vs (mapSet acc p.1 t)

/-- `network.go:232-290`: `SolvePolicies`. -/
def Net.solvePolicies [Zero α] [One α] [Add α] [Mul α] [Div α] [NatCast α] [LE α] [DecidableLE α] [LT α]
    [DecidableLT α] [DecidableEq α] (sch : NSched α) (n : Net α) (stepwise : Bool) :
    Except Fault (List (String × NFactor α)) × Net α :=
  let steps := n.countDecisionSteps stepwise
  match Net.policySteps sch stepwise steps 0 { n with policies := [] } with
  | (.error e, n) => (.error e, n)
  | (.ok (), n) => n.withVs (fun vs => n.policyTables (sch.pol steps n.policies) vs [])

end Bbn
