import Verif.Model.VE
import Mathlib.Algebra.Order.Ring.Rat

/-!
# The model on the inputs of the repository's tests: package `ve`

Not proofs: these checks run the model (with exact numbers, for two map orders) on the inputs of the Go unit tests and compare
with the values that the Go tests expect. They guard against misreading the code. Each is named by the Go test it repeats.
-/

set_option autoImplicit false

namespace Bbn.Tests

/-- The order of the entries, or the reverse of it. -/
def sched {α : Type} (r : Bool) : Sched α where
  ord _ ids := if r then (List.range ids.length).reverse else List.range ids.length
  var _ l := if r then l.reverse else l
  dep _ l := if r then l.reverse else l
  ord_perm _ _ := by cases r <;> simp [List.reverse_perm]
  var_perm _ _ := by cases r <;> simp [List.reverse_perm]
  dep_perm _ _ := by cases r <;> simp [List.reverse_perm]

/-- For both orders of `sched`. -/
def both (p : Bool → Bool) : Bool := p false && p true

/-- The call returned, and the result is `x`. -/
def gives {β : Type} [BEq β] (r : Except Fault β) (x : β) : Bool :=
  match r with
  | .ok y => y == x
  | .error _ => false

/-- The call returned an error or panicked. -/
def fails {β : Type} (r : Except Fault β) : Bool :=
  match r with
  | .ok _ => false
  | .error _ => true

/-- Variables with the given kinds and numbers of outcomes. -/
def variablesOf (l : List (NodeType × Nat)) : Except Fault (List Var × Vs) :=
  l.zipIdx.foldlM (fun st p => do
    let (v, vs) ← st.2.addVariable p.2 p.1.1 p.1.2
    return (st.1 ++ [v], vs)) ([], Vs.new)

/-- Factors of the given variables. -/
def factorsOf (vs : Vs) (l : List (List Var × List ℚ)) : Except Fault (List (Factor ℚ) × Vs) :=
  l.foldlM (fun st p => do
    let (f, vs) ← st.2.createFactor p.1 (some p.2)
    return (st.1 ++ [f], vs)) ([], vs)

/-- The numbers of a new factor. -/
def dataOf {S : Type} (r : Except Fault (Factor ℚ × S)) : Except Fault (List ℚ) := r.map (fun p => p.1.data)

/-- The variables and the numbers of a new factor. -/
def partsOf {S : Type} (r : Except Fault (Factor ℚ × S)) : Except Fault (List Var × List ℚ) :=
  r.map (fun p => (p.1.vars, p.1.data))

/-- A variable of `ve/variables_test.go`. -/
def cv (id outcomes : Nat) : Var := ⟨id, id, outcomes, .chance⟩

/-! ## `ve/factor_test.go` -/

/-- The factor of `TestFactorIndex`. -/
def f32 : Factor ℚ := ⟨0, List.replicate 6 0, [cv 0 3, cv 1 2]⟩

-- TestFactorIndex
#guard gives (f32.index [0, 0]) 0
#guard gives (f32.index [0, 1]) 1
#guard gives (f32.index [1, 0]) 2
#guard gives (f32.index [2, 1]) 5

/-- The factor of `TestFactorRowIndex`. -/
def f324 : Factor ℚ := ⟨0, List.replicate 24 0, [cv 0 3, cv 1 2, cv 2 4]⟩

-- TestFactorRowIndex
#guard gives (f324.rowIndex [0, 0]) (0, 4)
#guard gives (f324.rowIndex [0, 1]) (4, 4)
#guard gives (f324.rowIndex [1, 0]) (8, 4)
#guard gives (f324.rowIndex [1, 1]) (12, 4)

-- TestFactorIndexWithNoData
#guard gives (f32.indexWithNoData [0, 0]) (0, true)
#guard gives (f32.indexWithNoData [2, 1]) (5, true)
#guard gives ((f32.indexWithNoData [2, -1]).map Prod.snd) false

-- TestFactorOutcomes
#guard f32.outcomes 0 == [0, 0]
#guard f32.outcomes 1 == [0, 1]
#guard f32.outcomes 2 == [1, 0]
#guard f32.outcomes 5 == [2, 1]

/-! ## `ve/variable_test.go` -/

-- TestVariable
#guard (cv 1 2).id == 1
#guard (cv 0 2).nodeType == .chance
#guard ((cv 0 2).withNodeType .utility).nodeType == .utility
#guard (cv 0 2).is ((cv 0 2).withNodeType .utility)
#guard !(cv 0 2).is (cv 1 2)

/-! ## `ve/variables_test.go` -/

/-- A factor as a call of `CreateFactor` makes it. -/
def fac (vars : List Var) (data : List ℚ) : Factor ℚ := ⟨0, data, vars⟩

-- TestVariablesCreateFactor
#guard gives (do
  let (l, vs) ← variablesOf [(.chance, 2), (.chance, 3)]
  let (f, _) ← vs.createFactor l (some ([1/10, 2/10, 7/10, 6/10, 2/10, 2/10] : List ℚ))
  return ((← f.index [1, 2]), (← f.get [1, 2]))) (5, (2/10 : ℚ))

-- TestVariablesNormalize
#guard gives (dataOf (Vs.new.normalize (fac [cv 0 3] [2, 1, 1]))) [1/2, 1/4, 1/4]

-- TestVariablesInvert (without the division by zero, see C32 for infinite numbers)
#guard gives (dataOf (Vs.new.invert (fac [cv 0 2] [2, 1/4]))) [1/2, 4]

-- TestVariablesNormalizeFor
#guard gives (partsOf (Vs.new.normalizeFor (fac [cv 0 2, cv 1 3] [2, 1, 1, 6, 4, 0]) (cv 1 3)))
  ([cv 0 2, cv 1 3], [1/2, 1/4, 1/4, 6/10, 4/10, 0])
#guard gives (partsOf (Vs.new.normalizeFor (fac [cv 0 2, cv 1 3] [2, 1, 1, 6, 4, 0]) (cv 0 2)))
  ([cv 1 3, cv 0 2], [1/4, 3/4, 2/10, 8/10, 1, 0])

-- TestVariablesRestrict
#guard gives (partsOf (Vs.new.restrict (fac [cv 0 2, cv 1 3] [1/10, 2/10, 7/10, 6/10, 2/10, 2/10]) (cv 0 2) 1))
  ([cv 1 3], [6/10, 2/10, 2/10])
#guard gives (partsOf (Vs.new.restrict (fac [cv 0 2, cv 1 3] [1/10, 2/10, 7/10, 6/10, 2/10, 2/10]) (cv 1 3) 2))
  ([cv 0 2], [7/10, 2/10])

-- TestVariablesSumOut
#guard gives (partsOf (Vs.new.sumOut (fac [cv 0 2, cv 1 3] [1, 2, 7, 6, 2, 2]) (cv 0 2))) ([cv 1 3], [7, 4, 9])
#guard gives (partsOf (Vs.new.sumOut (fac [cv 0 2, cv 1 3] [1, 2, 7, 6, 2, 2]) (cv 1 3))) ([cv 0 2], [10, 10])

/-- The first factor of `TestVariablesProduct` and `TestVariablesSum`. -/
def pf1 : Factor ℚ := fac [cv 0 3, cv 2 2] [1/10, 9/10, 5/10, 5/10, 8/10, 2/10]

/-- The second factor of `TestVariablesProduct` and `TestVariablesSum`. -/
def pf2 : Factor ℚ := fac [cv 2 2, cv 1 2] [1/10, 9/10, 8/10, 2/10]

-- TestVariablesProduct
#guard gives (do
  let (f3, _) ← Vs.new.product [pf1, pf2]
  return (f3.vars, (← f3.get [0, 0, 0]) == (← pf1.get [0, 0]) * (← pf2.get [0, 0]),
    (← f3.get [0, 0, 1]) == (← pf1.get [0, 0]) * (← pf2.get [0, 1]),
    (← f3.get [0, 1, 0]) == (← pf1.get [0, 1]) * (← pf2.get [1, 0]),
    (← f3.get [1, 0, 0]) == (← pf1.get [1, 0]) * (← pf2.get [0, 0]),
    (← f3.get [2, 1, 1]) == (← pf1.get [2, 1]) * (← pf2.get [1, 1])))
  ([cv 0 3, cv 2 2, cv 1 2], true, true, true, true, true)

-- TestVariablesProductMulti1
#guard gives (dataOf (Vs.new.product [fac [cv 0 2] [1, 2], fac [cv 1 2] [2, 3], fac [cv 2 2] [4, 5]]))
  [8, 10, 12, 15, 16, 20, 24, 30]

-- TestVariablesProductMulti2
#guard gives (dataOf (Vs.new.product [fac [cv 0 2] [1, 2], fac [cv 1 2] [2, 3], fac [cv 1 2] [4, 5]])) [8, 15, 16, 30]

-- TestVariablesProductMulti3
#guard gives (dataOf (Vs.new.product [fac [cv 0 2] [3/10, 7/10],
    fac [cv 0 2, cv 1 3] [15/100, 25/100, 6/10, 7/10, 2/10, 1/10], fac [cv 0 2, ⟨2, 2, 2, .decision⟩] [70, 0, 20, 100]]))
  [315/100, 0, 525/100, 0, 126/10, 0, 98/10, 49, 28/10, 14, 14/10, 7]

-- TestVariablesProductScalar
#guard gives (partsOf (Vs.new.product [fac [cv 1 3, cv 3 2] [1, 9, 5, 5, 8, 2], fac [] [2]]))
  ([cv 1 3, cv 3 2], [2, 18, 10, 10, 16, 4])

-- TestVariablesSum
#guard gives (do
  let (f3, _) ← Vs.new.sum [pf1, pf2]
  return (f3.vars, (← f3.get [0, 0, 0]) == (← pf1.get [0, 0]) + (← pf2.get [0, 0]),
    (← f3.get [0, 0, 1]) == (← pf1.get [0, 0]) + (← pf2.get [0, 1]),
    (← f3.get [0, 1, 0]) == (← pf1.get [0, 1]) + (← pf2.get [1, 0]),
    (← f3.get [1, 0, 0]) == (← pf1.get [1, 0]) + (← pf2.get [0, 0]),
    (← f3.get [2, 1, 1]) == (← pf1.get [2, 1]) + (← pf2.get [1, 1])))
  ([cv 0 3, cv 2 2, cv 1 2], true, true, true, true, true)

-- TestVariablesPolicy
#guard gives (partsOf (Vs.new.policy (fac [cv 1 3, cv 3 2] [4/10, 6/10, 9/10, 1/10, 2/10, 8/10]) (cv 3 2)))
  ([cv 1 3, cv 3 2], [0, 1, 1, 0, 0, 1])
#guard gives (partsOf (Vs.new.policy (fac [cv 1 3, cv 3 2] [4/10, 6/10, 9/10, 1/10, 2/10, 8/10]) (cv 1 3)))
  ([cv 3 2, cv 1 3], [0, 1, 0, 0, 0, 1])

-- TestVariablesRearrange
#guard gives (partsOf (Vs.new.rearrange (fac [cv 1 3, cv 3 2] [4/10, 6/10, 9/10, 1/10, 2/10, 8/10]) [cv 3 2, cv 1 3]))
  ([cv 3 2, cv 1 3], [4/10, 9/10, 2/10, 6/10, 1/10, 8/10])
#guard gives (partsOf (Vs.new.rearrange (fac [cv 3 2, cv 1 3] [4/10, 9/10, 2/10, 6/10, 1/10, 8/10]) [cv 1 3, cv 3 2]))
  ([cv 1 3, cv 3 2], [4/10, 6/10, 9/10, 1/10, 2/10, 8/10])

/-! ## `ve/ve_test.go` and `ve/examples_test.go` -/

-- ExampleVariables
#guard gives (do
  let (p, _) ← Vs.new.product [fac [cv 0 2, cv 2 2] [1/2, 1/2, 1, 0], fac [cv 1 2, cv 2 2] [0, 1, 1, 0]]
  -- the variables are a, c, b
  return (p.data, (List.range 4).map (fun i => (p.outcomes (i * 2)).take 2)))
  ([0, 1/2, 1/2, 0, 0, 1, 0, 0], [[0, 0], [0, 1], [1, 0], [1, 1]])

-- TestEliminate, ExampleVE
#guard both (fun r => gives (do
  let (l, vs) ← variablesOf [(.chance, 2), (.chance, 2), (.chance, 2)]
  let rain ← goGet l 0
  let sprinkler ← goGet l 1
  let grass ← goGet l 2
  let (fs, vs) ← factorsOf vs [([rain], [2/10, 8/10]), ([rain, sprinkler], [1/100, 99/100, 2/10, 8/10]),
    ([rain, sprinkler, grass], [99/100, 1/100, 8/10, 2/10, 9/10, 1/10, 0, 1])]
  let (result, ve) ← (VE.new vs fs [] none).solveQuery (sched r) [⟨sprinkler, 1⟩, ⟨grass, 0⟩] [rain]
  let (m, vs) ← ve.vs.marginal result rain
  let (p, _) ← vs.normalize m
  return p.data) [1, 0])

/-- The umbrella network. -/
def umbrellaVE (parents : List Nat) : Except Fault (List Var × VE ℚ) := do
  let (l, vs) ← variablesOf [(.chance, 2), (.chance, 3), (.decision, 2), (.utility, 1)]
  let weather ← goGet l 0
  let forecast ← goGet l 1
  let umbrella ← goGet l 2
  let utility ← goGet l 3
  let ps ← parents.mapM (goGet l)
  let (fs, vs) ← factorsOf vs [([weather], [3/10, 7/10]),
    ([weather, forecast], [15/100, 25/100, 6/10, 7/10, 2/10, 1/10]), ([weather, umbrella, utility], [70, 0, 20, 100])]
  return (l, VE.new vs fs [(umbrella, ps)] none)

-- TestDecisionUmbrella
#guard both (fun r => gives (do
  let (l, ve) ← umbrellaVE [1]
  let (result, ve) ← ve.solveUtility (sched r) [] [] none
  let (f, _) ← ve.vs.rearrange result [← goGet l 1, ← goGet l 2]
  return f.data) [1295/100, 49, 805/100, 14, 14, 7])

-- TestDecisionUmbrella2
#guard both (fun r => gives (do
  let (l, ve) ← umbrellaVE [0, 1]
  let (result, _) ← ve.solvePolicies (sched r) false
  let umbrella ← goGet l 2
  return ((result.getD []).map (fun p => (p.1 == umbrella, p.2.2.vars == l.take 1 ++ [umbrella])))) [(true, true)])

-- TestDecisionEvacuate
#guard both (fun r => gives (do
  let (l, vs) ← variablesOf [(.chance, 3), (.chance, 3), (.chance, 2), (.decision, 2), (.utility, 1), (.utility, 1), (.utility, 1)]
  let earthquake ← goGet l 0
  let sensor ← goGet l 1
  let maintenance ← goGet l 2
  let evacuate ← goGet l 3
  let materialDamage ← goGet l 4
  let humanDamage ← goGet l 5
  let evacCost ← goGet l 6
  let (fs, vs) ← factorsOf vs [([earthquake], [1/100, 5/100, 94/100]),
    ([maintenance, earthquake, sensor], [9/10, 1/10, 0, 5/100, 9/10, 5/100, 0, 1/10, 9/10, 6/10, 4/10, 0, 2/10, 6/10, 2/10, 0, 4/10, 6/10]),
    ([maintenance], [1/2, 1/2]), ([earthquake, materialDamage], [-1000, -250, 0]),
    ([evacuate, earthquake, humanDamage], [-100, -20, 0, -5000, -250, 0]), ([evacuate, evacCost], [-100, 0])]
  let (result, ve) ← (VE.new vs fs [(evacuate, [sensor])] none).solveUtility (sched r) [] [] none
  let (m, _) ← ve.vs.marginal result evacuate
  return m.data) [-1245/10, -85])

-- TestDecisionOil
#guard both (fun r => gives (do
  let (l, vs) ← variablesOf [(.chance, 3), (.decision, 2), (.chance, 3), (.decision, 2), (.utility, 1), (.utility, 1)]
  let oil ← goGet l 0
  let test ← goGet l 1
  let testResult ← goGet l 2
  let drill ← goGet l 3
  let utilityDrill ← goGet l 4
  let utilityTest ← goGet l 5
  let e : ℚ := 333/1000
  let (fs, vs) ← factorsOf vs [([oil], [5/10, 3/10, 2/10]),
    ([oil, test, testResult], [1/10, 3/10, 6/10, e, e, e, 3/10, 4/10, 3/10, e, e, e, 5/10, 4/10, 1/10, e, e, e]),
    ([test, utilityTest], [-10, 0]), ([oil, drill, utilityDrill], [-70, 0, 50, 0, 200, 0])]
  let (result, ve) ← (VE.new vs fs [(drill, [test, testResult])] none).solvePolicies (sched r) false
  let solved := result.getD []
  let some testPolicy := (solved.find? (fun p => p.1 = test)).map (·.2.2) | .error (.error "no policy")
  let some drillPolicy := (solved.find? (fun p => p.1 = drill)).map (·.2.2) | .error (.error "no policy")
  let (drillPolicy, _) ← ve.vs.rearrange drillPolicy [test, testResult, drill]
  return (testPolicy.data, drillPolicy.data)) ([1, 0], [1, 0, 1, 0, 0, 1, 1, 0, 1, 0, 1, 0]))

-- TestDecisionRobot
#guard both (fun r => gives (do
  let (l, vs) ← variablesOf [(.decision, 2), (.decision, 2), (.chance, 2), (.utility, 1)]
  let short ← goGet l 0
  let pads ← goGet l 1
  let accident ← goGet l 2
  let utility ← goGet l 3
  let (fs, vs) ← factorsOf vs [([short, accident], [1/10, 9/10, 0, 1]),
    ([pads, short, accident, utility], [2, 8, 0, 4, 0, 10, 0, 6])]
  let (result, ve) ← (VE.new vs fs [] none).solveUtility (sched r) [] [] none
  let (f, _) ← ve.vs.rearrange result [short, pads]
  return f.data) [8 - 6 * (1/10), 10 - 10 * (1/10), 4, 6])

-- TestSortDecisions
#guard both (fun r => gives (do
  let (l, vs) ← variablesOf [(.decision, 2), (.decision, 2), (.decision, 2)]
  let d3 ← goGet l 0
  let d2 ← goGet l 1
  let d1 ← goGet l 2
  let (ds, _) ← (VE.new (α := ℚ) vs [] [(d2, [d1]), (d3, [d2])] none).getDecisions (sched r)
  return (ds == [d1, d2, d3])) true)

end Bbn.Tests
