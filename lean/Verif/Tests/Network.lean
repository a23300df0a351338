import Verif.Tests.Solver
import Verif.Model.Training
import Verif.Model.TrainCsv
import Verif.Model.Files

/-!
# The model on the inputs of the repository's tests: networks, training, files, logic operators

Not proofs: see `Verif.Tests.Solver`.
-/

set_option autoImplicit false

namespace Bbn.Tests

/-- The order of the entries, or the reverse of it, for all maps of a call. -/
def nsched {α : Type} (r : Bool) : NSched α where
  ve _ := sched r
  polOrd _ l := if r then (List.range l.length).reverse else List.range l.length
  ev l := if r then l.reverse else l
  names _ l := if r then l.reverse else l
  polOrd_perm _ _ := by cases r <;> simp [List.reverse_perm]
  ev_perm _ := by cases r <;> simp [List.reverse_perm]
  names_perm _ _ := by cases r <;> simp [List.reverse_perm]

/-- A variable as passed to `New`. -/
def var (name : String) (t : NodeType) (outcomes : List String) : NVar := ⟨name, t, outcomes, (0, 0), "", none⟩

/-- A factor as passed to `New`. -/
def factor (name : String) (given : List String) (table : Option (List ℚ)) : NFactor ℚ := ⟨name, given, table, [], 0⟩

/-- What a factor of `New` holds. -/
def shown (l : List (String × NFactor ℚ)) : List (String × String × List String × List ℚ) :=
  (l.map (fun e => (e.1, e.2.forVar, e.2.given, e.2.tab))).mergeSort (fun a b => a.1 ≤ b.1)

/-! ## `network_test.go` -/

-- TestFactorRow
#guard gives (do
  let net ← newNet "test" "" [var "a" .chance ["yes", "no", "maybe"], var "b" .chance ["yes", "no"],
    var "c" .decision ["yes", "no", "maybe"]] [factor "c" ["a", "b"] (some ((List.range 18).map (fun k : Nat => (k : ℚ))))]
  let v ← goGet net.variables 2
  let f ← derefFactor net.factors v
  return ((← f.rowIndex [0, 0]), (← f.rowIndex [1, 1]), (← f.rowIndex [2, 0]), (← f.rowIndex [-1, 0])))
  (some 0, some 3, some 4, none)

/-- The network of `TestNetworkToVE` and `TestNetworkSolveUmbrella`. -/
def umbrella : Except Fault (Net ℚ) :=
  newNet "umbrella" "" [var "weather" .chance ["rainy", "sunny"], var "forecast" .chance ["sunny", "cloudy", "rainy"],
    var "umbrella" .decision ["yes", "no"], var "utility" .utility ["utility"]]
    [factor "weather" [] (some [3/10, 7/10]),
     factor "forecast" ["weather"] (some [15/100, 25/100, 6/10, 7/10, 2/10, 1/10]),
     factor "umbrella" ["forecast"] none,
     factor "utility" ["weather", "umbrella"] (some [70, 0, 20, 100])]

-- TestNetworkToVE
#guard both (fun r => gives (do
  let n ← umbrella
  let (ve, names) ← n.toVE (nsched r) 0 []
  let (result, ve) ← ve.solveUtility (sched r) [] [] none
  let some forecast := mapGet names "forecast" | .error (.error "no variable")
  let some umbrella := mapGet names "umbrella" | .error (.error "no variable")
  let (f, _) ← ve.vs.rearrange result [forecast.2, umbrella.2]
  return f.data) [1295/100, 49, 805/100, 14, 14, 7])

-- TestNetworkSolveUmbrella
#guard both (fun r => gives (do
  let n ← umbrella
  let (policy, n) := n.solvePolicies (nsched r) true
  let policy ← policy
  let (query, n) := n.solveQuery (nsched r) [("forecast", "rainy")] ["weather"] false
  let (_, f) ← query
  let (utility, n) := n.solveUtility (nsched r) [("forecast", "rainy")] ["weather"] "" false
  let utility ← utility
  let normUtil ← (n.normalizeUtility utility f).1
  return (shown policy, normUtil.data)) ([("umbrella", "umbrella", ["forecast"], [0, 1, 0, 1, 1, 0])], [70, 20]))

/-- The network of `TestNetworkSolveOil`. -/
def oil : Except Fault (Net ℚ) :=
  let e : ℚ := 333/1000
  newNet "oil" "" [var "oil" .chance ["dry", "wet", "soaking"], var "test" .decision ["yes", "no"],
    var "test-result" .chance ["closed", "open", "diffuse"], var "drill" .decision ["yes", "no"],
    var "drill-utility" .utility ["utility"], var "test-utility" .utility ["utility"]]
    [factor "oil" [] (some [5/10, 3/10, 2/10]),
     factor "test-result" ["oil", "test"]
       (some [1/10, 3/10, 6/10, e, e, e, 3/10, 4/10, 3/10, e, e, e, 5/10, 4/10, 1/10, e, e, e]),
     factor "test" [] none, factor "drill" ["test", "test-result"] none,
     factor "drill-utility" ["oil", "drill"] (some [-70, 0, 50, 0, 200, 0]),
     factor "test-utility" ["test"] (some [-10, 0])]

-- TestNetworkSolveOil
#guard both (fun r => gives (do
  let n ← oil
  let (policy, n) := n.solvePolicies (nsched r) true
  let policy ← policy
  let (query, n) := n.solveQuery (nsched r) [] ["test-result"] false
  let (_, f) ← query
  let (utility, n) := n.solveUtility (nsched r) [] ["test-result"] "" false
  let _ ← (n.normalizeUtility (← utility) f).1
  let (utility, n) := n.solveUtility (nsched r) [] ["test-result"] "test-utility" false
  let _ ← (n.normalizeUtility (← utility) f).1
  let (utility, n) := n.solveUtility (nsched r) [] ["test-result"] "drill-utility" false
  let _ ← (n.normalizeUtility (← utility) f).1
  return shown policy) [("drill", "drill", ["test", "test-result"], [1, 0, 1, 0, 0, 1, 1, 0, 1, 0, 1, 0]),
    ("test", "test", [], [1, 0])])

-- TestNetworkRearrange. The factor has a nil table here and in the Go test.
#guard both (fun r => gives (do
  let net ← newNet "test" "" [var "a" .chance ["yes", "no"], var "b" .chance ["yes", "no"], var "c" .chance ["yes", "no"],
    var "d" .chance ["yes", "no"]] [factor "d" ["a", "b", "c"] none]
  let (query, net) := net.solveQuery (nsched r) [] ["a", "b", "c", "d"] true
  let (_, f) ← query
  let r1 ← net.rearrangeVariables f ["a", "b", "c", "d"]
  let r2 ← net.rearrangeVariables f ["d", "c", "b", "a"]
  let r3 ← net.rearrangeVariables f ["d", "a"]
  return (r1 == f.vars, f.vars.map Var.id, r2.map Var.id, r3.map Var.id))
  (true, [0, 1, 2, 3], [3, 2, 1, 0], [3, 1, 2, 0]))

/-- The network of `Example_sprinkler` and `TestToYAML`. -/
def sprinkler (rain sprinkler grass : List ℚ) : Except Fault (Net ℚ) :=
  newNet "Sprinkler" "" [var "Rain" .chance ["yes", "no"], var "Sprinkler" .chance ["yes", "no"],
    var "GrassWet" .chance ["yes", "no"]] [factor "Rain" [] (some rain), factor "Sprinkler" ["Rain"] (some sprinkler),
    factor "GrassWet" ["Rain", "Sprinkler"] (some grass)]

/-- The tables of `Example_sprinkler` and `TestToYAML`. -/
def wet : Except Fault (Net ℚ) :=
  sprinkler [2/10, 8/10] [1/100, 99/100, 2/10, 8/10] [99/100, 1/100, 8/10, 2/10, 9/10, 1/10, 0, 1]

-- Example_sprinkler
#guard both (fun r => gives (do
  let net ← wet
  let (result, _) ← (net.solveQuery (nsched r) [("GrassWet", "yes"), ("Rain", "no")] ["Sprinkler"] false).1
  return result) [("Sprinkler", [1, 0])])

/-! ## `training_test.go` -/

-- TestTrainer
#guard both (fun r => gives (do
  let net ← sprinkler [0, 0] [0, 0, 0, 0] [0, 0, 0, 0, 0, 0, 0, 0]
  let t ← newTrainer net
  let t ← ([⟨[0, 0, 0], none⟩, ⟨[0, 1, 0], none⟩, ⟨[1, 0, 0], none⟩, ⟨[1, 1, 1], none⟩] : List (Sample ℚ)).foldlM
    (addSample net) t
  let (net, err) ← updateNetwork t net
  let (result, _) ← (net.solveQuery (nsched r) [("Rain", "no"), ("GrassWet", "yes")] ["Sprinkler"] false).1
  return (err, result)) (none, [("Sprinkler", [1, 0])]))

-- TestTrainerDecision
#guard both (fun r => gives (do
  let n ← newNet "umbrella" "" [var "weather" .chance ["rainy", "sunny"],
    var "forecast" .chance ["sunny", "cloudy", "rainy"], var "umbrella" .decision ["yes", "no"],
    var "utility" .utility ["utility"]]
    [factor "weather" [] (some [0, 0]), factor "forecast" ["weather"] (some [0, 0, 0, 0, 0, 0]),
     factor "umbrella" ["forecast"] none, factor "utility" ["weather", "umbrella"] (some [0, 0, 0, 0])]
  let t ← newTrainer n
  let t ← ([⟨[0, 2, 0, 0], some [some 0, some 0, some 0, some 70]⟩, ⟨[0, 2, 1, 0], some [some 0, some 0, some 0, some 0]⟩,
    ⟨[1, 0, 0, 0], some [some 0, some 0, some 0, some 20]⟩, ⟨[1, 0, 1, 0], some [some 0, some 0, some 0, some 100]⟩] :
    List (Sample ℚ)).foldlM (addSample n) t
  let (n, err) ← updateNetwork t n
  let policy ← (n.solvePolicies (nsched r) true).1
  return (err, (mapGet policy "umbrella").map NFactor.tab)) (none, some [0, 1, 1/2, 1/2, 1, 0]))

/-! ## `yml_test.go`, `xml_test.go` -/

/-- The file of `TestFromYaml`. -/
def umbrellaYaml : NetYaml ℚ where
  name := "Umbrella Decision Network"
  info := ""
  «variables» := [
    ⟨"Weather", [], "", ["Sunny", "Rainy"], (16, 0), "", "", [[70, 30]]⟩,
    ⟨"Forecast", ["Weather"], "", ["Sunny", "Cloudy", "Rainy"], (1, 8), "", "", [[70, 20, 10], [15, 25, 60]]⟩,
    ⟨"Umbrella", ["Forecast"], "decision", ["Take", "Leave"], (16, 16), "", "", []⟩,
    ⟨"Utility", ["Weather", "Umbrella"], "utility", ["Expected"], (31, 8), "", "", [[20], [100], [70], [0]]⟩,
    ⟨"Logic", ["Weather"], "", ["yes", "no"], (0, 0), "", "outcome-is 1 2", []⟩]

-- TestFromYaml
#guard both (fun r => gives (do
  let n ← (fromYaml String.toLower umbrellaYaml initHeap).1
  let policy ← (n.solvePolicies (nsched r) true).1
  return shown policy) [("Umbrella", "Umbrella", ["Forecast"], [0, 1, 0, 1, 1, 0])])

-- TestToYAML
#guard both (fun r => gives (do
  let net ← wet
  let y ← toYaml net
  let net ← (fromYaml String.toLower y initHeap).1
  let (result, _) ← (net.solveQuery (nsched r) [("Rain", "no"), ("GrassWet", "yes")] ["Sprinkler"] false).1
  return (y, result))
  (⟨"Sprinkler", "", [⟨"Rain", [], "", ["yes", "no"], (0, 0), "", "", [[2/10, 8/10]]⟩,
    ⟨"Sprinkler", ["Rain"], "", ["yes", "no"], (0, 0), "", "", [[1/100, 99/100], [2/10, 8/10]]⟩,
    ⟨"GrassWet", ["Rain", "Sprinkler"], "", ["yes", "no"], (0, 0), "", "",
      [[99/100, 1/100], [8/10, 2/10], [9/10, 1/10], [0, 1]]⟩]⟩, [("Sprinkler", [1, 0])]))

/-- Decimal numbers, for `strconv.ParseFloat`. -/
def decimal (s : String) : Option ℚ :=
  match goSplit s '.' with
  | [a] => (goAtoi a).map (fun k => (k : ℚ))
  | [a, b] => do
    let k ← goAtoi a
    let d ← digitsValue b.toList
    return k + d / 10 ^ b.length
  | _ => none

/-- A variable of `_examples/bbn/dog-problem.xml`. -/
def dogVar (name position : String) : VarXml := ⟨name, "nature", ["true", "false"], ["position = (" ++ position ++ ")"]⟩

/-- `_examples/bbn/dog-problem.xml`. -/
def dog : NetXml where
  name := "Dog-Problem"
  «variables» := [dogVar "light-on" "73, 165", dogVar "bowel-problem" "190, 69", dogVar "dog-out" "155, 165",
    dogVar "hear-bark" "154, 241", dogVar "family-out" "112, 69"]
  definitions := [⟨"light-on", ["family-out"], "0.6 0.4 0.05 0.95 "⟩, ⟨"bowel-problem", [], "0.01 0.99 "⟩,
    ⟨"dog-out", ["bowel-problem", "family-out"], "0.99 0.01 0.97 0.03 0.9 0.1 0.3  0.7 "⟩,
    ⟨"hear-bark", ["dog-out"], "0.7 0.3 0.01 0.99 "⟩, ⟨"family-out", [], "0.15 0.85 "⟩]

-- TestFromBIFXML, and what was read (positions are divided by 2 and 12)
#guard gives (do
  let n ← fromXml decimal dog
  let fs ← n.variables.mapM (derefFactor n.factors)
  return (n.variables.map NVar.position, fs.map NFactor.tab))
  ([(36, 13), (95, 5), (77, 13), (77, 20), (56, 5)],
   [[6/10, 4/10, 5/100, 95/100], [1/100, 99/100], [99/100, 1/100, 97/100, 3/100, 9/10, 1/10, 3/10, 7/10],
    [7/10, 3/10, 1/100, 99/100], [15/100, 85/100]])

-- the data of `TestTrainUtility` (cmd/bbn/train_test.go, commented out there). That test expects 60, the mean of 50 and 70, for
-- the third number; the code counts the samples of utilities twice, see C61.
#guard gives (do
  let n ← newNet "Utility" "" [var "A" .chance ["yes", "no"], var "B" .chance ["yes", "no"], var "U" .utility ["U"]]
    [factor "A" [] (some [0, 0]), factor "B" [] (some [0, 0]), factor "U" ["A", "B"] (some [0, 0, 0, 0])]
  let n ← trainNetwork (fun s => (decimal s).map some) n ["A", "B", "U"] [["yes", "yes", "0"], ["yes", "yes", "0"],
    ["yes", "no", "30"], ["yes", "no", "50"], ["no", "yes", "50"], ["no", "yes", "70"], ["no", "no", "100"],
    ["no", "no", "100"]] ""
  return n.factors.map NFactor.tab) [[1/2, 1/2], [1/2, 1/2], [0, 20, 30, 50]]

/-! ## `logic/*_test.go` -/

/-- The table of an operator after `SetArgs`. -/
def tableOf (name : String) (args : List Int) (n : Nat) : Except Fault (List ℚ) :=
  match logicGet name with
  | none => .error (.error "no such operator")
  | some p => do
    let h ← if args = [] then pure initHeap else LHeap.setArgs initHeap p args
    LHeap.table h p n

-- TestBits
#guard gives (tableOf "bits" [] 3) [
  0, 0, 0, 0, 0, 0, 0, 1,
  0, 0, 0, 0, 0, 0, 1, 0,
  0, 0, 0, 0, 0, 1, 0, 0,
  0, 0, 0, 0, 1, 0, 0, 0,
  0, 0, 0, 1, 0, 0, 0, 0,
  0, 0, 1, 0, 0, 0, 0, 0,
  0, 1, 0, 0, 0, 0, 0, 0,
  1, 0, 0, 0, 0, 0, 0, 0]

-- TestCountIs, TestCountLess, TestCountGreater, TestCountTrue, TestCountFalse
#guard gives (tableOf "count-is" [2] 3) [0, 1, 1, 0, 1, 0, 0, 1, 1, 0, 0, 1, 0, 1, 0, 1]
#guard gives (tableOf "count-less" [3] 3) [0, 1, 1, 0, 1, 0, 1, 0, 1, 0, 1, 0, 1, 0, 1, 0]
#guard gives (tableOf "count-greater" [2] 3) [1, 0, 0, 1, 0, 1, 0, 1, 0, 1, 0, 1, 0, 1, 0, 1]
#guard gives (tableOf "count-true" [] 3) [0, 0, 0, 1, 0, 0, 1, 0, 0, 0, 1, 0, 0, 1, 0, 0, 0, 0, 1, 0, 0, 1, 0, 0, 0, 1, 0, 0, 1, 0, 0, 0]
#guard gives (tableOf "count-false" [] 3) [1, 0, 0, 0, 0, 1, 0, 0, 0, 1, 0, 0, 0, 0, 1, 0, 0, 1, 0, 0, 0, 0, 1, 0, 0, 0, 1, 0, 0, 0, 0, 1]

-- TestFactorGet
#guard gives ((tableOf "and" [] 2).map List.length) 8
#guard logicGet "foobar" == none

-- Example
#guard gives (tableOf "and" [] 2) [1, 0, 0, 1, 0, 1, 0, 1]

-- TestGiven, TestGivenNot, TestGivenExcl
#guard gives (tableOf "given" [1] 3) [1, 0, 1, 0, 0, 1, 0, 1, 1, 0, 1, 0, 0, 1, 0, 1]
#guard gives (tableOf "given-not" [1] 3) [0, 1, 0, 1, 1, 0, 1, 0, 0, 1, 0, 1, 1, 0, 1, 0]
#guard gives (tableOf "given-excl" [1] 3) [0, 1, 0, 1, 0, 1, 0, 1, 0, 1, 1, 0, 0, 1, 0, 1]

-- TestOutcomeIs, TestOutcomeIsNot, TestOutcomeEither, TestOutcomeLess, TestOutcomeGreater
#guard gives (tableOf "outcome-is" [1, 4] 1) [0, 1, 1, 0, 0, 1, 0, 1]
#guard gives (tableOf "outcome-is-not" [2, 4] 1) [1, 0, 1, 0, 0, 1, 1, 0]
#guard gives (tableOf "outcome-either" [1, 2, 4] 1) [0, 1, 1, 0, 1, 0, 0, 1]
#guard gives (tableOf "outcome-less" [2, 4] 1) [1, 0, 1, 0, 0, 1, 0, 1]
#guard gives (tableOf "outcome-greater" [2, 4] 1) [0, 1, 0, 1, 1, 0, 1, 0]

-- TestFactorTable
#guard gives (tableOf "not" [] 1) [0, 1, 1, 0]
#guard fails (tableOf "not" [] 2)
#guard gives (tableOf "or" [] 2) [1, 0, 1, 0, 1, 0, 0, 1]
#guard gives (tableOf "cond" [] 2) [1, 0, 0, 1, 1, 0, 1, 0]
#guard gives (tableOf "bicond" [] 2) [1, 0, 0, 1, 0, 1, 1, 0]
#guard gives (tableOf "if-then" [] 1) [1, 0, 1/2, 1/2]
#guard !fails ((Logic.bool (List.replicate 8 true) : Logic ℚ).table 3)

end Bbn.Tests
