import Verif.Tests.Network
import Verif.Model.Commands
import Verif.Spec.Text
import Mathlib.Data.Rat.Floor

/-!
# The model on the inputs of the repository's tests: commands and app

Not proofs: see `Verif.Tests.Solver`.
-/

set_option autoImplicit false

namespace Bbn.Tests

/-! ## `internal/tui/bounds_test.go`, `internal/tui/util_test.go` -/

-- TestBoundsContains
#guard Bounds.contains ⟨10, 20, 20, 30⟩ 11 22
#guard !Bounds.contains ⟨10, 20, 20, 30⟩ 9 22
#guard !Bounds.contains ⟨10, 20, 20, 30⟩ 35 22
#guard !Bounds.contains ⟨10, 20, 20, 30⟩ 11 15
#guard !Bounds.contains ⟨10, 20, 20, 30⟩ 11 51

-- TestBoundsCentroid
#guard Bounds.centroid ⟨10, 20, 20, 30⟩ == (20, 35)

-- TestBoundsExtend
#guard Bounds.extend ⟨3, 4, 5, 6⟩ ⟨1, 2, 12, 13⟩ = ⟨1, 2, 12, 13⟩
#guard Bounds.extend ⟨3, 4, 5, 6⟩ ⟨5, 6, 12, 13⟩ = ⟨3, 4, 14, 15⟩

-- TestParseEvidence
#guard gives (parseEvidence ["a=b", "c=d"]) [("a", "b"), ("c", "d")]
#guard fails (parseEvidence ["a=b", "c=d=e"])

/-! ## `internal/tui/node_test.go` -/

/-- Exact bars and texts. -/
def fm : Fmt ℚ where
  full x := ⌊x * 10⌋
  fracIdx x := ⌊Int.fract (x * 10) * 7⌋
  percent x := fixedText 7 (x * 100)
  utility x := fixedText 12 x
  cellUtility x := fixedText 9 x
  cellPercent x := fixedText 7 x ++ "%"

-- TestNodeRender
#guard gives (do
  let n ← newNode (α := ℚ) (var "TestNode" .chance ["yes", "no", "maybe"]) none
  let n ← n.render fm [some (1/10), some (2/10), some (7/10)] true 1 false
  return n.runes.map String.ofList) [
  "╔══════════════════════════╗",
  "║ TestNode                 ║",
  "║ yes   █░░░░░░░░░  10.000 ║",
  "║[no    ██░░░░░░░░  20.000]║",
  "║ maybe ███████░░░  70.000 ║",
  "╚══════════════════════════╝"]

/-! ## `cmd/bbn/inference_test.go` -/

/-- `_examples/bbn/sprinkler.yml`. -/
def sprinklerYaml : NetYaml ℚ where
  name := "Sprinkler"
  info := "The famous sprinkler example."
  «variables» := [⟨"Rain", [], "", ["yes", "no"], (20, 0), "", "", [[2/10, 8/10]]⟩,
    ⟨"Sprinkler", ["Rain"], "", ["yes", "no"], (1, 7), "", "", [[1/100, 99/100], [2/10, 8/10]]⟩,
    ⟨"GrassWet", ["Rain", "Sprinkler"], "", ["yes", "no"], (36, 10), "", "",
      [[99/100, 1/100], [8/10, 2/10], [9/10, 1/10], [0, 1]]⟩]

/-- Files that hold decoded networks. -/
def lib : Lib ℚ (NetYaml ℚ) where
  yaml y := some y
  encode y := y
  xml _ := none
  csv _ _ := .error (.error "no table")
  lower := String.toLower
  number := decimal
  cell s := (decimal s).map some

/-- A disk with one file. -/
def disk : Disk (NetYaml ℚ) := fun path => if path = "../../_examples/bbn/sprinkler.yml" then some sprinklerYaml else none

-- TestRunInferenceCommand
#guard both (fun r => !fails (runInference lib disk (nsched r) (fun _ => nsched r) "../../_examples/bbn/sprinkler.yml" ["Rain=no"]
  initHeap))

-- the text of `bbn inference` for these arguments (no Go test)
#guard both (fun r => gives (inferenceCommand lib disk (fun p => (p.map (fixedText 0)).getD "NaN") (nsched r) (fun _ => nsched r)
  "../../_examples/bbn/sprinkler.yml" ["Rain=no"] initHeap)
  ("                                      yes         no\n                          Rain     0.000%   100.000%  +\n" ++
   "                                      yes         no\n                     Sprinkler    20.000%    80.000%\n" ++
   "                                      yes         no\n                      GrassWet    18.000%    82.000%\n"))

end Bbn.Tests
