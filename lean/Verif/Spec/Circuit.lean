import Verif.Spec.Network
import Verif.Spec.NetOptimal
import Verif.Spec.Logic

/-!
# Networks with nodes that are determined by their parents (specification vocabulary)

Logic nodes are chance variables whose outcome is certain when the outcomes of the parents are known. A network of such
nodes is a circuit (a fault tree, for instance): its inputs are all the other variables.
-/

set_option autoImplicit false

namespace Bbn

variable {α : Type}

/-- The variables in `D` are gates: `φ s` gives the outcome of `s` from the outcomes of its parents as listed, and the
table of `s` says so. No gate feeds back into itself. -/
structure Net.Circuit [Zero α] [One α] (n : Net α) (D : List String) (φ : String → List Nat → Nat) : Prop where
  gates : ∀ s ∈ D, ∃ f ∈ n.chanceTables, f.forVar = s
  tables : ∀ f ∈ n.chanceTables, f.forVar ∈ D → ∀ w, n.Allowed w → φ f.forVar (f.given.map w) < n.count f.forVar ∧
    n.entry f w = if w f.forVar = φ f.forVar (f.given.map w) then 1 else 0
  acyclic : ∃ rank : String → Nat, ∀ f ∈ n.chanceTables, f.forVar ∈ D → ∀ g ∈ f.given, g ∈ D → rank g < rank f.forVar

/-- `run` evaluates the circuit: inputs stay, every gate has the outcome that its formula gives. -/
structure Net.Evaluates (n : Net α) (D : List String) (φ : String → List Nat → Nat) (run : World → World) : Prop where
  input : ∀ w s, s ∉ D → run w s = w s
  gate : ∀ w, ∀ f ∈ n.chanceTables, f.forVar ∈ D → run w f.forVar = φ f.forVar (f.given.map (run w))

/-- The variables that are not gates. -/
def Net.inputs (n : Net α) (D : List String) : List NVar := n.stateVars.filter (fun v => v.name ∉ D)

/-- The sum over all outcomes of the inputs: the weight of the inputs (tables and policies), if the evaluated circuit
has the given property. -/
def Net.circuitMass [Field α] [DecidableEq α] (n : Net α) (D : List String) (run : World → World)
    (policies : List (String × Factor α)) (P : World → Prop) [DecidablePred P] : α :=
  sumWorlds (n.inputs D) (fun w =>
    ((n.chanceTables.filter (fun f => f.forVar ∉ D)).map (fun f => n.prob f (run w))).prod *
      (policies.map (fun p => p.2.val (n.ids (run w)))).prod * if P (run w) then 1 else 0) (fun _ => 0)

end Bbn
