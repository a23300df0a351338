import Verif.Model.Basic
import Mathlib.Data.List.Forall2

/-!
# Outcome tuples (specification vocabulary)
-/

set_option autoImplicit false

namespace Bbn

/-- `t` has one entry per variable, each below that variable's number of outcomes. -/
def InRange (vs : List Var) (t : List Nat) : Prop :=
  List.Forall₂ (fun v i => i < v.outcomes) vs t

/-- All in-range tuples in row-major order: the last variable changes fastest. -/
def allTuples : List Var → List (List Nat)
  | [] => [[]]
  | v :: vs => (List.range v.outcomes).flatMap (fun c => (allTuples vs).map (c :: ·))

end Bbn
