import Verif.Spec.Solve
import Mathlib.Algebra.Order.Ring.Defs

/-!
# What it means to decide well (specification vocabulary)

Nothing here mentions the elimination algorithm.
-/

set_option autoImplicit false

namespace Bbn

open Finset

variable {α : Type}

/-- The decision variables. -/
def decisionVars (vars : List Var) : List Var := vars.filter (fun v => v.nodeType = .decision)

/-- What is known when the last of the decisions `ds` is taken: these decisions and all they depend on. -/
def Known (deps : List (Var × List Var)) (ds : List Var) (v : Var) : Prop :=
  v ∈ ds ∨ ∃ e ∈ deps, e.1 ∈ ds ∧ v ∈ e.2

/-- A (possibly randomised) policy for the decision `d`, which comes after the decisions `ds`: for each assignment
a probability distribution over the outcomes of `d` that depends only on what is known. -/
structure PolicyFor [CommSemiring α] [PartialOrder α] (vars : List Var) (deps : List (Var × List Var)) (ds : List Var)
    (d : Var) (δ : Assignment → α) : Prop where
  nonneg : ∀ σ, Fits σ vars → 0 ≤ δ σ
  one : ∀ σ, Fits σ vars → ∑ k ∈ range d.outcomes, δ (σ.upd d.id k) = 1
  known : ∀ σ τ, (∀ v ∈ vars, Known deps (ds ++ [d]) v → σ v.id = τ v.id) → δ σ = δ τ

/-- The expected utility if each decision `d` is taken with policy `δ d`: the sum over all joint outcomes of all
variables of probability times policies times utility. -/
def expectedUtility [CommSemiring α] (vars : List Var) (fs : List (Factor α)) (weights : Option (List α))
    (δ : Var → Assignment → α) : α :=
  sumOver (vars.filter (fun v => v.nodeType ≠ .utility)) (fun σ =>
    ((fs.filter (fun f => !f.isUtility)).map (fun f => f.val σ)).prod * totalUtility vars fs weights σ *
      ((decisionVars vars).map (fun d => δ d σ)).prod) (fun _ => 0)

/-- Solved policies as a function from decisions. -/
def policiesOf [Zero α] [One α] (ps : List (Var × Factor α × Factor α)) (d : Var) (σ : Assignment) : α :=
  match ps.find? (fun p => p.1 = d) with
  | some p => p.2.2.val σ
  | none => 1

/-- What `SolvePolicies` needs besides a well-formed problem with utilities: every variable has outcomes, and every
decision and chance variable occurs in a table. -/
structure DecisionOK (vars : List Var) (fs : List (Factor α)) : Prop where
  outcomes : ∀ v ∈ vars, 0 < v.outcomes
  occurs : ∀ v ∈ vars, v.nodeType ≠ .utility → ∃ f ∈ fs, v ∈ f.vars

/-- No variable of this ID is known to the decisions `ds`. -/
def Unknown (vars : List Var) (deps : List (Var × List Var)) (ds : List Var) (i : Nat) : Prop :=
  ∀ v ∈ vars, v.id = i → ¬ Known deps ds v

instance (deps : List (Var × List Var)) (ds : List Var) (v : Var) : Decidable (Known deps ds v) := by
  unfold Known; infer_instance

/-- The chance variables that are not known to the decisions `ds`. -/
def unseen (vars : List Var) (deps : List (Var × List Var)) (ds : List Var) : List Var :=
  vars.filter (fun v => v.nodeType = .chance ∧ ¬ Known deps ds v)

/-- The variable can matter for the utility: a chain of tables leads from a utility table to a table with the
variable, and each two neighbours in the chain share a variable from `H`. -/
inductive Linked (fs : List (Factor α)) (H : Nat → Prop) : Nat → Prop
  | util {f : Factor α} {v : Var} (hf : f ∈ fs) (hu : f.isUtility = true) (hv : v ∈ f.vars) : Linked fs H v.id
  | step {f : Factor α} {u v : Var} (hf : f ∈ fs) (huf : u ∈ f.vars) (hv : v ∈ f.vars) (hH : H u.id)
      (hl : Linked fs H u.id) : Linked fs H v.id

end Bbn
