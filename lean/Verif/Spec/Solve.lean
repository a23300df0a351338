import Verif.Spec.SumOver
import Verif.Spec.Topo
import Verif.Model.VE
import Mathlib.Algebra.Ring.Defs

/-!
# What a query to the solver means (specification vocabulary)

Nothing here mentions the elimination algorithm: a problem is a list of variables and a list of tables, its answer
is a sum over all outcomes of the hidden variables.
-/

set_option autoImplicit false

namespace Bbn

variable {α : Type}

/-- A well-formed problem for `ve.New`: variables with distinct IDs that know their position, tables with distinct
keys over these variables, and a dependency map between these variables. -/
structure Problem (vs : Vs) (fs : List (Factor α)) (deps : List (Var × List Var)) : Prop where
  ids : (vs.variables.map Var.id).Nodup
  index : ∀ (i : Nat) v, vs.variables[i]? = some v → v.index = i
  facIds : (fs.map Factor.id).Nodup
  facLt : ∀ f ∈ fs, f.id < vs.factorCounter
  facWF : ∀ f ∈ fs, f.WF
  facVars : ∀ f ∈ fs, ∀ v ∈ f.vars, v ∈ vs.variables
  depKeys : (deps.map Prod.fst).Nodup
  depVars : ∀ e ∈ deps, e.1 ∈ vs.variables ∧ ∀ p ∈ e.2, p ∈ vs.variables

/-- Evidence on variables of the problem that are not utilities, with outcomes the variables have. -/
def EvidenceOK (vars : List Var) (evidence : List Evid) : Prop :=
  ∀ e ∈ evidence, e.var ∈ vars ∧ e.var.nodeType ≠ .utility ∧ 0 ≤ e.value ∧ e.value < e.var.outcomes

/-- The assignment with the observed variables changed to their observed outcomes. -/
def plug (evidence : List Evid) (σ : Assignment) : Assignment := fun i =>
  match evidence.find? (fun e => e.var.id = i) with
  | some e => e.value.toNat
  | none => σ i

/-- Is this a utility table (does it have a utility variable)? -/
def Factor.isUtility (f : Factor α) : Bool := f.vars.any (fun v => v.nodeType = .utility)

/-- The chance variables that are neither observed, nor asked for, nor known to a decision that is still open. -/
def hidden (vars : List Var) (deps : List (Var × List Var)) (evidence : List Evid) (query : List Var) : List Var :=
  vars.filter (fun v => v.nodeType = .chance ∧ (∀ e ∈ evidence, e.var.id ≠ v.id) ∧ (∀ q ∈ query, q.id ≠ v.id) ∧
    ∀ e ∈ deps, e.1.nodeType = .decision → ∀ p ∈ e.2, p.id ≠ v.id)

/-- The utility variables. -/
def utilities (vars : List Var) : List Var := vars.filter (fun v => v.nodeType = .utility)

/-- The weight of a utility variable: the entry at its position among the utility variables, one if there are no
weights. -/
def weightOf [Zero α] [One α] (weights : Option (List α)) (vars : List Var) (u : Var) : α :=
  match weights with
  | none => 1
  | some ws => ws.getD ((utilities vars).idxOf u) 0

/-- The utility at an assignment: the weighted sum over the utility variables of their tables. -/
def totalUtility [CommSemiring α] (vars : List Var) (fs : List (Factor α)) (weights : Option (List α))
    (σ : Assignment) : α :=
  ((utilities vars).map (fun u =>
    weightOf weights vars u * ((fs.filter (fun f => u ∈ f.vars)).map (fun f => f.val σ)).sum)).sum

/-- What the code assumes about utility variables and weights. -/
structure UtilityOK (vars : List Var) (fs : List (Factor α)) (weights : Option (List α)) : Prop where
  one : ∀ u ∈ vars, u.nodeType = .utility → u.outcomes = 1
  only : ∀ f ∈ fs, ∀ u ∈ f.vars, ∀ w ∈ f.vars, u.nodeType = .utility → w.nodeType = .utility → u = w
  has : ∀ u ∈ vars, u.nodeType = .utility → ∃ f ∈ fs, u ∈ f.vars
  some : utilities vars ≠ []
  weights : ∀ ws, weights = .some ws → (utilities vars).length ≤ ws.length

end Bbn
