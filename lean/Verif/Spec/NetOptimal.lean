import Verif.Spec.NetPolicy
import Mathlib.Algebra.Order.Ring.Defs

/-!
# Deciding well in a network (specification vocabulary)
-/

set_option autoImplicit false

namespace Bbn

open Finset

variable {α : Type}

/-- What is known when the last of the decisions `ds` is taken: these decisions and all their parents. -/
def Net.Known (n : Net α) (ds : List String) (s : String) : Prop :=
  s ∈ ds ∨ ∃ f ∈ n.factors, f.forVar ∈ ds ∧ s ∈ f.given

/-- Every chance and decision variable has an outcome that exists. -/
def Net.Allowed (n : Net α) (w : World) : Prop := ∀ v ∈ n.stateVars, w v.name < v.outcomes.length

/-- A (possibly randomised) way to take the decision `d` after the decisions `ds`: in each world a probability
distribution over the outcomes of `d` that depends only on what is known. -/
structure Net.Strategy [CommSemiring α] [PartialOrder α] (n : Net α) (ds : List String) (d : String) (δ : World → α) :
    Prop where
  nonneg : ∀ w, n.Allowed w → 0 ≤ δ w
  one : ∀ w, n.Allowed w → ∑ k ∈ range (n.count d), δ (w.set d k) = 1
  known : ∀ w w', n.Allowed w → n.Allowed w' → (∀ s, n.Known (ds ++ [d]) s → w s = w' s) → δ w = δ w'

/-- The names of the decisions. -/
def Net.decisions (n : Net α) : List String := (n.variables.filter (fun v => v.nodeType = .decision)).map NVar.name

/-- The expected total utility if each decision `d` is taken as `δ d` says. -/
def Net.expectedTotal [Field α] [DecidableEq α] (n : Net α) (δ : String → World → α) : α :=
  sumWorlds n.stateVars (fun w => (n.chanceTables.map (fun f => n.prob f w)).prod * n.totalIn w *
    (n.decisions.map (fun d => δ d w)).prod) (fun _ => 0)

/-- Deciding as returned tables say. -/
def Net.byTables [Zero α] (n : Net α) (tables : List (String × NFactor α)) (d : String) (w : World) : α :=
  ((tables.find? (fun t => t.1 = d)).map (fun t => n.entry t.2 w)).getD 0

/-- The variable can matter for the utility: it is a parent of a utility variable, or a chain of chance tables leads
from a parent of a utility variable to it, each two neighbours in the chain sharing a chance variable that is not
known to the decisions `ds`. -/
inductive Net.Matters (n : Net α) (ds : List String) : String → Prop
  | utility {f : NFactor α} {s : String} (hf : f ∈ n.factors) (hu : n.isKind .utility f.forVar = true)
      (ht : f.forVar ≠ n.totalName) (hs : s ∈ f.given) : Matters n ds s
  | chance {f : NFactor α} {u s : String} (hf : f ∈ n.chanceTables) (hu : u ∈ f.dims)
      (hc : n.isKind .chance u = true) (hk : ¬ n.Known ds u) (hm : Matters n ds u) (hs : s ∈ f.dims) : Matters n ds s

instance Net.decKnown (n : Net α) (ds : List String) (s : String) : Decidable (n.Known ds s) := by
  unfold Net.Known; infer_instance

/-- The chance variables that are not known to the decisions `ds`. -/
def Net.unseen (n : Net α) (ds : List String) : List NVar :=
  n.variables.filter (fun v => v.nodeType = .chance ∧ ¬ n.Known ds v.name)

/-- What can be expected in a world, for the outcomes it gives to all but the unseen variables: the sum of probability
times utility over these. -/
def Net.worth [Field α] [DecidableEq α] (n : Net α) (ds : List String) (w : World) : α :=
  sumWorlds (n.unseen ds) (fun w => (n.chanceTables.map (fun f => n.prob f w)).prod * n.totalIn w) w

/-- What is not known to the decision `d` if the decisions in `later` are already settled: chance variables and these
decisions, except the parents of `d`. -/
def Net.hiddenFrom (n : Net α) (later : List String) (d : String) : List NVar :=
  n.variables.filter (fun v => (v.nodeType = .chance ∨ v.nodeType = .decision ∧ v.name ∈ later) ∧ ¬ n.Known [d] v.name)

/-- What can be expected from a world for the decision `d`, if the decisions in `later` are taken as `δ` says: the sum
of probability times utility over all that is not known to `d`. -/
def Net.worthTo [Field α] [DecidableEq α] (n : Net α) (δ : String → World → α) (later : List String) (d : String)
    (w : World) : α :=
  sumWorlds (n.hiddenFrom later d) (fun w => (n.chanceTables.map (fun f => n.prob f w)).prod *
    (later.map (fun e => δ e w)).prod * n.totalIn w) w

/-- Each decision comes after the decisions that are its parents. -/
def Net.Ordered (n : Net α) (order : List String) : Prop :=
  ∀ A d B, order = A ++ d :: B → ∀ p, n.DecisionParent p d → p ∈ A

end Bbn
