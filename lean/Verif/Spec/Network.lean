import Verif.Model.Network
import Verif.Spec.Value
import Mathlib.Algebra.BigOperators.Group.Finset.Basic
import Mathlib.Algebra.Field.Defs
import Mathlib.Algebra.BigOperators.Group.List.Basic

/-!
# What a network means (specification vocabulary)

A world gives every variable an outcome, by name. A network's tables give every world a weight; an answer is a sum
over all worlds. Nothing here mentions elimination, solver variables or map orders.
-/

set_option autoImplicit false

namespace Bbn

open Finset

variable {α : Type}

/-- An outcome index for each variable name. -/
abbrev World := String → Nat

/-- The world with one variable changed. -/
def World.set (w : World) (s : String) (k : Nat) : World := fun t => if t = s then k else w t

/-- The sum of `F` over all joint outcomes of the listed variables, the others kept as in `w`. -/
def sumWorlds [AddCommMonoid α] : List NVar → (World → α) → World → α
  | [], F, w => F w
  | v :: vs, F, w => ∑ k ∈ range v.outcomes.length, sumWorlds vs F (w.set v.name k)

/-- The position of an entry in a flat table, from the pairs of outcome count and outcome index of each dimension,
the last dimension changing fastest. -/
def rowMajor : List (Nat × Nat) → Nat
  | [] => 0
  | d :: ds => d.2 * (ds.map Prod.fst).prod + rowMajor ds

/-- The number of outcomes of the variable of this name. -/
def Net.count (n : Net α) (s : String) : Nat := (outcomeCount n.variables s).getD 0

/-- The names of a table's dimensions: the parents in order, then the variable itself. -/
def NFactor.dims (f : NFactor α) : List String := f.given ++ [f.forVar]

/-- The entry of a table in a world. -/
def Net.entry [Zero α] (n : Net α) (f : NFactor α) (w : World) : α :=
  f.tab.getD (rowMajor (f.dims.map (fun s => (n.count s, w s)))) 0

/-- The sum of the table row to which the world belongs. -/
def Net.rowSum [AddCommMonoid α] (n : Net α) (f : NFactor α) (w : World) : α :=
  ∑ k ∈ range (n.count f.forVar), n.entry f (w.set f.forVar k)

/-- The row-normalised entry. A row with sum zero is taken as it is. -/
def Net.prob [Field α] [DecidableEq α] (n : Net α) (f : NFactor α) (w : World) : α :=
  if n.rowSum f w = 0 then n.entry f w else n.entry f w / n.rowSum f w

/-- Is there a variable of this name and node type? -/
def Net.isKind (n : Net α) (t : NodeType) (s : String) : Bool :=
  n.variables.any (fun v => v.name = s ∧ v.nodeType = t)

/-- The tables of the chance variables. -/
def Net.chanceTables (n : Net α) : List (NFactor α) := n.factors.filter (fun f => n.isKind .chance f.forVar)

/-- The world as an assignment to the positions of the variables, which are the IDs in solved factors. -/
def Net.ids (n : Net α) (w : World) : Assignment := fun i =>
  match n.variables[i]? with
  | some v => w v.name
  | none => 0

/-- The chance and decision variables. -/
def Net.stateVars (n : Net α) : List NVar := n.variables.filter (fun v => v.nodeType ≠ .utility)

/-- The weight of a world: the product of its row-normalised table entries and of the given policies. -/
def Net.joint [Field α] [DecidableEq α] (n : Net α) (policies : List (String × Factor α)) (w : World) : α :=
  (n.chanceTables.map (fun f => n.prob f w)).prod * (policies.map (fun p => p.2.val (n.ids w))).prod

/-- The policies that take part: all, or (when policies are ignored) those of decisions that are not observed. -/
def Net.active (n : Net α) (evidence : List (String × String)) (ignorePolicies : Bool) : List (String × Factor α) :=
  if ignorePolicies then n.policies.filter (fun p => ∀ e ∈ evidence, e.1 ≠ p.1) else n.policies

/-- The world has the observed outcomes. -/
def Net.Agrees (n : Net α) (evidence : List (String × String)) (w : World) : Prop :=
  ∀ e ∈ evidence, ∀ v ∈ n.variables, v.name = e.1 → w e.1 = v.outcomes.idxOf e.2

instance (n : Net α) (evidence : List (String × String)) (w : World) : Decidable (n.Agrees evidence w) := by
  unfold Net.Agrees; infer_instance

/-- The sum of weight times `F` over all worlds. -/
def Net.total [Field α] [DecidableEq α] (n : Net α) (policies : List (String × Factor α)) (F : World → α) : α :=
  sumWorlds n.stateVars (fun w => n.joint policies w * F w) (fun _ => 0)

/-- The total weight of the worlds with the given property. -/
def Net.mass [Field α] [DecidableEq α] (n : Net α) (policies : List (String × Factor α)) (P : World → Prop)
    [DecidablePred P] : α :=
  n.total policies (fun w => if P w then 1 else 0)

/-- What a user has to get right. (`New` checks only part of it.) -/
structure Net.Valid (n : Net α) : Prop where
  /-- Every variable has its own non-empty name. -/
  names : (n.variables.map NVar.name).Nodup
  named : ∀ v ∈ n.variables, v.name ≠ ""
  /-- The solver's 16 bit fields suffice. -/
  few : n.variables.length ≤ 65536
  outcomes : ∀ v ∈ n.variables, 0 < v.outcomes.length ∧ v.outcomes.length < 65536
  /-- No two tables are for the same variable; every chance and utility variable has one. -/
  tables : (n.factors.map NFactor.forVar).Nodup
  hasTable : ∀ v ∈ n.variables, v.nodeType ≠ .decision → ∃ f ∈ n.factors, f.forVar = v.name
  known : ∀ f ∈ n.factors, ∃ v ∈ n.variables, v.name = f.forVar
  /-- No dimension occurs twice. -/
  dims : ∀ f ∈ n.factors, f.dims.Nodup
  /-- Parents (except those of the total-utility node) are chance and decision variables. -/
  parents : ∀ f ∈ n.factors, f.forVar ≠ n.totalName →
    ∀ g ∈ f.given, ∃ v ∈ n.variables, v.name = g ∧ v.nodeType ≠ .utility
  /-- Tables of chance and utility variables have the right size. -/
  size : ∀ f ∈ n.factors, f.forVar ≠ n.totalName → n.isKind .decision f.forVar = false →
    ∃ t, f.table = some t ∧ t.length = (f.dims.map n.count).prod
  /-- Utility variables have a single outcome. -/
  single : ∀ v ∈ n.variables, v.nodeType = .utility → v.name ≠ n.totalName → v.outcomes.length = 1
  /-- A total-utility node lists all the other utility variables, with a weight for each. -/
  weights : ∀ i, n.totalUtility = some i → ∃ v j f, n.variables[i]? = some v ∧ v.nodeType = .utility ∧
    v.factor = some j ∧ n.factors[j]? = some f ∧ f.forVar = v.name ∧ f.given.length ≤ f.tab.length ∧
    ∀ u ∈ n.variables, u.nodeType = .utility → u.name ≠ v.name → u.name ∈ f.given

/-- The position of the variable at position `i` among all but the total-utility node. -/
def Net.solverIndex (n : Net α) (i : Nat) : Nat := ((List.range i).filter (fun j => some j ≠ n.totalUtility)).length

/-- Stored policies fit the network. A fresh network has none; `SolvePolicies` stores such (`solvePolicies_ok`). -/
structure Net.PoliciesOK (n : Net α) : Prop where
  keys : (n.policies.map Prod.fst).Nodup
  wf : ∀ p ∈ n.policies, p.2.WF
  decision : ∀ p ∈ n.policies, ∃ i v, n.variables[i]? = some v ∧ v.name = p.1 ∧ v.nodeType = .decision ∧
    ∃ w ∈ p.2.vars, w.id = i
  vars : ∀ p ∈ n.policies, ∀ w ∈ p.2.vars, ∃ v, n.variables[w.id]? = some v ∧ v.nodeType ≠ .utility ∧
    w.index = n.solverIndex w.id ∧ w.outcomes = v.outcomes.length ∧
    (w.nodeType = v.nodeType ∨ w.nodeType = .chance ∧ n.hasPolicy v.name)

/-- Evidence on distinct chance and decision variables, with outcomes these have. -/
structure Net.EvidenceOK (n : Net α) (evidence : List (String × String)) : Prop where
  keys : (evidence.map Prod.fst).Nodup
  known : ∀ e ∈ evidence, ∃ v ∈ n.variables, v.name = e.1 ∧ v.nodeType ≠ .utility ∧ e.2 ∈ v.outcomes

/-- The variable occurs in a chance table or in one of the policies. -/
def Net.Occurs (n : Net α) (policies : List (String × Factor α)) (s : String) : Prop :=
  (∃ f ∈ n.chanceTables, s ∈ f.dims) ∨
    ∃ p ∈ policies, ∃ w ∈ p.2.vars, (n.variables[w.id]?).map NVar.name = some s

/-- The weight of a utility variable: the entry of the total-utility node's table at the position of the variable in
the node's parents; one if there is no total-utility node. -/
def Net.weight [Zero α] [One α] (n : Net α) (s : String) : α :=
  match n.totalUtility with
  | none => 1
  | some _ => ((n.factors.find? (fun f => f.forVar = n.totalName)).map (fun f => f.tab.getD (f.given.idxOf s) 0)).getD 0

/-- The utility variables without the total-utility node. -/
def Net.utilityVars (n : Net α) : List NVar :=
  n.variables.filter (fun v => v.nodeType = .utility ∧ v.name ≠ n.totalName)

/-- The utility of a world: the entry of the utility variable's table (which has a single column). -/
def Net.utilityIn [AddCommMonoid α] (n : Net α) (s : String) (w : World) : α :=
  ((n.factors.filter (fun f => f.forVar = s)).map (fun f => n.entry f (w.set s 0))).sum

/-- The total utility of a world: the weighted sum of all utilities. -/
def Net.totalIn [Semiring α] (n : Net α) (w : World) : α :=
  (n.utilityVars.map (fun u => n.weight u.name * n.utilityIn u.name w)).sum

/-- The utility a call asks for: that of one variable, or (empty name) the total. -/
def Net.asked [Semiring α] (n : Net α) (u : String) (w : World) : α :=
  if u = "" then n.totalIn w else n.utilityIn u w

/-- The world with the observed outcomes. -/
def Net.observe (n : Net α) (evidence : List (String × String)) (w : World) : World := fun s =>
  match evidence.find? (fun e => e.1 = s) with
  | some e => ((n.variables.find? (fun v => v.name = s)).map (fun v => v.outcomes.idxOf e.2)).getD 0
  | none => w s

/-- The variables that are summed out: chance variables and solved decisions that are neither observed, nor asked for,
nor known to a decision that is not solved. -/
def Net.hiddenVars (n : Net α) (evidence : List (String × String)) (query : List String) : List NVar :=
  n.stateVars.filter (fun v => (v.nodeType = .chance ∨ n.hasPolicy v.name = true) ∧ (∀ e ∈ evidence, e.1 ≠ v.name) ∧
    v.name ∉ query ∧ ∀ f ∈ n.factors, n.isKind .decision f.forVar = true → n.hasPolicy f.forVar = false → v.name ∉ f.given)

end Bbn
