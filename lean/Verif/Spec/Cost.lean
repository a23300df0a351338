import Verif.Model.MachineSolver
import Verif.Spec.Degree
import Verif.Spec.Network
import Mathlib.Algebra.BigOperators.Group.Finset.Basic
import Mathlib.Data.Multiset.Lattice

/-!
# How big the tables of a query get

A computer that can make tables of up to `L` entries, and a game on sets of variables that tells which tables a query
makes. The game knows nothing of probabilities: only who is whose parent, how many outcomes the variables have, and
which variables are observed and asked for.
-/

set_option autoImplicit false

namespace Bbn

open Finset

variable {α : Type}

/-- A computer that can make tables of up to `L` entries; making a bigger one ends the program. Sizes and positions are
exact. -/
def Mach.memory (L : Nat) : Mach where
  rows vars := if size vars ≤ L then .ok (size vars) else .error (.panic "out of memory")
  pos := Mach.exact.pos

/-- All variables are chance variables. -/
def Net.AllChance (n : Net α) : Prop := ∀ v ∈ n.variables, v.nodeType = .chance

/-- The place of a variable in the list of variables. -/
def Net.place (n : Net α) (s : String) : Nat := n.variables.findIdx (fun v => v.name = s)

/-- The number of outcomes of the variable at a place. -/
def Net.width (n : Net α) (i : Nat) : Nat := ((n.variables[i]?).map (fun v => v.outcomes.length)).getD 1

/-- The number of entries of a table over a set of variables. -/
def entriesOver (k : Nat → Nat) (s : Finset Nat) : Nat := ∏ i ∈ s, k i

/-- The sets of variables of the tables of the network: a variable and its parents. -/
def Net.families (n : Net α) : Multiset (Finset Nat) :=
  (n.factors.map (fun f => (f.dims.map n.place).toFinset) : List (Finset Nat))

/-- The sets without the observed variables. -/
def Net.unobserved (n : Net α) (evidence : List (String × String)) : Multiset (Finset Nat) :=
  n.families.map (fun s => s \ (evidence.map (fun e => n.place e.1)).toFinset)

/-- All variables that occur together with the variable `i`, and `i`. -/
def around (i : Nat) (S : Multiset (Finset Nat)) : Finset Nat := (S.filter (fun s => i ∈ s)).sup

/-- Taking out the variable `i`: the sets with `i` become one, and `i` disappears. -/
def takeOut (i : Nat) (S : Multiset (Finset Nat)) : Multiset (Finset Nat) :=
  S.filter (fun s => i ∉ s) + {(around i S).erase i}

/-- The entries of the biggest table if the variables in the list are taken out one after the other and the remaining
tables are multiplied. -/
def biggest (k : Nat → Nat) : List Nat → Multiset (Finset Nat) → Nat
  | [], S => entriesOver k S.sup
  | i :: is, S => max (entriesOver k (around i S)) (biggest k is (takeOut i S))

/-- The order in which a query takes out the variables that are neither observed nor asked for: by the number of
variables that occur together with the variable in the tables without the observed variables, then by place. -/
structure Net.TakesOut (n : Net α) (evidence : List (String × String)) (query : List String) (order : List Nat) :
    Prop where
  mem : ∀ i, i ∈ order ↔ ∃ v, n.variables[i]? = some v ∧ v.name ∉ evidence.map Prod.fst ∧ v.name ∉ query
  sorted : order.Pairwise (fun i j => (around i (n.unobserved evidence)).card < (around j (n.unobserved evidence)).card ∨
    (around i (n.unobserved evidence)).card = (around j (n.unobserved evidence)).card ∧ i < j)

/-- The entries of the biggest table of a query. -/
def Net.biggestTable (n : Net α) (evidence : List (String × String)) (order : List Nat) : Nat :=
  max (n.families.map (entriesOver n.width)).sup (biggest n.width order (n.unobserved evidence))

/-- A network around a line: every variable has at most one parent, the parents are on the line, and a variable on the
line has at most its predecessor as parent. Chains, naive Bayes classifiers and hidden Markov models are such. -/
structure Net.AroundLine (n : Net α) (line : List String) : Prop where
  nodup : line.Nodup
  one : ∀ f ∈ n.factors, f.given.length ≤ 1
  parents : ∀ f ∈ n.factors, ∀ g ∈ f.given, g ∈ line
  order : ∀ f ∈ n.factors, ∀ g ∈ f.given, f.forVar ∈ line → ∃ before after, line = before ++ g :: f.forVar :: after

end Bbn
