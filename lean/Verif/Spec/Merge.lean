import Verif.Spec.NetOptimal

/-!
# Outcomes that nothing distinguishes

A chance variable with finer outcomes in one network than in another.
-/

set_option autoImplicit false

namespace Bbn

open Finset

variable {α : Type}

/-- `m` is `n` with outcomes of the chance variable `s` merged: outcome `k` becomes outcome `ρ k`. The other variables are
the same. Their probabilities do not tell merged outcomes apart. The probability of an outcome of `s` in `m` is the sum of
the probabilities of the outcomes of which it consists. -/
structure Net.Merges [Field α] [DecidableEq α] (n m : Net α) (s : String) (ρ : Nat → Nat) : Prop where
  vars : List.Forall₂ (fun v v' : NVar => v'.name = v.name ∧ v'.nodeType = v.nodeType ∧
    (v.name ≠ s → v'.outcomes = v.outcomes)) n.variables m.variables
  chance : n.isKind .chance s = true
  into : ∀ k < n.count s, ρ k < m.count s
  others : ∀ f ∈ n.chanceTables, f.forVar ≠ s → ∃ g ∈ m.chanceTables, g.forVar = f.forVar ∧
    ∀ w, n.Allowed w → n.prob f w = m.prob g (w.set s (ρ (w s)))
  own : ∀ f ∈ n.chanceTables, f.forVar = s → ∃ g ∈ m.chanceTables, g.forVar = s ∧
    ∀ w, n.Allowed w → ∀ j < m.count s,
      m.prob g (w.set s j) = ∑ k ∈ (range (n.count s)).filter (fun k => ρ k = j), n.prob f (w.set s k)

/-- The evidence is about other variables, or about an outcome of `s` that is not merged with any other. -/
def Net.Unmerged (n m : Net α) (s : String) (ρ : Nat → Nat) (evidence : List (String × String)) : Prop :=
  ∀ e ∈ evidence, e.1 = s → ∀ v ∈ n.variables, ∀ v' ∈ m.variables, v.name = s → v'.name = s →
    e.2 ∈ v'.outcomes ∧ ∀ k < v.outcomes.length, ρ k = v'.outcomes.idxOf e.2 ↔ k = v.outcomes.idxOf e.2

end Bbn
