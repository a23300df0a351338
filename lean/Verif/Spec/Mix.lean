import Verif.Spec.NetOptimal

/-!
# Mixtures of tables

Two networks that differ in some tables only, and a third one in between.
-/

set_option autoImplicit false

namespace Bbn

variable {α : Type}

/-- The three networks have the same variables and parents. For the variables in `changed`, the probabilities of `n` are
those of `n₀` with weight `1 - t` and those of `n₁` with weight `t`; for all others they are the same in all three. -/
structure Net.Mixes [Field α] [DecidableEq α] (n n₀ n₁ : Net α) (changed : List String) (t : α) : Prop where
  vars₀ : n₀.variables = n.variables
  vars₁ : n₁.variables = n.variables
  tables : ∀ f ∈ n.chanceTables, ∃ f₀ ∈ n₀.chanceTables, ∃ f₁ ∈ n₁.chanceTables,
    f₀.forVar = f.forVar ∧ f₁.forVar = f.forVar ∧ f₀.given = f.given ∧ f₁.given = f.given ∧ ∀ w, n.Allowed w →
      (f.forVar ∈ changed → n.prob f w = (1 - t) * n₀.prob f₀ w + t * n₁.prob f₁ w) ∧
      (f.forVar ∉ changed → n.prob f w = n₀.prob f₀ w ∧ n.prob f w = n₁.prob f₁ w)

end Bbn
