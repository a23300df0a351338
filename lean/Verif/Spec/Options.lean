import Verif.Spec.NetOptimal

/-!
# Networks that offer more (specification vocabulary)
-/

set_option autoImplicit false

namespace Bbn

variable {α : Type}

/-- `m` offers at least what `n` offers: it has the same variables with the same parents, but decisions may have further
outcomes after the old ones. In the worlds of `n`, its probability tables have the same entries, and its total utility is
not lower. Nothing is said about worlds with further outcomes. -/
structure Net.OffersMore [Field α] [LinearOrder α] (n m : Net α) : Prop where
  vars : List.Forall₂ (fun v u => u.name = v.name ∧ u.nodeType = v.nodeType ∧
    (u.outcomes = v.outcomes ∨ v.nodeType = .decision ∧ v.outcomes <+: u.outcomes)) n.variables m.variables
  parents : m.factors.map (fun f => (f.forVar, f.given)) = n.factors.map (fun f => (f.forVar, f.given))
  totalNode : m.totalUtility = n.totalUtility
  chances : List.Forall₂ (fun f g => g.forVar = f.forVar ∧ ∀ w, n.Allowed w → m.entry g w = n.entry f w)
    n.chanceTables m.chanceTables
  utility : ∀ w, n.Allowed w → n.totalIn w ≤ m.totalIn w

/-- If decisions in `m` are taken as `δ` says, no outcome that `m` has in addition to those of `n` is chosen in a situation
that can occur. -/
def Net.NeverChosen [Field α] [LinearOrder α] (n m : Net α) (δ : String → World → α) : Prop :=
  ∀ d ∈ n.decisions, ∀ w, m.Allowed w → (m.chanceTables.map (fun f => m.prob f w)).prod ≠ 0 →
    ∀ k, n.count d ≤ k → k < m.count d → δ d (w.set d k) = 0

end Bbn
