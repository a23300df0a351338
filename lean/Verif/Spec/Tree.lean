import Verif.Spec.NetOptimal

/-!
# Decision trees (specification vocabulary)
-/

set_option autoImplicit false

namespace Bbn

open Finset

variable {α : Type}

/-- The largest of the numbers `f 0`, ..., `f (m - 1)`. -/
def largest [LinearOrder α] (m : Nat) (f : Nat → α) : α := ((List.range m).map f).foldl max (f 0)

/-- A decision tree, rolled back by hand. The variables in the list become known one after another; `seen` is what is
known so far. Where a decision is taken, the best branch counts; where something is observed, the branches are added.
`leaf` is the number at the end of a path (probability times utility). -/
def rollback [AddCommMonoid α] [LinearOrder α] (leaf : List (String × String) → α) :
    List NVar → List (String × String) → α
  | [], seen => leaf seen
  | v :: l, seen =>
    if v.nodeType = .decision then
      largest v.outcomes.length (fun k => rollback leaf l (seen ++ [(v.name, v.outcomes.getD k "")]))
    else ∑ k ∈ range v.outcomes.length, rollback leaf l (seen ++ [(v.name, v.outcomes.getD k "")])

/-- The order in which things become known: a list with all decisions and some chance variables, such that the declared
parents of each decision are exactly the variables listed before it. -/
structure Net.Timeline (n : Net α) (stages : List NVar) : Prop where
  state : ∀ v ∈ stages, v ∈ n.stateVars
  once : (stages.map NVar.name).Nodup
  decisions : ∀ d ∈ n.decisions, d ∈ stages.map NVar.name
  parents : ∀ A d B, stages = A ++ d :: B → d.nodeType = .decision → ∀ s,
    (∃ f ∈ n.factors, f.forVar = d.name ∧ s ∈ f.given) ↔ s ∈ A.map NVar.name

end Bbn
