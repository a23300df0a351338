import Verif.Lemmas.NetPolicies
import Verif.Props.NetExamples

/-!
# The policies returned and stored by `SolvePolicies` of a network (C46)
-/

set_option autoImplicit false

namespace Bbn

open Finset

variable {α : Type}

/-- C46: for a valid network in which the policies can be solved, `SolvePolicies` succeeds (stepwise or not). It returns
one policy table for each decision and for nothing else. In each table the decision is the last dimension, the size fits,
and each row is a probability distribution. The network keeps policies with the same entries and is otherwise unchanged,
so it can be used for queries. -/
theorem C46_policy_tables [Field α] [LinearOrder α] [IsStrictOrderedRing α] (sch : NSched α) {n : Net α} (hn : n.Valid)
    (hs : (∃ s, n.isKind .decision s = true) → n.Feasible) (stepwise : Bool) :
    ∃ tables n', n.solvePolicies sch stepwise = (.ok tables, n') ∧ (tables.map Prod.fst).Nodup ∧
      (∀ s, s ∈ tables.map Prod.fst ↔ n.isKind .decision s = true) ∧ (∀ t ∈ tables, n.PolicyTable t.1 t.2) ∧
      n'.Valid ∧ n'.PoliciesOK ∧
      (∃ vs names policies, n' = { n with vs := vs, names := names, policies := policies }) ∧
      (n'.policies.map Prod.fst).Perm (tables.map Prod.fst) ∧
      ∀ t ∈ tables, ∀ p ∈ n'.policies, p.1 = t.1 →
        ∀ w : World, (∀ s ∈ t.2.dims, w s < n.count s) → p.2.val (n.ids w) = n.entry t.2 w := by
  obtain ⟨ts, n', h1, h2, h3, h4, h5, h6, h7, h8, _, h9, _⟩ := solvePolicies_net sch hn hs stepwise
  exact ⟨ts, n', h1, h2, h3, h4, h5, h6.toPoliciesOK, h7, h8, fun t ht p hp he => (h9 t ht p hp he).2⟩

/-- The umbrella network can be solved. -/
theorem Ex.umb_solvable : Ex.umb.Solvable where
  utility := by decide
  used := by decide
  acyclic := by
    have hno : ∀ p d, ¬ Ex.umb.DecisionParent p d := by
      rintro p d ⟨h1, h2, f, hf, rfl, h3⟩
      have : ∀ f ∈ Ex.umb.factors, Ex.umb.isKind .decision f.forVar = true →
          ∀ p ∈ f.given, Ex.umb.isKind .decision p = false := by decide
      rw [this f hf h2 p h3] at h1
      exact absurd h1 (by simp)
    intro s h
    obtain ⟨_, h, _⟩ := Relation.TransGen.head'_iff.1 h
    exact hno _ _ h

/-- A case: the umbrella network gets exactly one policy. -/
example (sch : NSched ℚ) : ∃ t n', Ex.umb.solvePolicies sch true = (.ok [("Umbrella", t)], n') ∧
    Ex.umb.PolicyTable "Umbrella" t := by
  obtain ⟨tables, n', h1, h2, h3, h4, _⟩ := C46_policy_tables sch Ex.umb_valid (fun _ => Ex.umb_solvable.toFeasible) true
  have hk : ∀ s, s ∈ tables.map Prod.fst → s = "Umbrella" := by
    intro s hs
    obtain ⟨v, hv, e1, e2⟩ := isKind_mem.1 ((h3 s).1 hs)
    have : ∀ v ∈ Ex.umb.variables, v.nodeType = .decision → v.name = "Umbrella" := by decide
    rw [← e1]; exact this v hv e2
  have hm := (h3 "Umbrella").2 (by decide)
  match tables, h1, h2, h3, h4, hk, hm with
  | [], _, _, _, _, _, hm => simp at hm
  | [(s, t)], h1, _, _, h4, hk, _ =>
    obtain rfl := hk s (by simp)
    exact ⟨t, n', h1, h4 ("Umbrella", t) (by simp)⟩
  | a :: b :: l, _, h2, _, _, hk, _ =>
    have e1 := hk a.1 (by simp)
    have e2 := hk b.1 (by simp)
    simp [e1, e2] at h2

end Bbn
