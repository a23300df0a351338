import Verif.Props.Factor
import Verif.Props.Ops
import Verif.Props.Calls
import Verif.Props.Decide

/-!
# The theorems about factors and the solver, applied to concrete factors
-/

set_option autoImplicit false

namespace Bbn

namespace Ex

theorem range12 : InRange fAB.vars [1, 2] := by unfold InRange; decide

theorem pair_coherent : CoherentFs [fAB, fBC] := by unfold CoherentFs Coherent; decide

/-- C01: no other tuple has the index of the last entry. -/
example (t : List Nat) (ht : InRange fAB.vars t) (h : fAB.index (ints t) = .ok 5) : t = [1, 2] :=
  C01_index_injective fAB t [1, 2] ht range12 (by rw [h]; decide)

/-- C02: the third step of the odometer is the fourth tuple. -/
example : odometer [xA, xB] 3 = [1, 0] := by
  rw [(C02_odometer_row_major [xA, xB]).2.1 3 (by decide)]; decide

/-- C03: changing the last entry leaves the one before as it is. -/
example : ∃ g, fAB.set (ints [1, 2]) 9 = .ok g ∧ g.get (ints [1, 2]) = .ok 9 ∧ g.get (ints [1, 1]) = .ok (5/10) := by
  obtain ⟨g, h1, _, _, _, h2, h3⟩ := C03_set_get fAB rfl [1, 2] range12 9
  exact ⟨g, h1, h2, by rw [h3 [1, 1] (by unfold InRange; decide) (by decide)]; decide +kernel⟩

/-- C04: all three cases occur. -/
example : Panics (fAB.indexWithNoData [1]) ∧ fAB.indexWithNoData [-1, 2] = .ok (0, false) ∧
    ∃ k, fAB.indexWithNoData [1, 2] = .ok (k, true) :=
  ⟨(C04_indexWithNoData fAB [1]).1 (by decide), (C04_indexWithNoData fAB [-1, 2]).2.1 rfl (by decide),
    (C04_indexWithNoData fAB [1, 2]).2.2 rfl (by decide) |>.imp (fun _ h => h.2)⟩

/-- C05: the second row. -/
example : ∃ row, fAB.row (ints [1]) = .ok row ∧ row.length = 3 := by
  obtain ⟨row, h1, h2, _⟩ := C05_row fAB rfl [xA] xB rfl [1] (by unfold InRange; decide)
  exact ⟨row, h1, h2⟩

/-- C07: three factors in two orders, and grouped. -/
example : ∃ g t g' t', vs3.product [fA, fAB, fBC] = .ok (g, t) ∧ vs3.product [fBC, fA, fAB] = .ok (g', t') ∧
    ∀ σ, Fits σ g.vars → g.val σ = g'.val σ := by
  obtain ⟨g, t, g', t', h1, h2, _, h3⟩ := C07_product_perm vs3 vs3 [fA, fAB, fBC] [fBC, fA, fAB]
    (List.perm_append_comm (l₁ := [fA, fAB]) (l₂ := [fBC])) all_wf all_coherent
  exact ⟨g, t, g', t', h1, h2, h3⟩

example := C07_product_assoc vs3 [fA] [fAB, fBC] all_wf all_coherent

/-- C09, C10, C11, C12: a variable of the factor, all its variables, one of its outcomes. -/
example := C09_sumOut vs3 fAB fAB_wf xA (by decide)

example := C10_sumOut_order vs3 vs3 fAB fAB_wf [xA, xB] [xB, xA] (by decide) (by decide) (by decide)

example : ∃ g s', vs3.restrict fAB xB 2 = .ok (g, s') ∧ g.get (ints (tupleOf g.vars σ1)) = .ok (1/10) := by
  obtain ⟨g, s', h1, _, h2, h3⟩ := C11_restrict vs3 fAB fAB_wf xB (by decide) 2 (by decide)
  exact ⟨g, s', h1, by rw [h3 σ1 (by rw [h2]; unfold Fits; decide)]; decide +kernel⟩

example := C12_restrict_order vs3 vs3 fAB fAB_wf [(xA, 1), (xB, 2)] [(xB, 2), (xA, 1)] (by decide) (by decide) (by decide)

example := C12_restrict_product vs3 fAB fBC fAB_wf fBC_wf pair_coherent xB (by decide) (by decide) 2 (by decide)

example := C12_restrict_sumOut vs3 fAB fAB_wf xB xA (by decide) (by decide) (by decide) 2 (by decide)

/-- C13: the two variables swapped, and swapped back. -/
example : ∃ g s', vs3.rearrange fAB [xB, xA] = .ok (g, s') ∧ g.get (ints [2, 1]) = .ok (1/10) := by
  obtain ⟨g, s', h1, _, _, h2⟩ := C13_rearrange vs3 fAB fAB_wf [xB, xA] (by decide)
  exact ⟨g, s', h1, (h2 σ1 (by unfold Fits; decide)).trans (by decide +kernel)⟩

example := C13_rearrange_roundtrip vs3 fAB fAB_wf [xB, xA] (by decide)

/-- C14: the marginal of the second variable. -/
example := C14_marginal vs3 fAB fAB_wf xB (by decide)

/-- C15: the entries sum up to two. -/
example : ∃ g s', vs3.normalize fAB = .ok (g, s') ∧ g.data.sum = 1 := by
  obtain ⟨g, s', h1, _, _, h2, _⟩ := C15_normalize vs3 fAB fAB_wf (by decide +kernel)
  exact ⟨g, s', h1, h2⟩

/-- C16: each column is divided by its own sum. -/
example : ∃ g s', vs3.normalizeFor fAB xA = .ok (g, s') ∧ g.val σ1 = 1 / 8 := by
  obtain ⟨g, s', h1, _, _, h2⟩ := C16_normalizeFor vs3 fAB fAB_wf xA (by decide) (by decide)
  refine ⟨g, s', h1, ((h2 σ1 (by unfold Fits; decide)).1 (by decide +kernel)).1.trans (by decide +kernel)⟩

theorem uAB_wf : uAB.WF := ⟨rfl, by decide⟩

/-- C18: the last option is not among the best two. -/
example : ∃ g s', vs3.policy uAB xB = .ok (g, s') ∧ g.val σ1 = 0 := by
  obtain ⟨g, s', h1, _, _, h2⟩ := C18_policy vs3 uAB uAB_wf xB (by decide) (by decide)
  exact ⟨g, s', h1, (h2 σ1 (by unfold Fits; decide)).2.1 (by decide +kernel)⟩

/-- C19: the calls of the example beside it. -/
example := (C19_ids_unique Vs.new ([(.createFactor [xA] (some [1, 2]), false), (.createFactor [xA] (some [1]), true),
    (.sumOut fAB xB, false), (.product [fA, fAB], true)] : List (Call ℚ × Bool))).1

/-- C20: too few indices panic, existing ones do not; nor does a list of the right length. -/
example : Panics (fAB.get [1]) ∧ ∃ y, fAB.get (ints [1, 2]) = .ok y :=
  ⟨((C20_index_calls fAB rfl 0).1 [1] (by decide)).2.1, ((C20_index_calls fAB rfl 0).2 [1, 2] range12).2.1⟩

example : Panics (vs3.createFactor [xA, xB] (some ([1, 2] : List ℚ))) ∧
    ∃ f s', vs3.createFactor [xA] (some ([1, 2] : List ℚ)) = .ok (f, s') ∧ f.data = [1, 2] := by
  obtain ⟨f, s', h1, _, h2⟩ := (C20_createFactor vs3 [xA] ([1, 2] : List ℚ)).2 (by decide)
  exact ⟨(C20_createFactor vs3 [xA, xB] ([1, 2] : List ℚ)).1.2 (by decide), f, s', h1, h2⟩

/-- C21: identifiers that are not in order. -/
example := C21_distinct_ids_partial [(7, .chance, 2), (3, .decision, 4), (5, .utility, 1)] (by decide)

/-- C28: two decisions, the factors and dependencies visited in two orders. -/
example (sch sch' : Sched ℚ) : ∃ p ps st p' ps' st', (VE.new qvs qfs qdeps none).solvePolicies sch false = .ok (some (p :: ps), st) ∧
    (VE.new qvs qfs qdeps none).solvePolicies sch' false = .ok (some (p' :: ps'), st') ∧ p.1 = p'.1 := by
  obtain ⟨p, ps, st, h⟩ := C28_solved sch test test_utility test_decision test_acyclic (by decide) false
  obtain ⟨p', ps', st', h'⟩ := C28_solved sch' test test_utility test_decision test_acyclic (by decide) false
  exact ⟨p, ps, st, p', ps', st', h, h', (List.cons.inj (C28_order_unique sch sch' test none h h')).1⟩

end Ex

end Bbn
