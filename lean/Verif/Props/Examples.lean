import Verif.Lemmas.Policy
import Mathlib.Algebra.Order.Field.Rat

/-!
# Concrete factors used to show that the hypotheses of the property theorems can be met
-/

namespace Bbn.Ex

/-- Two outcomes. -/
def xA : Var := ⟨0, 0, 2, .chance⟩
/-- Three outcomes. -/
def xB : Var := ⟨1, 1, 3, .chance⟩
/-- Two outcomes. -/
def xC : Var := ⟨2, 2, 2, .chance⟩

/-- A factor over A and B. -/
def fAB : Factor ℚ := ⟨0, [1/10, 2/10, 7/10, 4/10, 5/10, 1/10], [xA, xB]⟩
/-- A factor over B and C. -/
def fBC : Factor ℚ := ⟨1, [1/4, 3/4, 1/2, 1/2, 0, 1], [xB, xC]⟩
/-- A factor over A. -/
def fA : Factor ℚ := ⟨2, [1/3, 2/3], [xA]⟩
/-- The `Variables` instance after creating these. -/
def vs3 : Vs := ⟨3, [xA, xB, xC], []⟩

theorem fAB_wf : fAB.WF := ⟨rfl, by decide⟩
theorem fBC_wf : fBC.WF := ⟨rfl, by decide⟩
theorem fA_wf : fA.WF := ⟨rfl, by decide⟩

theorem all_wf : ∀ f ∈ [fA, fAB, fBC], f.WF := by
  intro f hf
  simp only [List.mem_cons, List.not_mem_nil, or_false] at hf
  rcases hf with rfl | rfl | rfl
  · exact fA_wf
  · exact fAB_wf
  · exact fBC_wf

theorem all_coherent : CoherentFs [fA, fAB, fBC] := by
  unfold CoherentFs Coherent; decide

/-- An assignment that fits all three variables. -/
def σ1 : Assignment := fun i => if i = 1 then 2 else 1

theorem σ1_fits : Fits σ1 [xA, xB, xC] := by unfold Fits; decide

end Bbn.Ex

namespace Bbn.Ex

/-! The umbrella problem: weather W, forecast F (depends on W), decision D (sees F), utility U of W and D, and a
second utility V of D. -/

/-- Weather. -/
def uW : Var := ⟨10, 0, 2, .chance⟩
/-- Forecast. -/
def uF : Var := ⟨11, 1, 2, .chance⟩
/-- Umbrella? -/
def uD : Var := ⟨12, 2, 2, .decision⟩
/-- Comfort. -/
def uU : Var := ⟨13, 3, 1, .utility⟩
/-- Effort. -/
def uV : Var := ⟨14, 4, 1, .utility⟩

/-- P(W). -/
def tW : Factor ℚ := ⟨0, [7/10, 3/10], [uW]⟩
/-- P(F | W). -/
def tF : Factor ℚ := ⟨1, [8/10, 2/10, 1/10, 9/10], [uW, uF]⟩
/-- U(W, D). -/
def tU : Factor ℚ := ⟨2, [100, 20, 0, 70], [uW, uD, uU]⟩
/-- V(D). -/
def tV : Factor ℚ := ⟨3, [0, -5], [uD, uV]⟩

/-- The variables of the umbrella problem. -/
def uvs : Vs := ⟨4, [uW, uF, uD, uU, uV], []⟩
/-- The tables of the umbrella problem. -/
def ufs : List (Factor ℚ) := [tW, tF, tU, tV]
/-- The decision sees the forecast. -/
def udeps : List (Var × List Var) := [(uD, [uF])]

end Bbn.Ex

namespace Bbn.Ex

/-! Two decisions: a test T, its result R (depends on T), a treatment S (sees T and R), a utility G of R and S, and a
utility C of T. The treatment is listed before the test. -/

/-- Treat? -/
def qS : Var := ⟨20, 0, 2, .decision⟩
/-- Result of the test. -/
def qR : Var := ⟨21, 1, 3, .chance⟩
/-- Test? -/
def qT : Var := ⟨22, 2, 2, .decision⟩
/-- Health. -/
def qG : Var := ⟨23, 3, 1, .utility⟩
/-- Cost of the test. -/
def qC : Var := ⟨24, 4, 1, .utility⟩

/-- P(R | T). -/
def tR : Factor ℚ := ⟨0, [1, 0, 0, 0, 1/4, 3/4], [qT, qR]⟩
/-- G(R, S). -/
def tG : Factor ℚ := ⟨1, [50, 40, 10, 60, 90, 30], [qR, qS, qG]⟩
/-- C(T). -/
def tC : Factor ℚ := ⟨2, [0, -10], [qT, qC]⟩

/-- The variables of the test problem. -/
def qvs : Vs := ⟨3, [qS, qR, qT, qG, qC], []⟩
/-- The tables of the test problem. -/
def qfs : List (Factor ℚ) := [tR, tG, tC]
/-- The treatment sees the test and its result. -/
def qdeps : List (Var × List Var) := [(qS, [qT, qR]), (qT, [])]

end Bbn.Ex
