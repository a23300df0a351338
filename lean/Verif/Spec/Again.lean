import Verif.Spec.Solve

/-!
# One solver object asked several times (specification vocabulary)
-/

set_option autoImplicit false

namespace Bbn

variable {α : Type}

/-- A question to `SolveQuery`: the observations and the variables asked for. -/
structure Ask where
  evidence : List Evid
  query : List Var

/-- A user of the package calls `SolveQuery` (`ve/ve.go:232-234`) on one and the same object for one question after
the other. -/
def VE.askAll [Zero α] [One α] [Add α] [Mul α] (sch : Sched α) : List Ask → VE α → Except Fault (List (Factor α) × VE α)
  | [], st => .ok ([], st)
  | a :: as, st => do
    let (g, st) ← st.solveQuery sch a.evidence a.query
    let (gs, st) ← VE.askAll sch as st
    return (g :: gs, st)

/-- No variable is observed with two different outcomes. -/
def Consistent (evidence : List Evid) : Prop :=
  ∀ e ∈ evidence, ∀ e' ∈ evidence, e.var.id = e'.var.id → e.value = e'.value

/-- The question `b` after the question `a`: `b` repeats the observations of `a`, and what `a` summed out is neither
observed nor asked for by `b`. -/
structure Narrows (vars : List Var) (deps : List (Var × List Var)) (a b : Ask) : Prop where
  evidence : ∀ e ∈ a.evidence, e ∈ b.evidence
  summed : ∀ v ∈ hidden vars deps a.evidence a.query, v ∈ hidden vars deps b.evidence b.query

end Bbn
