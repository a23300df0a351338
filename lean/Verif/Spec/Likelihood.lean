import Verif.Spec.Training

/-!
# Samples as cases of a network (specification vocabulary)
-/

set_option autoImplicit false

namespace Bbn

variable {α : Type}

/-- The outcomes of the sample, by name. -/
def Sample.world (n : Net α) (s : Sample α) : World := fun g => (s.known n g).getD 0

/-- In the sample, the outcomes of all chance and decision variables are known. -/
def Sample.Complete (n : Net α) (s : Sample α) : Prop := ∀ v ∈ n.stateVars, s.known n v.name ≠ none

/-- The sample as evidence: the outcome of every chance and decision variable. -/
def Sample.evidence (n : Net α) (s : Sample α) : List (String × String) :=
  n.stateVars.map (fun v => (v.name, v.outcomes.getD (s.world n v.name) ""))

/-- In the sample, all chance and decision variables have the outcomes of the world. -/
def Sample.Is (n : Net α) (s : Sample α) (w : World) : Prop := ∀ v ∈ n.stateVars, s.known n v.name = some (w v.name)

instance (n : Net α) (s : Sample α) (w : World) : Decidable (s.Is n w) := by
  unfold Sample.Is; infer_instance

end Bbn
