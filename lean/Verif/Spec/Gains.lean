import Verif.Spec.Training

/-!
# The utility values that samples show (specification vocabulary)
-/

set_option autoImplicit false

namespace Bbn

variable {α : Type}

/-- The utility values of the variable `s` in the samples in which the variables `given` have the outcomes of the world. -/
def gainsIn (n : Net α) (samples : List (Sample α)) (s : String) (given : List String) (w : World) : List α :=
  (samples.filter (fun x => x.InRow n given w)).filterMap (fun x => x.gain n s)

end Bbn
