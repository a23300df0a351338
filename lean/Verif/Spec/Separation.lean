import Verif.Spec.Acyclic

/-!
# Separation of variables by observed ones (specification vocabulary)

The usual graphical criterion ("d-separation"), by trails along which news can travel.
-/

set_option autoImplicit false

namespace Bbn

variable {α : Type}

/-- `n.Trail seen x y b`: news about `x` can reach `y` if the variables in `seen` are observed; `b` says whether it
reaches `y` from a child of `y` (or starts there), or from a parent of `y`.

From a variable that is not observed, news goes on to all children, and, if it came from a child, to all parents. If it
came from a parent, it goes to (the other) parents if the variable, or one of its descendants, is observed. -/
inductive Net.Trail (n : Net α) (seen : List String) (x : String) : String → Bool → Prop
  | start : n.Trail seen x x true
  | toChild {y : String} {b : Bool} {f : NFactor α} (h : n.Trail seen x y b) (hy : y ∉ seen) (hf : f ∈ n.chanceTables)
      (hg : y ∈ f.given) : n.Trail seen x f.forVar false
  | toParent {f : NFactor α} {g : String} (h : n.Trail seen x f.forVar true) (hy : f.forVar ∉ seen)
      (hf : f ∈ n.chanceTables) (hg : g ∈ f.given) : n.Trail seen x g true
  | around {f : NFactor α} {g : String} (h : n.Trail seen x f.forVar false) (hy : n.Upward seen f.forVar)
      (hf : f ∈ n.chanceTables) (hg : g ∈ f.given) : n.Trail seen x g true

/-- No news about `x` reaches `y`. -/
def Net.Separated (n : Net α) (seen : List String) (x y : String) : Prop := ∀ b, ¬ n.Trail seen x y b

end Bbn
