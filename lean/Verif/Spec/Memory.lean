import Verif.Model.Memory

/-!
# Networks that have their memory for themselves
-/

set_option autoImplicit false

namespace Bbn

variable {α : Type}

/-- The arrays exist, the variables point to no factors but the network's, and no two factors have the same array as
their table. -/
structure Memory.Own (μ : Memory α) (a b : Nat) : Prop where
  vars : a < μ.vars.length
  facs : b < μ.facs.length
  pointers : ∀ v ∈ μ.vars.getD a [], ∀ p, v.factor = some p → p.1 = b
  exist : ∀ f ∈ μ.facs.getD b [], ∀ k, f.table = some k → k < μ.tabs.length
  distinct : ∀ (i j : Nat) (f g : MFactor) (k : Nat), (μ.facs.getD b [])[i]? = some f →
    (μ.facs.getD b [])[j]? = some g → f.table = some k → g.table = some k → i = j

/-- No array belongs to both networks. -/
structure Memory.Separate (μ : Memory α) (m m' : MNet α) : Prop where
  vars : m.vars ≠ m'.vars
  facs : m.facs ≠ m'.facs
  tabs : ∀ f ∈ μ.facs.getD m.facs [], ∀ g ∈ μ.facs.getD m'.facs [], ∀ k, f.table = some k → g.table ≠ some k

end Bbn
