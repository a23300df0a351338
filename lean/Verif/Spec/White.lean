/-!
# White space (specification)
-/

set_option autoImplicit false

namespace Bbn

/-- The white space characters of Unicode: tab to carriage return, space, next line, no-break space, Ogham space, the
spaces of different width, the separators of lines and paragraphs, narrow no-break space, mathematical space and
ideographic space. -/
def White (c : Char) : Prop :=
  (9 ≤ c.toNat ∧ c.toNat ≤ 13) ∨ c.toNat = 32 ∨ c.toNat = 133 ∨ c.toNat = 160 ∨ c.toNat = 5760 ∨
    (8192 ≤ c.toNat ∧ c.toNat ≤ 8202) ∨ c.toNat = 8232 ∨ c.toNat = 8233 ∨ c.toNat = 8239 ∨ c.toNat = 8287 ∨ c.toNat = 12288

instance (c : Char) : Decidable (White c) := by unfold White; infer_instance

/-- Only white space. -/
def Blank (s : String) : Prop := ∀ c ∈ s.toList, White c

instance (s : String) : Decidable (Blank s) := by unfold Blank; infer_instance

end Bbn
