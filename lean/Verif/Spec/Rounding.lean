import Verif.Model.Network
import Verif.Spec.Network
import Mathlib.Algebra.Order.Field.Basic
import Mathlib.Algebra.Group.Basic

/-!
# Arithmetic with rounding

The standard model of floating-point arithmetic, first for numbers that are not negative: every sum, product and quotient is the
exact one up to a relative error of at most `u`. For Go's `float64`, `u` is `2⁻⁵³`, as long as nothing overflows or
becomes denormal.
-/

set_option autoImplicit false

namespace Bbn

/-- The numbers of `β` stand for the exact numbers `val x`, and operations on numbers `≥ 0` have relative error at most
`u`. -/
structure Rounding {β K : Type} [Zero β] [One β] [Add β] [Mul β] [Div β] [Field K] [LinearOrder K] (val : β → K)
    (u : K) : Prop where
  nonneg : 0 ≤ u
  lt_one : u < 1
  zero : val 0 = 0
  one : val 1 = 1
  eq_zero : ∀ x, val x = 0 → x = 0
  add : ∀ a b, 0 ≤ val a → 0 ≤ val b → ∃ d, |d| ≤ u ∧ val (a + b) = (val a + val b) * (1 + d)
  mul : ∀ a b, 0 ≤ val a → 0 ≤ val b → ∃ d, |d| ≤ u ∧ val (a * b) = val a * val b * (1 + d)
  div : ∀ a b, 0 ≤ val a → 0 < val b → ∃ d, |d| ≤ u ∧ val (a / b) = val a / val b * (1 + d)

/-- `x` is the exact number `y` after at most `k` roundings with relative error at most `u`: each of the two is at least
`(1 - u) ^ k` times the other. -/
def Within {K : Type} [Field K] [LinearOrder K] (u : K) (k : Nat) (x y : K) : Prop :=
  y * (1 - u) ^ k ≤ x ∧ x * (1 - u) ^ k ≤ y

/-- The same for numbers of any sign: every sum, product and quotient has relative error at most `u`. -/
structure SignedRounding {β K : Type} [Zero β] [One β] [Add β] [Mul β] [Div β] [Field K] [LinearOrder K] (val : β → K)
    (u : K) : Prop where
  nonneg : 0 ≤ u
  lt_one : u < 1
  zero : val 0 = 0
  one : val 1 = 1
  eq_zero : ∀ x, val x = 0 → x = 0
  add : ∀ a b, ∃ d, |d| ≤ u ∧ val (a + b) = (val a + val b) * (1 + d)
  mul : ∀ a b, ∃ d, |d| ≤ u ∧ val (a * b) = val a * val b * (1 + d)
  div : ∀ a b, val b ≠ 0 → ∃ d, |d| ≤ u ∧ val (a / b) = val a / val b * (1 + d)

/-- Rounded numbers that are also compared, and that counts are converted to: comparisons are exact, and conversions have
relative error at most `u`. -/
structure OrderedRounding {β K : Type} [Zero β] [One β] [Add β] [Mul β] [Div β] [NatCast β] [LinearOrder β] [Field K]
    [LinearOrder K] (val : β → K) (u : K) : Prop extends SignedRounding val u where
  le : ∀ a b, a ≤ b ↔ val a ≤ val b
  natCast : ∀ k : Nat, ∃ d, |d| ≤ u ∧ val (k : β) = k * (1 + d)

/-- `x` is off the exact number `y` by at most what `k` roundings can do to a sum of numbers whose absolute values add up
to `b`. -/
def Off {K : Type} [Field K] [LinearOrder K] (u : K) (k : Nat) (x y b : K) : Prop :=
  |x - y| ≤ ((1 - u)⁻¹ ^ k - 1) * b

/-- Zero, or a number that is neither too small nor too large. -/
def InSpan {K : Type} [Field K] [LinearOrder K] (lo hi x : K) : Prop := x = 0 ∨ lo ≤ x ∧ x ≤ hi

/-- Arithmetic whose numbers have a limited range, as `float64`: if two numbers are zero or between `lo` and `hi`, and their
sum, product or quotient is too, then it has relative error at most `u`. Nothing is known of other products and quotients. A
sum of numbers that are zero or at least `lo` is too, and it is zero only if both are. -/
structure RangedRounding {β K : Type} [Zero β] [One β] [Add β] [Mul β] [Div β] [Field K] [LinearOrder K] (val : β → K)
    (u lo hi : K) : Prop where
  nonneg : 0 ≤ u
  lt_one : u < 1
  lo_pos : 0 < lo
  zero : val 0 = 0
  one : val 1 = 1
  eq_zero : ∀ x, val x = 0 → x = 0
  add : ∀ a b, InSpan lo hi (val a) → InSpan lo hi (val b) → InSpan lo hi (val a + val b) →
    ∃ d, |d| ≤ u ∧ val (a + b) = (val a + val b) * (1 + d)
  mul : ∀ a b, InSpan lo hi (val a) → InSpan lo hi (val b) → InSpan lo hi (val a * val b) →
    ∃ d, |d| ≤ u ∧ val (a * b) = val a * val b * (1 + d)
  div : ∀ a b, InSpan lo hi (val a) → InSpan lo hi (val b) → val b ≠ 0 → InSpan lo hi (val a / val b) →
    ∃ d, |d| ≤ u ∧ val (a / b) = val a / val b * (1 + d)
  sums : ∀ a b, val a = 0 ∨ lo ≤ val a → val b = 0 ∨ lo ≤ val b →
    (val (a + b) = 0 ∨ lo ≤ val (a + b)) ∧ (val (a + b) = 0 → val a = 0 ∧ val b = 0)

/-- The number of all outcomes of all variables. -/
def Net.outcomeTotal {α : Type} (n : Net α) : Nat := (n.variables.map (fun v => v.outcomes.length)).sum

/-- The absolute values of what `asked` adds up. -/
def Net.askedSize {α : Type} [Field α] [LinearOrder α] (n : Net α) (u : String) (w : World) : α :=
  if u = "" then (n.utilityVars.map (fun v => |n.weight v.name| * |n.utilityIn v.name w|)).sum else |n.utilityIn u w|

end Bbn
