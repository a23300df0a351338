import Mathlib.Algebra.Order.Field.Basic

/-!
# Numbers with infinities and NaN

The arithmetic of IEEE 754 on exact numbers: quotients by 0 are NaN or infinite, NaN spreads. There is no rounding, no
overflow and only one zero (a quotient `x / 0` has the sign of `x`).
-/

set_option autoImplicit false

namespace Bbn

/-- A number, an infinity (`true` is negative), or NaN. -/
inductive Ext (K : Type) where
  | fin (x : K)
  | inf (neg : Bool)
  | nan
deriving DecidableEq

namespace Ext

variable {K : Type}

instance instZero [Zero K] : Zero (Ext K) := ⟨fin 0⟩

instance instOne [One K] : One (Ext K) := ⟨fin 1⟩

/-- Opposite infinities have no sum. -/
instance instAdd [Add K] : Add (Ext K) where
  add
    | fin x, fin y => fin (x + y)
    | nan, _ => nan
    | _, nan => nan
    | inf a, inf b => if a = b then inf a else nan
    | inf a, fin _ => inf a
    | fin _, inf b => inf b

/-- An infinity times a number, with the sign of both. -/
def infTimes [Zero K] [LT K] [DecidableLT K] [DecidableEq K] (a : Bool) (x : K) : Ext K :=
  if x = 0 then nan else inf (xor a (decide (x < 0)))

instance instMul [Zero K] [Mul K] [LT K] [DecidableLT K] [DecidableEq K] : Mul (Ext K) where
  mul
    | fin x, fin y => fin (x * y)
    | nan, _ => nan
    | _, nan => nan
    | inf a, inf b => inf (xor a b)
    | inf a, fin x => infTimes a x
    | fin x, inf b => infTimes b x

instance instDiv [Zero K] [Div K] [LT K] [DecidableLT K] [DecidableEq K] : Div (Ext K) where
  div
    | fin x, fin y => if y = 0 then (if x = 0 then nan else inf (decide (x < 0))) else fin (x / y)
    | nan, _ => nan
    | _, nan => nan
    | inf _, inf _ => nan
    | inf a, fin x => inf (xor a (decide (x < 0)))
    | fin _, inf _ => fin 0

/-- Back to the numbers; the others go to 0. -/
def toNum [Zero K] : Ext K → K
  | fin x => x
  | _ => 0

end Ext

end Bbn
