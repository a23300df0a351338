import Mathlib.Algebra.Group.Prod
import Verif.Spec.Canvas

/-!
# What an arrow between two boxes looks like (specification)

A place is given by its row and its column.
-/

set_option autoImplicit false

namespace Bbn

/-- The directions in which a line character is open: up is `(-1, 0)`, right is `(0, 1)`. An arrow head is open at its back. -/
def openings : Char → List (Int × Int)
  | '─' => [(0, -1), (0, 1)]
  | '│' => [(-1, 0), (1, 0)]
  | '┐' => [(0, -1), (1, 0)]
  | '┘' => [(0, -1), (-1, 0)]
  | '┌' => [(0, 1), (1, 0)]
  | '└' => [(0, 1), (-1, 0)]
  | 'v' => [(-1, 0)]
  | '^' => [(1, 0)]
  | '>' => [(0, -1)]
  | '<' => [(0, 1)]
  | _ => []

/-- Where an arrow head points to. -/
def pointsTo : Char → Option (Int × Int)
  | 'v' => some (1, 0)
  | '^' => some (-1, 0)
  | '>' => some (0, 1)
  | '<' => some (0, -1)
  | _ => none

/-- The box covers this place. -/
def Bounds.Covers (b : Bounds) (p : Int × Int) : Prop := (p.2, p.1) ∈ b.cells

/-- There is a free row between the boxes. -/
def FreeRow (b c : Bounds) : Prop := b.y + b.h < c.y ∨ c.y + c.h < b.y

/-- There is a free column between the boxes. -/
def FreeColumn (b c : Bounds) : Prop := b.x + b.w < c.x ∨ c.x + c.w < b.x

/-- The characters of `E` form one arrow from box `b` to box `c`: its places are `f 0` to `f n`, each place is joined to
the next one by open ends, the first one is open to a place of `b`, the last one (and no other) is an arrow head and
points to a place of `c`, and none is covered by one of the boxes. -/
structure IsArrow (b c : Bounds) (E : Int → Int → Option Char) (n : Nat) (f : Nat → Int × Int) : Prop where
  places : ∀ y x, E y x ≠ none ↔ ∃ k, k ≤ n ∧ f k = (y, x)
  start : ∃ r d, E (f 0).1 (f 0).2 = some r ∧ d ∈ openings r ∧ b.Covers (f 0 + d)
  joined : ∀ k, k < n → ∃ r s d, E (f k).1 (f k).2 = some r ∧ E (f (k + 1)).1 (f (k + 1)).2 = some s ∧
    f (k + 1) = f k + d ∧ d ∈ openings r ∧ -d ∈ openings s
  head : ∃ r d, E (f n).1 (f n).2 = some r ∧ pointsTo r = some d ∧ c.Covers (f n + d)
  line : ∀ k, k < n → ∃ r, E (f k).1 (f k).2 = some r ∧ pointsTo r = none
  outside : ∀ k, k ≤ n → ¬ b.Covers (f k) ∧ ¬ c.Covers (f k)

end Bbn
