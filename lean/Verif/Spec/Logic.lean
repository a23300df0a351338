import Verif.Model.Logic
import Verif.Spec.Network

/-!
# Logic tables (specification)

A table of a logic node is indexed as every other table: row-major, the parents as listed, then the node itself
(`rowMajor`). The first outcome (index 0) is True, the second (index 1) False (`logic/doc.go:12-14`).
-/

set_option autoImplicit false

namespace Bbn

variable {α : Type}

/-- The outcome index of a truth value. -/
def truthIdx (b : Bool) : Nat := if b then 0 else 1

/-- The entry for these truth values of the parents (as listed) and outcome `o` of the node, which has `cols`
outcomes. -/
def boolEntry [Zero α] (t : List α) (ps : List Bool) (cols o : Nat) : α :=
  t.getD (rowMajor (ps.map (fun b => (2, truthIdx b)) ++ [(cols, o)])) 0

/-- With `n` boolean parents, the table says that the node has `cols` outcomes and is certain to have outcome `f ps`
if the parents are `ps`. -/
def FunctionTable [Zero α] [One α] (t : List α) (n cols : Nat) (f : List Bool → Nat) : Prop :=
  t.length = 2 ^ n * cols ∧ ∀ ps : List Bool, ps.length = n → f ps < cols ∧
    ∀ o < cols, boolEntry t ps cols o = if o = f ps then 1 else 0

/-- With `n` boolean parents, the table says that the node is True if `φ` holds for the parents, and False otherwise. -/
def RuleTable [Zero α] [One α] (t : List α) (n : Nat) (φ : List Bool → Bool) : Prop :=
  FunctionTable t n 2 (fun ps => truthIdx (φ ps))

/-- With a single parent of `L` outcomes, the table says that the node is True if `φ` holds for the parent's outcome
index, and False otherwise. -/
def OutcomeTable [Zero α] [One α] (t : List α) (L : Nat) (φ : Nat → Bool) : Prop :=
  t.length = L * 2 ∧ ∀ k < L, ∀ o < 2, t.getD (rowMajor [(L, k), (2, o)]) 0 = if o = truthIdx (φ k) then 1 else 0

/-- A complete conditional distribution with `rows` rows and `cols` outcomes, made of 0, 1/2 and 1. -/
def CompleteTable [Zero α] [One α] [Add α] [Div α] (t : List α) (rows cols : Nat) : Prop :=
  t.length = rows * cols ∧ (∀ x ∈ t, x = 0 ∨ x = 1 / (1 + 1) ∨ x = 1) ∧
    ∀ r < rows, ((t.drop (r * cols)).take cols).sum = 1

/-- The formulas documented in `logic/simple.go` for operators with one parent `A`. -/
def formulas1 : List (String × (Bool → Bool)) := [
  ("not", fun A => !A),
  ("equals", fun A => A),
  ("equals-not", fun A => !A)]

/-- The formulas documented in `logic/simple.go` for operators with parents `A` and `B`. -/
def formulas2 : List (String × (Bool → Bool → Bool)) := [
  ("and", fun A B => A && B),
  ("not-and", fun A B => !A && B),
  ("and-not", fun A B => A && !B),
  ("not-and-not", fun A B => !A && !B),
  ("or", fun A B => A || B),
  ("not-or", fun A B => !A || B),
  ("or-not", fun A B => A || !B),
  ("not-or-not", fun A B => !A || !B),
  ("xor", fun A B => A != B),
  ("cond", fun A B => if A then B else true),
  ("not-cond", fun A B => if !A then B else true),
  ("cond-not", fun A B => if A then !B else true),
  ("not-cond-not", fun A B => if !A then !B else true),
  ("bicond", fun A B => A == B)]

/-- The conditions documented in `logic/simple.go:241-283`: if the premise holds for the parent, the node is certain to
have this truth value; otherwise it is undecided. -/
def conditions : List (String × (Bool → Bool) × Bool) := [
  ("if-then", fun A => A, true),
  ("if-not-then", fun A => !A, true),
  ("if-then-not", fun A => A, false),
  ("if-not-then-not", fun A => !A, false)]

/-- The number with these binary digits, the first one the most significant. -/
def ofDigits : List Bool → Nat
  | [] => 0
  | b :: bs => (if b then 1 else 0) * 2 ^ bs.length + ofDigits bs

/-- The number of combinations of the parents' outcomes, for `n` parents: the outcome operators are told the number of
outcomes of their parent, all others have boolean parents. -/
def Logic.parentRows (n : Nat) : Logic α → Nat
  | .outcomeIs _ l | .outcomeIsNot _ l | .outcomeEither _ l | .outcomeLess _ l | .outcomeGreater _ l => l.toNat
  | _ => 2 ^ n

/-- The number of outcomes of the node itself. -/
def Logic.ownOutcomes (n : Nat) : Logic α → Nat
  | .countTrue | .countFalse => n + 1
  | .bits => 2 ^ n
  | _ => 2

/-- What a program can do with logic factors: construct them (the constructors with own objects), get them by name,
and set arguments through any pointer it got. -/
inductive LReach [Zero α] [One α] [Add α] [Div α] : LHeap α → Prop
  | init : LReach initHeap
  | countIs {h} (v : Int) : LReach h → LReach (h.alloc (.count v .is)).1
  | countLess {h} (v : Int) : LReach h → LReach (h.alloc (.count v .less)).1
  | countGreater {h} (v : Int) : LReach h → LReach (h.alloc (.count v .greater)).1
  | countTrue {h} : LReach h → LReach (h.alloc .countTrue).1
  | countFalse {h} : LReach h → LReach (h.alloc .countFalse).1
  | given {h} (i : Int) : LReach h → LReach (h.alloc (.given i)).1
  | givenNot {h} (i : Int) : LReach h → LReach (h.alloc (.givenNot i)).1
  | givenExcl {h} (i : Int) : LReach h → LReach (h.alloc (.givenExcl i)).1
  | outcomeIs {h} (i l : Int) : LReach h → LReach (h.alloc (.outcomeIs i l)).1
  | outcomeIsNot {h} (i l : Int) : LReach h → LReach (h.alloc (.outcomeIsNot i l)).1
  | outcomeEither {h} (is : List Int) (l : Int) : LReach h → LReach (h.alloc (.outcomeEither is l)).1
  | outcomeLess {h} (i l : Int) : LReach h → LReach (h.alloc (.outcomeLess i l)).1
  | outcomeGreater {h} (i l : Int) : LReach h → LReach (h.alloc (.outcomeGreater i l)).1
  | bits {h} : LReach h → LReach (h.alloc .bits).1
  | setArgs {h h'} (p : Nat) (args : List Int) : LReach h → h.setArgs p args = .ok h' → LReach h'

end Bbn
