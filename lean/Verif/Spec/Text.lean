import Mathlib.Algebra.Order.Floor.Ring
import Mathlib.Algebra.Order.Field.Basic
import Mathlib.Tactic.Linarith
import Mathlib.Tactic.Positivity
import Verif.Model.Tui

/-!
# Numbers as texts (specification)

Go's verb `%W.3f` for exact numbers: the sign, the digits before and three digits after the point, rounded to the nearest
thousandth (to the even one at a tie), filled up with blanks on the left to at least `W` letters. (A floating-point number
is an exact number; Go rounds it exactly.)
-/

set_option autoImplicit false

namespace Bbn

variable {α : Type} [Field α] [LinearOrder α] [IsStrictOrderedRing α] [FloorRing α]

/-- The nearest integer, the even one at a tie. -/
def roundEven (x : α) : Int :=
  if Int.fract x * 2 < 1 ∨ (Int.fract x * 2 = 1 ∧ ⌊x⌋ % 2 = 0) then ⌊x⌋ else ⌊x⌋ + 1

/-- A number of thousandths as a text. -/
def thousandthsText (t : Nat) : List Char :=
  Nat.toDigits 10 (t / 1000) ++ ['.', Nat.digitChar (t / 100 % 10), Nat.digitChar (t / 10 % 10), Nat.digitChar (t % 10)]

/-- `%W.3f`. -/
def fixedText (W : Nat) (x : α) : String :=
  let s := (if x < 0 then ['-'] else []) ++ thousandthsText (roundEven (|x| * 1000)).toNat
  String.ofList (List.replicate (W - s.length) ' ' ++ s)

/-- The texts are those of the formats in the code (`internal/tui/node.go:207, 231`, `table.go:67, 73`). -/
structure Fmt.ExactTexts (fm : Fmt α) : Prop where
  percent : ∀ x, fm.percent x = fixedText 7 (x * 100)
  utility : ∀ x, fm.utility x = fixedText 12 x
  cellUtility : ∀ x, fm.cellUtility x = fixedText 9 x
  cellPercent : ∀ x, fm.cellPercent x = fixedText 7 x ++ "%"

theorem roundEven_le {x : α} {n : Int} (h : x ≤ n) : roundEven x ≤ n := by
  unfold roundEven
  have h1 : ⌊x⌋ ≤ n := by
    have := Int.floor_le x
    exact_mod_cast this.trans h
  split_ifs with hc
  · exact h1
  · rcases Int.lt_or_le ⌊x⌋ n with h2 | h2
    · omega
    · exfalso
      have hn : (n : α) ≤ ⌊x⌋ := by exact_mod_cast h2
      have hf : Int.fract x = 0 := by
        have := Int.floor_le x
        have e := Int.fract_nonneg x
        have d : Int.fract x = x - ⌊x⌋ := rfl
        linarith
      exact hc (.inl (by rw [hf]; simp))

omit [IsStrictOrderedRing α] in
theorem roundEven_nonneg {x : α} (h : 0 ≤ x) : 0 ≤ roundEven x := by
  have := Int.floor_nonneg.2 h
  unfold roundEven
  split_ifs <;> omega

/-- A text is as wide as asked for if there is room for all digits. -/
theorem fixedText_length {W k : Nat} {x : α} (h0 : 0 < k) (hk : |x| * 1000 < ((10 ^ k * 1000 : Nat) : α) - 1)
    (hW : k + 4 + (if x < 0 then 1 else 0) ≤ W) : (fixedText W x).length = W := by
  have hr : roundEven (|x| * 1000) ≤ ((10 ^ k * 1000 - 1 : Nat) : Int) := by
    refine roundEven_le (le_of_lt (lt_of_lt_of_eq hk ?_))
    have : 1 ≤ 10 ^ k * 1000 := by have := Nat.pow_pos (n := k) (show 0 < 10 by omega); omega
    push_cast [Nat.cast_sub this]
    rfl
  have hp : 1 ≤ 10 ^ k * 1000 := by have := Nat.pow_pos (n := k) (show 0 < 10 by omega); omega
  have ht : (roundEven (|x| * 1000)).toNat / 1000 < 10 ^ k := by
    rw [Nat.div_lt_iff_lt_mul (by omega)]
    omega
  have hd := (Nat.length_toDigits_le_iff (b := 10) (by omega) h0).2 ht
  unfold fixedText
  rw [String.length_ofList]
  unfold thousandthsText
  generalize (roundEven (|x| * 1000)).toNat = t at hd ⊢
  generalize Nat.toDigits 10 (t / 1000) = ds at hd ⊢
  simp only [List.length_append, List.length_replicate, List.length_cons, List.length_nil]
  split_ifs at hW ⊢ <;> simp only [List.length_cons, List.length_nil] <;> omega

/-- Probabilities have texts of seven letters. -/
theorem Fmt.ExactTexts.percent_length {fm : Fmt α} (h : fm.ExactTexts) {x : α} (h0 : 0 ≤ x) (h1 : x ≤ 1) :
    (fm.percent x).length = 7 := by
  rw [h.percent]
  have hn : ¬ x * 100 < 0 := not_lt.2 (by positivity)
  refine fixedText_length (k := 3) (by omega) ?_ (by rw [if_neg hn])
  rw [abs_of_nonneg (by positivity)]
  norm_num
  linarith

/-- Utilities of less than ten million (if negative, more than minus ten million) have texts of twelve letters. -/
theorem Fmt.ExactTexts.utility_length {fm : Fmt α} (h : fm.ExactTexts) {x : α} (h1 : |x| * 1000 < 9999999999) :
    (fm.utility x).length = 12 := by
  rw [h.utility]
  refine fixedText_length (k := 7) (by omega) ?_ (by split_ifs <;> omega)
  norm_num
  exact h1

end Bbn
