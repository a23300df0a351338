import Mathlib.Data.Nat.Digits.Defs
import Verif.Spec.White
import Verif.Model.Commands

/-!
# Texts in files (specification)
-/

set_option autoImplicit false

namespace Bbn

/-- `m` is what is left of `s` without the characters of a kind at both ends. -/
def Stripped (p : Char → Prop) (s m : String) : Prop :=
  ∃ a b, s = a ++ m ++ b ∧ (∀ c ∈ a.toList, p c) ∧ (∀ c ∈ b.toList, p c) ∧
    (∀ c, m.toList.head? = some c → ¬ p c) ∧ ∀ c, m.toList.getLast? = some c → ¬ p c

/-- `m` is `s` without the white space around it. -/
def Trimmed (s m : String) : Prop := Stripped White s m

/-- `m` is `s` without the parentheses around it. -/
def Unwrapped (s m : String) : Prop := Stripped (fun c => c = '(' ∨ c = ')') s m

/-- `s` is a decimal number, with or without a sign, for the integer `i` of 64 bits. -/
def IntText (s : String) (i : Int) : Prop :=
  ∃ sign digits, s = sign ++ digits ∧ digits ≠ "" ∧ (∀ c ∈ digits.toList, c.isDigit = true) ∧
    (sign = "-" ∧ i = -((Nat.ofDigits 10 (digits.toList.reverse.map (fun c => c.toNat - 48)) : Nat) : Int) ∨
      (sign = "" ∨ sign = "+") ∧ i = ((Nat.ofDigits 10 (digits.toList.reverse.map (fun c => c.toNat - 48)) : Nat) : Int)) ∧
    -2 ^ 63 ≤ i ∧ i < 2 ^ 63

/-- The words of a text: its longest pieces without white space, in order. -/
inductive Words : String → List String → Prop
  | blank (s : String) : Blank s → Words s []
  | word (a w rest : String) (ws : List String) : Blank a → w ≠ "" → (∀ c ∈ w.toList, ¬ White c) →
      (∀ c, rest.toList.head? = some c → White c) → Words rest ws → Words (a ++ w ++ rest) (w :: ws)

/-- What a type in a file says: nothing and `nature` stand for chance variables. -/
def KindText (s : String) (t : NodeType) : Prop :=
  (s = "" ∨ s = "nature") ∧ t = .chance ∨ s = "decision" ∧ t = .decision ∨ s = "utility" ∧ t = .utility

/-- The extension of the file at a path: from the last dot of its name on, or nothing if its name has no dot. -/
def Extension (path ext : String) : Prop :=
  (∃ front last, path = front ++ "." ++ last ∧ '.' ∉ last.toList ∧ '/' ∉ last.toList ∧ ext = "." ++ last) ∨
  (∃ front name, path = front ++ name ∧ (front = "" ∨ front.toList.getLast? = some '/') ∧ '.' ∉ name.toList ∧
    '/' ∉ name.toList ∧ ext = "")

/-- The file at a path can be read as a table with this delimiter; it has this header and these records. -/
def CsvAt {α B : Type} (lib : Lib α B) (disk : Disk B) (path : String) (delim : Char) (header : List String)
    (records : List (List String)) : Prop :=
  ∃ b, disk path = some b ∧ lib.csv b delim = .ok (header, records)

end Bbn
