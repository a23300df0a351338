import Verif.Model.Basic

/-!
# Go's string functions

Strings are sequences of Unicode characters; Go strings that are not valid UTF-8 are not modelled.
-/

set_option autoImplicit false

namespace Bbn

/-- `strings.Split` with a separator of one character (library function, used in `yml.go:108`, `xml.go:106, 112`,
`internal/tui/util.go:11`): the pieces between the separators. -/
def splitChars (c : Char) : List Char → List (List Char)
  | [] => [[]]
  | x :: xs =>
    if x = c then [] :: splitChars c xs
    else match splitChars c xs with
      | [] => [[x]]
      | w :: ws => (x :: w) :: ws

/-- `strings.Split` on strings (library function, used in `yml.go:108`, `xml.go:106, 112`, `internal/tui/util.go:11`). -/
def goSplit (s : String) (c : Char) : List String := (splitChars c s.toList).map String.ofList

/-- `unicode.IsSpace` (library function, behind `xml.go:58, 107, 110`). -/
def isGoSpace (c : Char) : Bool :=
  c.toNat ∈ [0x09, 0x0A, 0x0B, 0x0C, 0x0D, 0x20, 0x85, 0xA0, 0x1680, 0x2028, 0x2029, 0x202F, 0x205F, 0x3000] ||
    (0x2000 ≤ c.toNat && c.toNat ≤ 0x200A)

/-- Removes the characters with property `p` at both ends (library function, behind `xml.go:107, 110, 111`). -/
def trimChars (p : Char → Bool) (cs : List Char) : List Char :=
  ((cs.dropWhile p).reverse.dropWhile p).reverse

/-- `strings.TrimSpace` (library function, used in `xml.go:107, 110, 117, 121`). -/
def goTrimSpace (s : String) : String := String.ofList (trimChars isGoSpace s.toList)

/-- `strings.Trim(s, "()")` (library function, used in `xml.go:111`). -/
def goTrimParens (s : String) : String := String.ofList (trimChars (fun c => c = '(' || c = ')') s.toList)

/-- `strings.Fields` (library function, used in `xml.go:58`): the maximal pieces without white space. -/
def fieldsChars : List Char → List Char → List (List Char)
  | cur, [] => if cur = [] then [] else [cur]
  | cur, x :: xs =>
    if isGoSpace x then (if cur = [] then fieldsChars [] xs else cur :: fieldsChars [] xs)
    else fieldsChars (cur ++ [x]) xs

/-- `strings.Fields` on strings (library function, used in `xml.go:58`). -/
def goFields (s : String) : List String := (fieldsChars [] s.toList).map String.ofList

/-- The value of a non-empty string of decimal digits (library function, behind `yml.go:115`, `xml.go:117, 121`). -/
def digitsValue (cs : List Char) : Option Nat :=
  if cs = [] then none
  else cs.foldl (fun acc c => acc.bind (fun n => if c.isDigit then some (n * 10 + (c.toNat - 48)) else none)) (some 0)

/-- `strconv.Atoi` (library function, used in `yml.go:115`, `xml.go:117, 121`, `internal/tui/input.go:307`) for 64 bit
integers; `none` is an error. -/
def atoiChars : List Char → Option Int
  | '-' :: cs => (digitsValue cs).bind (fun n => if n ≤ 2 ^ 63 then some (-(n : Int)) else none)
  | '+' :: cs => (digitsValue cs).bind (fun n => if n < 2 ^ 63 then some (n : Int) else none)
  | cs => (digitsValue cs).bind (fun n => if n < 2 ^ 63 then some (n : Int) else none)

/-- `strconv.Atoi` on strings (library function, used in `yml.go:115`, `xml.go:117, 121`, `internal/tui/input.go:307`). -/
def goAtoi (s : String) : Option Int := atoiChars s.toList

end Bbn
