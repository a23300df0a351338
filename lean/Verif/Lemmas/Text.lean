import Verif.Lemmas.Files

/-!
# Lemmas on texts: words and integers
-/

set_option autoImplicit false

namespace Bbn

theorem goSplit_intercalate {c : Char} {parts : List String} (hne : parts ≠ []) (h : ∀ p ∈ parts, c ∉ p.toList) :
    goSplit (String.intercalate (String.singleton c) parts) c = parts := by
  unfold goSplit
  rw [String.toList_intercalate]
  rw [show (String.singleton c).toList = [c] by simp]
  rw [splitChars_intercalate (by simpa using hne) (by simpa using h), List.map_map]
  conv_rhs => rw [← List.map_id parts]
  apply List.map_congr_left
  intro s _
  simp

theorem digits_fold {cs : List Char} (h : ∀ c ∈ cs, c.isDigit = true) (a : Nat) :
    cs.foldl (fun acc c => acc.bind (fun n => if c.isDigit then some (n * 10 + (c.toNat - 48)) else none)) (some a) =
      some (Nat.ofDigitChars 10 cs a) := by
  induction cs generalizing a with
  | nil => rfl
  | cons c cs ih =>
    rw [List.foldl_cons, Nat.ofDigitChars_cons]
    simp only [Option.bind_some]
    rw [if_pos (h c (by simp)), ih (fun d hd => h d (by simp [hd]))]
    congr 2
    rw [Nat.mul_comm]; rfl

theorem digitsValue_repr (n : Nat) : digitsValue n.repr.toList = some n := by
  have e : n.repr.toList = Nat.toDigits 10 n := by rw [Nat.repr_eq_ofList_toDigits]; simp
  rw [e]
  unfold digitsValue
  rw [if_neg Nat.toDigits_ne_nil, digits_fold (fun c hc => Nat.isDigit_of_mem_toDigits (by omega) (by omega) hc),
    Nat.ofDigitChars_ten_toDigits]

theorem digits_repr (n : Nat) : ∀ c ∈ n.repr.toList, c.isDigit = true := by
  have e : n.repr.toList = Nat.toDigits 10 n := by rw [Nat.repr_eq_ofList_toDigits]; simp
  rw [e]
  exact fun c hc => Nat.isDigit_of_mem_toDigits (by omega) (by omega) hc

theorem atoiChars_digits {cs : List Char} (h : ∀ c ∈ cs, c.isDigit = true) :
    atoiChars cs = (digitsValue cs).bind (fun n => if n < 2 ^ 63 then some (n : Int) else none) := by
  cases cs with
  | nil => rfl
  | cons c cs =>
    have hc := h c (by simp)
    unfold atoiChars
    split
    · rename_i e; cases e; exact absurd hc (by decide)
    · rename_i e; cases e; exact absurd hc (by decide)
    · rfl

/-- A 64 bit integer, written in decimal digits, is read as itself. -/
theorem goAtoi_toString {i : Int} (h1 : -2 ^ 63 ≤ i) (h2 : i < 2 ^ 63) : goAtoi (toString i) = some i := by
  unfold goAtoi
  cases i with
  | ofNat n =>
    have e : (toString (Int.ofNat n)) = n.repr := rfl
    rw [e, atoiChars_digits (digits_repr n), digitsValue_repr]
    have : n < 2 ^ 63 := by simp at h2; omega
    rw [Option.bind_some, if_pos this]; rfl
  | negSucc n =>
    have e : (toString (Int.negSucc n)).toList = '-' :: (n + 1).repr.toList := by
      change ("-" ++ (n + 1).repr).toList = _
      rw [String.toList_append]; rfl
    rw [e]
    change (digitsValue (n + 1).repr.toList).bind _ = _
    rw [digitsValue_repr]
    have : n + 1 ≤ 2 ^ 63 := by omega
    rw [Option.bind_some, if_pos this]
    rfl

theorem foldl_bind_none {cs : List Char} : cs.foldl (fun acc c => acc.bind (fun n =>
    if c.isDigit then some (n * 10 + (c.toNat - 48)) else none)) (none : Option Nat) = none := by
  induction cs with
  | nil => rfl
  | cons c cs ih => exact ih

theorem digitsValue_bad {cs : List Char} (h : ∃ c ∈ cs, c.isDigit = false) : digitsValue cs = none := by
  unfold digitsValue
  split
  · rfl
  · rename_i h0
    clear h0
    generalize (some 0 : Option Nat) = a
    induction cs generalizing a with
    | nil => obtain ⟨c, hc, _⟩ := h; cases hc
    | cons c cs ih =>
      rw [List.foldl_cons]
      cases hd : c.isDigit with
      | false =>
        have : a.bind (fun n => if c.isDigit then some (n * 10 + (c.toNat - 48)) else none) = none := by
          cases a <;> simp [hd]
        rw [← hd, this]
        exact foldl_bind_none
      | true =>
        apply ih
        obtain ⟨d, hm, hf⟩ := h
        rcases List.mem_cons.1 hm with rfl | hm
        · rw [hd] at hf; cases hf
        · exact ⟨d, hm, hf⟩

/-- Texts that are empty or have other characters than digits and signs are not read as integers. -/
theorem goAtoi_bad {s : String} (h : s = "" ∨ ∃ c ∈ s.toList, c.isDigit = false ∧ c ≠ '-' ∧ c ≠ '+') :
    goAtoi s = none := by
  unfold goAtoi
  rcases h with rfl | ⟨c, hc, h1, h2, h3⟩
  · rfl
  · unfold atoiChars
    split
    · rename_i cs e
      rw [e] at hc
      rw [digitsValue_bad ⟨c, (List.mem_cons.1 hc).resolve_left h2, h1⟩]; rfl
    · rename_i cs e
      rw [e] at hc
      rw [digitsValue_bad ⟨c, (List.mem_cons.1 hc).resolve_left h3, h1⟩]; rfl
    · rw [digitsValue_bad ⟨c, hc, h1⟩]; rfl

end Bbn
