import Mathlib.Algebra.BigOperators.Fin
import Mathlib.Algebra.Order.BigOperators.Group.Finset
import Mathlib.Algebra.Order.Field.Basic
import Mathlib.Tactic.Linarith
import Mathlib.Tactic.FieldSimp
import Mathlib.Tactic.Ring

/-!
# Relative frequencies maximise the likelihood: the inequalities
-/

set_option autoImplicit false

namespace Bbn

open Finset

variable {α : Type} [Field α] [LinearOrder α] [IsStrictOrderedRing α]

theorem list_prod_nonneg' {l : List α} (h : ∀ x ∈ l, 0 ≤ x) : 0 ≤ l.prod := by
  induction l with
  | nil => simp
  | cons x l ih =>
    rw [List.prod_cons]
    exact mul_nonneg (h x (by simp)) (ih (fun y hy => h y (List.mem_cons_of_mem _ hy)))

theorem list_prod_le_one {l : List α} (h : ∀ x ∈ l, 0 ≤ x) (h1 : ∀ x ∈ l, x ≤ 1) : l.prod ≤ 1 := by
  induction l with
  | nil => simp
  | cons x l ih =>
    rw [List.prod_cons]
    exact mul_le_one₀ (h1 x (by simp)) (list_prod_nonneg' (fun y hy => h y (List.mem_cons_of_mem _ hy)))
      (ih (fun y hy => h y (List.mem_cons_of_mem _ hy)) (fun y hy => h1 y (List.mem_cons_of_mem _ hy)))

theorem list_length_le_sum {l : List α} (h : ∀ x ∈ l, 1 ≤ x) : (l.length : α) ≤ l.sum := by
  induction l with
  | nil => simp
  | cons x l ih =>
    have := ih (fun y hy => h y (List.mem_cons_of_mem _ hy))
    have := h x (by simp)
    rw [List.sum_cons, List.length_cons]
    push_cast
    linarith

/-- Numbers with average at most one have product at most one. -/
theorem prod_le_one_of_average : ∀ (N : Nat) (l : List α), l.length = N → (∀ x ∈ l, 0 ≤ x) → l.sum ≤ l.length →
    l.prod ≤ 1 := by
  intro N
  induction N with
  | zero =>
    intro l hl _ _
    rw [List.length_eq_zero_iff] at hl
    simp [hl]
  | succ N ih =>
    intro l hl h0 hsum
    by_cases hall : ∀ x ∈ l, x ≤ 1
    · exact list_prod_le_one h0 hall
    · push Not at hall
      obtain ⟨a, ha, ha1⟩ := hall
      have hp := List.perm_cons_erase ha
      by_cases hb : ∀ x ∈ l.erase a, 1 ≤ x
      · have h2 := list_length_le_sum hb
        have h3 := hp.sum_eq
        have h4 := hp.length_eq
        rw [List.sum_cons] at h3
        rw [List.length_cons] at h4
        rw [h3, h4] at hsum
        push_cast at hsum
        linarith
      · push Not at hb
        obtain ⟨b, hb, hb1⟩ := hb
        have hp' := hp.trans ((List.perm_cons_erase hb).cons a)
        generalize (l.erase a).erase b = r at hp'
        have hb0 : 0 ≤ b := h0 b (hp'.symm.subset (by simp))
        have hr0 : ∀ x ∈ r, 0 ≤ x := fun x hx => h0 x (hp'.symm.subset (by simp [hx]))
        have hlen := hp'.length_eq
        have hs := hp'.sum_eq
        rw [List.sum_cons, List.sum_cons] at hs
        rw [List.length_cons, List.length_cons] at hlen
        have := ih ((a + b - 1) :: r) (by rw [List.length_cons]; omega) (by
          intro x hx
          rcases List.mem_cons.1 hx with rfl | hx
          · linarith
          · exact hr0 x hx) (by
          rw [List.sum_cons, List.length_cons]
          rw [hs, hlen] at hsum
          push_cast at hsum ⊢
          linarith)
        rw [List.prod_cons] at this
        rw [hp'.prod_eq, List.prod_cons, List.prod_cons, ← mul_assoc]
        refine le_trans (mul_le_mul_of_nonneg_right ?_ (list_prod_nonneg' hr0)) this
        nlinarith

/-- Samples `i` belong to rows `g i` and have values `d i`; each row has a distribution `p i` over the values. The
probabilities of the values, divided by their relative frequencies in the row, are at most one on average. -/
theorem frequencies_average {N c : Nat} {γ : Type} [DecidableEq γ] (g : Fin N → γ) (d : Fin N → Nat) (p : Fin N → Nat → α)
    (hd : ∀ i, d i < c) (h0 : ∀ i, ∀ k < c, 0 ≤ p i k) (h1 : ∀ i, ∑ k ∈ range c, p i k ≤ 1)
    (hg : ∀ i j, g i = g j → p i = p j) :
    ∑ i, p i (d i) / ((∑ j, if g j = g i ∧ d j = d i then (1 : α) else 0) / ∑ j, if g j = g i then (1 : α) else 0) ≤ N := by
  have key : ∀ t, ∑ i, (if g t = g i then p i (d i) / (∑ j, if g j = g i ∧ d j = d i then (1 : α) else 0) else 0) ≤ 1 := by
    intro t
    refine le_trans (le_of_eq ?_) (le_trans (Finset.sum_le_sum (s := range c) (f := fun k =>
      (∑ j, if g j = g t ∧ d j = k then (1 : α) else 0) * (p t k / ∑ j, if g j = g t ∧ d j = k then (1 : α) else 0))
      (g := fun k => p t k) ?_) (h1 t))
    · simp only [Finset.sum_mul]
      rw [Finset.sum_comm]
      refine Finset.sum_congr rfl (fun i _ => ?_)
      rw [Finset.sum_eq_single (d i)]
      · by_cases h : g t = g i
        · rw [if_pos h, if_pos ⟨h.symm, rfl⟩, one_mul, hg _ _ h]
          simp only [h]
        · rw [if_neg h, if_neg (fun h' => h h'.1.symm), zero_mul]
      · intro k _ hk
        rw [if_neg (fun h => hk h.2.symm), zero_mul]
      · intro h
        exact absurd (Finset.mem_range.2 (hd i)) h
    · intro k hk
      rcases eq_or_ne (∑ j, if g j = g t ∧ d j = k then (1 : α) else 0) 0 with h | h
      · rw [h, zero_mul]; exact h0 t k (Finset.mem_range.1 hk)
      · rw [mul_div_cancel₀ _ h]
  calc ∑ i, p i (d i) / ((∑ j, if g j = g i ∧ d j = d i then (1 : α) else 0) / ∑ j, if g j = g i then (1 : α) else 0)
      = ∑ i, ∑ t, (if g t = g i then p i (d i) / (∑ j, if g j = g i ∧ d j = d i then (1 : α) else 0) else 0) := by
        refine Finset.sum_congr rfl (fun i _ => ?_)
        rw [div_div_eq_mul_div, mul_div_right_comm, Finset.mul_sum]
        refine Finset.sum_congr rfl (fun t _ => ?_)
        split_ifs <;> simp
    _ = ∑ t, ∑ i, (if g t = g i then p i (d i) / (∑ j, if g j = g i ∧ d j = d i then (1 : α) else 0) else 0) :=
        Finset.sum_comm
    _ ≤ ∑ _t : Fin N, (1 : α) := Finset.sum_le_sum (fun t _ => key t)
    _ = N := by simp

end Bbn
