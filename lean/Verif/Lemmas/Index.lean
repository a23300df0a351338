import Verif.Model.Factor
import Verif.Spec.Tuple
import Mathlib.Tactic.Ring
import Mathlib.Tactic.Linarith
import Mathlib.Algebra.Order.Ring.Nat

/-!
# Lemmas on flat indices, outcome tuples and the odometer
-/

set_option autoImplicit false

namespace Bbn

theorem indexLoop_snd : ∀ (vs : List Var) (t : List Nat), t.length = vs.length →
    (indexLoop (R := Nat) vs t).2 = size vs
  | [], [], _ => rfl
  | v :: vs, i :: t, h => by
    have := indexLoop_snd vs t (by simpa using h)
    simp only [indexLoop, size]
    rw [this, Nat.mul_comm]; rfl

theorem flatIndex_cons (v : Var) (vs : List Var) (i : Nat) (t : List Nat) (h : t.length = vs.length) :
    flatIndex (v :: vs) (i :: t) = i * size vs + flatIndex vs t := by
  simp only [flatIndex, indexLoop]
  rw [indexLoop_snd vs t h]; ring

theorem flatIndex_nil : flatIndex (R := Nat) [] [] = 0 := rfl

theorem InRange.length {vs : List Var} {t : List Nat} (h : InRange vs t) : t.length = vs.length :=
  (List.Forall₂.length_eq h).symm

theorem inRange_cons {v : Var} {vs : List Var} {i : Nat} {t : List Nat} :
    InRange (v :: vs) (i :: t) ↔ i < v.outcomes ∧ InRange vs t := by
  simp [InRange]

theorem inRange_nil : InRange [] [] := List.Forall₂.nil

theorem flatIndex_lt {vs : List Var} {t : List Nat} (h : InRange vs t) : flatIndex vs t < size vs := by
  induction h with
  | nil => simp [flatIndex, indexLoop, size]
  | @cons v i vs t hi ht ih =>
    rw [flatIndex_cons _ _ _ _ (InRange.length ht), size]
    calc i * size vs + flatIndex vs t < i * size vs + size vs := by omega
      _ = (i + 1) * size vs := by ring
      _ ≤ v.outcomes * size vs := Nat.mul_le_mul_right _ hi

theorem outcomesLoop_length (vs : List Var) (k : Nat) : (outcomesLoop vs k).1.length = vs.length := by
  induction vs with
  | nil => rfl
  | cons v vs ih => simp [outcomesLoop, ih]

theorem outcomesOf_length (vs : List Var) (k : Nat) : (outcomesOf vs k).length = vs.length :=
  outcomesLoop_length vs k

theorem outcomesLoop_snd (vs : List Var) (k : Nat) : (outcomesLoop vs k).2 = k / size vs := by
  induction vs with
  | nil => simp [outcomesLoop, size]
  | cons v vs ih => simp only [outcomesLoop, size, ih]; rw [Nat.div_div_eq_div_mul, Nat.mul_comm]

theorem outcomesOf_cons (v : Var) (vs : List Var) (k : Nat) :
    outcomesOf (v :: vs) k = (k / size vs) % v.outcomes :: outcomesOf vs k := by
  simp only [outcomesOf, outcomesLoop]; rw [outcomesLoop_snd]

theorem outcomesOf_nil (k : Nat) : outcomesOf [] k = [] := rfl

theorem outcomesOf_add_mul (vs : List Var) (a k : Nat) : outcomesOf vs (a * size vs + k) = outcomesOf vs k := by
  induction vs generalizing a with
  | nil => rfl
  | cons v vs ih =>
    rw [outcomesOf_cons, outcomesOf_cons]
    rcases Nat.eq_zero_or_pos (size vs) with h0 | hp
    · simp [size, h0]
    · have e : a * size (v :: vs) + k = (a * v.outcomes) * size vs + k := by simp [size]; ring
      rw [e, ih]
      congr 1
      rw [Nat.add_comm, Nat.add_mul_div_right _ _ hp, Nat.add_mul_mod_self_right]

theorem outcomesOf_mod (vs : List Var) (k : Nat) : outcomesOf vs (k % size vs) = outcomesOf vs k := by
  conv_rhs => rw [← Nat.div_add_mod k (size vs), Nat.mul_comm]
  rw [outcomesOf_add_mul]

theorem outcomesOf_inRange {vs : List Var} {k : Nat} (h : k < size vs) : InRange vs (outcomesOf vs k) := by
  induction vs generalizing k with
  | nil => exact inRange_nil
  | cons v vs ih =>
    rw [outcomesOf_cons, inRange_cons]
    have hv : 0 < v.outcomes := by
      rcases Nat.eq_zero_or_pos v.outcomes with h0 | hp
      · simp [size, h0] at h
      · exact hp
    have hs : 0 < size vs := by
      rcases Nat.eq_zero_or_pos (size vs) with h0 | hp
      · simp [size, h0] at h
      · exact hp
    refine ⟨Nat.mod_lt _ hv, ?_⟩
    rw [← outcomesOf_mod]
    exact ih (Nat.mod_lt _ hs)

theorem outcomesOf_flatIndex {vs : List Var} {t : List Nat} (h : InRange vs t) :
    outcomesOf vs (flatIndex vs t) = t := by
  induction h with
  | nil => rfl
  | @cons v i vs t hi ht ih =>
    have hlt := flatIndex_lt ht
    rw [flatIndex_cons _ _ _ _ (InRange.length ht), outcomesOf_cons, outcomesOf_add_mul, ih]
    congr 1
    rw [Nat.add_comm, Nat.add_mul_div_right _ _ (by omega), Nat.div_eq_of_lt hlt, Nat.zero_add,
      Nat.mod_eq_of_lt hi]

theorem flatIndex_outcomesOf {vs : List Var} {k : Nat} (h : k < size vs) :
    flatIndex vs (outcomesOf vs k) = k := by
  induction vs generalizing k with
  | nil => simp [size] at h; subst h; rfl
  | cons v vs ih =>
    have hv : 0 < v.outcomes := by
      rcases Nat.eq_zero_or_pos v.outcomes with h0 | hp
      · simp [size, h0] at h
      · exact hp
    have hs : 0 < size vs := by
      rcases Nat.eq_zero_or_pos (size vs) with h0 | hp
      · simp [size, h0] at h
      · exact hp
    rw [outcomesOf_cons, flatIndex_cons _ _ _ _ (outcomesOf_length vs k), ← outcomesOf_mod vs k,
      ih (Nat.mod_lt _ hs)]
    have : k / size vs < v.outcomes := by
      rw [Nat.div_lt_iff_lt_mul hs]; simpa [size] using h
    rw [Nat.mod_eq_of_lt this, Nat.mul_comm]
    exact Nat.div_add_mod k (size vs)

theorem flatIndex_inj {vs : List Var} {t u : List Nat} (ht : InRange vs t) (hu : InRange vs u)
    (h : flatIndex vs t = flatIndex vs u) : t = u := by
  rw [← outcomesOf_flatIndex ht, ← outcomesOf_flatIndex hu, h]

theorem inRange_pos {vs : List Var} {t : List Nat} (h : InRange vs t) : 0 < size vs :=
  Nat.lt_of_le_of_lt (Nat.zero_le _) (flatIndex_lt h)

theorem size_pos_iff {vs : List Var} : 0 < size vs ↔ ∀ v ∈ vs, 0 < v.outcomes := by
  induction vs with
  | nil => simp [size]
  | cons v vs ih =>
    simp only [size, List.mem_cons, forall_eq_or_imp, ← ih]
    exact CanonicallyOrderedAdd.mul_pos

theorem outcomesOf_zero {vs : List Var} : outcomesOf vs 0 = List.replicate vs.length 0 := by
  induction vs with
  | nil => rfl
  | cons v vs ih => rw [outcomesOf_cons, ih]; simp [List.replicate_succ]

/-- One step of the odometer is adding one to the flat index. -/
theorem increment_outcomesOf {vs : List Var} {k : Nat} (h : k < size vs) :
    increment vs (outcomesOf vs k) = (outcomesOf vs (k + 1), decide (k + 1 < size vs)) := by
  induction vs generalizing k with
  | nil =>
    simp [size] at h; subst h; rfl
  | cons v vs ih =>
    have hv : 0 < v.outcomes := by
      rcases Nat.eq_zero_or_pos v.outcomes with h0 | hp
      · simp [size, h0] at h
      · exact hp
    have hs : 0 < size vs := by
      rcases Nat.eq_zero_or_pos (size vs) with h0 | hp
      · simp [size, h0] at h
      · exact hp
    have hm := Nat.mod_lt k hs
    have hq : k / size vs < v.outcomes := by
      rw [Nat.div_lt_iff_lt_mul hs]; simpa [size] using h
    have hk := Nat.div_add_mod k (size vs)
    rw [outcomesOf_cons, outcomesOf_cons, increment, ← outcomesOf_mod vs k, ih hm]
    generalize hQ : k / size vs = q at *
    generalize hR : k % size vs = r at *
    have hsz : size (v :: vs) = v.outcomes * size vs := rfl
    rw [Nat.mod_eq_of_lt hq]
    by_cases hr : r + 1 < size vs
    · simp only [hr, decide_true]
      have e : k + 1 = q * size vs + (r + 1) := by rw [← hk]; ring
      rw [e, outcomesOf_add_mul]
      have d : (q * size vs + (r + 1)) / size vs = q := by
        rw [Nat.add_comm, Nat.add_mul_div_right _ _ hs, Nat.div_eq_of_lt hr, Nat.zero_add]
      rw [d, Nat.mod_eq_of_lt hq]
      have : q * size vs + (r + 1) < size (v :: vs) := by
        rw [hsz]
        calc q * size vs + (r + 1) < q * size vs + size vs := by omega
          _ = (q + 1) * size vs := by ring
          _ ≤ _ := Nat.mul_le_mul_right _ hq
      simp [this]
    · simp only [hr, decide_false]
      have hr' : r + 1 = size vs := by omega
      have e : k + 1 = (q + 1) * size vs + 0 := by rw [← hk, Nat.mul_comm, Nat.add_assoc, hr']; ring
      rw [hr', e, outcomesOf_add_mul]
      have z : outcomesOf vs (size vs) = outcomesOf vs 0 := by
        have := outcomesOf_add_mul vs 1 0; simpa using this
      rw [z]; simp only [Nat.add_zero]; rw [Nat.mul_div_cancel _ hs]
      by_cases hq1 : q + 1 < v.outcomes
      · simp only [hq1, if_true, Nat.mod_eq_of_lt hq1]
        have : (q + 1) * size vs < size (v :: vs) := by
          rw [hsz]; exact Nat.mul_lt_mul_of_pos_right hq1 hs
        simp [this]
      · have hq1' : q + 1 = v.outcomes := by omega
        simp [hq1', hsz]

/-- The `Int` version of the index on natural-number tuples. -/
theorem indexLoop_cast (vs : List Var) (t : List Nat) :
    indexLoop (R := Int) vs (t.map Nat.cast) =
      (((indexLoop (R := Nat) vs t).1 : Int), ((indexLoop (R := Nat) vs t).2 : Int)) := by
  induction vs generalizing t with
  | nil => simp [indexLoop]
  | cons v vs ih =>
    cases t with
    | nil => simp [indexLoop]
    | cons i t => simp [indexLoop, ih]

theorem flatIndex_cast (vs : List Var) (t : List Nat) :
    flatIndex (R := Int) vs (t.map Nat.cast) = (flatIndex (R := Nat) vs t : Int) := by
  simp [flatIndex, indexLoop_cast]

theorem size_append (vs ws : List Var) : size (vs ++ ws) = size vs * size ws := by
  induction vs with
  | nil => simp [size]
  | cons v vs ih => simp [size, ih, Nat.mul_assoc]

theorem inRange_append {vs ws : List Var} {t u : List Nat} (h : t.length = vs.length) :
    InRange (vs ++ ws) (t ++ u) ↔ InRange vs t ∧ InRange ws u := by
  induction vs generalizing t with
  | nil =>
    have : t = [] := by simpa using h
    subst this; simp [InRange]
  | cons v vs ih =>
    cases t with
    | nil => simp at h
    | cons i t => simp [inRange_cons, ih (by simpa using h), and_assoc]

theorem flatIndex_append (vs ws : List Var) (t u : List Nat) (h : t.length = vs.length)
    (h' : u.length = ws.length) :
    flatIndex (vs ++ ws) (t ++ u) = flatIndex vs t * size ws + flatIndex ws u := by
  induction vs generalizing t with
  | nil =>
    have : t = [] := by simpa using h
    subst this; simp [flatIndex_nil]
  | cons v vs ih =>
    cases t with
    | nil => simp at h
    | cons i t =>
      have hl : t.length = vs.length := by simpa using h
      simp only [List.cons_append]
      rw [flatIndex_cons _ _ _ _ (by simp [hl, h']), flatIndex_cons _ _ _ _ hl, ih _ hl, size_append]
      ring

theorem varsIndex_ok {vs : List Var} {t : List Nat} (h : t.length = vs.length) :
    varsIndex vs t = .ok (flatIndex vs t) := by
  simp [varsIndex, h]

end Bbn
