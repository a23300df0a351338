import Verif.Props.Examples

/-!
# C01-C05, C22: indexing of factors
-/

set_option autoImplicit false

namespace Bbn

open Finset

variable {α : Type}

/-- Integer version of a natural-number tuple, as Go passes it. -/
def ints (t : List Nat) : List Int := t.map Nat.cast

/-- **C01.** `Index` maps the in-range tuples onto `0 .. len(data)-1`, and `Outcomes` is its inverse in both
directions. -/
theorem C01_index_outcomes_bijection (f : Factor α) (hlen : f.data.length = size f.vars) :
    (∀ t, InRange f.vars t →
      ∃ k : Nat, k < f.data.length ∧ f.index (ints t) = .ok (k : Int) ∧ f.outcomes k = t) ∧
    (∀ k, k < f.data.length →
      InRange f.vars (f.outcomes k) ∧ f.index (ints (f.outcomes k)) = .ok (k : Int)) := by
  have hidx : ∀ t : List Nat, t.length = f.vars.length →
      f.index (ints t) = .ok ((flatIndex (R := Nat) f.vars t : Nat) : Int) := by
    intro t ht
    simp only [Factor.index, varsIndex, ints, List.length_map, ht, ne_eq, not_true_eq_false, if_false]
    rw [flatIndex_cast]
  constructor
  · intro t ht
    exact ⟨flatIndex f.vars t, by rw [hlen]; exact flatIndex_lt ht, hidx t ht.length, outcomesOf_flatIndex ht⟩
  · intro k hk
    rw [hlen] at hk
    refine ⟨outcomesOf_inRange hk, ?_⟩
    unfold Factor.outcomes
    rw [hidx _ (outcomesOf_length _ _), flatIndex_outcomesOf hk]

/-- C01 corollary: two different in-range tuples never share a flat index. -/
theorem C01_index_injective (f : Factor α) (t u : List Nat) (ht : InRange f.vars t) (hu : InRange f.vars u)
    (h : f.index (ints t) = f.index (ints u)) : t = u := by
  simp only [Factor.index, varsIndex, ints, List.length_map, ht.length, hu.length, ne_eq, not_true_eq_false,
    if_false, Except.ok.injEq] at h
  rw [flatIndex_cast, flatIndex_cast] at h
  exact flatIndex_inj ht hu (by exact_mod_cast h)

example : ∃ k : Nat, k < Ex.fAB.data.length ∧ Ex.fAB.index (ints [1, 2]) = .ok (k : Int) ∧ Ex.fAB.outcomes k = [1, 2] :=
  (C01_index_outcomes_bijection Ex.fAB rfl).1 [1, 2] (by unfold InRange; decide)

/-- The odometer after `k` steps from all zeros. -/
def odometer (vs : List Var) : Nat → List Nat
  | 0 => List.replicate vs.length 0
  | k + 1 => (increment vs (odometer vs k)).1

theorem allTuples_eq (vs : List Var) : allTuples vs = (List.range (size vs)).map (outcomesOf vs) := by
  induction vs with
  | nil => simp [allTuples, size, outcomesOf_nil]
  | cons v vs ih =>
    have key : ∀ a, (List.range a).flatMap (fun c => (allTuples vs).map (c :: ·)) =
        (List.range (a * size vs)).map (fun k => k / size vs :: outcomesOf vs k) := by
      intro a
      induction a with
      | zero => simp
      | succ a iha =>
        rw [List.range_succ, List.flatMap_append, iha, Nat.succ_mul, List.range_add, List.map_append]
        congr 1
        simp only [List.flatMap_cons, List.flatMap_nil, List.append_nil, ih, List.map_map]
        apply List.map_congr_left
        intro k hk
        have hk' : k < size vs := by simpa using hk
        simp only [Function.comp]
        rw [outcomesOf_add_mul, Nat.add_comm (a * size vs), Nat.add_mul_div_right _ _ (by omega),
          Nat.div_eq_of_lt hk', Nat.zero_add]
    rw [allTuples, key, size]
    apply List.map_congr_left
    intro k hk
    have hk' : k < v.outcomes * size vs := by simpa using hk
    have hs : 0 < size vs := by
      rcases Nat.eq_zero_or_pos (size vs) with h0 | hp
      · simp [h0] at hk'
      · exact hp
    rw [outcomesOf_cons, Nat.mod_eq_of_lt]
    rwa [Nat.div_lt_iff_lt_mul hs]

/-- **C02.** The odometer visits exactly the tuples of `allTuples` (row-major, last variable fastest), in this
order; after `k` steps it holds `Outcomes(k)`; the step returns `false` exactly on the last tuple, and then the
tuple is all zeros again. -/
theorem C02_odometer_row_major (vs : List Var) :
    (List.range (size vs)).map (odometer vs) = allTuples vs ∧
    (∀ k, k < size vs → odometer vs k = outcomesOf vs k) ∧
    (∀ k, k < size vs → ((increment vs (odometer vs k)).2 = false ↔ k + 1 = size vs)) ∧
    (0 < size vs → odometer vs (size vs) = List.replicate vs.length 0) := by
  have h : ∀ k, k ≤ size vs → 0 < size vs → odometer vs k = outcomesOf vs k := by
    intro k
    induction k with
    | zero => intro _ _; simp [odometer, outcomesOf_zero]
    | succ k ih =>
      intro hk hpos
      rw [odometer, ih (by omega) hpos, increment_outcomesOf (by omega)]
  have h2 : ∀ k, k < size vs → odometer vs k = outcomesOf vs k := fun k hk => h k (by omega) (by omega)
  refine ⟨?_, h2, ?_, ?_⟩
  · rw [allTuples_eq]
    apply List.map_congr_left
    intro k hk
    exact h2 k (by simpa using hk)
  · intro k hk
    rw [h2 k hk, increment_outcomesOf hk]
    simp; omega
  · intro hpos
    rw [h _ (le_refl _) hpos, ← outcomesOf_zero]
    have := outcomesOf_add_mul vs 1 0
    simpa using this

/-- C02 at the level of data: entry `k` of a factor's data is what `Get` returns for the `k`-th tuple in
row-major order. -/
theorem C02_data_layout (f : Factor α) (hlen : f.data.length = size f.vars) (k : Nat) (t : List Nat)
    (ht : (allTuples f.vars)[k]? = some t) (x : α) (hx : f.data[k]? = some x) : f.get (ints t) = .ok x := by
  rw [allTuples_eq, List.getElem?_map] at ht
  have hk : k < size f.vars := by rw [← hlen]; exact (List.getElem?_eq_some_iff.1 hx).1
  rw [List.getElem?_range hk] at ht
  simp only [Option.map_some, Option.some.injEq] at ht
  subst ht
  unfold Factor.get
  have : varsIndex f.vars (ints (outcomesOf f.vars k)) = .ok (k : Int) := by
    simp only [varsIndex, ints, List.length_map, outcomesOf_length, ne_eq, not_true_eq_false, if_false]
    rw [flatIndex_cast, flatIndex_outcomesOf hk]
  rw [this, ok_bind, goGetI, if_neg (by omega)]
  simp only [Int.toNat_natCast]
  exact goGet_eq.2 hx

example : (List.range 6).map (odometer [Ex.xA, Ex.xB]) =
    [[0, 0], [0, 1], [0, 2], [1, 0], [1, 1], [1, 2]] := by decide

example : Ex.fAB.get (ints [1, 1]) = .ok (5/10) :=
  C02_data_layout Ex.fAB rfl 4 [1, 1] (by decide) _ rfl

theorem varsIndex_ints {vs : List Var} {t : List Nat} (h : t.length = vs.length) :
    varsIndex vs (ints t) = .ok ((flatIndex (R := Nat) vs t : Nat) : Int) := by
  simp only [varsIndex, ints, List.length_map, h, ne_eq, not_true_eq_false, if_false]
  rw [flatIndex_cast]

/-- **C03.** After `Set(t, x)`, `Get(t)` is `x` and all other in-range tuples read as before. For any value
type. -/
theorem C03_set_get (f : Factor α) (hlen : f.data.length = size f.vars) (t : List Nat) (ht : InRange f.vars t)
    (x : α) :
    ∃ g, f.set (ints t) x = .ok g ∧ g.vars = f.vars ∧ g.id = f.id ∧ g.data.length = f.data.length ∧
      g.get (ints t) = .ok x ∧
      ∀ u, InRange f.vars u → u ≠ t → g.get (ints u) = f.get (ints u) := by
  have hlt := flatIndex_lt ht
  refine ⟨{ f with data := f.data.set (flatIndex f.vars t) x }, ?_, rfl, rfl, by simp, ?_, ?_⟩
  · unfold Factor.set
    rw [varsIndex_ints ht.length, ok_bind, goSetI, if_neg (by omega)]
    simp only [Int.toNat_natCast]
    rw [goSet_ok (by omega)]; rfl
  · unfold Factor.get
    rw [varsIndex_ints ht.length, ok_bind, goGetI, if_neg (by omega)]
    simp only [Int.toNat_natCast]
    rw [goGet_eq, List.getElem?_set_self (by omega)]
  · intro u hu hne
    unfold Factor.get
    rw [varsIndex_ints hu.length, ok_bind, ok_bind, goGetI, if_neg (by omega), goGetI, if_neg (by omega)]
    simp only [Int.toNat_natCast, goGet]
    rw [List.getElem?_set_ne]
    intro e
    exact hne (flatIndex_inj hu ht e.symm)

example : InRange Ex.fAB.vars [1, 2] ∧ InRange Ex.fAB.vars [0, 1] ∧ [0, 1] ≠ [1, 2] := by
  unfold InRange; decide

theorem noDataLoop_spec (vs : List Var) (is : List Int) (h : is.length = vs.length) :
    noDataLoop vs is = if (-1 : Int) ∈ is then none else some (indexLoop vs is) := by
  induction vs generalizing is with
  | nil =>
    have : is = [] := by simpa using h
    subst this; rfl
  | cons v vs ih =>
    cases is with
    | nil => simp at h
    | cons i is =>
      have := ih is (by simpa using h)
      rw [noDataLoop, this]
      by_cases h1 : (-1 : Int) ∈ is
      · simp [h1]
      · by_cases h2 : i = -1
        · simp [h1, h2]
        · have h2' : ¬ (-1 : Int) = i := fun e => h2 e.symm
          simp [h1, h2, h2', indexLoop]

/-- **C04.** `IndexWithNoData` returns `false` exactly if the tuple holds a -1, and otherwise the index that
`Index` returns; a wrong number of indices panics. -/
theorem C04_indexWithNoData (f : Factor α) (is : List Int) :
    (is.length ≠ f.vars.length → Panics (f.indexWithNoData is)) ∧
    (is.length = f.vars.length → (-1 : Int) ∈ is → f.indexWithNoData is = .ok (0, false)) ∧
    (is.length = f.vars.length → (-1 : Int) ∉ is →
      ∃ k, f.index is = .ok k ∧ f.indexWithNoData is = .ok (k, true)) := by
  refine ⟨?_, ?_, ?_⟩
  · intro h; exact ⟨"wrong number of indices", by simp [Factor.indexWithNoData, indexWithNoData, h]⟩
  · intro h hm
    simp only [Factor.indexWithNoData, indexWithNoData, h, ne_eq, not_true_eq_false, if_false]
    rw [noDataLoop_spec _ _ h, if_pos hm]
  · intro h hm
    refine ⟨flatIndex f.vars is, by simp [Factor.index, varsIndex, h], ?_⟩
    simp only [Factor.indexWithNoData, indexWithNoData, h, ne_eq, not_true_eq_false, if_false]
    rw [noDataLoop_spec _ _ h, if_neg hm]
    rfl

example : Ex.fAB.indexWithNoData [1, -1] = .ok (0, false) := by decide
example : Ex.fAB.indexWithNoData [1, 2] = .ok (5, true) := by decide

theorem rowLoop_cast (s : Nat) (vs : List Var) (t : List Nat) (h : t.length = vs.length) :
    rowLoop s vs (ints t) = (((flatIndex (R := Nat) vs t * s : Nat) : Int), ((size vs * s : Nat) : Int)) := by
  induction vs generalizing t with
  | nil =>
    have : t = [] := by simpa using h
    subst this; simp [rowLoop, flatIndex, indexLoop, size]
  | cons v vs ih =>
    cases t with
    | nil => simp at h
    | cons i t =>
      have hl : t.length = vs.length := by simpa using h
      have := ih t hl
      simp only [ints, List.map_cons] at this ⊢
      rw [rowLoop, this, flatIndex_cons _ _ _ _ hl]
      simp only [size, Nat.cast_mul, Nat.cast_add]
      ext <;> simp <;> ring

/-- **C05.** For in-range outcomes of all but the last variable, `Row` returns exactly the values `Get` returns
with each outcome of the last variable appended, in order. -/
theorem C05_row (f : Factor α) (hlen : f.data.length = size f.vars) (vs : List Var) (w : Var)
    (hv : f.vars = vs ++ [w]) (t : List Nat) (ht : InRange vs t) :
    ∃ row, f.row (ints t) = .ok row ∧ row.length = w.outcomes ∧
      ∀ c (hc : c < row.length), f.get (ints (t ++ [c])) = .ok row[c] := by
  have hsz : size f.vars = size vs * w.outcomes := by rw [hv, size_append]; simp [size]
  have hlt := flatIndex_lt ht
  have hle : flatIndex vs t * w.outcomes + w.outcomes ≤ f.data.length := by
    rw [hlen, hsz, ← Nat.succ_mul]; exact Nat.mul_le_mul_right _ hlt
  set a := flatIndex vs t * w.outcomes with ha
  have hrow : f.row (ints t) = .ok ((f.data.drop a).take w.outcomes) := by
    unfold Factor.row Factor.rowIndex
    rw [hv, List.getLast?_append]
    simp only [List.getLast?_singleton, Option.some_or, List.dropLast_concat, List.length_append,
      List.length_cons, List.length_nil]
    rw [if_neg (by simp [ints, ht.length]), rowLoop_cast _ _ _ ht.length, ok_bind]
    simp only
    rw [← ha, goSlice, if_pos (by omega)]
    congr 2
    omega
  refine ⟨_, hrow, by simp; omega, ?_⟩
  intro c hc
  have hc' : c < w.outcomes := by simp at hc; omega
  have hidx : varsIndex f.vars (ints (t ++ [c])) = .ok ((a + c : Nat) : Int) := by
    rw [hv, varsIndex_ints (by simp [ht.length]), flatIndex_append _ _ _ _ ht.length rfl]
    simp [size, flatIndex, indexLoop, ha]
  unfold Factor.get
  rw [hidx, ok_bind, goGetI, if_neg (by omega)]
  simp only [Int.toNat_natCast]
  rw [goGet_eq, List.getElem_take, List.getElem_drop, List.getElem?_eq_getElem]

example : Ex.fAB.row [1] = .ok [4/10, 5/10, 1/10] := by decide +kernel
example : Ex.fAB.vars = [Ex.xA] ++ [Ex.xB] ∧ InRange [Ex.xA] [1] := by unfold InRange; decide

/-- **C22, refuted.** `Get` with an outcome index that its variable does not have can return another cell's
value instead of panicking: `B` has outcomes 0..2, but `Get([0, 3])` returns the value of `[1, 0]`. -/
theorem C22_get_out_of_range_refuted :
    Ex.fAB.data.length = size Ex.fAB.vars ∧ ¬ InRange Ex.fAB.vars [0, 3] ∧
      Ex.fAB.get [0, 3] = .ok (4/10) ∧ Ex.fAB.get [0, 3] = Ex.fAB.get [1, 0] := by
  refine ⟨rfl, ?_, rfl, rfl⟩
  unfold InRange; decide

/-- **C22, what does hold.** `Get` never returns a value from outside the data: it panics for a wrong number of
indices and whenever the flat position is negative or past the end; so it panics if the first index is too
large or negative and the others are in range. Missing: an error for each single out-of-range index. -/
theorem C22_get_out_of_range_partial (f : Factor α) (hlen : f.data.length = size f.vars) :
    (∀ is, is.length ≠ f.vars.length → Panics (f.get is)) ∧
    (∀ is x, f.get is = .ok x → 0 ≤ flatIndex f.vars is ∧ flatIndex f.vars is < f.data.length) ∧
    (∀ v vs i t, f.vars = v :: vs → InRange vs t → (i < 0 ∨ (v.outcomes : Int) ≤ i) →
      Panics (f.get (i :: ints t))) := by
  have hp : ∀ is : List Int, is.length = f.vars.length →
      (flatIndex f.vars is < 0 ∨ (f.data.length : Int) ≤ flatIndex f.vars is) → Panics (f.get is) := by
    intro is hl h
    refine ⟨"index out of range", ?_⟩
    unfold Factor.get
    simp only [varsIndex, hl, ne_eq, not_true_eq_false, if_false, ok_bind, goGetI]
    by_cases h0 : flatIndex f.vars is < 0
    · rw [if_pos h0]
    · rw [if_neg h0, goGet, List.getElem?_eq_none (by omega)]
  refine ⟨?_, ?_, ?_⟩
  · intro is h
    exact ⟨"wrong number of indices", by simp [Factor.get, varsIndex, h, err_bind]⟩
  · intro is x h
    by_cases hl : is.length = f.vars.length
    · by_contra hc
      obtain ⟨m, hm⟩ := hp is hl (by omega)
      rw [hm] at h; simp at h
    · simp [Factor.get, varsIndex, hl, err_bind] at h
  · intro v vs i t hv ht hi
    have hl : (i :: ints t).length = f.vars.length := by simp [hv, ints, ht.length]
    apply hp _ hl
    have hlt := flatIndex_lt ht
    have hs := inRange_pos ht
    have e1 : flatIndex f.vars (i :: ints t) =
        (flatIndex (R := Nat) vs t : Int) + i * (size vs : Int) := by
      rw [hv]
      simp only [flatIndex, indexLoop, ints]
      rw [indexLoop_cast, indexLoop_snd _ _ ht.length]
    have e2 : (f.data.length : Int) = v.outcomes * size vs := by rw [hlen, hv, size]; push_cast; rfl
    rw [e1, e2]
    rcases hi with hi | hi
    · left
      have : i * (size vs : Int) ≤ -1 * size vs := by
        apply mul_le_mul_of_nonneg_right <;> omega
      omega
    · right
      have : (v.outcomes : Int) * size vs ≤ i * size vs := by
        apply mul_le_mul_of_nonneg_right <;> omega
      omega

example : Panics (Ex.fAB.get [2, 0]) :=
  (C22_get_out_of_range_partial Ex.fAB rfl).2.2 Ex.xA [Ex.xB] 2 [0] rfl (by unfold InRange; decide) (by decide)

end Bbn
