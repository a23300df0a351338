import Verif.Spec.Logic
import Verif.Lemmas.Loop
import Mathlib.Algebra.Field.Basic
import Mathlib.Tactic.Ring
import Mathlib.Tactic.Linarith
import Mathlib.Tactic.IntervalCases
import Mathlib.Tactic.NormNum

/-!
# Lemmas on logic tables
-/

set_option autoImplicit false

namespace Bbn

variable {α : Type}

theorem rowMajor_snoc' (l : List (Nat × Nat)) (d : Nat × Nat) : rowMajor (l ++ [d]) = rowMajor l * d.1 + d.2 := by
  induction l with
  | nil => simp [rowMajor]
  | cons x l ih =>
    simp only [List.cons_append, rowMajor, ih, List.map_append, List.map_cons, List.map_nil, List.prod_append,
      List.prod_cons, List.prod_nil, Nat.mul_one]
    ring

theorem truthIdx_lt (b : Bool) : truthIdx b < 2 := by cases b <;> decide

/-- The row of these truth values. -/
def rowOf (ps : List Bool) : Nat := rowMajor (ps.map (fun b => (2, truthIdx b)))

theorem rowOf_snoc (ps : List Bool) (b : Bool) : rowOf (ps ++ [b]) = 2 * rowOf ps + truthIdx b := by
  unfold rowOf
  rw [List.map_append, List.map_cons, List.map_nil, rowMajor_snoc']
  ring

theorem rowOf_lt (ps : List Bool) : rowOf ps < 2 ^ ps.length := by
  induction ps using List.reverseRecOn with
  | nil => simp [rowOf, rowMajor]
  | append_singleton ps b ih =>
    rw [rowOf_snoc, List.length_append, List.length_singleton, pow_succ]
    have : truthIdx b < 2 := by cases b <;> decide
    omega

theorem rowOf_surj (n i : Nat) (h : i < 2 ^ n) : ∃ ps : List Bool, ps.length = n ∧ rowOf ps = i := by
  induction n generalizing i with
  | zero => exact ⟨[], rfl, by simp at h; simp [rowOf, rowMajor, h]⟩
  | succ n ih =>
    obtain ⟨ps, h1, h2⟩ := ih (i / 2) (by rw [pow_succ] at h; omega)
    refine ⟨ps ++ [decide (i % 2 = 0)], by simp [h1], ?_⟩
    rw [rowOf_snoc, h2]
    unfold truthIdx
    by_cases h0 : i % 2 = 0
    · simp [h0]; omega
    · simp [h0]; omega

theorem testBit_rowOf (ps : List Bool) (j : Nat) : (rowOf ps).testBit j = !(ps.reverse.getD j true) := by
  induction ps using List.reverseRecOn generalizing j with
  | nil => simp [rowOf, rowMajor]
  | append_singleton ps b ih =>
    rw [rowOf_snoc, List.reverse_append, List.reverse_singleton, List.singleton_append]
    cases j with
    | zero =>
      rw [Nat.testBit_zero, List.getD_cons_zero]
      cases b <;> simp [truthIdx]
    | succ j =>
      rw [Nat.testBit_succ, List.getD_cons_succ, ← ih j]
      congr 1
      cases b <;> simp only [truthIdx, if_true, Bool.false_eq_true, if_false] <;> omega

theorem onesCount_succ (k i : Nat) : onesCount (k + 1) i = (if i.testBit 0 then 1 else 0) + onesCount k (i / 2) := by
  unfold onesCount
  rw [List.range_succ_eq_map, List.filter_cons, List.filter_map]
  have : ((fun j => i.testBit j) ∘ Nat.succ) = (fun j => (i / 2).testBit j) := by
    funext j; simp [Nat.testBit_succ]
  rw [this]
  split
  · simp [Nat.add_comm]
  · simp

theorem onesCount_rowOf (ps : List Bool) : onesCount ps.length (rowOf ps) = ps.count false := by
  induction ps using List.reverseRecOn with
  | nil => rfl
  | append_singleton ps b ih =>
    rw [List.length_append, List.length_singleton, onesCount_succ, List.count_append, ← ih, testBit_rowOf,
      rowOf_snoc, List.reverse_append]
    have : (2 * rowOf ps + truthIdx b) / 2 = rowOf ps := by
      cases b <;> simp only [truthIdx, if_true, Bool.false_eq_true, if_false] <;> omega
    rw [this]
    cases b <;> simp [Nat.add_comm]

theorem count_true_false (ps : List Bool) : ps.count true + ps.count false = ps.length := by
  induction ps with
  | nil => rfl
  | cons b ps ih => cases b <;> simp <;> omega

theorem ofDigits_lt (ps : List Bool) : ofDigits ps < 2 ^ ps.length := by
  induction ps with
  | nil => simp [ofDigits]
  | cons b ps ih =>
    rw [ofDigits, List.length_cons, pow_succ]
    cases b <;> simp <;> omega

theorem rowOf_cons (b : Bool) (ps : List Bool) : rowOf (b :: ps) = truthIdx b * 2 ^ ps.length + rowOf ps := by
  unfold rowOf
  rw [List.map_cons, rowMajor]
  congr 2
  rw [List.map_map]
  have : ∀ l : List Bool, (l.map (Prod.fst ∘ fun b => (2, truthIdx b))).prod = 2 ^ l.length := by
    intro l
    induction l with
    | nil => rfl
    | cons x l ih => simp only [List.map_cons, List.prod_cons, ih, List.length_cons, pow_succ, Function.comp]; ring
  exact this ps

theorem ofDigits_rowOf (ps : List Bool) : ofDigits ps + rowOf ps + 1 = 2 ^ ps.length := by
  induction ps with
  | nil => simp [ofDigits, rowOf, rowMajor]
  | cons b ps ih =>
    rw [rowOf_cons, ofDigits, List.length_cons, pow_succ]
    cases b <;> simp [truthIdx] <;> omega

theorem goMake_ok [Zero α] (n : Nat) : goMake (α := α) (n : Int) = .ok (List.replicate n 0) := by
  unfold goMake
  rw [if_neg (by omega)]; simp

theorem goMake_neg [Zero α] {n : Int} (h : n < 0) : Panics (goMake (α := α) n) := by
  unfold goMake
  rw [if_pos h]; exact ⟨_, rfl⟩

theorem goSetI_ok {β : Type} {l : List β} {i : Int} (x : β) (h0 : 0 ≤ i) (h1 : i < l.length) :
    goSetI l i x = .ok (l.set i.toNat x) := by
  unfold goSetI goSet
  rw [if_neg (by omega), if_pos (by omega)]

theorem goSetI_panics {β : Type} {l : List β} {i : Int} (x : β) (h : i < 0 ∨ (l.length : Int) ≤ i) :
    Panics (goSetI l i x) := by
  unfold goSetI goSet
  split
  · exact ⟨_, rfl⟩
  · rw [if_neg (by omega)]; exact ⟨_, rfl⟩

theorem setOnes_spec [Zero α] [One α] (ps : List Int) (t : List α) (h : ∀ p ∈ ps, 0 ≤ p ∧ p < t.length) :
    ∃ t', setOnes ps t = .ok t' ∧ t'.length = t.length ∧
      ∀ j < t.length, t'.getD j 0 = if (j : Int) ∈ ps then 1 else t.getD j 0 := by
  induction ps generalizing t with
  | nil => exact ⟨t, rfl, rfl, fun j _ => by simp⟩
  | cons p ps ih =>
    have hp := h p List.mem_cons_self
    obtain ⟨t', e1, e2, e3⟩ := ih (t.set p.toNat 1) (by
      intro q hq; rw [List.length_set]; exact h q (List.mem_cons_of_mem _ hq))
    rw [List.length_set] at e2 e3
    refine ⟨t', ?_, e2, ?_⟩
    · unfold setOnes
      rw [List.foldlM_cons, goSetI_ok _ hp.1 hp.2]
      exact e1
    · intro j hj
      rw [e3 j hj]
      by_cases h1 : (j : Int) ∈ ps
      · rw [if_pos h1, if_pos (List.mem_cons_of_mem _ h1)]
      · rw [if_neg h1]
        by_cases h2 : (j : Int) = p
        · rw [if_pos (by rw [h2]; exact List.mem_cons_self)]
          have : p.toNat = j := by omega
          rw [this]
          simp [List.getD, hj]
        · rw [if_neg (by simp [h1, h2])]
          have : p.toNat ≠ j := by omega
          simp [List.getD, List.getElem?_set_ne this]

theorem setOnes_panics [One α] (ps : List Int) (t : List α) {p : Int} (hp : p ∈ ps) (h : p < 0 ∨ (t.length : Int) ≤ p) :
    Panics (setOnes ps t) := by
  induction ps generalizing t with
  | nil => cases hp
  | cons q ps ih =>
    unfold setOnes
    rw [List.foldlM_cons]
    by_cases hq : 0 ≤ q ∧ q < t.length
    · rw [goSetI_ok _ hq.1 hq.2]
      rcases List.mem_cons.1 hp with rfl | hp'
      · omega
      · exact ih (t.set q.toNat 1) hp' (by rw [List.length_set]; exact h)
    · obtain ⟨m, hm⟩ := goSetI_panics (l := t) (i := q) (1 : α) (by omega)
      rw [hm]
      exact ⟨m, rfl⟩

/-- One 1 per row. -/
theorem rowOnes_spec [Zero α] [One α] (rows cols : Nat) (f : Nat → Nat) (hf : ∀ i < rows, f i < cols) :
    ∃ t : List α, setOnes ((List.range rows).map (fun i : Nat => ((i * cols + f i : Nat) : Int)))
        (List.replicate (rows * cols) 0) = .ok t ∧ t.length = rows * cols ∧
      ∀ i < rows, ∀ o < cols, t.getD (i * cols + o) 0 = if o = f i then 1 else 0 := by
  have hpos : ∀ i < rows, ∀ o < cols, i * cols + o < rows * cols := by
    intro i hi o ho
    calc i * cols + o < i * cols + cols := by omega
      _ = (i + 1) * cols := by ring
      _ ≤ rows * cols := Nat.mul_le_mul_right _ hi
  obtain ⟨t, h1, h2, h3⟩ := setOnes_spec (α := α) ((List.range rows).map (fun i : Nat => ((i * cols + f i : Nat) : Int)))
    (List.replicate (rows * cols) 0) (by
      intro p hp
      obtain ⟨i, hi, rfl⟩ := List.mem_map.1 hp
      rw [List.mem_range] at hi
      have := hpos i hi (f i) (hf i hi)
      rw [List.length_replicate]
      omega)
  rw [List.length_replicate] at h2 h3
  refine ⟨t, h1, h2, ?_⟩
  intro i hi o ho
  rw [h3 _ (hpos i hi o ho)]
  have hz : (List.replicate (rows * cols) (0 : α)).getD (i * cols + o) 0 = 0 := by
    simp [List.getD, hpos i hi o ho]
  rw [hz]
  congr 1
  apply propext
  constructor
  · intro hm
    obtain ⟨i', hi', e⟩ := List.mem_map.1 hm
    have e' : i' * cols + f i' = i * cols + o := by exact_mod_cast e
    rw [List.mem_range] at hi'
    have hc : 0 < cols := by omega
    have hf' := hf i' hi'
    have e1 : i' = i := by
      have := congrArg (· / cols) e'
      simpa [Nat.add_comm (_ * cols), Nat.add_mul_div_right _ _ hc, Nat.div_eq_of_lt, hf', ho] using this
    subst e1
    omega
  · rintro rfl
    exact List.mem_map.2 ⟨i, List.mem_range.2 hi, rfl⟩

theorem boolEntry_eq [Zero α] (t : List α) (ps : List Bool) (cols o : Nat) :
    boolEntry t ps cols o = t.getD (rowOf ps * cols + o) 0 := by
  unfold boolEntry
  rw [rowMajor_snoc']; rfl

theorem function_table [Zero α] [One α] (n cols : Nat) (f : Nat → Nat) (g : List Bool → Nat)
    (hg : ∀ ps : List Bool, ps.length = n → f (rowOf ps) = g ps) (hf : ∀ ps : List Bool, ps.length = n → g ps < cols) :
    ∃ t : List α, setOnes ((List.range (2 ^ n)).map (fun i : Nat => ((i * cols + f i : Nat) : Int)))
        (List.replicate (2 ^ n * cols) 0) = .ok t ∧ FunctionTable t n cols g := by
  obtain ⟨t, h1, h2, h3⟩ := rowOnes_spec (α := α) (2 ^ n) cols f (by
    intro i hi
    obtain ⟨ps, e1, e2⟩ := rowOf_surj n i hi
    rw [← e2, hg ps e1]; exact hf ps e1)
  refine ⟨t, h1, h2, fun ps hps => ⟨hf ps hps, fun o ho => ?_⟩⟩
  rw [boolEntry_eq, h3 _ (by rw [← hps]; exact rowOf_lt ps) o ho, hg ps hps]

theorem ruleTable_ok [Zero α] [One α] (rows : Nat) (rule : Nat → Bool) :
    ∃ t : List α, ruleTable rows rule = .ok t ∧ t.length = rows * 2 ∧
      ∀ i < rows, ∀ o < 2, t.getD (i * 2 + o) 0 = if o = truthIdx (rule i) then 1 else 0 := by
  obtain ⟨t, h1, h2, h3⟩ := rowOnes_spec (α := α) rows 2 (fun i => truthIdx (rule i))
    (fun i _ => truthIdx_lt _)
  refine ⟨t, ?_, h2, h3⟩
  unfold ruleTable
  have e : ((rows : Int) * 2) = ((rows * 2 : Nat) : Int) := by push_cast; ring
  rw [e, goMake_ok, ← h1]
  change setOnes _ _ = _
  congr 2
  funext i
  cases h : rule i <;> simp [truthIdx]

theorem ruleTable_spec [Zero α] [One α] (n : Nat) (rule : Nat → Bool) (φ : List Bool → Bool)
    (h : ∀ ps : List Bool, ps.length = n → rule (rowOf ps) = φ ps) :
    ∃ t : List α, ruleTable (2 ^ n) rule = .ok t ∧ RuleTable t n φ := by
  obtain ⟨t, h1, h2, h3⟩ := ruleTable_ok (α := α) (2 ^ n) rule
  refine ⟨t, h1, h2, fun ps hps => ⟨truthIdx_lt _, fun o ho => ?_⟩⟩
  rw [boolEntry_eq, h3 _ (by rw [← hps]; exact rowOf_lt ps) o ho, h ps hps]

theorem intRange_spec (a b : Int) (x : Int) : x ∈ intRange a b ↔ a ≤ x ∧ x < b := by
  unfold intRange
  rw [List.mem_map]
  constructor
  · rintro ⟨j, hj, rfl⟩
    rw [List.mem_range] at hj
    omega
  · intro h
    exact ⟨(x - a).toNat, List.mem_range.2 (by omega), by omega⟩

theorem getD_set_logic {l : List α} {i : Nat} (x d : α) (h : i < l.length) (j : Nat) :
    (l.set i x).getD j d = if j = i then x else l.getD j d := by
  by_cases hj : j = i
  · subst hj; simp [List.getD, h]
  · rw [if_neg hj]
    simp [List.getD, List.getElem?_set_ne (Ne.symm hj)]

theorem getD_replicate [Zero α] (n j : Nat) : (List.replicate n (0 : α)).getD j 0 = 0 := by
  simp only [List.getD, List.getElem?_replicate]
  split <;> rfl

/-- The two writes of a row. -/
theorem setPair_ok [Zero α] (t : List α) {L : Nat} (hL : t.length = L * 2) {idx : Int} (h0 : 0 ≤ idx) (h1 : idx < L) (x y : α) :
    ∃ t', (do
        let t ← goSetI t (idx * 2) x
        goSetI t (idx * 2 + 1) y) = .ok t' ∧ t'.length = L * 2 ∧
      ∀ k o : Nat, o < 2 → t'.getD (k * 2 + o) 0 =
        if (k : Int) = idx then (if o = 0 then x else y) else t.getD (k * 2 + o) 0 := by
  refine ⟨(t.set (idx * 2).toNat x).set (idx * 2 + 1).toNat y, ?_, by simp [hL], ?_⟩
  · rw [goSetI_ok _ (by omega) (by omega)]
    change goSetI _ _ _ = _
    rw [goSetI_ok _ (by omega) (by rw [List.length_set]; omega)]
  · intro k o ho
    rw [getD_set_logic _ _ (by rw [List.length_set]; omega), getD_set_logic _ _ (by omega)]
    by_cases hk : (k : Int) = idx
    · rw [if_pos hk]
      interval_cases o
      · rw [if_neg (by omega), if_pos (by omega), if_pos rfl]
      · rw [if_pos (by omega), if_neg (by omega)]
    · rw [if_neg hk, if_neg (by omega), if_neg (by omega)]

theorem setPair_panics (t : List α) {L : Nat} (hL : t.length = L * 2) {idx : Int} (h : idx < 0 ∨ L ≤ idx) (x y : α) :
    Panics (do
        let t ← goSetI t (idx * 2) x
        goSetI t (idx * 2 + 1) y) := by
  obtain ⟨m, hm⟩ := goSetI_panics (l := t) (i := idx * 2) x (by omega)
  rw [hm]
  exact ⟨m, rfl⟩

/-- The first loop of the outcome operators, for a part of the rows. -/
theorem setColumn_ok [Zero α] [One α] (t : List α) {L : Nat} (hL : t.length = L * 2) {a b : Int} (h0 : b ≤ a ∨ 0 ≤ a)
    (h1 : b ≤ a ∨ b ≤ L) (c : Nat) (hc : c < 2) :
    ∃ t', setOnes ((intRange a b).map (fun i => i * 2 + c)) t = .ok t' ∧ t'.length = L * 2 ∧
      ∀ k < L, ∀ o < 2, t'.getD (k * 2 + o) 0 = if a ≤ k ∧ k < b ∧ o = c then 1 else t.getD (k * 2 + o) 0 := by
  obtain ⟨t', e1, e2, e3⟩ := setOnes_spec ((intRange a b).map (fun i => i * 2 + c)) t (by
    intro p hp
    obtain ⟨i, hi, rfl⟩ := List.mem_map.1 hp
    rw [intRange_spec] at hi
    omega)
  refine ⟨t', e1, by omega, ?_⟩
  intro k hk o ho
  rw [e3 _ (by omega)]
  congr 1
  apply propext
  rw [List.mem_map]
  constructor
  · rintro ⟨i, hi, e⟩
    rw [intRange_spec] at hi
    push_cast at e
    omega
  · rintro ⟨h2, h3, rfl⟩
    exact ⟨k, (intRange_spec _ _ _).2 ⟨h2, h3⟩, by push_cast; ring⟩

theorem setColumn_panics [One α] (t : List α) {L : Nat} (hL : t.length = L * 2) {a b x : Int} (hx : a ≤ x ∧ x < b)
    (h : x < 0 ∨ L ≤ x) (c : Nat) (hc : c < 2) :
    Panics (setOnes ((intRange a b).map (fun i => i * 2 + c)) t) :=
  setOnes_panics _ _ (p := x * 2 + c) (List.mem_map.2 ⟨x, (intRange_spec _ _ _).2 hx, rfl⟩) (by omega)

theorem rowMajor_pair (L k o : Nat) : rowMajor [(L, k), (2, o)] = k * 2 + o := by
  simp [rowMajor]

theorem outcome_table [Zero α] [One α] {t : List α} {L : Nat} (hL : t.length = L * 2) (φ : Nat → Bool)
    (h : ∀ k < L, ∀ o < 2, t.getD (k * 2 + o) 0 = if o = truthIdx (φ k) then 1 else 0) : OutcomeTable t L φ :=
  ⟨hL, fun k hk o ho => by rw [rowMajor_pair]; exact h k hk o ho⟩

end Bbn
