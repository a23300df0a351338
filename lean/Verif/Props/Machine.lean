import Verif.Lemmas.MachineNet
import Verif.Props.Factor
import Verif.Props.Reproduce

/-!
# C120: sizes and positions of tables on a 64-bit machine
-/

set_option autoImplicit false

namespace Bbn

section
variable {α : Type}

/-! ## `CreateFactor` -/

/-- The number of rows that `CreateFactor` computes is the number of combinations, modulo `2^64`, read as a signed
number. -/
theorem rows64_toInt (vars : List Var) : (rows64 vars).toInt =
    if size vars % 2 ^ 64 < 2 ^ 63 then ((size vars % 2 ^ 64 : Nat) : Int) else ((size vars % 2 ^ 64 : Nat) : Int) - 2 ^ 64 := by
  rw [rows64_eq, BitVec.natCast_eq_ofNat, BitVec.toInt_eq_toNat_cond, BitVec.toNat_ofNat]
  have : size vars % 2 ^ 64 < 2 ^ 64 := Nat.mod_lt _ (by norm_num)
  split_ifs <;> omega

/-- **C120, `CreateFactor` without data.** On a 64-bit machine it panics exactly if the number of combinations modulo
`2^64` is `2^63` or more, and otherwise makes a table with that many zeros. -/
theorem C120_create [Zero α] (s : Vs) (vars : List Var) :
    (size vars % 2 ^ 64 < 2 ^ 63 → ∃ f s', s.createFactorM (α := α) .go64 vars none = .ok (f, s') ∧ f.vars = vars ∧
      f.data = List.replicate (size vars % 2 ^ 64) 0) ∧
    (2 ^ 63 ≤ size vars % 2 ^ 64 → Panics (s.createFactorM (α := α) .go64 vars none)) := by
  have hlt : size vars % 2 ^ 64 < 2 ^ 64 := Nat.mod_lt _ (by norm_num)
  have hr := rows64_toInt vars
  unfold Vs.createFactorM Mach.go64
  generalize size vars % 2 ^ 64 = m at hr hlt ⊢
  simp only [ok_bind]
  constructor
  · intro h
    rw [if_pos h] at hr
    rw [if_neg (by omega)]
    exact ⟨_, _, rfl, rfl, by rw [hr, Int.toNat_natCast]⟩
  · intro h
    rw [if_neg (by omega)] at hr
    rw [if_pos (by omega)]
    exact ⟨_, rfl⟩

/-- **C120, `CreateFactor` with data.** On a 64-bit machine a slice is accepted exactly if its length is the number of
combinations, given that there are less than `2^63` combinations. -/
theorem C120_create_data [Zero α] (s : Vs) (vars : List Var) (h : size vars < 2 ^ 63) (d : List α) :
    (d.length = size vars → ∃ f s', s.createFactorM .go64 vars (some d) = .ok (f, s') ∧ f.vars = vars ∧ f.data = d) ∧
    (d.length ≠ size vars → Panics (s.createFactorM .go64 vars (some d))) := by
  unfold Vs.createFactorM Mach.go64
  simp only [ok_bind, rows64_eq, toInt_cast h]
  constructor
  · intro e
    rw [if_neg (by rw [e]; simp)]
    exact ⟨_, _, rfl, rfl, rfl⟩
  · intro e
    rw [if_pos (by exact_mod_cast e)]
    exact ⟨_, rfl⟩

/-! ## Positions -/

theorem toInt_back (i : GoInt) : ((i.toInt : Int) : GoInt) = i := by
  apply BitVec.eq_of_toInt_eq
  rw [BitVec.toInt_intCast]
  exact BitVec.toInt_bmod_cancel i

theorem indexLoop_go (vs : List Var) (is : List GoInt) : indexLoop vs is =
    (((indexLoop vs (is.map BitVec.toInt)).1 : GoInt), ((indexLoop vs (is.map BitVec.toInt)).2 : GoInt)) := by
  induction vs generalizing is with
  | nil => simp [indexLoop]
  | cons v vs ih =>
    cases is with
    | nil => simp [indexLoop]
    | cons i is =>
      simp only [indexLoop, List.map_cons, ih is, Int.cast_add, Int.cast_mul, Int.cast_natCast, toInt_back]

/-- **C120, `Index`.** For all Go integers as arguments, on a 64-bit machine `Index` panics exactly if the unbounded
`Index` does, and returns the position modulo `2^64`, read as a signed number. -/
theorem C120_index (f : Factor α) (is : List GoInt) :
    (Panics (f.index (is.map BitVec.toInt)) → Panics (f.index64 is)) ∧
    ∀ k, f.index (is.map BitVec.toInt) = .ok k →
      ∃ x : GoInt, f.index64 is = .ok x ∧ x.toInt = k.bmod (2 ^ 64) ∧
        (-2 ^ 63 ≤ k → k < 2 ^ 63 → x.toInt = k) := by
  by_cases hl : is.length = f.vars.length
  · have e1 : f.index (is.map BitVec.toInt) = .ok (flatIndex f.vars (is.map BitVec.toInt)) := by
      simp [Factor.index, varsIndex, hl]
    have e2 : f.index64 is = .ok (flatIndex f.vars is) := by simp [Factor.index64, varsIndex, hl]
    rw [e1, e2]
    refine ⟨fun h => ?_, fun k hk => ?_⟩
    · obtain ⟨m, hm⟩ := h
      cases hm
    · have := Except.ok.inj hk
      have e : (flatIndex f.vars is).toInt = k.bmod (2 ^ 64) := by
        unfold flatIndex at this ⊢
        rw [indexLoop_go, this, BitVec.toInt_intCast]
      refine ⟨_, rfl, e, fun h1 h2 => ?_⟩
      rw [e]
      exact Int.bmod_eq_of_le (by norm_num; omega) (by norm_num; omega)
  · refine ⟨fun _ => ⟨"wrong number of indices", ?_⟩, fun k hk => ?_⟩
    · simp [Factor.index64, varsIndex, hl]
    · simp [Factor.index, varsIndex, hl] at hk

theorem flatIndex_go (f : Factor α) (hlen : f.data.length = size f.vars) (hs : f.data.length < 2 ^ 63) {t : List Nat}
    (ht : InRange f.vars t) : f.index64 (goInts t) = .ok ((flatIndex (R := Nat) f.vars t : Nat) : GoInt) ∧
      (((flatIndex (R := Nat) f.vars t : Nat) : GoInt)).toInt = flatIndex (R := Nat) f.vars t ∧
      flatIndex (R := Nat) f.vars t < f.data.length ∧
      f.index (ints t) = .ok ((flatIndex (R := Nat) f.vars t : Nat) : Int) := by
  have h := flatIndex_lt ht
  refine ⟨?_, toInt_cast (by omega), by omega, ?_⟩
  · simp [Factor.index64, varsIndex, goInts, ht.length]
    exact flatIndex_goInts _ _
  · simp only [Factor.index, varsIndex, ints, List.length_map, ht.length, ne_eq, not_true_eq_false, if_false]
    rw [flatIndex_cast]

/-- **C120, tables that exist.** For a table with one number for each combination (the table exists, so there are less
than `2^63` numbers) and outcomes in range, `Index`, `Get` and `Set` on a 64-bit machine do what they do with unbounded
integers. -/
theorem C120_get_set (f : Factor α) (hlen : f.data.length = size f.vars) (hs : f.data.length < 2 ^ 63) (t : List Nat)
    (ht : InRange f.vars t) :
    (∃ x k, f.index64 (goInts t) = .ok x ∧ f.index (ints t) = .ok k ∧ x.toInt = k) ∧
    (∃ y, f.get64 (goInts t) = .ok y ∧ f.get (ints t) = .ok y) ∧
    ∀ y, ∃ g, f.set64 (goInts t) y = .ok g ∧ f.set (ints t) y = .ok g := by
  obtain ⟨h1, h2, h3, h4⟩ := flatIndex_go f hlen hs ht
  refine ⟨⟨_, _, h1, h4, h2⟩, ⟨f.data[flatIndex (R := Nat) f.vars t], ?_, ?_⟩, fun y => ⟨{ f with data := f.data.set (flatIndex (R := Nat) f.vars t) y }, ?_, ?_⟩⟩
  · unfold Factor.get64
    change (f.index64 (goInts t) >>= _) = _
    rw [h1, ok_bind, h2, goGetI_cast]
    exact goGet_eq.2 (List.getElem?_eq_getElem h3)
  · unfold Factor.get
    change (f.index (ints t) >>= _) = _
    rw [h4, ok_bind, goGetI_cast]
    exact goGet_eq.2 (List.getElem?_eq_getElem h3)
  · unfold Factor.set64
    change (f.index64 (goInts t) >>= _) = _
    rw [h1, ok_bind, h2, goSetI_cast, goSet_ok h3]
    rfl
  · unfold Factor.set
    change (f.index (ints t) >>= _) = _
    rw [h4, ok_bind, goSetI_cast, goSet_ok h3]
    rfl

theorem noDataLoop_go (vs : List Var) (is : List GoInt) : noDataLoop64 vs is =
    (noDataLoop vs (is.map BitVec.toInt)).map (fun p => ((p.1 : GoInt), (p.2 : GoInt))) := by
  induction vs generalizing is with
  | nil => simp [noDataLoop64, noDataLoop]
  | cons v vs ih =>
    cases is with
    | nil => simp [noDataLoop64, noDataLoop]
    | cons i is =>
      simp only [noDataLoop64, noDataLoop, List.map_cons, ih is]
      cases noDataLoop vs (is.map BitVec.toInt) with
      | none => rfl
      | some p =>
        have e : i = -1 ↔ i.toInt = -1 := by
          constructor
          · rintro rfl; decide
          · intro h; apply BitVec.eq_of_toInt_eq; rw [h]; decide
        by_cases hi : i = -1
        · simp [hi, e.1 hi]
        · have hi' : ¬ i.toInt = -1 := fun h => hi (e.2 h)
          simp only [Option.map_some, if_neg hi, if_neg hi', Int.cast_add, Int.cast_mul, Int.cast_natCast, toInt_back]

/-- **C120, `IndexWithNoData`.** For all Go integers as arguments: the same panics, the same second result, and the
position modulo `2^64`. -/
theorem C120_indexWithNoData (f : Factor α) (is : List GoInt) :
    (Panics (f.indexWithNoData (is.map BitVec.toInt)) → Panics (f.indexWithNoData64 is)) ∧
    ∀ k b, f.indexWithNoData (is.map BitVec.toInt) = .ok (k, b) →
      ∃ x : GoInt, f.indexWithNoData64 is = .ok (x, b) ∧ x.toInt = k.bmod (2 ^ 64) ∧
        (-2 ^ 63 ≤ k → k < 2 ^ 63 → x.toInt = k) := by
  unfold Factor.indexWithNoData indexWithNoData Factor.indexWithNoData64
  rw [List.length_map, noDataLoop_go]
  split
  · exact ⟨fun _ => ⟨_, rfl⟩, fun k b hk => by cases hk⟩
  · cases noDataLoop f.vars (is.map BitVec.toInt) with
    | none =>
      refine ⟨fun h => (by obtain ⟨m, hm⟩ := h; cases hm), fun k b hk => ?_⟩
      cases hk
      exact ⟨0, rfl, by decide, fun _ _ => by decide⟩
    | some p =>
      refine ⟨fun h => (by obtain ⟨m, hm⟩ := h; cases hm), fun k b hk => ?_⟩
      cases hk
      refine ⟨(p.1 : GoInt), rfl, BitVec.toInt_intCast _, fun h1 h2 => ?_⟩
      rw [BitVec.toInt_intCast]
      exact Int.bmod_eq_of_le (by norm_num; omega) (by norm_num; omega)

theorem rowLoop_go (s : Nat) (vs : List Var) (is : List GoInt) : rowLoop64 (s : GoInt) vs is =
    (((rowLoop s vs (is.map BitVec.toInt)).1 : GoInt), ((rowLoop s vs (is.map BitVec.toInt)).2 : GoInt)) := by
  induction vs generalizing is with
  | nil => simp [rowLoop64, rowLoop]
  | cons v vs ih =>
    cases is with
    | nil => simp [rowLoop64, rowLoop]
    | cons i is =>
      simp only [rowLoop64, rowLoop, List.map_cons, ih is, Int.cast_add, Int.cast_mul, Int.cast_natCast, toInt_back]

/-- **C120, `RowIndex` and `Row`.** For all Go integers as arguments: the same panics, the same length, and the starting
position modulo `2^64`. `Row` returns the row of unbounded arithmetic if that exists. -/
theorem C120_row (f : Factor α) (hs : f.data.length < 2 ^ 63) (hv : ∀ v ∈ f.vars, v.outcomes < 2 ^ 16)
    (is : List GoInt) :
    (Panics (f.rowIndex (is.map BitVec.toInt)) → Panics (f.rowIndex64 is) ∧ Panics (f.row64 is)) ∧
    (∀ k m, f.rowIndex (is.map BitVec.toInt) = .ok (k, m) →
      ∃ x y : GoInt, f.rowIndex64 is = .ok (x, y) ∧ x.toInt = k.bmod (2 ^ 64) ∧ y.toInt = m) ∧
    ∀ l, f.row (is.map BitVec.toInt) = .ok l → f.row64 is = .ok l := by
  have key : ∀ k m, f.rowIndex (is.map BitVec.toInt) = .ok (k, m) →
      f.rowIndex64 is = .ok ((k : GoInt), (m : GoInt)) ∧ m < 2 ^ 16 := by
    intro k m h
    unfold Factor.rowIndex at h
    unfold Factor.rowIndex64
    rw [List.length_map] at h
    cases hl : f.vars.getLast? with
    | none => rw [hl] at h; cases h
    | some last =>
      rw [hl] at h
      dsimp only at h ⊢
      split at h
      · cases h
      · rename_i hlen
        rw [if_neg hlen]
        cases h
        rw [rowLoop_go]
        exact ⟨rfl, hv last (List.mem_of_getLast? hl)⟩
  refine ⟨fun h => ?_, fun k m h => ?_, fun l h => ?_⟩
  · have : Panics (f.rowIndex64 is) := by
      obtain ⟨m, hm⟩ := h
      unfold Factor.rowIndex at hm
      unfold Factor.rowIndex64
      rw [List.length_map] at hm
      cases hl : f.vars.getLast? with
      | none => exact ⟨_, rfl⟩
      | some last =>
        rw [hl] at hm
        dsimp only at hm ⊢
        split at hm
        · rename_i hlen
          rw [if_pos hlen]
          exact ⟨_, rfl⟩
        · cases hm
    refine ⟨this, ?_⟩
    obtain ⟨m, hm⟩ := this
    exact ⟨m, by unfold Factor.row64; rw [hm]; rfl⟩
  · obtain ⟨h1, h2⟩ := key k m h
    exact ⟨_, _, h1, BitVec.toInt_intCast _, toInt_cast (by omega)⟩
  · unfold Factor.row at h
    obtain ⟨⟨k, m⟩, h1, h2⟩ := bind_inv h
    obtain ⟨h3, h4⟩ := key k m h1
    unfold Factor.row64
    rw [h3, ok_bind]
    dsimp only at h2 ⊢
    unfold goSlice at h2
    split at h2
    · rename_i hb
      have e1 : ((k : Int) : GoInt).toInt = k := by
        rw [BitVec.toInt_intCast]
        exact Int.bmod_eq_of_le (by norm_num; omega) (by norm_num; omega)
      have e2 : ((k : Int) + (m : Nat) : GoInt).toInt = k + m := by
        have : ((k : Int) + (m : Nat) : GoInt) = ((k + m : Int) : GoInt) := by simp
        rw [this, BitVec.toInt_intCast]
        exact Int.bmod_eq_of_le (by norm_num; omega) (by norm_num; omega)
      rw [e1, e2]
      unfold goSlice
      rw [if_pos hb]
      exact h2
    · cases h2

/-! ## The operations and the solver -/

/-- **C120, the operations on factors, partial.** If all variables of the tables are among the variables `U`, and `U`
has less than `2^63` combinations of outcomes, the operations return on a 64-bit machine what they return with unbounded
integers. -/
theorem C120_operations_partial [Zero α] [One α] [Add α] [Mul α] [Div α] [NatCast α] [LE α] [DecidableLE α] [LT α]
    [DecidableLT α] [DecidableEq α] (s : Vs) (U : List Var) (hU : ∀ v ∈ U, 0 < v.outcomes) (hsz : size U < 2 ^ 63)
    (fs : List (Factor α)) (hfs : ∀ f ∈ fs, f.WF ∧ ∀ v ∈ f.vars, v ∈ U) :
    (∀ r, s.product fs = .ok r → s.productM .go64 fs = .ok r) ∧
    (∀ r, s.sum fs = .ok r → s.sumM .go64 fs = .ok r) ∧
    ∀ f ∈ fs,
      (∀ v obs r, s.restrict f v obs = .ok r → s.restrictM .go64 f v obs = .ok r) ∧
      (∀ v r, s.sumOut f v = .ok r → s.sumOutM .go64 f v = .ok r) ∧
      (∀ v r, s.policy f v = .ok r → s.policyM .go64 f v = .ok r) ∧
      (∀ vars r, vars.Perm f.vars → s.rearrange f vars = .ok r → s.rearrangeM .go64 f vars = .ok r) ∧
      (∀ v ∈ U, ∀ r, s.marginal f v = .ok r → s.marginalM .go64 f v = .ok r) ∧
      (∀ r, s.normalize f = .ok r → s.normalizeM .go64 f = .ok r) ∧
      (∀ v r, s.normalizeFor f v = .ok r → s.normalizeForM .go64 f v = .ok r) ∧
      ∀ r, s.invert f = .ok r → s.invertM .go64 f = .ok r := by
  have hP := roomy_mem hU hsz
  have hsm : ∀ f ∈ fs, f.Small (· ∈ U) := fun f hf =>
    ⟨List.Nodup.of_map Var.id (hfs f hf).1.nodup, (hfs f hf).2, (hfs f hf).1.len⟩
  have c := careful_le_go64
  refine ⟨fun r h => ?_, fun r h => ?_, fun f hf => ⟨fun v obs r h => ?_, fun v r h => ?_, fun v r h => ?_,
    fun vars r hp h => ?_, fun v hv r h => ?_, fun r h => ?_, fun v r h => ?_, fun r h => ?_⟩⟩
  · exact productM_le c s fs _ ((productM_small hP s fs hsm).le _ ((productM_exact s fs).trans h))
  · exact sumM_le c s fs _ ((sumM_small hP s fs hsm).le _ ((sumM_exact s fs).trans h))
  · exact restrictM_le c s f v obs _ ((restrictM_small hP s f (hsm f hf) v obs).le _ ((restrictM_exact s f v obs).trans h))
  · exact sumOutM_le c s f v _ ((sumOutM_small hP s f (hsm f hf) v).le _ ((sumOutM_exact s f v).trans h))
  · exact policyM_le c s f v _ ((policyM_small hP s f (hsm f hf) v).le _ ((policyM_exact s f v).trans h))
  · exact rearrangeM_le c s f vars _
      ((rearrangeM_small hP s f (hsm f hf) vars hp).le _ ((rearrangeM_exact s f vars).trans h))
  · exact marginalM_le c s f v _ ((marginalM_small hP s f v hv).le _ ((marginalM_exact s f v).trans h))
  · exact normalizeM_le c s f _ ((normalizeM_small hP s f (hsm f hf)).le _ ((normalizeM_exact s f).trans h))
  · exact normalizeForM_le c s f v _
      ((normalizeForM_small hP s f (hsm f hf) v).le _ ((normalizeForM_exact s f v).trans h))
  · exact invertM_le c s f _ ((invertM_small hP s f (hsm f hf)).le _ ((invertM_exact s f).trans h))

/-- **C120, `SolveQuery`, partial.** In a network with less than `2^63` combinations of outcomes of all its variables,
every answer of `SolveQuery` is also the answer on a 64-bit machine, whatever the arithmetic of the numbers in the
tables. -/
theorem C120_query_partial [Zero α] [One α] [Add α] [Mul α] [Div α] [DecidableEq α] (sch : NSched α) {n : Net α}
    (hn : n.Valid) (hp : n.PoliciesOK) (hc : n.combinations < 2 ^ 63) (ev : List (String × String)) (q : List String)
    (ign : Bool) (r : List (String × List α) × Factor α) (n' : Net α)
    (h : n.solveQuery sch ev q ign = (.ok r, n')) : n.solveQueryM .go64 sch ev q ign = (.ok r, n') := by
  rw [← netSolveQueryM_exact] at h
  have h1 := (netSolveQueryM_small hn (solverList_roomy hn hc) (kept_of_ok hn hp) sch ev q ign r (by rw [h])).1
  rw [h] at h1
  rw [netSolveQueryM_le careful_le_go64 sch n ev q ign r (by rw [h1]), h1]

/-- **C120, `SolveUtility`, partial.** As `C120_query_partial`. -/
theorem C120_utility_partial [Zero α] [One α] [Add α] [Mul α] [Div α] [DecidableEq α] (sch : NSched α) {n : Net α}
    (hn : n.Valid) (hp : n.PoliciesOK) (hc : n.combinations < 2 ^ 63) (ev : List (String × String)) (q : List String)
    (u : String) (ign : Bool) (r : Factor α) (n' : Net α)
    (h : n.solveUtility sch ev q u ign = (.ok r, n')) : n.solveUtilityM .go64 sch ev q u ign = (.ok r, n') := by
  rw [← netSolveUtilityM_exact] at h
  unfold Net.solveUtilityM at h ⊢
  have h1 := (netSolveM_small hn (solverList_roomy hn hc) (kept_of_ok hn hp) sch ev q true u ign r (by rw [h])).1
  rw [h] at h1
  rw [netSolveM_le careful_le_go64 sch n ev q true u ign r (by rw [h1]), h1]

/-- **C120, `SolvePolicies`, partial.** As `C120_query_partial`. -/
theorem C120_policies_partial [Zero α] [One α] [Add α] [Mul α] [Div α] [NatCast α] [LE α] [DecidableLE α] [LT α]
    [DecidableLT α] [DecidableEq α] (sch : NSched α) {n : Net α} (hn : n.Valid) (hc : n.combinations < 2 ^ 63)
    (stepwise : Bool) (r : List (String × NFactor α)) (n' : Net α)
    (h : n.solvePolicies sch stepwise = (.ok r, n')) : n.solvePoliciesM .go64 sch stepwise = (.ok r, n') := by
  rw [← netSolvePoliciesM_exact] at h
  have h1 := (netSolvePoliciesM_small sch stepwise n hn hc r (by rw [h])).1
  rw [h] at h1
  rw [netSolvePoliciesM_le careful_le_go64 sch n stepwise r (by rw [h1]), h1]

/-- **C120, handling returned tables, partial.** The same as `C120_careful_partial` for `Normalize`, `NormalizeUtility`,
`Marginal` and `Rearrange` of a network. -/
theorem C120_handling_partial [Zero α] [One α] [Add α] [Mul α] [Div α] (n : Net α) (f g : Factor α) :
    (∀ r n', n.normalizeM .careful f = (.ok r, n') → n.normalizeM .go64 f = (.ok r, n') ∧ n.normalize f = (.ok r, n')) ∧
    (∀ r n', n.normalizeUtilityM .careful f g = (.ok r, n') →
      n.normalizeUtilityM .go64 f g = (.ok r, n') ∧ n.normalizeUtility f g = (.ok r, n')) ∧
    (∀ v r n', n.marginalM .careful f v = (.ok r, n') →
      n.marginalM .go64 f v = (.ok r, n') ∧ n.marginal f v = (.ok r, n')) ∧
    ∀ names r n', n.rearrangeM .careful f names = (.ok r, n') →
      n.rearrangeM .go64 f names = (.ok r, n') ∧ n.rearrange f names = (.ok r, n') := by
  have e1 : n.normalizeM .exact f = n.normalize f := by
    unfold Net.normalizeM Net.normalize; simp only [normalizeM_exact]
  have e2 : n.normalizeUtilityM .exact f g = n.normalizeUtility f g := by
    unfold Net.normalizeUtilityM Net.normalizeUtility; simp only [invertM_exact, productM_exact]
  have e3 : ∀ v, n.marginalM .exact f v = n.marginal f v := by
    intro v; unfold Net.marginalM Net.marginal; simp only [marginalM_exact] <;> rfl
  have e4 : ∀ names, n.rearrangeM .exact f names = n.rearrange f names := by
    intro names; unfold Net.rearrangeM Net.rearrange; simp only [rearrangeM_exact] <;> rfl
  refine ⟨fun r n' h => ⟨?_, ?_⟩, fun r n' h => ⟨?_, ?_⟩, fun v r n' h => ⟨?_, ?_⟩, fun names r n' h => ⟨?_, ?_⟩⟩
  · rw [netNormalizeM_le careful_le_go64 n f r (by rw [h]), h]
  · rw [← e1, netNormalizeM_le careful_le_exact n f r (by rw [h]), h]
  · rw [netNormalizeUtilityM_le careful_le_go64 n f g r (by rw [h]), h]
  · rw [← e2, netNormalizeUtilityM_le careful_le_exact n f g r (by rw [h]), h]
  · rw [netMarginalM_le careful_le_go64 n f v r (by rw [h]), h]
  · rw [← e3, netMarginalM_le careful_le_exact n f v r (by rw [h]), h]
  · rw [netRearrangeM_le careful_le_go64 n f names r (by rw [h]), h]
  · rw [← e4, netRearrangeM_le careful_le_exact n f names r (by rw [h]), h]

/-- **C120, networks of any size, partial.** However many combinations all variables have together: if during a run with
unbounded integers that panics at `2^63` (`Mach.careful`) no table or position is that large, that run, the run on a
64-bit machine and the run with unbounded integers all return the same. -/
theorem C120_careful_partial [Zero α] [One α] [Add α] [Mul α] [Div α] [NatCast α] [LE α] [DecidableLE α] [LT α]
    [DecidableLT α] [DecidableEq α] (sch : NSched α) (n : Net α) :
    (∀ ev q ign r n', n.solveQueryM .careful sch ev q ign = (.ok r, n') →
      n.solveQueryM .go64 sch ev q ign = (.ok r, n') ∧ n.solveQuery sch ev q ign = (.ok r, n')) ∧
    (∀ ev q u ign r n', n.solveUtilityM .careful sch ev q u ign = (.ok r, n') →
      n.solveUtilityM .go64 sch ev q u ign = (.ok r, n') ∧ n.solveUtility sch ev q u ign = (.ok r, n')) ∧
    ∀ stepwise r n', n.solvePoliciesM .careful sch stepwise = (.ok r, n') →
      n.solvePoliciesM .go64 sch stepwise = (.ok r, n') ∧ n.solvePolicies sch stepwise = (.ok r, n') := by
  refine ⟨fun ev q ign r n' h => ⟨?_, ?_⟩, fun ev q u ign r n' h => ⟨?_, ?_⟩, fun stepwise r n' h => ⟨?_, ?_⟩⟩
  · rw [netSolveQueryM_le careful_le_go64 sch n ev q ign r (by rw [h]), h]
  · rw [← netSolveQueryM_exact, netSolveQueryM_le careful_le_exact sch n ev q ign r (by rw [h]), h]
  · unfold Net.solveUtilityM at h ⊢
    rw [netSolveM_le careful_le_go64 sch n ev q true u ign r (by rw [h]), h]
  · rw [← netSolveUtilityM_exact]
    unfold Net.solveUtilityM at h ⊢
    rw [netSolveM_le careful_le_exact sch n ev q true u ign r (by rw [h]), h]
  · rw [netSolvePoliciesM_le careful_le_go64 sch n stepwise r (by rw [h]), h]
  · rw [← netSolvePoliciesM_exact, netSolvePoliciesM_le careful_le_exact sch n stepwise r (by rw [h]), h]

end

/-! ## Where it goes wrong -/

namespace Ex

/-- The names of 64 coins. -/
def manyCoinNames : List String := (List.range 64).map (fun i => String.ofList (List.replicate (i + 1) 'c'))

/-- 64 coins. -/
def manyCoinVars : List NVar := manyCoinNames.map (fun s => ⟨s, .chance, ["heads", "tails"], (0, 0), "", none⟩)

/-- Their tables. -/
def manyCoinTables : List (NFactor ℚ) := manyCoinNames.map (fun s => ⟨s, [], some [1, 1], [], 0⟩)

/-- Asks for all the coins on a 64-bit machine: the number of entries of the joint table and of the answers, and the
answers for the first coin. -/
def manyCoinAnswer : Except Fault (Nat × Nat × Nat × Option (List ℚ)) := do
  let n ← newNet "coins" "" manyCoinVars manyCoinTables
  let (r, f) ← (n.solveQueryM .go64 (norder false) [] manyCoinNames false).1
  return (f.vars.length, f.data.length, r.length, mapGet r "c")

end Ex

set_option maxRecDepth 100000 in
/-- **C120, refuted as stated.** Ask a network of 64 independent coins for all of them: `2^64` is zero in 64 bits, so the
joint table over 64 variables comes back without a single entry, and instead of an error there is an answer for each
coin, which is zero divided by zero (zero here, where `x / 0 = 0`; NaN in Go). -/
theorem C120_refuted : Ex.manyCoinAnswer = .ok (64, 0, 64, some [0 / 0, 0 / 0]) := by
  decide +kernel

/-- Two-outcome variables: 62 of them can be multiplied out as far as the integers are concerned, 63 make `make` panic,
and 64 make an empty table. -/
example : (∃ f s', Vs.new.createFactorM (α := ℚ) .go64 ((List.range 62).map (fun i => ⟨i, i, 2, .chance⟩)) none = .ok (f, s') ∧
      f.data.length = 2 ^ 62) ∧
    Panics (Vs.new.createFactorM (α := ℚ) .go64 ((List.range 63).map (fun i => ⟨i, i, 2, .chance⟩)) none) ∧
    ∃ f s', Vs.new.createFactorM (α := ℚ) .go64 ((List.range 64).map (fun i => ⟨i, i, 2, .chance⟩)) none = .ok (f, s') ∧
      f.data = [] := by
  have e : ∀ k, k = 62 ∨ k = 63 ∨ k = 64 → size ((List.range k).map (fun i => ⟨i, i, 2, .chance⟩)) = 2 ^ k := by
    rintro k (rfl | rfl | rfl) <;> decide +kernel
  refine ⟨?_, ?_, ?_⟩
  · obtain ⟨f, s', h1, _, h3⟩ := (C120_create (α := ℚ) Vs.new ((List.range 62).map (fun i => ⟨i, i, 2, .chance⟩))).1
      (by rw [e 62 (by simp)]; norm_num)
    exact ⟨f, s', h1, by rw [h3, List.length_replicate, e 62 (by simp)]; norm_num⟩
  · exact (C120_create (α := ℚ) Vs.new _).2 (by rw [e 63 (by simp)]; norm_num)
  · obtain ⟨f, s', h1, _, h3⟩ := (C120_create (α := ℚ) Vs.new ((List.range 64).map (fun i => ⟨i, i, 2, .chance⟩))).1
      (by rw [e 64 (by simp)]; norm_num)
    exact ⟨f, s', h1, by rw [h3, e 64 (by simp)]; rfl⟩

/-- A position that wraps around: in a table over two variables with two outcomes, "outcome" `-2^63` of the first
variable gives the position of outcome zero. -/
example : (⟨0, [1, 2, 3, 4], [⟨0, 0, 2, .chance⟩, ⟨1, 1, 2, .chance⟩]⟩ : Factor ℚ).get64 [BitVec.intMin 64, 1] = .ok 2 := by
  decide +kernel

/-- The umbrella network has twelve combinations: its policies on a 64-bit machine are those of `C30`. -/
example (sch : NSched ℚ) (stepwise : Bool) (r : List (String × NFactor ℚ)) (n' : Net ℚ)
    (h : Ex.umb.solvePolicies sch stepwise = (.ok r, n')) : Ex.umb.solvePoliciesM .go64 sch stepwise = (.ok r, n') :=
  C120_policies_partial sch Ex.umb_valid (by decide) stepwise r n' h

/-- Its answers too. -/
example (sch : NSched ℚ) (r : List (String × List ℚ) × Factor ℚ) (n' : Net ℚ)
    (h : Ex.umb.solveQuery sch [("Forecast", "good")] ["Weather"] false = (.ok r, n')) :
    Ex.umb.solveQueryM .go64 sch [("Forecast", "good")] ["Weather"] false = (.ok r, n') :=
  C120_query_partial sch Ex.umb_valid ⟨by decide, by simp [Ex.umb], by simp [Ex.umb], by simp [Ex.umb]⟩ (by decide) _ _ _ r n' h

set_option maxRecDepth 100000 in
/-- Asking for one of the 64 coins at a time is fine, although all together have too many combinations. -/
example : (do
    let n ← newNet "coins" "" Ex.manyCoinVars Ex.manyCoinTables
    let (r, _) ← (n.solveQueryM .careful (Ex.norder false) [] ["cc"] false).1
    return r : Except Fault (List (String × List ℚ))) = .ok [("cc", [1 / 2, 1 / 2])] := by
  decide +kernel

/-- The hypotheses of `C120_handling_partial` are met: a table over two variables, handled after a query. -/
example : (match Ex.umb.solveQuery (Ex.norder false) [] ["Weather", "Forecast"] false with
    | (.ok (_, f), n) => ((n.normalizeM .careful f).1.toOption.map Factor.data, (n.marginalM .careful f "Weather").1.toOption.map Factor.data,
        (n.rearrangeM .careful f ["Forecast", "Weather"]).1.toOption.map Factor.data,
        (n.normalizeUtilityM .careful f f).1.toOption.map Factor.data)
    | _ => (none, none, none, none)) =
    (some [14 / 25, 7 / 50, 3 / 100, 27 / 100], some [7 / 10, 3 / 10], some [14 / 25, 3 / 100, 7 / 50, 27 / 100], some [1, 1, 1, 1]) := by
  decide +kernel

end Bbn
