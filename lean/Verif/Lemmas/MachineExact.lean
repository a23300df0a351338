import Verif.Lemmas.Machine

/-!
# Unbounded integers give the rest of the model, and 64 bits give the same below `2^63`
-/

set_option autoImplicit false

namespace Bbn

theorem goGetI_cast {β : Type _} (l : List β) (i : Nat) : goGetI l (i : Int) = goGet l i := by
  simp [goGetI]

theorem goSetI_cast {β : Type _} (l : List β) (i : Nat) (x : β) : goSetI l (i : Int) x = goSet l i x := by
  simp [goSetI]

section
variable {α : Type}

theorem createFactorM_exact [Zero α] (s : Vs) (vars : List Var) (d : Option (List α)) :
    s.createFactorM .exact vars d = s.createFactor vars d := by
  unfold Vs.createFactorM Vs.createFactor Mach.exact
  simp only [ok_bind]
  cases d with
  | none => simp
  | some d => simp

theorem bind_pos_exact {β : Type} (vars : List Var) (t : List Nat) (g : Int → Except Fault β) :
    (Mach.exact.pos vars t >>= g) = (varsIndex vars t >>= fun i => g (i : Int)) := by
  unfold Mach.exact
  dsimp only
  cases varsIndex vars t <;> rfl

theorem getM_exact (f : Factor α) (t : List Nat) : f.getM .exact t = f.getN t := by
  unfold Factor.getM Factor.getN
  rw [bind_pos_exact]
  simp only [goGetI_cast]

theorem restrictLoopM_exact (vars newVars : List Var) (idx obs : Nat) (xs : List α) (old : List Nat) (new : List α) :
    restrictLoopM .exact vars newVars idx obs xs old new = restrictLoop vars newVars idx obs xs old new := by
  induction xs generalizing old new with
  | nil => rfl
  | cons x xs ih =>
    unfold restrictLoopM restrictLoop
    simp only [bind_pos_exact, goSetI_cast, ih] <;> rfl

theorem restrictM_exact [Zero α] (s : Vs) (f : Factor α) (v : Var) (obs : Int) :
    s.restrictM .exact f v obs = s.restrict f v obs := by
  unfold Vs.restrictM Vs.restrict
  simp only [createFactorM_exact, restrictLoopM_exact] <;> rfl

theorem sumOutLoopM_exact [Add α] (vars newVars : List Var) (idx : Nat) (xs : List α) (old : List Nat) (new : List α) :
    sumOutLoopM .exact vars newVars idx xs old new = sumOutLoop vars newVars idx xs old new := by
  induction xs generalizing old new with
  | nil => rfl
  | cons x xs ih =>
    unfold sumOutLoopM sumOutLoop
    simp only [bind_pos_exact, goSetI_cast, goGetI_cast, ih] <;> rfl

theorem sumOutM_exact [Zero α] [Add α] (s : Vs) (f : Factor α) (v : Var) : s.sumOutM .exact f v = s.sumOut f v := by
  unfold Vs.sumOutM Vs.sumOut
  simp only [createFactorM_exact, sumOutLoopM_exact] <;> rfl

theorem policyM_exact [Zero α] [One α] [Div α] [NatCast α] [LE α] [DecidableLE α] [LT α] [DecidableLT α]
    [DecidableEq α] (s : Vs) (f : Factor α) (v : Var) : s.policyM .exact f v = s.policy f v := by
  unfold Vs.policyM Vs.policy policyRowM policyRow
  simp only [createFactorM_exact, bind_pos_exact, getM_exact, goSetI_cast] <;> rfl

theorem rearrangeM_exact [Zero α] (s : Vs) (f : Factor α) (vars : List Var) :
    s.rearrangeM .exact f vars = s.rearrange f vars := by
  unfold Vs.rearrangeM Vs.rearrange
  simp only [createFactorM_exact, getM_exact] <;> rfl

theorem productCellM_exact [Mul α] (t : List Nat) (ps : List (Factor α × List Nat)) (acc : α) :
    productCellM .exact t ps acc = productCell t ps acc := by
  induction ps generalizing acc with
  | nil => rfl
  | cons p ps ih =>
    unfold productCellM productCell
    simp only [getM_exact, ih] <;> rfl

theorem sumCellM_exact [Add α] (t : List Nat) (ps : List (Factor α × List Nat)) (acc : α) :
    sumCellM .exact t ps acc = sumCell t ps acc := by
  induction ps generalizing acc with
  | nil => rfl
  | cons p ps ih =>
    unfold sumCellM sumCell
    simp only [getM_exact, ih] <;> rfl

theorem productM_exact [Zero α] [One α] [Mul α] (s : Vs) (fs : List (Factor α)) :
    s.productM .exact fs = s.product fs := by
  unfold Vs.productM Vs.product
  split <;> simp only [createFactorM_exact, productCellM_exact] <;> rfl

theorem sumM_exact [Zero α] [Add α] (s : Vs) (fs : List (Factor α)) : s.sumM .exact fs = s.sum fs := by
  unfold Vs.sumM Vs.sum
  split <;> simp only [createFactorM_exact, sumCellM_exact]

theorem marginalM_exact [Zero α] [Add α] (s : Vs) (f : Factor α) (v : Var) :
    s.marginalM .exact f v = s.marginal f v := by
  unfold Vs.marginalM Vs.marginal
  simp only [createFactorM_exact] <;> rfl

theorem normalizeM_exact [Zero α] [Add α] [Div α] (s : Vs) (f : Factor α) : s.normalizeM .exact f = s.normalize f := by
  unfold Vs.normalizeM Vs.normalize
  simp only [createFactorM_exact] <;> rfl

theorem normalizeForM_exact [Zero α] [Add α] [Div α] [DecidableEq α] (s : Vs) (f : Factor α) (v : Var) :
    s.normalizeForM .exact f v = s.normalizeFor f v := by
  unfold Vs.normalizeForM Vs.normalizeFor
  simp only [rearrangeM_exact] <;> rfl

theorem invertM_exact [Zero α] [One α] [Div α] (s : Vs) (f : Factor α) : s.invertM .exact f = s.invert f := by
  unfold Vs.invertM Vs.invert
  simp only [createFactorM_exact] <;> rfl

/-! ## The solver -/

theorem restrictIdsM_exact [Zero α] (e : Evid) (is : List Nat) (st : VE α) :
    restrictIdsM .exact e is st = restrictIds e is st := by
  induction is generalizing st with
  | nil => rfl
  | cons i is ih =>
    unfold restrictIdsM restrictIds
    simp only [restrictM_exact, ih] <;> rfl

theorem eliminateEvidenceM_exact [Zero α] (sch : Sched α) (st : VE α) (ev : List Evid) :
    st.eliminateEvidenceM .exact sch ev = st.eliminateEvidence sch ev := by
  unfold VE.eliminateEvidenceM VE.eliminateEvidence VE.restrictEvidenceM VE.restrictEvidence
  simp only [restrictIdsM_exact] <;> rfl

theorem collectUtilsM_exact [Zero α] [One α] [Mul α] (utils : List Var) (ws : Option (List α)) (fs : List (Factor α))
    (vs : Vs) : collectUtilsM .exact utils ws fs vs = collectUtils utils ws fs vs := by
  have hs : ∀ i (f : Factor α) vs, scaleUtilM .exact ws i f vs = scaleUtil ws i f vs := by
    intro i f vs
    unfold scaleUtilM scaleUtil
    simp only [productM_exact] <;> rfl
  induction fs generalizing vs with
  | nil => rfl
  | cons f fs ih =>
    unfold collectUtilsM collectUtils
    simp only [hs, ih] <;> rfl

theorem sumOutUtilsM_exact [Zero α] [Add α] (us : List Var) (f : Factor α) (vs : Vs) (el : List Bool) :
    sumOutUtilsM .exact us f vs el = sumOutUtils us f vs el := by
  induction us generalizing f vs el with
  | nil => rfl
  | cons u us ih =>
    unfold sumOutUtilsM sumOutUtils
    simp only [sumOutM_exact, ih] <;> rfl

section
variable [Zero α] [One α] [Add α] [Mul α]

theorem sumUtilitiesM_exact (sch : Sched α) (st : VE α) : st.sumUtilitiesM .exact sch = st.sumUtilities sch := by
  unfold VE.sumUtilitiesM VE.sumUtilities
  simp only [collectUtilsM_exact, sumM_exact, sumOutUtilsM_exact] <;> rfl

theorem eliminateHiddenM_exact (sch : Sched α) (st : VE α) (ev : List Evid) (q : List Var) (single : Bool) :
    st.eliminateHiddenM .exact sch ev q single = st.eliminateHidden sch ev q single := by
  unfold VE.eliminateHiddenM VE.eliminateHidden VE.removeHiddenM VE.removeHidden
  simp only [productM_exact, sumOutM_exact] <;> rfl

theorem multiplyAllM_exact (sch : Sched α) (st : VE α) : st.multiplyAllM .exact sch = st.multiplyAll sch := by
  unfold VE.multiplyAllM VE.multiplyAll
  simp only [productM_exact] <;> rfl

theorem veSolveM_exact (sch : Sched α) (st : VE α) (ev : List Evid) (q : List Var) (utility : Bool)
    (u : Option Var) : st.solveM .exact sch ev q utility u = st.solve sch ev q utility u := by
  unfold VE.solveM VE.solve
  simp only [eliminateEvidenceM_exact, sumUtilitiesM_exact, eliminateHiddenM_exact, multiplyAllM_exact] <;> rfl

theorem decisionProductM_exact (vs : Vs) (fs : List (Factor α)) :
    decisionProductM .exact vs fs = decisionProduct vs fs := by
  match fs with
  | [] => rfl
  | [f] => rfl
  | f :: g :: fs => exact productM_exact vs (f :: g :: fs)

theorem solveNamedM_exact (sch : NSched α) (ve : VE α) (names : List (String × NVar × Var))
    (ev : List (String × String)) (q : List String) (utility : Bool) (u : String) :
    solveNamedM .exact sch ve names ev q utility u = solveNamed sch ve names ev q utility u := by
  unfold solveNamedM solveNamed VE.solveUtilityM VE.solveUtility VE.solveQueryM VE.solveQuery
  simp only [veSolveM_exact] <;> rfl

end

section
variable [Zero α] [One α] [Add α] [Mul α] [Div α] [NatCast α] [LE α] [DecidableLE α] [LT α] [DecidableLT α]
  [DecidableEq α]

theorem solvePolicyListM_exact (sch : Sched α) (single : Bool) (ds : List Var) (st : VE α) :
    VE.solvePolicyListM .exact sch single ds st = VE.solvePolicyList sch single ds st := by
  induction ds generalizing st with
  | nil => rfl
  | cons d ds ih =>
    unfold VE.solvePolicyListM VE.solvePolicyList VE.solvePolicyM VE.solvePolicy
    simp only [decisionProductM_exact, policyM_exact, eliminateHiddenM_exact, ih] <;> rfl

theorem veSolvePoliciesM_exact (sch : Sched α) (st : VE α) (single : Bool) :
    st.solvePoliciesM .exact sch single = st.solvePolicies sch single := by
  unfold VE.solvePoliciesM VE.solvePolicies
  simp only [sumUtilitiesM_exact, eliminateHiddenM_exact, solvePolicyListM_exact] <;> rfl

end

/-! ## Networks -/

theorem policyFactorsM_exact [Zero α] (n : Net α) (varIDs : List (NVar × Var)) (ev : List (String × String))
    (ps : List (String × Factor α)) (vs : Vs) :
    n.policyFactorsM .exact varIDs ev ps vs = n.policyFactors varIDs ev ps vs := by
  induction ps generalizing vs with
  | nil => rfl
  | cons p ps ih =>
    unfold Net.policyFactorsM Net.policyFactors
    simp only [createFactorM_exact, ih] <;> rfl

section
variable [Zero α] [Add α] [Div α] [DecidableEq α]

theorem enterM_exact (sch : NSched α) (k : Nat) (n : Net α) (ev : List (String × String)) :
    n.enterM .exact sch k ev = n.enter sch k ev := by
  have ha : n.addTableM .exact = n.addTable := by
    funext names st f
    unfold Net.addTableM Net.addTable
    simp only [createFactorM_exact, normalizeForM_exact] <;> rfl
  unfold Net.enterM Net.enter Net.toVEM Net.toVE
  simp only [ha, policyFactorsM_exact] <;> rfl

omit [DecidableEq α] in
theorem queryLoopM_exact (f : Factor α) (qs : List String) (r : List (String × List α)) (n : Net α) :
    Net.queryLoopM .exact f qs r n = Net.queryLoop f qs r n := by
  induction qs generalizing r n with
  | nil => rfl
  | cons q qs ih =>
    unfold Net.queryLoopM Net.queryLoop Net.marginalM Net.marginal Net.normalizeM Net.normalize
    simp only [marginalM_exact, normalizeM_exact, ih] <;> rfl

variable [One α] [Mul α]

theorem netSolveM_exact (sch : NSched α) (n : Net α) (ev : List (String × String)) (q : List String)
    (utility : Bool) (u : String) (ignorePolicies : Bool) :
    n.solveM .exact sch ev q utility u ignorePolicies = n.solve sch ev q utility u ignorePolicies := by
  unfold Net.solveM Net.solve
  simp only [enterM_exact, solveNamedM_exact] <;> rfl

theorem netSolveQueryM_exact (sch : NSched α) (n : Net α) (ev : List (String × String)) (q : List String)
    (ignorePolicies : Bool) :
    n.solveQueryM .exact sch ev q ignorePolicies = n.solveQuery sch ev q ignorePolicies := by
  unfold Net.solveQueryM Net.solveQuery
  simp only [netSolveM_exact, queryLoopM_exact] <;> rfl

theorem netSolveUtilityM_exact (sch : NSched α) (n : Net α) (ev : List (String × String)) (q : List String)
    (u : String) (ignorePolicies : Bool) :
    n.solveUtilityM .exact sch ev q u ignorePolicies = n.solveUtility sch ev q u ignorePolicies :=
  netSolveM_exact sch n ev q true u ignorePolicies

end

section
variable [Zero α] [One α] [Add α] [Mul α] [Div α] [NatCast α] [LE α] [DecidableLE α] [LT α] [DecidableLT α]
  [DecidableEq α]

theorem policyStepsM_exact (sch : NSched α) (stepwise : Bool) (left k : Nat) (n : Net α) :
    Net.policyStepsM .exact sch stepwise left k n = Net.policySteps sch stepwise left k n := by
  induction left generalizing k n with
  | zero => rfl
  | succ left ih =>
    unfold Net.policyStepsM Net.policySteps
    simp only [enterM_exact, veSolvePoliciesM_exact, ih] <;> rfl

theorem netSolvePoliciesM_exact (sch : NSched α) (n : Net α) (stepwise : Bool) :
    n.solvePoliciesM .exact sch stepwise = n.solvePolicies sch stepwise := by
  have ht : ∀ (n : Net α) ps vs acc, n.policyTablesM .exact ps vs acc = n.policyTables ps vs acc := by
    intro n ps
    induction ps with
    | nil => intro vs acc; rfl
    | cons p ps ih =>
      intro vs acc
      unfold Net.policyTablesM Net.policyTables Net.policyTableM Net.policyTable
      simp only [rearrangeM_exact, ih] <;> rfl
  unfold Net.solvePoliciesM Net.solvePolicies
  simp only [policyStepsM_exact, ht] <;> rfl

end
end

/-! ## 64 bits -/

theorem toInt_cast {k : Nat} (h : k < 2 ^ 63) : ((k : Nat) : GoInt).toInt = k := by
  rw [BitVec.natCast_eq_ofNat, BitVec.toInt_eq_toNat_cond, BitVec.toNat_ofNat]
  have : k % 2 ^ 64 = k := Nat.mod_eq_of_lt (by omega)
  rw [this, if_pos (by omega)]

theorem rows64_eq (vars : List Var) : rows64 vars = ((size vars : Nat) : GoInt) := by
  have : ∀ (vars : List Var) (r : GoInt),
      vars.foldl (fun rows v => rows * (v.outcomes : GoInt)) r = r * ((size vars : Nat) : GoInt) := by
    intro vars
    induction vars with
    | nil => intro r; simp [size]
    | cons v vars ih =>
      intro r
      rw [List.foldl_cons, ih]
      simp only [size, Nat.cast_mul]
      ring
  rw [rows64, this, one_mul]

theorem indexLoop_goInts (vs : List Var) (t : List Nat) :
    indexLoop vs (goInts t) =
      (((indexLoop (R := Nat) vs t).1 : GoInt), ((indexLoop (R := Nat) vs t).2 : GoInt)) := by
  induction vs generalizing t with
  | nil => simp [indexLoop]
  | cons v vs ih =>
    cases t with
    | nil => simp [indexLoop, goInts]
    | cons i t =>
      have := ih t
      unfold goInts at this
      simp [indexLoop, goInts, this]

theorem flatIndex_goInts (vs : List Var) (t : List Nat) :
    flatIndex vs (goInts t) = ((flatIndex (R := Nat) vs t : Nat) : GoInt) := by
  simp [flatIndex, indexLoop_goInts]

theorem careful_le_exact : Mach.careful.Le .exact where
  rows vars := by
    unfold Mach.careful Mach.exact
    dsimp only
    split
    · exact Le.refl _
    · exact Le.err
  pos vars t := by
    unfold Mach.careful Mach.exact
    dsimp only
    refine Le.bind (Le.refl _) (fun i => ?_)
    split
    · exact Le.refl _
    · exact Le.err

theorem careful_le_go64 : Mach.careful.Le .go64 where
  rows vars := by
    unfold Mach.careful Mach.go64
    dsimp only
    split
    · rename_i h
      rw [rows64_eq, toInt_cast h]
      exact Le.refl _
    · exact Le.err
  pos vars t := by
    unfold Mach.careful Mach.go64
    dsimp only
    unfold varsIndex
    have hl : (goInts t).length = t.length := by simp [goInts]
    rw [hl]
    split
    · exact Le.err
    · rw [ok_bind, ok_bind, flatIndex_goInts]
      split
      · rename_i h
        rw [toInt_cast h]
        exact Le.refl _
      · exact Le.err

end Bbn
