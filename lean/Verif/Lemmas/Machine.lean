import Verif.Model.MachineSolver
import Verif.Lemmas.Loop
import Verif.Lemmas.Training
import Mathlib.Tactic.Ring

/-!
# Comparing runs with different integer arithmetic
-/

set_option autoImplicit false

namespace Bbn

/-- The second result is the first one, unless that is a fault. -/
def Le {β : Type _} (r r' : Except Fault β) : Prop := ∀ x, r = .ok x → r' = .ok x

theorem Le.refl {β : Type _} (r : Except Fault β) : Le r r := fun _ h => h

theorem Le.err {β : Type _} {e : Fault} {r : Except Fault β} : Le (.error e) r := fun _ h => by cases h

theorem Le.bind {β γ : Type} {r r' : Except Fault β} {g g' : β → Except Fault γ} (h : Le r r')
    (hg : ∀ x, Le (g x) (g' x)) : Le (r >>= g) (r' >>= g') := by
  intro y hy
  cases r with
  | error e => cases hy
  | ok x =>
    rw [h x rfl]
    exact hg x y hy

theorem Le.mapM {β γ : Type} {g g' : β → Except Fault γ} (l : List β) (h : ∀ x, Le (g x) (g' x)) :
    Le (l.mapM g) (l.mapM g') := by
  induction l with
  | nil => exact Le.refl _
  | cons a l ih =>
    rw [List.mapM_cons, List.mapM_cons]
    exact Le.bind (h a) (fun x => Le.bind ih (fun _ => Le.refl _))

theorem Le.foldlM {β γ : Type} {g g' : β → γ → Except Fault β} (l : List γ) (h : ∀ b x, Le (g b x) (g' b x)) (b : β) :
    Le (l.foldlM g b) (l.foldlM g' b) := by
  induction l generalizing b with
  | nil => exact Le.refl _
  | cons a l ih =>
    rw [List.foldlM_cons, List.foldlM_cons]
    exact Le.bind (h b a) (fun x => ih x)

/-- Whatever the first arithmetic computes, the second one computes too. -/
structure Mach.Le (M M' : Mach) : Prop where
  rows : ∀ vars, Bbn.Le (M.rows vars) (M'.rows vars)
  pos : ∀ vars t, Bbn.Le (M.pos vars t) (M'.pos vars t)

section
variable {α : Type} {M M' : Mach}

theorem createFactorM_le [Zero α] (h : M.Le M') (s : Vs) (vars : List Var) (d : Option (List α)) :
    Le (s.createFactorM M vars d) (s.createFactorM M' vars d) := by
  unfold Vs.createFactorM
  exact Le.bind (h.rows _) (fun _ => Le.refl _)

theorem getM_le (h : M.Le M') (f : Factor α) (t : List Nat) : Le (f.getM M t) (f.getM M' t) := by
  unfold Factor.getM
  exact Le.bind (h.pos _ _) (fun _ => Le.refl _)

theorem restrictLoopM_le (h : M.Le M') (vars newVars : List Var) (idx obs : Nat) (xs : List α) (old : List Nat)
    (new : List α) :
    Le (restrictLoopM M vars newVars idx obs xs old new) (restrictLoopM M' vars newVars idx obs xs old new) := by
  induction xs generalizing old new with
  | nil => exact Le.refl _
  | cons x xs ih =>
    unfold restrictLoopM
    refine Le.bind (Le.refl _) (fun o => ?_)
    dsimp only
    split
    · exact Le.bind (h.pos _ _) (fun j => Le.bind (Le.refl _) (fun n => ih _ _))
    · exact Le.bind (Le.refl _) (fun n => ih _ _)

theorem restrictM_le [Zero α] (h : M.Le M') (s : Vs) (f : Factor α) (v : Var) (obs : Int) :
    Le (s.restrictM M f v obs) (s.restrictM M' f v obs) := by
  unfold Vs.restrictM
  split
  · exact Le.refl _
  · split
    · exact Le.refl _
    · exact Le.bind (createFactorM_le h _ _ _) (fun _ => Le.bind (restrictLoopM_le h _ _ _ _ _ _ _) (fun _ => Le.refl _))

theorem sumOutLoopM_le [Add α] (h : M.Le M') (vars newVars : List Var) (idx : Nat) (xs : List α) (old : List Nat)
    (new : List α) :
    Le (sumOutLoopM M vars newVars idx xs old new) (sumOutLoopM M' vars newVars idx xs old new) := by
  induction xs generalizing old new with
  | nil => exact Le.refl _
  | cons x xs ih =>
    unfold sumOutLoopM
    exact Le.bind (h.pos _ _) (fun j => Le.bind (Le.refl _) (fun c => Le.bind (Le.refl _) (fun n => ih _ _)))

theorem sumOutM_le [Zero α] [Add α] (h : M.Le M') (s : Vs) (f : Factor α) (v : Var) :
    Le (s.sumOutM M f v) (s.sumOutM M' f v) := by
  unfold Vs.sumOutM
  split
  · exact Le.refl _
  · exact Le.bind (createFactorM_le h _ _ _) (fun _ => Le.bind (sumOutLoopM_le h _ _ _ _ _ _) (fun _ => Le.refl _))

section
variable [Zero α] [One α] [Div α] [NatCast α] [LE α] [DecidableLE α] [LT α] [DecidableLT α] [DecidableEq α]

theorem policyRowM_le (h : M.Le M') (f : Factor α) (newVars : List Var) (idx cols row : Nat) (new : List α) :
    Le (policyRowM M f newVars idx cols row new) (policyRowM M' f newVars idx cols row new) := by
  unfold policyRowM
  refine Le.bind (Le.mapM _ (fun c => getM_le h _ _)) (fun d => ?_)
  dsimp only
  split
  · exact Le.refl _
  · exact Le.foldlM _ (fun b c => Le.bind (h.pos _ _) (fun _ => Le.refl _)) _

theorem policyM_le (h : M.Le M') (s : Vs) (f : Factor α) (v : Var) : Le (s.policyM M f v) (s.policyM M' f v) := by
  unfold Vs.policyM
  split
  · exact Le.refl _
  · refine Le.bind (Le.refl _) (fun w => Le.bind (createFactorM_le h _ _ _) (fun p => ?_))
    obtain ⟨fNew, s'⟩ := p
    dsimp only
    split
    · exact Le.refl _
    · exact Le.bind (Le.foldlM _ (fun b r => policyRowM_le h _ _ _ _ _ _) _) (fun _ => Le.refl _)

end

theorem odoBuild_le {g g' : List Nat → Except Fault α} (vars : List Var) (h : ∀ t, Le (g t) (g' t)) (k : Nat)
    (t : List Nat) : Le (odoBuild vars g k t) (odoBuild vars g' k t) := by
  induction k generalizing t with
  | zero => exact Le.refl _
  | succ k ih => exact Le.bind (h t) (fun x => Le.bind (ih _) (fun _ => Le.refl _))

theorem rearrangeM_le [Zero α] (h : M.Le M') (s : Vs) (f : Factor α) (newVars : List Var) :
    Le (s.rearrangeM M f newVars) (s.rearrangeM M' f newVars) := by
  unfold Vs.rearrangeM
  split
  · exact Le.refl _
  · refine Le.bind (Le.refl _) (fun is => ?_)
    split
    · exact createFactorM_le h _ _ _
    · exact Le.bind (createFactorM_le h _ _ _) (fun p =>
        Le.bind (odoBuild_le _ (fun t => getM_le h _ _) _ _) (fun _ => Le.refl _))

theorem productCellM_le [Mul α] (h : M.Le M') (t : List Nat) (ps : List (Factor α × List Nat)) (acc : α) :
    Le (productCellM M t ps acc) (productCellM M' t ps acc) := by
  induction ps generalizing acc with
  | nil => exact Le.refl _
  | cons p ps ih => exact Le.bind (Le.refl _) (fun i => Le.bind (getM_le h _ _) (fun x => ih _))

theorem sumCellM_le [Add α] (h : M.Le M') (t : List Nat) (ps : List (Factor α × List Nat)) (acc : α) :
    Le (sumCellM M t ps acc) (sumCellM M' t ps acc) := by
  induction ps generalizing acc with
  | nil => exact Le.refl _
  | cons p ps ih => exact Le.bind (Le.refl _) (fun i => Le.bind (getM_le h _ _) (fun x => ih _))

theorem productM_le [Zero α] [One α] [Mul α] (h : M.Le M') (s : Vs) (fs : List (Factor α)) :
    Le (s.productM M fs) (s.productM M' fs) := by
  unfold Vs.productM
  split
  · exact createFactorM_le h _ _ _
  · exact Le.bind (createFactorM_le h _ _ _) (fun p =>
      Le.bind (odoBuild_le _ (fun t => productCellM_le h _ _ _) _ _) (fun _ => Le.refl _))

theorem sumM_le [Zero α] [Add α] (h : M.Le M') (s : Vs) (fs : List (Factor α)) :
    Le (s.sumM M fs) (s.sumM M' fs) := by
  unfold Vs.sumM
  split
  · exact createFactorM_le h _ _ _
  · exact Le.bind (createFactorM_le h _ _ _) (fun p =>
      Le.bind (odoBuild_le _ (fun t => sumCellM_le h _ _ _) _ _) (fun _ => Le.refl _))

theorem marginalM_le [Zero α] [Add α] (h : M.Le M') (s : Vs) (f : Factor α) (v : Var) :
    Le (s.marginalM M f v) (s.marginalM M' f v) := by
  unfold Vs.marginalM
  split
  · exact Le.refl _
  · exact Le.bind (createFactorM_le h _ _ _) (fun _ => Le.refl _)

theorem normalizeM_le [Zero α] [Add α] [Div α] (h : M.Le M') (s : Vs) (f : Factor α) :
    Le (s.normalizeM M f) (s.normalizeM M' f) := by
  unfold Vs.normalizeM
  exact Le.bind (createFactorM_le h _ _ _) (fun _ => Le.refl _)

theorem normalizeForM_le [Zero α] [Add α] [Div α] [DecidableEq α] (h : M.Le M') (s : Vs) (f : Factor α) (v : Var) :
    Le (s.normalizeForM M f v) (s.normalizeForM M' f v) := by
  unfold Vs.normalizeForM
  split
  · exact Le.refl _
  · exact Le.bind (Le.refl _) (fun w => Le.bind (rearrangeM_le h _ _ _) (fun _ => Le.refl _))

theorem invertM_le [Zero α] [One α] [Div α] (h : M.Le M') (s : Vs) (f : Factor α) :
    Le (s.invertM M f) (s.invertM M' f) := by
  unfold Vs.invertM
  exact Le.bind (createFactorM_le h _ _ _) (fun _ => Le.refl _)

/-! ## The solver -/

theorem restrictIdsM_le [Zero α] (h : M.Le M') (e : Evid) (is : List Nat) (st : VE α) :
    Le (restrictIdsM M e is st) (restrictIdsM M' e is st) := by
  induction is generalizing st with
  | nil => exact Le.refl _
  | cons i is ih => exact Le.bind (Le.refl _) (fun f => Le.bind (restrictM_le h _ _ _ _) (fun p => ih _))

theorem eliminateEvidenceM_le [Zero α] (h : M.Le M') (sch : Sched α) (st : VE α) (ev : List Evid) :
    Le (st.eliminateEvidenceM M sch ev) (st.eliminateEvidenceM M' sch ev) :=
  Le.foldlM _ (fun _ _ => restrictIdsM_le h _ _ _) _

theorem scaleUtilM_le [Zero α] [One α] [Mul α] (h : M.Le M') (ws : Option (List α)) (i : Nat) (f : Factor α) (vs : Vs) :
    Le (scaleUtilM M ws i f vs) (scaleUtilM M' ws i f vs) := by
  unfold scaleUtilM
  split
  · exact Le.refl _
  · exact Le.bind (Le.refl _) (fun w => productM_le h _ _)

theorem collectUtilsM_le [Zero α] [One α] [Mul α] (h : M.Le M') (utils : List Var) (ws : Option (List α))
    (fs : List (Factor α)) (vs : Vs) : Le (collectUtilsM M utils ws fs vs) (collectUtilsM M' utils ws fs vs) := by
  induction fs generalizing vs with
  | nil => exact Le.refl _
  | cons f fs ih =>
    unfold collectUtilsM
    split
    · exact ih _
    · exact Le.bind (scaleUtilM_le h _ _ _ _) (fun p => Le.bind (ih _) (fun _ => Le.refl _))

theorem sumOutUtilsM_le [Zero α] [Add α] (h : M.Le M') (us : List Var) (f : Factor α) (vs : Vs) (el : List Bool) :
    Le (sumOutUtilsM M us f vs el) (sumOutUtilsM M' us f vs el) := by
  induction us generalizing f vs el with
  | nil => exact Le.refl _
  | cons u us ih => exact Le.bind (sumOutM_le h _ _ _) (fun p => Le.bind (Le.refl _) (fun e => ih _ _ _))

section
variable [Zero α] [One α] [Add α] [Mul α]

theorem sumUtilitiesM_le (h : M.Le M') (sch : Sched α) (st : VE α) :
    Le (st.sumUtilitiesM M sch) (st.sumUtilitiesM M' sch) := by
  unfold VE.sumUtilitiesM
  dsimp only
  split
  · exact Le.refl _
  · exact Le.bind (collectUtilsM_le h _ _ _ _) (fun p => Le.bind (sumM_le h _ _) (fun q =>
      Le.bind (sumOutUtilsM_le h _ _ _ _) (fun _ => Le.refl _)))

theorem removeHiddenM_le (h : M.Le M') (sch : Sched α) (st : VE α) (v : Var) :
    Le (st.removeHiddenM M sch v) (st.removeHiddenM M' sch v) :=
  Le.bind (productM_le h _ _) (fun _ => Le.bind (sumOutM_le h _ _ _) (fun _ => Le.refl _))

theorem eliminateHiddenM_le (h : M.Le M') (sch : Sched α) (st : VE α) (ev : List Evid) (q : List Var) (single : Bool) :
    Le (st.eliminateHiddenM M sch ev q single) (st.eliminateHiddenM M' sch ev q single) := by
  unfold VE.eliminateHiddenM
  exact Le.bind (Le.refl _) (fun p => Le.bind (Le.refl _) (fun hid => Le.foldlM _ (fun _ _ => removeHiddenM_le h _ _ _) _))

theorem multiplyAllM_le (h : M.Le M') (sch : Sched α) (st : VE α) :
    Le (st.multiplyAllM M sch) (st.multiplyAllM M' sch) :=
  Le.bind (productM_le h _ _) (fun _ => Le.refl _)

theorem veSolveM_le (h : M.Le M') (sch : Sched α) (st : VE α) (ev : List Evid) (q : List Var) (utility : Bool)
    (u : Option Var) : Le (st.solveM M sch ev q utility u) (st.solveM M' sch ev q utility u) := by
  unfold VE.solveM
  refine Le.bind (eliminateEvidenceM_le h _ _ _) (fun st => ?_)
  have rest : ∀ st : VE α, Le (do let st ← st.eliminateHiddenM M sch ev q false; st.multiplyAllM M sch)
      (do let st ← st.eliminateHiddenM M' sch ev q false; st.multiplyAllM M' sch) := fun st =>
    Le.bind (eliminateHiddenM_le h _ _ _ _ _) (fun st => multiplyAllM_le h _ _)
  dsimp only
  split
  · split
    · exact Le.bind (sumUtilitiesM_le h _ _) rest
    · exact Le.bind (Le.refl _) rest
  · exact Le.bind (Le.refl _) rest

theorem decisionProductM_le (h : M.Le M') (vs : Vs) (fs : List (Factor α)) :
    Le (decisionProductM M vs fs) (decisionProductM M' vs fs) := by
  match fs with
  | [] => exact Le.refl _
  | [f] => exact Le.refl _
  | f :: g :: fs => exact productM_le h vs (f :: g :: fs)

theorem solveNamedM_le (h : M.Le M') (sch : NSched α) (ve : VE α) (names : List (String × NVar × Var))
    (ev : List (String × String)) (q : List String) (utility : Bool) (u : String) :
    Le (solveNamedM M sch ve names ev q utility u) (solveNamedM M' sch ve names ev q utility u) := by
  unfold solveNamedM
  refine Le.bind (Le.refl _) (fun e => Le.bind (Le.refl _) (fun q => ?_))
  split
  · exact Le.bind (Le.refl _) (fun u => veSolveM_le h _ _ _ _ _ _)
  · exact veSolveM_le h _ _ _ _ _ _

end

section
variable [Zero α] [One α] [Add α] [Mul α] [Div α] [NatCast α] [LE α] [DecidableLE α] [LT α] [DecidableLT α]
  [DecidableEq α]

theorem solvePolicyM_le (h : M.Le M') (sch : Sched α) (st : VE α) (single : Bool) (dec : Var) :
    Le (st.solvePolicyM M sch single dec) (st.solvePolicyM M' sch single dec) := by
  unfold VE.solvePolicyM
  exact Le.bind (decisionProductM_le h _ _) (fun p => Le.bind (policyM_le h _ _ _) (fun q =>
    Le.bind (Le.refl _) (fun vars => Le.bind (eliminateHiddenM_le h _ _ _ _ _) (fun _ => Le.refl _))))

theorem solvePolicyListM_le (h : M.Le M') (sch : Sched α) (single : Bool) (ds : List Var) (st : VE α) :
    Le (VE.solvePolicyListM M sch single ds st) (VE.solvePolicyListM M' sch single ds st) := by
  induction ds generalizing st with
  | nil => exact Le.refl _
  | cons d ds ih =>
    unfold VE.solvePolicyListM
    refine Le.bind (solvePolicyM_le h _ _ _ _) (fun p => ?_)
    obtain ⟨p, st'⟩ := p
    dsimp only
    split
    · exact Le.refl _
    · exact Le.bind (ih _) (fun _ => Le.refl _)

theorem veSolvePoliciesM_le (h : M.Le M') (sch : Sched α) (st : VE α) (single : Bool) :
    Le (st.solvePoliciesM M sch single) (st.solvePoliciesM M' sch single) := by
  unfold VE.solvePoliciesM
  refine Le.bind (Le.refl _) (fun p => ?_)
  obtain ⟨ds, tick⟩ := p
  dsimp only
  split
  · exact Le.refl _
  · exact Le.bind (sumUtilitiesM_le h _ _) (fun st => Le.bind (eliminateHiddenM_le h _ _ _ _ _) (fun st =>
      Le.bind (solvePolicyListM_le h _ _ _ _) (fun _ => Le.refl _)))

end

/-! ## Networks -/

/-- The second call does the same as the first one, unless that ends with a fault. -/
def LeN {β : Type} (r r' : Except Fault β × Net α) : Prop := ∀ x, r.1 = .ok x → r' = r

theorem LeN.refl {β : Type} (r : Except Fault β × Net α) : LeN r r := fun _ _ => rfl

section
variable [Zero α]

theorem policyFactorsM_le (h : M.Le M') (n : Net α) (varIDs : List (NVar × Var)) (ev : List (String × String))
    (ps : List (String × Factor α)) (vs : Vs) :
    Le (n.policyFactorsM M varIDs ev ps vs) (n.policyFactorsM M' varIDs ev ps vs) := by
  induction ps generalizing vs with
  | nil => exact Le.refl _
  | cons p ps ih =>
    unfold Net.policyFactorsM
    split
    · exact ih _
    · exact Le.bind (Le.refl _) (fun v => Le.bind (createFactorM_le h _ _ _) (fun q => Le.bind (ih _) (fun _ => Le.refl _)))

variable [Add α] [Div α] [DecidableEq α]

theorem addTableM_le (h : M.Le M') (n : Net α) (names : List (String × NVar × Var))
    (st : List (Factor α) × List (Var × List Var) × Vs) (f : NFactor α) :
    Le (n.addTableM M names st f) (n.addTableM M' names st f) := by
  unfold Net.addTableM
  split
  · exact Le.refl _
  · split
    · exact Le.refl _
    · refine Le.bind (Le.refl _) (fun g => ?_)
      split
      · exact Le.refl _
      · split
        · exact Le.refl _
        · refine Le.bind (createFactorM_le h _ _ _) (fun p => ?_)
          obtain ⟨p, vs⟩ := p
          dsimp only
          split
          · exact Le.bind (normalizeForM_le h _ _ _) (fun _ => Le.refl _)
          · exact Le.refl _

theorem toVEM_le (h : M.Le M') (sch : NSched α) (k : Nat) (n : Net α) (ev : List (String × String)) :
    Le (n.toVEM M sch k ev) (n.toVEM M' sch k ev) := by
  unfold Net.toVEM
  exact Le.bind (Le.refl _) (fun p => Le.bind (Le.foldlM _ (fun _ _ => addTableM_le h _ _ _ _) _) (fun q =>
    Le.bind (policyFactorsM_le h _ _ _ _ _) (fun _ => Le.refl _)))

theorem enterM_le (h : M.Le M') (sch : NSched α) (k : Nat) (n : Net α) (ev : List (String × String)) :
    LeN (n.enterM M sch k ev) (n.enterM M' sch k ev) := by
  intro x hx
  unfold Net.enterM at hx ⊢
  cases hr : n.toVEM M sch k ev with
  | ok p => rw [toVEM_le h sch k n ev p hr]
  | error e =>
    rw [hr] at hx
    cases e <;> cases hx

omit [Zero α] [Add α] [Div α] [DecidableEq α] in
theorem withVs_le {β : Type} (n : Net α) {op op' : Vs → Except Fault (β × Vs)} (h : ∀ s, Le (op s) (op' s)) :
    LeN (n.withVs op) (n.withVs op') := by
  intro x hx
  unfold Net.withVs at hx ⊢
  split
  · rfl
  · rename_i vs hvs
    rw [hvs] at hx
    dsimp only at hx
    cases hr : op vs with
    | ok p => rw [h vs p hr]
    | error e =>
      rw [hr] at hx
      cases hx

omit [DecidableEq α] [Div α] in
theorem netMarginalM_le (h : M.Le M') (n : Net α) (f : Factor α) (v : String) :
    LeN (n.marginalM M f v) (n.marginalM M' f v) := by
  unfold Net.marginalM
  split
  · exact LeN.refl _
  · exact withVs_le n (fun s => marginalM_le h s _ _)

omit [DecidableEq α] in
theorem netNormalizeM_le (h : M.Le M') (n : Net α) (f : Factor α) : LeN (n.normalizeM M f) (n.normalizeM M' f) :=
  withVs_le n (fun s => normalizeM_le h s _)

omit [DecidableEq α] [Add α] [Div α] in
theorem netRearrangeM_le (h : M.Le M') (n : Net α) (f : Factor α) (names : List String) :
    LeN (n.rearrangeM M f names) (n.rearrangeM M' f names) := by
  unfold Net.rearrangeM
  split
  · exact LeN.refl _
  · exact withVs_le n (fun s => rearrangeM_le h s _ _)

omit [DecidableEq α] [Add α] in
theorem netNormalizeUtilityM_le [One α] [Mul α] (h : M.Le M') (n : Net α) (f g : Factor α) :
    LeN (n.normalizeUtilityM M f g) (n.normalizeUtilityM M' f g) :=
  withVs_le n (fun s => Le.bind (invertM_le h s _) (fun _ => productM_le h _ _))

omit [DecidableEq α] in
theorem queryLoopM_le (h : M.Le M') (f : Factor α) (qs : List String) (r : List (String × List α)) (n : Net α) :
    LeN (Net.queryLoopM M f qs r n) (Net.queryLoopM M' f qs r n) := by
  induction qs generalizing r n with
  | nil => exact LeN.refl _
  | cons q qs ih =>
    intro x hx
    unfold Net.queryLoopM at hx ⊢
    have h1 := netMarginalM_le h n f q
    rcases hm : n.marginalM M f q with ⟨m, n1⟩
    cases m with
    | error e => rw [hm] at hx; cases hx
    | ok m =>
      rw [hm] at hx h1
      rw [h1 m rfl]
      dsimp only at hx ⊢
      have h2 := netNormalizeM_le h n1 m
      rcases hg : n1.normalizeM M m with ⟨g, n2⟩
      cases g with
      | error e => rw [hg] at hx; cases hx
      | ok g =>
        rw [hg] at hx h2
        rw [h2 g rfl]
        exact ih _ _ x hx

variable [One α] [Mul α]

theorem netSolveM_le (h : M.Le M') (sch : NSched α) (n : Net α) (ev : List (String × String)) (q : List String)
    (utility : Bool) (u : String) (ignorePolicies : Bool) :
    LeN (n.solveM M sch ev q utility u ignorePolicies) (n.solveM M' sch ev q utility u ignorePolicies) := by
  intro x hx
  unfold Net.solveM at hx ⊢
  have h1 := enterM_le h sch 0 n (if ignorePolicies then ev else [])
  rcases hm : n.enterM M sch 0 (if ignorePolicies then ev else []) with ⟨m, n1⟩
  cases m with
  | error e => rw [hm] at hx; cases hx
  | ok ve =>
    rw [hm] at hx h1
    rw [h1 ve rfl]
    dsimp only at hx ⊢
    have h2 := solveNamedM_le h sch ve n1.names ev q utility u
    cases hs : solveNamedM M sch ve n1.names ev q utility u with
    | error e => rw [hs] at hx; cases hx
    | ok p => rw [h2 p hs]

theorem netSolveQueryM_le (h : M.Le M') (sch : NSched α) (n : Net α) (ev : List (String × String)) (q : List String)
    (ignorePolicies : Bool) :
    LeN (n.solveQueryM M sch ev q ignorePolicies) (n.solveQueryM M' sch ev q ignorePolicies) := by
  intro x hx
  unfold Net.solveQueryM at hx ⊢
  have h1 := netSolveM_le h sch n ev q false "" ignorePolicies
  rcases hm : n.solveM M sch ev q false "" ignorePolicies with ⟨m, n1⟩
  cases m with
  | error e => rw [hm] at hx; cases hx
  | ok f =>
    rw [hm] at hx h1
    rw [h1 f rfl]
    dsimp only at hx ⊢
    have h2 := queryLoopM_le h f q [] n1
    rcases hg : Net.queryLoopM M f q [] n1 with ⟨g, n2⟩
    cases g with
    | error e => rw [hg] at hx; cases hx
    | ok g =>
      rw [hg] at h2
      rw [h2 g rfl]

end

section
variable [Zero α] [One α] [Add α] [Mul α] [Div α] [NatCast α] [LE α] [DecidableLE α] [LT α] [DecidableLT α]
  [DecidableEq α]

theorem policyStepsM_le (h : M.Le M') (sch : NSched α) (stepwise : Bool) (left k : Nat) (n : Net α) :
    LeN (Net.policyStepsM M sch stepwise left k n) (Net.policyStepsM M' sch stepwise left k n) := by
  induction left generalizing k n with
  | zero => exact LeN.refl _
  | succ left ih =>
    intro x hx
    unfold Net.policyStepsM at hx ⊢
    have h1 := enterM_le h sch k n []
    rcases hm : n.enterM M sch k [] with ⟨m, n1⟩
    cases m with
    | error e => rw [hm] at hx; cases hx
    | ok ve =>
      rw [hm] at hx h1
      rw [h1 ve rfl]
      dsimp only at hx ⊢
      have h2 := veSolvePoliciesM_le h (sch.ve k) ve stepwise
      rcases hs : ve.solvePoliciesM M (sch.ve k) stepwise with e | ⟨r, ve'⟩
      · rw [hs] at hx; cases hx
      · rw [hs] at hx
        rw [h2 _ hs]
        cases r with
        | none => rfl
        | some solved => exact ih _ _ x hx

omit [One α] [Add α] [Mul α] [Div α] [NatCast α] [LE α] [DecidableLE α] [LT α] [DecidableLT α] [DecidableEq α] in
theorem policyTableM_le (h : M.Le M') (n : Net α) (vs : Vs) (name : String) (f : Factor α) :
    Le (n.policyTableM M vs name f) (n.policyTableM M' vs name f) := by
  unfold Net.policyTableM
  split
  · exact Le.refl _
  · split
    · exact Le.refl _
    · exact Le.bind (Le.refl _) (fun w => Le.bind (rearrangeM_le h _ _ _) (fun _ => Le.refl _))

omit [One α] [Add α] [Mul α] [Div α] [NatCast α] [LE α] [DecidableLE α] [LT α] [DecidableLT α] [DecidableEq α] in
theorem policyTablesM_le (h : M.Le M') (n : Net α) (ps : List (String × Factor α)) (vs : Vs)
    (acc : List (String × NFactor α)) : Le (n.policyTablesM M ps vs acc) (n.policyTablesM M' ps vs acc) := by
  induction ps generalizing vs acc with
  | nil => exact Le.refl _
  | cons p ps ih => exact Le.bind (policyTableM_le h _ _ _ _) (fun q => ih _ _)

theorem netSolvePoliciesM_le (h : M.Le M') (sch : NSched α) (n : Net α) (stepwise : Bool) :
    LeN (n.solvePoliciesM M sch stepwise) (n.solvePoliciesM M' sch stepwise) := by
  intro x hx
  unfold Net.solvePoliciesM at hx ⊢
  dsimp only at hx ⊢
  have h1 := policyStepsM_le h sch stepwise (n.countDecisionSteps stepwise) 0 { n with policies := [] }
  rcases hm : Net.policyStepsM M sch stepwise (n.countDecisionSteps stepwise) 0 { n with policies := [] } with ⟨m, n1⟩
  cases m with
  | error e => rw [hm] at hx; cases hx
  | ok u =>
    rw [hm] at hx h1
    rw [h1 u rfl]
    exact withVs_le n1 (fun s => policyTablesM_le h _ _ _ _) x hx

end
end

end Bbn
