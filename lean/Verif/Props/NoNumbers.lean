import Verif.Props.Malformed
import Verif.Props.NetNaN
import Verif.Lemmas.Iso
import Verif.Lemmas.TuiShown
import Verif.Model.Files

/-!
# C145: variables without numbers
-/

set_option autoImplicit false

namespace Bbn

variable {α : Type}

/-! ## Networks that are set up alike answer alike -/

/-- The network with other tables. -/
def Net.retable (fs : List (NFactor α)) (n : Net α) : Net α := { n with factors := fs }

section Alike

variable {fs : List (NFactor α)}

theorem withVs_retable {β : Type} (n : Net α) (op : Vs → Except Fault (β × Vs)) :
    (n.retable fs).withVs op = ((n.withVs op).1, (n.withVs op).2.retable fs) := by
  unfold Net.withVs
  show (match n.vs with | none => _ | some vs => _) = _
  cases n.vs with
  | none => rfl
  | some vs =>
    dsimp only
    cases op vs with
    | error e => rfl
    | ok r => rfl

theorem marginal_retable [Zero α] [Add α] (n : Net α) (f : Factor α) (v : String) :
    (n.retable fs).marginal f v = ((n.marginal f v).1, (n.marginal f v).2.retable fs) := by
  unfold Net.marginal
  show (match mapGet n.names v with | none => _ | some vv => _) = _
  cases mapGet n.names v with
  | none => rfl
  | some vv => exact withVs_retable n _

theorem queryLoop_retable [Zero α] [Add α] [Div α] (f : Factor α) : ∀ (qs : List String) (r : List (String × List α)) (n : Net α),
    Net.queryLoop f qs r (n.retable fs) = ((Net.queryLoop f qs r n).1, (Net.queryLoop f qs r n).2.retable fs) := by
  intro qs
  induction qs with
  | nil => intro r n; rfl
  | cons q qs ih =>
    intro r n
    unfold Net.queryLoop
    rw [marginal_retable]
    rcases n.marginal f q with ⟨_ | m, n1⟩
    · rfl
    · dsimp only
      unfold Net.normalize
      rw [withVs_retable]
      rcases n1.withVs (fun vs => vs.normalize m) with ⟨_ | g, n2⟩
      · rfl
      · exact ih _ _

/-- Both networks give the same solver, whatever policies are stored. -/
def SetUpAlike [Zero α] [Add α] [Div α] [DecidableEq α] (sch : NSched α) (n : Net α) (fs : List (NFactor α)) : Prop :=
  ∀ (ps : List (String × Factor α)) (k : Nat) (ev : List (String × String)),
    (({ n with policies := ps } : Net α).retable fs).toVE sch k ev = ({ n with policies := ps } : Net α).toVE sch k ev

theorem toVE_state [Zero α] [Add α] [Div α] [DecidableEq α] (sch : NSched α) (n : Net α) (vs : Option Vs)
    (names : List (String × NVar × Var)) (k : Nat) (ev : List (String × String)) :
    ({ n with vs := vs, names := names } : Net α).toVE sch k ev = n.toVE sch k ev := by
  have h1 : ∀ (l : List NVar) (i : Nat) (s : Vs),
      ({ n with vs := vs, names := names } : Net α).addVariables i l s = n.addVariables i l s := by
    intro l
    induction l with
    | nil => intro i s; rfl
    | cons v l ih =>
      intro i s
      unfold Net.addVariables
      simp only [ih]
      rfl
  have h2 : ∀ (l : List (NVar × Var)) (i : Nat) (m : List (String × NVar × Var)),
      ({ n with vs := vs, names := names } : Net α).nameMap i l m = n.nameMap i l m := by
    intro l
    induction l with
    | nil => intro i s; rfl
    | cons v l ih =>
      intro i s
      unfold Net.nameMap
      simp only [ih]
  have h3 : ∀ (ids : List (NVar × Var)) (ps : List (String × Factor α)) (s : Vs),
      ({ n with vs := vs, names := names } : Net α).policyFactors ids ev ps s = n.policyFactors ids ev ps s := by
    intro ids ps
    induction ps with
    | nil => intro s; rfl
    | cons p ps ih =>
      intro s
      unfold Net.policyFactors
      simp only [ih]
      rfl
  unfold Net.toVE
  simp only [h1, h2, h3]
  rfl

/-- A later state of the same network. -/
def Later (n m : Net α) : Prop := ∃ ps vs names, m = { n with policies := ps, vs := vs, names := names }

theorem toVE_retable [Zero α] [Add α] [Div α] [DecidableEq α] {sch : NSched α} {n m : Net α} (h : SetUpAlike sch n fs)
    (hm : Later n m) (k : Nat) (ev : List (String × String)) : (m.retable fs).toVE sch k ev = m.toVE sch k ev := by
  obtain ⟨ps, vs, names, rfl⟩ := hm
  have := h ps k ev
  rw [← toVE_state sch ({ n with policies := ps } : Net α) vs names k ev,
    ← toVE_state sch (({ n with policies := ps } : Net α).retable fs) vs names k ev] at this
  exact this

theorem enter_retable [Zero α] [Add α] [Div α] [DecidableEq α] {sch : NSched α} {n m : Net α} (h : SetUpAlike sch n fs)
    (hm : Later n m) (k : Nat) (ev : List (String × String)) :
    (m.retable fs).enter sch k ev = ((m.enter sch k ev).1, (m.enter sch k ev).2.retable fs) ∧
      Later n (m.enter sch k ev).2 := by
  unfold Net.enter
  rw [toVE_retable h hm]
  obtain ⟨ps, vs, names, rfl⟩ := hm
  cases Net.toVE sch k { n with policies := ps, vs := vs, names := names } ev with
  | error e =>
    cases e with
    | error x => exact ⟨rfl, _, _, _, rfl⟩
    | panic x => exact ⟨rfl, _, _, _, rfl⟩
  | ok r => exact ⟨rfl, _, _, _, rfl⟩

theorem solve_retable [Zero α] [One α] [Add α] [Mul α] [Div α] [DecidableEq α] {sch : NSched α} {n : Net α}
    (h : SetUpAlike sch n fs) (evidence : List (String × String)) (query : List String) (utility : Bool) (u : String)
    (ign : Bool) : (n.retable fs).solve sch evidence query utility u ign =
      ((n.solve sch evidence query utility u ign).1, (n.solve sch evidence query utility u ign).2.retable fs) := by
  unfold Net.solve
  rw [(enter_retable h ⟨n.policies, n.vs, n.names, rfl⟩ 0 _).1]
  rcases n.enter sch 0 (if ign then evidence else []) with ⟨_ | ve, m⟩
  · rfl
  · dsimp only
    show (match solveNamed sch ve m.names evidence query utility u with | .error e => _ | .ok (f, ve) => _) = _
    cases solveNamed sch ve m.names evidence query utility u with
    | error e => rfl
    | ok r => rfl

theorem solveQuery_retable [Zero α] [One α] [Add α] [Mul α] [Div α] [DecidableEq α] {sch : NSched α} {n : Net α}
    (h : SetUpAlike sch n fs) (evidence : List (String × String)) (query : List String) (ign : Bool) :
    (n.retable fs).solveQuery sch evidence query ign =
      ((n.solveQuery sch evidence query ign).1, (n.solveQuery sch evidence query ign).2.retable fs) := by
  unfold Net.solveQuery
  rw [solve_retable h]
  rcases n.solve sch evidence query false "" ign with ⟨_ | f, m⟩
  · rfl
  · dsimp only
    rw [queryLoop_retable]
    rcases Net.queryLoop f query [] m with ⟨_ | r, m'⟩
    · rfl
    · rfl

theorem policySteps_retable [Zero α] [One α] [Add α] [Mul α] [Div α] [NatCast α] [LE α] [DecidableLE α] [LT α]
    [DecidableLT α] [DecidableEq α] {sch : NSched α} {n : Net α} (h : SetUpAlike sch n fs) (stepwise : Bool) :
    ∀ (left k : Nat) (m : Net α), Later n m → Net.policySteps sch stepwise left k (m.retable fs) =
      ((Net.policySteps sch stepwise left k m).1, (Net.policySteps sch stepwise left k m).2.retable fs) := by
  intro left
  induction left with
  | zero => intro k m _; rfl
  | succ left ih =>
    intro k m hm
    have he := enter_retable h hm k []
    unfold Net.policySteps
    rw [he.1]
    have hl := he.2
    revert hl
    rcases m.enter sch k [] with ⟨_ | ve, m'⟩
    · intro _; rfl
    · intro hl
      dsimp only at hl ⊢
      cases ve.solvePolicies (sch.ve k) stepwise with
      | error e => rfl
      | ok r =>
        rcases r with ⟨_ | solved, ve'⟩
        · rfl
        · dsimp only
          obtain ⟨ps, vs, names, rfl⟩ := hl
          exact ih (k + 1) _ ⟨_, _, _, rfl⟩

theorem solvePolicies_retable [Zero α] [One α] [Add α] [Mul α] [Div α] [NatCast α] [LE α] [DecidableLE α] [LT α]
    [DecidableLT α] [DecidableEq α] {sch : NSched α} {n : Net α} (h : SetUpAlike sch n fs) (stepwise : Bool) :
    (n.retable fs).solvePolicies sch stepwise =
      ((n.solvePolicies sch stepwise).1, (n.solvePolicies sch stepwise).2.retable fs) := by
  unfold Net.solvePolicies
  dsimp only
  have := policySteps_retable h stepwise (n.countDecisionSteps stepwise) 0 { n with policies := [] } ⟨_, _, _, rfl⟩
  rw [show (n.retable fs).countDecisionSteps stepwise = n.countDecisionSteps stepwise from rfl,
    show ({ n.retable fs with policies := [] } : Net α) = ({ n with policies := [] } : Net α).retable fs from rfl, this]
  rcases Net.policySteps sch stepwise (n.countDecisionSteps stepwise) 0 { n with policies := [] } with ⟨_ | r, m⟩
  · rfl
  · dsimp only
    have ht : ∀ (vs : Vs) (name : String) (f : Factor α), (m.retable fs).policyTable vs name f = m.policyTable vs name f :=
      fun _ _ _ => rfl
    have hts : ∀ (ps : List (String × Factor α)) (vs : Vs) (acc : List (String × NFactor α)),
        (m.retable fs).policyTables ps vs acc = m.policyTables ps vs acc := by
      intro ps
      induction ps with
      | nil => intro vs acc; rfl
      | cons p ps ih =>
        intro vs acc
        unfold Net.policyTables
        simp only [ht, ih]
    rw [withVs_retable]
    simp only [hts]
    rfl

end Alike

/-! ## Filling in zeros -/

/-- One table of `Net.filled`. -/
def Net.fillTable [Zero α] (n : Net α) (f : NFactor α) : NFactor α :=
  if f.table = none ∧ f.forVar ≠ n.totalName ∧ n.isKind .decision f.forVar = false then
    { f with table := some (List.replicate (f.dims.map n.count).prod 0) }
  else f

theorem filled_eq [Zero α] (n : Net α) : n.filled = n.retable (n.factors.map n.fillTable) := rfl

theorem fillTable_forVar [Zero α] (n : Net α) (f : NFactor α) : (n.fillTable f).forVar = f.forVar := by
  unfold Net.fillTable
  split_ifs <;> rfl

theorem fillTable_given [Zero α] (n : Net α) (f : NFactor α) : (n.fillTable f).given = f.given := by
  unfold Net.fillTable
  split_ifs <;> rfl

theorem addTable_fill [Zero α] [Add α] [Div α] [DecidableEq α] {n : Net α} (hn : n.Plain)
    (st : List (Factor α) × List (Var × List Var) × Vs) (f : NFactor α) :
    n.addTable ((n.solverVars 0 n.variables).map (fun e => (e.1.name, e))) st (n.fillTable f) =
      n.addTable ((n.solverVars 0 n.variables).map (fun e => (e.1.name, e))) st f := by
  by_cases hc : f.table = none ∧ f.forVar ≠ n.totalName ∧ n.isKind .decision f.forVar = false
  swap
  · rw [show n.fillTable f = f from if_neg hc]
  unfold Net.addTable
  rw [fillTable_forVar, fillTable_given, if_neg hc.2.1, if_neg hc.2.1]
  cases hg : mapGet ((n.solverVars 0 n.variables).map (fun e => (e.1.name, e))) f.forVar with
  | none => rfl
  | some e =>
    dsimp only
    obtain ⟨i, v, a1, a2, a3, a4⟩ := plain_knows hn (s := f.forVar) (by
      by_contra h
      rw [plain_unknown hn h] at hg
      simp at hg)
    have he : e = (v, n.solverVar i v) := by
      rw [hg] at a4
      simpa using a4
    subst he
    cases hw : givenVars ((n.solverVars 0 n.variables).map (fun e => (e.1.name, e))) f.given with
    | error e => rfl
    | ok ws =>
      rw [ok_bind, ok_bind]
      dsimp only
      have hk : ∀ s ∈ f.given, n.Knows s := by
        intro s hs
        by_contra h
        have hgs : ∀ {l : List String} {ws : List Var}, s ∈ l →
            givenVars ((n.solverVars 0 n.variables).map (fun e => (e.1.name, e))) l ≠ .ok ws := by
          intro l
          induction l with
          | nil => intro _ hs; simp at hs
          | cons t l ih =>
            intro ws hs he
            unfold givenVars at he
            rw [List.mapM_cons] at he
            obtain ⟨x, b1, he⟩ := bind_inv he
            obtain ⟨xs, b2, _⟩ := bind_inv he
            rcases List.mem_cons.1 hs with rfl | hs
            · rw [plain_unknown hn h] at b1
              cases b1
            · exact ih hs b2
        exact hgs hs hw
      obtain ⟨ws', g1, g2⟩ := plain_given hn hk
      rw [hw] at g1
      cases g1
      have hsz : size (ws ++ [n.solverVar i v]) = (f.dims.map n.count).prod :=
        stands_size hn (List.rel_append g2 (.cons ⟨i, v, a1, a2, a3, rfl⟩ .nil))
      have hcr : st.2.2.createFactor (ws ++ [n.solverVar i v]) (n.fillTable f).table =
          st.2.2.createFactor (ws ++ [n.solverVar i v]) f.table := by
        unfold Vs.createFactor Net.fillTable
        rw [if_pos hc, hc.1]
        dsimp only
        rw [if_neg (by rw [List.length_replicate, hsz]; simp), hsz]
      rw [hcr]

theorem utilityWeights_fill [Zero α] {n : Net α} (hown : n.OwnTotal) : n.filled.utilityWeights = n.utilityWeights := by
  unfold Net.utilityWeights
  show (match n.totalUtility with | none => _ | some i => _) = _
  cases ht : n.totalUtility with
  | none => rfl
  | some i =>
    dsimp only
    show (goGet n.variables i >>= _) = _
    cases hv : goGet n.variables i with
    | error e => rfl
    | ok v =>
      rw [ok_bind, ok_bind]
      have hd : derefFactor n.filled.factors v = derefFactor n.factors v := by
        unfold derefFactor
        cases hj : v.factor with
        | none => rfl
        | some j =>
          dsimp only
          rw [filled_eq]
          show goGet (n.factors.map n.fillTable) j = _
          unfold goGet
          rw [List.getElem?_map]
          cases hf : n.factors[j]? with
          | none => rfl
          | some f =>
            have hv' := goGet_eq.1 hv
            have := (hown i v j f ht hv' hj hf).trans (Net.totalName_eq ht hv').symm
            have hfill : n.fillTable f = f := by
              unfold Net.fillTable
              rw [if_neg (fun h => h.2.1 this)]
            simp [hfill]
      rw [hd]
      rfl

theorem filled_alike [Zero α] [Add α] [Div α] [DecidableEq α] (sch : NSched α) {n : Net α} (hn : n.Plain) (hown : n.OwnTotal) :
    SetUpAlike sch n (n.factors.map n.fillTable) := by
  intro ps k ev
  set m : Net α := { n with policies := ps } with hm
  have hm' : m.Plain := ⟨hn.names, hn.named, hn.few, hn.outcomes⟩
  have h1 : ∀ (l : List NVar) (i : Nat) (s : Vs),
      (m.retable (n.factors.map n.fillTable)).addVariables i l s = m.addVariables i l s := by
    intro l
    induction l with
    | nil => intro i s; rfl
    | cons v l ih =>
      intro i s
      unfold Net.addVariables
      simp only [ih]
      rfl
  have h2 : ∀ (l : List (NVar × Var)) (i : Nat) (a : List (String × NVar × Var)),
      (m.retable (n.factors.map n.fillTable)).nameMap i l a = m.nameMap i l a := by
    intro l
    induction l with
    | nil => intro i s; rfl
    | cons v l ih =>
      intro i s
      unfold Net.nameMap
      simp only [ih]
      rfl
  have h3 : ∀ (ids : List (NVar × Var)) (ps : List (String × Factor α)) (s : Vs),
      (m.retable (n.factors.map n.fillTable)).policyFactors ids ev ps s = m.policyFactors ids ev ps s := by
    intro ids ps
    induction ps with
    | nil => intro s; rfl
    | cons p ps ih =>
      intro s
      unfold Net.policyFactors
      simp only [ih]
      rfl
  have h4 : (m.retable (n.factors.map n.fillTable)).utilityWeights = m.utilityWeights := utilityWeights_fill (n := m) hown
  have h5 : ∀ st : List (Factor α) × List (Var × List Var) × Vs,
      (n.factors.map n.fillTable).foldlM (m.addTable ((m.solverVars 0 m.variables).map (fun e => (e.1.name, e)))) st =
      n.factors.foldlM (m.addTable ((m.solverVars 0 m.variables).map (fun e => (e.1.name, e)))) st := by
    intro st
    rw [List.foldlM_map]
    congr 1
    funext st f
    exact addTable_fill hm' st f
  unfold Net.toVE
  simp only [h1, h2, h3, h4]
  show (m.addVariables 0 m.variables Vs.new >>= _) = _
  rw [addVariables_spec m _ 0 Vs.new rfl rfl (by have := hm'.few; omega) (fun v hv => (hm'.outcomes v hv).2), ok_bind, ok_bind]
  dsimp only
  rw [nameMap_spec m _ 0 [] (by simpa using hm'.names), List.nil_append]
  show ((n.factors.map n.fillTable).foldlM (m.addTable ((m.solverVars 0 m.variables).map (fun e => (e.1.name, e)))) _ >>= _) = _
  rw [h5]
  rfl

/-- **C145**: chance and utility variables without numbers are solved as if all their numbers were zero. -/
theorem C145_zeros [Zero α] [One α] [Add α] [Mul α] [Div α] [NatCast α] [LE α] [DecidableLE α] [LT α]
    [DecidableLT α] [DecidableEq α] (sch : NSched α) {n : Net α} (hn : n.Plain) (hown : n.OwnTotal)
    (evidence : List (String × String)) (query : List String) (u : String) (ign stepwise : Bool) :
    (n.solveQuery sch evidence query ign).1 = (n.filled.solveQuery sch evidence query ign).1 ∧
    (n.solveUtility sch evidence query u ign).1 = (n.filled.solveUtility sch evidence query u ign).1 ∧
    (n.solvePolicies sch stepwise).1 = (n.filled.solvePolicies sch stepwise).1 := by
  have h := filled_alike sch hn hown
  refine ⟨?_, ?_, ?_⟩
  · rw [filled_eq, solveQuery_retable h]
  · unfold Net.solveUtility
    rw [filled_eq, solve_retable h]
  · rw [filled_eq, solvePolicies_retable h]

/-- **C145**: if a chance variable has no numbers, `SolveQuery` gives NaN for each outcome of each query variable. -/
theorem C145_nan {K : Type} [Field K] [LinearOrder K] [IsStrictOrderedRing K] (sch : NSched (Ext K)) {n : Net K}
    (hn : n.filled.Valid) (hp : n.filled.PoliciesOK) (h0 : n.filled.Nonneg)
    (hmiss : ∃ f ∈ n.factors, f.table = none ∧ n.isKind .chance f.forVar = true)
    {evidence : List (String × String)} (hev : n.filled.EvidenceOK evidence) {query : List String} (ign : Bool)
    (hq : n.filled.QueryOK evidence ign query) :
    ∃ r f, ((n.mapNum .fin).solveQuery sch evidence query ign).1 = .ok (r, f) ∧ (r.map Prod.fst).Nodup ∧
      (∀ s, s ∈ r.map Prod.fst ↔ s ∈ query) ∧ ∀ q ∈ query, (q, List.replicate (n.count q) Ext.nan) ∈ r := by
  have hpl : (n.mapNum Ext.fin).Plain := ⟨hn.names, hn.named, hn.few, hn.outcomes⟩
  have hown : (n.mapNum Ext.fin).OwnTotal := by
    intro i v j f h1 h2 h3 h4
    obtain ⟨v', j', f', k1, _, k3, k4, k5, _⟩ := hn.weights i h1
    have hv : v' = v := by
      rw [show n.filled.variables[i]? = some v from h2] at k1
      simpa using k1.symm
    subst hv
    rw [h3] at k3
    cases k3
    rw [filled_eq] at k4
    have k4' : (n.factors.map n.fillTable)[j]? = some f' := k4
    rw [List.getElem?_map] at k4'
    have h4' : (n.factors.map (NFactor.mapNum Ext.fin))[j]? = some f := h4
    rw [List.getElem?_map] at h4'
    cases hg : n.factors[j]? with
    | none => rw [hg] at h4'; simp at h4'
    | some g =>
      rw [hg] at k4' h4'
      simp only [Option.map_some, Option.some.injEq] at k4' h4'
      rw [← h4', ← k5, ← k4', fillTable_forVar]
      rfl
  have hswap : (n.mapNum Ext.fin).filled = n.filled.mapNum Ext.fin := by
    rw [filled_eq, filled_eq]
    unfold Net.retable Net.mapNum
    simp only [List.map_map, Net.mk.injEq, true_and, and_true]
    apply List.map_congr_left
    intro f _
    simp only [Function.comp]
    show Net.fillTable (n.mapNum Ext.fin) (f.mapNum Ext.fin) = _
    have hiff : ((f.mapNum Ext.fin).table = none ∧ (f.mapNum Ext.fin).forVar ≠ (n.mapNum Ext.fin).totalName ∧
        (n.mapNum Ext.fin).isKind .decision (f.mapNum Ext.fin).forVar = false) ↔
        (f.table = none ∧ f.forVar ≠ n.totalName ∧ n.isKind .decision f.forVar = false) := by
      have h1 : (f.mapNum (β := Ext K) Ext.fin).table = none ↔ f.table = none := by simp [NFactor.mapNum]
      exact and_congr h1 Iff.rfl
    unfold Net.fillTable
    by_cases hc : f.table = none ∧ f.forVar ≠ n.totalName ∧ n.isKind .decision f.forVar = false
    · rw [if_pos hc, if_pos (hiff.2 hc)]
      simp only [NFactor.mapNum, Option.map_some, List.map_replicate]
      rfl
    · rw [if_neg hc, if_neg (fun h => hc (hiff.1 h))]
  have hsame : ((n.mapNum Ext.fin).filled.solveQuery sch evidence query ign).1 =
      ((n.mapNum Ext.fin).solveQuery sch evidence query ign).1 := by
    rw [filled_eq, solveQuery_retable (filled_alike sch hpl hown)]
  rw [hswap] at hsame
  have himp : n.filled.mass (n.filled.active evidence ign) (n.filled.Agrees evidence) = 0 := by
    obtain ⟨f, hf, hf1, hf2⟩ := hmiss
    have hmem : n.fillTable f ∈ n.filled.chanceTables := by
      refine List.mem_filter.2 ⟨List.mem_map_of_mem (f := n.fillTable) hf, ?_⟩
      rw [fillTable_forVar]
      exact hf2
    have hk : n.filled.isKind .chance f.forVar = true := hf2
    have htot : f.forVar ≠ n.totalName := by
      obtain ⟨v, hv, e, _⟩ := isKind_mem.1 hf2
      exact chance_not_total hn (one_kind (n := n.filled) hn hk (by decide)) ⟨v, hv, e⟩
    have htab : (n.fillTable f).tab = List.replicate (f.dims.map n.count).prod 0 := by
      unfold Net.fillTable
      rw [if_pos ⟨hf1, htot, one_kind (n := n.filled) hn hk (by decide)⟩]
      rfl
    have hent : ∀ w, n.filled.prob (n.fillTable f) w = 0 := by
      intro w
      have : ∀ w, n.filled.entry (n.fillTable f) w = 0 := by
        intro w
        unfold Net.entry
        rw [htab, List.getD_eq_getElem?_getD, List.getElem?_replicate]
        split_ifs <;> rfl
      unfold Net.prob
      simp [this]
    unfold Net.mass Net.total
    have hj : ∀ ps w, n.filled.joint ps w = 0 := by
      intro ps w
      unfold Net.joint
      rw [List.prod_eq_zero (List.mem_map.2 ⟨_, hmem, hent w⟩), zero_mul]
    simp only [hj, zero_mul]
    exact sumWorlds_zero _ _
  obtain ⟨r, f, n', h1, h2, h3, h4⟩ := C32_impossible sch hn hp h0 hev ign hq himp
  rw [h1] at hsame
  exact ⟨r, f, hsame.symm, h2, h3, h4⟩

/-! ## Examples -/

/-- A file with a chance variable without table. -/
def Ex.blankFile : NetYaml ℚ :=
  ⟨"blank", "", [⟨"Rain", [], "", ["no", "yes"], (0, 0), "", "", []⟩,
    ⟨"Lawn", ["Rain"], "", ["dry", "wet"], (0, 0), "", "", [[9, 1], [0, 1]]⟩]⟩

/-- The network it holds. -/
def Ex.blank : Net ℚ where
  name := "blank"
  info := ""
  «variables» := [⟨"Rain", .chance, ["no", "yes"], (0, 0), "", some 0⟩, ⟨"Lawn", .chance, ["dry", "wet"], (0, 0), "", some 1⟩]
  factors := [⟨"Rain", [], none, [], 2⟩, ⟨"Lawn", ["Rain"], some [9, 1, 0, 1], [2], 2⟩]
  policies := []
  vs := none
  names := []
  totalUtility := none

theorem Ex.blank_filled_valid : Ex.blank.filled.Valid where
  names := by decide
  named := by decide
  few := by decide
  outcomes := by decide
  tables := by decide
  hasTable := by decide
  known := by decide
  dims := by decide
  parents := by decide
  size := by
    intro f hf _ _
    have hf' : f = ⟨"Rain", [], some [0, 0], [], 2⟩ ∨ f = ⟨"Lawn", ["Rain"], some [9, 1, 0, 1], [2], 2⟩ := by
      revert hf
      have : Ex.blank.filled.factors = [⟨"Rain", [], some [0, 0], [], 2⟩, ⟨"Lawn", ["Rain"], some [9, 1, 0, 1], [2], 2⟩] := by
        decide
      rw [this]
      simp
    rcases hf' with rfl | rfl <;> exact ⟨_, rfl, by decide⟩
  single := by decide
  weights := by intro i h; simp [Ex.blank, Net.filled] at h

/-- The file is loaded without complaint, and whatever is asked, all answers are NaN. -/
example (sch : NSched (Ext ℚ)) (lower : String → String) (h : LHeap ℚ) : fromYaml lower Ex.blankFile h = (.ok Ex.blank, h) ∧
    ∃ r f, ((Ex.blank.mapNum .fin).solveQuery sch [("Lawn", "wet")] ["Rain"] false).1 = .ok (r, f) ∧
      ("Rain", [.nan, .nan]) ∈ r := by
  refine ⟨rfl, ?_⟩
  obtain ⟨r, f, h1, _, _, h4⟩ := C145_nan sch Ex.blank_filled_valid (Ex.noPolicies rfl) ⟨by decide +kernel, by decide⟩
    ⟨⟨"Rain", [], none, [], 2⟩, by decide, rfl, by decide⟩ (evidence := [("Lawn", "wet")]) ⟨by decide, by decide⟩ (query := ["Rain"]) false
    ⟨by decide, by decide, by
      intro q hq
      simp only [List.mem_singleton] at hq
      subst hq
      exact chance_occurs Ex.blank_filled_valid _ (v := ⟨"Rain", .chance, ["no", "yes"], (0, 0), "", some 0⟩) (by decide) rfl⟩
  exact ⟨r, f, h1, h4 "Rain" (by simp)⟩

/-- The umbrella network without numbers for the comfort. -/
def Ex.umbBlank : Net ℚ :=
  { Ex.umb with factors := Ex.umb.factors.set 3 ⟨"Comfort", ["Weather", "Umbrella"], none, [2, 2], 1⟩ }

/-- It is solved like the one with zeros. -/
example (sch : NSched ℚ) : (Ex.umbBlank.solvePolicies sch false).1 =
    (({ Ex.umb with factors := Ex.umb.factors.set 3 ⟨"Comfort", ["Weather", "Umbrella"], some [0, 0, 0, 0], [2, 2], 1⟩ } :
      Net ℚ).solvePolicies sch false).1 := by
  have hf : Ex.umbBlank.filled = { Ex.umb with
      factors := Ex.umb.factors.set 3 ⟨"Comfort", ["Weather", "Umbrella"], some [0, 0, 0, 0], [2, 2], 1⟩ } := rfl
  rw [← hf]
  refine (C145_zeros sch ⟨by decide, by decide, by decide, by decide⟩ ?_ [] [] "" false false).2.2
  intro i v j f h1 h2 h3 h4
  cases h1
  cases h2
  cases h3
  cases h4
  rfl

end Bbn
