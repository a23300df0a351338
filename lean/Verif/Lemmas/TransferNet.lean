import Verif.Lemmas.Transfer

/-!
# Results carry over along embeddings of number types: solver and network
-/

set_option autoImplicit false

namespace Bbn

variable {K β : Type}

theorem atPositions_map {A B : Type} (g : A → B) (o : List Nat) (l : List A) :
    atPositions o (l.map g) = (atPositions o l).map g := by
  unfold atPositions
  rw [List.map_filterMap]
  simp only [List.getElem?_map]

/-- The same iteration orders for other numbers. -/
def Sched.cast (K : Type) (s : Sched β) : Sched K := ⟨s.ord, s.var, s.dep, s.ord_perm, s.var_perm, s.dep_perm⟩

theorem Sched.cast_fac (φ : K → β) (s : Sched β) (n : Nat) (l : List (Factor K)) :
    s.fac n (l.map (Factor.mapNum φ)) = ((s.cast K).fac n l).map (Factor.mapNum φ) := by
  unfold Sched.fac
  rw [atPositions_map, List.map_map]
  rfl

/-- The same for a network call. -/
def NSched.cast (K : Type) (s : NSched β) : NSched K :=
  ⟨fun k => (s.ve k).cast K, s.polOrd, s.ev, s.names, s.polOrd_perm, s.ev_perm, s.names_perm⟩

theorem NSched.cast_pol (φ : K → β) (s : NSched β) (n : Nat) (l : List (String × Factor K)) :
    s.pol n (l.map (fun p => (p.1, p.2.mapNum φ))) = ((s.cast K).pol n l).map (fun p => (p.1, p.2.mapNum φ)) := by
  unfold NSched.pol
  rw [atPositions_map, List.map_map]
  rfl

section VE

variable {φ : K → β} {P : K → Prop}

theorem insertFactor_map (φ : K → β) (fs : List (Factor K)) (f : Factor K) :
    insertFactor (fs.map (Factor.mapNum φ)) (f.mapNum φ) = (insertFactor fs f).map (Factor.mapNum φ) := by
  unfold insertFactor
  rw [List.filter_map, List.map_append]
  rfl

theorem deleteFactor_map (φ : K → β) (fs : List (Factor K)) (i : Nat) :
    deleteFactor (fs.map (Factor.mapNum φ)) i = (deleteFactor fs i).map (Factor.mapNum φ) := by
  unfold deleteFactor
  rw [List.filter_map]
  rfl

theorem deleteAll_map (φ : K → β) (ids : List Nat) : ∀ fs : List (Factor K),
    deleteAll (fs.map (Factor.mapNum φ)) ids = (deleteAll fs ids).map (Factor.mapNum φ) := by
  unfold deleteAll
  induction ids with
  | nil => intro fs; rfl
  | cons i ids ih =>
    intro fs
    rw [List.foldl_cons, List.foldl_cons, deleteFactor_map]
    exact ih _

theorem lookupFactor_map (φ : K → β) (fs : List (Factor K)) (i : Nat) :
    ERel (fun a b => b = a.mapNum φ) (lookupFactor fs i) (lookupFactor (fs.map (Factor.mapNum φ)) i) := by
  unfold lookupFactor
  rw [List.find?_map]
  rw [show ((fun g : Factor β => decide (g.id = i)) ∘ Factor.mapNum φ) = (fun g : Factor K => decide (g.id = i)) from rfl]
  cases fs.find? (fun g : Factor K => decide (g.id = i)) with
  | none => exact ERel.err
  | some f => exact ERel.ok rfl

theorem VE.new_map (φ : K → β) (vs : Vs) (fs : List (Factor K)) (deps : List (Var × List Var)) (w : Option (List K)) :
    VE.new vs (fs.map (Factor.mapNum φ)) deps (w.map (List.map φ)) = (VE.new vs fs deps w).mapNum φ := by
  have : ∀ (fs acc : List (Factor K)), (fs.map (Factor.mapNum φ)).foldl insertFactor (acc.map (Factor.mapNum φ)) =
      (fs.foldl insertFactor acc).map (Factor.mapNum φ) := by
    intro fs
    induction fs with
    | nil => intro acc; rfl
    | cons f fs ih => intro acc; rw [List.map_cons, List.foldl_cons, List.foldl_cons, insertFactor_map]; exact ih _
  unfold VE.new VE.mapNum
  simp only [← this fs [], List.map_nil]

theorem topoRec_cast (s : Sched β) (dec : List Var) (deps : List (Var × List Var)) :
    ∀ fuel, topoRec (s.cast K) dec deps fuel = topoRec s dec deps fuel := by
  intro fuel
  induction fuel with
  | zero => funext i st; obtain ⟨a, b, c⟩ := st; rfl
  | succ fuel ih =>
    funext i st
    obtain ⟨a, b, c⟩ := st
    rw [topoRec, topoRec, ih]
    rfl

theorem getDecisions_map (φ : K → β) (s : Sched β) (st : VE K) :
    (st.mapNum φ).getDecisions s = st.getDecisions (s.cast K) := by
  unfold VE.getDecisions sortTopological
  rw [topoRec_cast]
  rfl

theorem iter_map (φ : K → β) (s : Sched β) (st : VE K) :
    (st.mapNum φ).iter s = (st.iter (s.cast K)).map (Factor.mapNum φ) := Sched.cast_fac φ s _ _

theorem getDecisionParents_map (φ : K → β) (s : Sched β) (st : VE K) (single : Bool) :
    (st.mapNum φ).getDecisionParents s single = st.getDecisionParents (s.cast K) single := by
  unfold VE.getDecisionParents
  rw [getDecisions_map φ]
  rfl

theorem degreeOf_map (φ : K → β) (v : Var) (fs : List (Factor K)) :
    degreeOf v (fs.map (Factor.mapNum φ)) = degreeOf v fs := by
  unfold degreeOf
  rw [List.foldl_map]
  rfl

theorem degrees_map (φ : K → β) (s : Sched β) (fs : List (Factor K)) : ∀ (l : List Var) (tick : Nat),
    degrees s (fs.map (Factor.mapNum φ)) tick l = degrees (s.cast K) fs tick l := by
  intro l
  induction l with
  | nil => intro tick; rfl
  | cons v l ih =>
    intro tick
    rw [degrees, degrees, ih, Sched.cast_fac φ, degreeOf_map]

theorem removeUtilities_map (φ : K → β) (s : Sched β) (st : VE K) (e : Option Var) :
    (st.mapNum φ).removeUtilities s e = (st.removeUtilities (s.cast K) e).mapNum φ := by
  unfold VE.removeUtilities
  dsimp only [VE.mapNum]
  split_ifs
  · rfl
  · have := iter_map φ s st
    dsimp only [VE.mapNum] at this
    rw [this, List.filter_map, List.map_map, deleteAll_map]
    rfl

variable [Zero K] [One K] [Add K] [Mul K] [Div K] [Zero β] [One β] [Add β] [Mul β] [Div β]

theorem restrictIds_map (h : Embeds φ P) (e : Evid) : ∀ (is : List Nat) (st : VE K),
    ERel (fun a b => b = a.mapNum φ) (restrictIds e is st) (restrictIds e is (st.mapNum φ)) := by
  intro is
  induction is with
  | nil => intro st; exact ERel.ok rfl
  | cons i is ih =>
    intro st
    rw [restrictIds, restrictIds]
    refine ERel.bind (lookupFactor_map φ _ _) ?_
    rintro f _ rfl
    refine ERel.bind (restrict_map h _ _ _ _) ?_
    rintro a _ rfl
    dsimp only [facPair]
    have := ih { st with vs := a.2, factors := insertFactor (deleteFactor st.factors i) a.1 }
    dsimp only [VE.mapNum] at this ⊢
    rw [deleteFactor_map, insertFactor_map]
    exact this

theorem eliminateEvidence_map (h : Embeds φ P) (s : Sched β) (st : VE K) (evidence : List Evid) :
    ERel (fun a b => b = a.mapNum φ) (st.eliminateEvidence (s.cast K) evidence)
      ((st.mapNum φ).eliminateEvidence s evidence) := by
  unfold VE.eliminateEvidence
  refine ERel.foldlM_same (fun st e => ?_) evidence st
  unfold VE.restrictEvidence
  dsimp only
  rw [iter_map φ, List.filter_map, List.map_map]
  exact restrictIds_map h e _ { st with tick := st.tick + 1 }

theorem scaleUtil_map (h : Embeds φ P) (w : Option (List K)) (i : Nat) (f : Factor K) (vs : Vs) :
    ERel (fun a b => b = facPair φ a) (scaleUtil w i f vs) (scaleUtil (w.map (List.map φ)) i (f.mapNum φ) vs) := by
  cases w with
  | none => exact ERel.ok rfl
  | some ws =>
    unfold scaleUtil
    dsimp only [Option.map_some]
    refine ERel.bind (ERel.goGet φ _ _) ?_
    rintro x _ rfl
    exact product_map h vs [f, ⟨0, [x], []⟩]

theorem collectUtils_map (h : Embeds φ P) (utils : List Var) (w : Option (List K)) : ∀ (fs : List (Factor K)) (vs : Vs),
    ERel (fun a b => b = (a.1, a.2.1.map (Factor.mapNum φ), a.2.2)) (collectUtils utils w fs vs)
      (collectUtils utils (w.map (List.map φ)) (fs.map (Factor.mapNum φ)) vs) := by
  intro fs
  induction fs with
  | nil => intro vs; exact ERel.ok rfl
  | cons f fs ih =>
    intro vs
    rw [List.map_cons, collectUtils, collectUtils]
    rw [show firstUtil utils (f.mapNum φ) = firstUtil utils f from rfl]
    cases firstUtil utils f with
    | none => exact ih vs
    | some i =>
      dsimp only
      refine ERel.bind (scaleUtil_map h _ _ _ _) ?_
      rintro a _ rfl
      refine ERel.bind (ih _) ?_
      rintro b _ rfl
      exact ERel.pure rfl

theorem sumOutUtils_map (h : Embeds φ P) : ∀ (us : List Var) (f : Factor K) (vs : Vs) (elim : List Bool),
    ERel (fun a b => b = (a.1.mapNum φ, a.2)) (sumOutUtils us f vs elim) (sumOutUtils us (f.mapNum φ) vs elim) := by
  intro us
  induction us with
  | nil => intro f vs elim; exact ERel.ok rfl
  | cons u us ih =>
    intro f vs elim
    rw [sumOutUtils, sumOutUtils]
    refine ERel.bind (sumOut_map h _ _ _) ?_
    rintro a _ rfl
    refine ERel.bind (ERel.refl _) ?_
    rintro b _ rfl
    exact ih _ _ _

theorem sumUtilities_map (h : Embeds φ P) (s : Sched β) (st : VE K) :
    ERel (fun a b => b = a.mapNum φ) (st.sumUtilities (s.cast K)) ((st.mapNum φ).sumUtilities s) := by
  unfold VE.sumUtilities
  rw [iter_map φ]
  refine ERel.ite Iff.rfl (ERel.ok rfl) ?_
  refine ERel.bind (collectUtils_map h _ _ _ _) ?_
  rintro a _ rfl
  refine ERel.bind (sum_map h _ _) ?_
  rintro b _ rfl
  refine ERel.bind (sumOutUtils_map h _ _ _ _) ?_
  rintro c _ rfl
  refine ERel.pure ?_
  dsimp only [VE.mapNum]
  rw [deleteAll_map, insertFactor_map]

theorem removeHidden_map (h : Embeds φ P) (s : Sched β) (st : VE K) (v : Var) :
    ERel (fun a b => b = a.mapNum φ) (st.removeHidden (s.cast K) v) ((st.mapNum φ).removeHidden s v) := by
  unfold VE.removeHidden
  rw [iter_map φ, List.filter_map]
  refine ERel.bind (product_map h _ _) ?_
  rintro a _ rfl
  refine ERel.bind (sumOut_map h _ _ _) ?_
  rintro b _ rfl
  refine ERel.bind (ERel.refl _) ?_
  rintro c _ rfl
  refine ERel.pure ?_
  dsimp only [VE.mapNum]
  rw [List.map_map, deleteAll_map, insertFactor_map]
  rfl

theorem eliminateHidden_map (h : Embeds φ P) (s : Sched β) (st : VE K) (evidence : List Evid) (query : List Var)
    (single : Bool) : ERel (fun a b => b = a.mapNum φ) (st.eliminateHidden (s.cast K) evidence query single)
      ((st.mapNum φ).eliminateHidden s evidence query single) := by
  unfold VE.eliminateHidden
  rw [getDecisionParents_map φ]
  refine ERel.bind (ERel.refl _) ?_
  rintro _ a rfl
  refine ERel.bind (ERel.refl _) ?_
  rintro _ hidden rfl
  dsimp only
  rw [show (st.mapNum φ).factors = st.factors.map (Factor.mapNum φ) from rfl, degrees_map φ]
  exact ERel.foldlM_same (fun st p => removeHidden_map h s st p.1) _ { st with tick := a.2 + 1 + hidden.length }

theorem multiplyAll_map (h : Embeds φ P) (s : Sched β) (st : VE K) :
    ERel (fun a b => b = (a.1.mapNum φ, a.2.mapNum φ)) (st.multiplyAll (s.cast K)) ((st.mapNum φ).multiplyAll s) := by
  unfold VE.multiplyAll
  rw [iter_map φ]
  refine ERel.bind (product_map h _ _) ?_
  rintro a _ rfl
  exact ERel.pure rfl

theorem veSolve_map (h : Embeds φ P) (s : Sched β) (st : VE K) (evidence : List Evid) (query : List Var)
    (utility : Bool) (u : Option Var) :
    ERel (fun a b => b = (a.1.mapNum φ, a.2.mapNum φ)) (st.solve (s.cast K) evidence query utility u)
      ((st.mapNum φ).solve s evidence query utility u) := by
  unfold VE.solve
  refine ERel.bind (eliminateEvidence_map h s st evidence) ?_
  rintro a _ rfl
  have tail : ∀ st : VE K, ERel (fun a b => b = (a.1.mapNum φ, a.2.mapNum φ))
      (do let st ← st.eliminateHidden (s.cast K) evidence query false
          st.multiplyAll (s.cast K))
      (do let st ← (st.mapNum φ).eliminateHidden s evidence query false
          st.multiplyAll s) := by
    intro st
    refine ERel.bind (eliminateHidden_map h s st evidence query false) ?_
    rintro a _ rfl
    exact multiplyAll_map h s a
  dsimp only
  cases utility with
  | false =>
    have e := removeUtilities_map φ s a none
    simp only [Bool.false_eq_true, if_false, e]
    exact tail _
  | true =>
    simp only [if_true]
    cases u with
    | none =>
      refine ERel.bind (sumUtilities_map h s a) ?_
      rintro b _ rfl
      exact tail b
    | some u =>
      have e := removeUtilities_map φ s a (some u)
      simp only [e]
      exact tail _

end VE

section Net

variable {φ : K → β} {P : K → Prop}

theorem mapGet_map_snd {κ A B : Type} [DecidableEq κ] (g : A → B) (m : List (κ × A)) (k : κ) :
    mapGet (m.map (fun p => (p.1, g p.2))) k = (mapGet m k).map g := by
  unfold mapGet
  rw [List.find?_map]
  rw [show ((fun e : κ × B => decide (e.1 = k)) ∘ fun p : κ × A => (p.1, g p.2)) =
    (fun e : κ × A => decide (e.1 = k)) from rfl]
  cases m.find? (fun e : κ × A => decide (e.1 = k)) <;> rfl

theorem hasPolicy_mapNum (φ : K → β) (n : Net K) (s : String) : (n.mapNum φ).hasPolicy s = n.hasPolicy s := by
  unfold Net.hasPolicy
  rw [show (n.mapNum φ).policies = n.policies.map (fun p => (p.1, p.2.mapNum φ)) from rfl, mapGet_map_snd,
    Option.isSome_map]

theorem addVariables_mapNum (φ : K → β) (n : Net K) : ∀ (l : List NVar) (i : Nat) (vs : Vs),
    (n.mapNum φ).addVariables i l vs = n.addVariables i l vs := by
  intro l
  induction l with
  | nil => intro i vs; rfl
  | cons v l ih =>
    intro i vs
    have e : (n.mapNum φ).solverType v = n.solverType v := by
      unfold Net.solverType
      rw [hasPolicy_mapNum]
    rw [Net.addVariables, Net.addVariables, e]
    simp only [ih]
    rfl

theorem nameMap_mapNum (φ : K → β) (n : Net K) : ∀ (l : List (NVar × Var)) (i : Nat) (m : List (String × NVar × Var)),
    (n.mapNum φ).nameMap i l m = n.nameMap i l m := by
  intro l
  induction l with
  | nil => intro i m; rfl
  | cons e l ih =>
    intro i m
    rw [Net.nameMap, Net.nameMap]
    simp only [ih]
    rfl

theorem policyVar_mapNum (φ : K → β) (n : Net K) (ids : List (NVar × Var)) :
    (n.mapNum φ).policyVar ids = n.policyVar ids := by
  funext v
  unfold Net.policyVar
  simp only [hasPolicy_mapNum]

theorem weightFor_map (φ : K → β) (t : List K) (parents : List String) (u : String) :
    ERel (fun a b => b = φ a) (weightFor t parents u) (weightFor (t.map φ) parents u) := by
  unfold weightFor
  cases slicesIndex u parents with
  | none => exact ERel.err
  | some i => exact ERel.goGet φ _ _

theorem derefFactor_map (φ : K → β) (fs : List (NFactor K)) (v : NVar) :
    ERel (fun a b => b = a.mapNum φ) (derefFactor fs v) (derefFactor (fs.map (NFactor.mapNum φ)) v) := by
  unfold derefFactor
  cases v.factor with
  | none => exact ERel.err
  | some i => exact ERel.goGet (NFactor.mapNum φ) _ _

theorem NFactor.tab_mapNum (φ : K → β) (f : NFactor K) : (f.mapNum φ).tab = f.tab.map φ := by
  unfold NFactor.tab NFactor.mapNum
  cases f.table <;> rfl

theorem utilityWeights_map (φ : K → β) (n : Net K) :
    ERel (fun a b => b = a.map (List.map φ)) n.utilityWeights (n.mapNum φ).utilityWeights := by
  unfold Net.utilityWeights
  rw [show (n.mapNum φ).totalUtility = n.totalUtility from rfl]
  cases n.totalUtility with
  | none => exact ERel.ok rfl
  | some i =>
    dsimp only
    refine ERel.bind (ERel.refl _) ?_
    rintro _ v rfl
    refine ERel.bind (derefFactor_map φ _ _) ?_
    rintro f _ rfl
    rw [NFactor.tab_mapNum]
    refine ERel.bind (ERel.mapM_same (weightFor_map φ f.tab f.given) _) ?_
    rintro ws _ rfl
    exact ERel.pure rfl

variable [Zero K] [One K] [Add K] [Mul K] [Div K] [Zero β] [One β] [Add β] [Mul β] [Div β]

theorem policyFactors_map (h : Embeds φ P) (n : Net K) (ids : List (NVar × Var)) (evidence : List (String × String)) :
    ∀ (ps : List (String × Factor K)) (vs : Vs),
    ERel (fun a b => b = (a.1.map (Factor.mapNum φ), a.2)) (n.policyFactors ids evidence ps vs)
      ((n.mapNum φ).policyFactors ids evidence (ps.map (fun p => (p.1, p.2.mapNum φ))) vs) := by
  intro ps
  induction ps with
  | nil => intro vs; exact ERel.ok rfl
  | cons p ps ih =>
    intro vs
    rw [List.map_cons, Net.policyFactors, Net.policyFactors, policyVar_mapNum]
    refine ERel.ite Iff.rfl (ih vs) ?_
    refine ERel.bind (ERel.refl _) ?_
    rintro _ vars rfl
    refine ERel.bind (createFactor_some h _ _ _) ?_
    rintro a _ rfl
    refine ERel.bind (ih _) ?_
    rintro b _ rfl
    exact ERel.pure rfl

/-- The state of the table loop, with all numbers mapped. -/
abbrev tabState (φ : K → β) (st : List (Factor K) × List (Var × List Var) × Vs) :
    List (Factor β) × List (Var × List Var) × Vs := (st.1.map (Factor.mapNum φ), st.2)

omit [One K] [Add K] [Mul K] [Div K] in
theorem createFactor_data {s : Vs} {vars : List Var} {t : Option (List K)} {a : Factor K × Vs}
    (h : s.createFactor vars t = .ok a) : ∀ x ∈ a.1.data, x = 0 ∨ x ∈ t.getD [] := by
  unfold Vs.createFactor at h
  cases t with
  | none => cases h; intro x hx; exact .inl (List.eq_of_mem_replicate hx)
  | some d =>
    dsimp only at h
    split_ifs at h
    cases h
    exact fun x hx => .inr hx

variable [DecidableEq K] [DecidableEq β]

theorem addTable_map (h : Embeds φ P) (n : Net K) (names : List (String × NVar × Var))
    (st : List (Factor K) × List (Var × List Var) × Vs) (f : NFactor K)
    (hf : f.forVar ≠ n.totalName → ∀ e, mapGet names f.forVar = some e → e.1.nodeType = .chance → ∀ x ∈ f.tab, P x) :
    ERel (fun a b => b = tabState φ a) (n.addTable names st f)
      ((n.mapNum φ).addTable names (tabState φ st) (f.mapNum φ)) := by
  unfold Net.addTable
  by_cases ht : f.forVar = n.totalName
  · rw [if_pos ht, if_pos (by exact ht)]
    exact ERel.ok rfl
  rw [if_neg ht, if_neg (by exact ht)]
  rw [show (f.mapNum φ).forVar = f.forVar from rfl]
  cases hm : mapGet names f.forVar with
  | none => exact ERel.err
  | some e =>
    dsimp only
    refine ERel.bind (ERel.refl _) ?_
    rintro _ given rfl
    refine ERel.ite Iff.rfl (ERel.pure rfl) (ERel.ite Iff.rfl (ERel.pure rfl) ?_)
    refine ERel.bind_ok (createFactor_map h _ _ f.table) ?_
    rintro a _ ha rfl
    by_cases hc : e.1.nodeType = .chance
    · rw [if_pos hc, if_pos hc]
      refine ERel.bind (normalizeFor_map h _ _ _ ?_) ?_
      · intro x hx
        have hx := createFactor_data ha x hx
        rcases hx with rfl | hx
        · exact h.pzero
        · exact hf ht e hm hc x hx
      · rintro b _ rfl
        exact ERel.pure (by simp [tabState])
    · rw [if_neg hc, if_neg hc]
      exact ERel.pure (by simp [tabState])

/-- The entries of all chance tables have the property `P`. -/
def Net.ChanceEntries (n : Net K) (P : K → Prop) : Prop :=
  ∀ ids vs, n.addVariables 0 n.variables Vs.new = .ok (ids, vs) → ∀ f ∈ n.factors, f.forVar ≠ n.totalName →
    ∀ e, mapGet (n.nameMap 0 ids []) f.forVar = some e → e.1.nodeType = .chance → ∀ x ∈ f.tab, P x

theorem toVE_map (h : Embeds φ P) (s : NSched β) (k : Nat) (n : Net K) (hn : n.ChanceEntries P)
    (evidence : List (String × String)) :
    ERel (fun a b => b = (a.1.mapNum φ, a.2)) (n.toVE (s.cast K) k evidence) ((n.mapNum φ).toVE s k evidence) := by
  unfold Net.toVE
  rw [show (n.mapNum φ).variables = n.variables from rfl, addVariables_mapNum]
  refine ERel.bind_ok (ERel.refl _) ?_
  rintro _ a ha rfl
  dsimp only
  rw [nameMap_mapNum]
  refine ERel.bind (ERel.foldlM_mem (g := NFactor.mapNum φ) (r := tabState φ) n.factors
    (fun st f hf => addTable_map h n _ st f (fun ht e => hn a.1 a.2 ha f hf ht e)) ([], [], a.2)) ?_
  rintro b _ rfl
  rw [show (n.mapNum φ).policies = n.policies.map (fun p => (p.1, p.2.mapNum φ)) from rfl, NSched.cast_pol φ]
  refine ERel.bind (policyFactors_map h n _ _ _ _) ?_
  rintro c _ rfl
  refine ERel.bind (utilityWeights_map φ n) ?_
  rintro w _ rfl
  refine ERel.pure ?_
  dsimp only
  rw [← VE.new_map, List.map_append]

omit [DecidableEq K] [DecidableEq β] in
theorem solveNamed_map (h : Embeds φ P) (s : NSched β) (ve : VE K) (names : List (String × NVar × Var))
    (evidence : List (String × String)) (query : List String) (utility : Bool) (u : String) :
    ERel (fun a b => b = (a.1.mapNum φ, a.2.mapNum φ)) (solveNamed (s.cast K) ve names evidence query utility u)
      (solveNamed s (ve.mapNum φ) names evidence query utility u) := by
  unfold solveNamed
  refine ERel.bind (ERel.refl _) ?_
  rintro _ ev rfl
  refine ERel.bind (ERel.refl _) ?_
  rintro _ q rfl
  refine ERel.ite Iff.rfl ?_ (veSolve_map h _ ve ev q false none)
  refine ERel.bind (ERel.refl _) ?_
  rintro _ u rfl
  exact veSolve_map h _ ve ev q true u

/-- The call and the network afterwards, with all numbers mapped. -/
abbrev callMap {A B : Type} (g : A → B) (φ : K → β) (p : Except Fault A × Net K) : Except Fault B × Net β :=
  (p.1.map g, p.2.mapNum φ)

theorem enter_map (h : Embeds φ P) (s : NSched β) (k : Nat) (n : Net K) (hn : n.ChanceEntries P) (evidence : List (String × String)) :
    (n.mapNum φ).enter s k evidence = callMap (VE.mapNum φ) φ (n.enter (s.cast K) k evidence) := by
  unfold Net.enter
  rw [(toVE_map h s k n hn evidence).eq_map]
  cases n.toVE (s.cast K) k evidence with
  | error e => cases e <;> rfl
  | ok a => rfl

/-- **Transfer.** A query or utility call over `β` is the image of the same call over `K`. -/
theorem solve_map (h : Embeds φ P) (s : NSched β) (n : Net K) (hn : n.ChanceEntries P)
    (evidence : List (String × String)) (query : List String)
    (utility : Bool) (u : String) (ign : Bool) :
    (n.mapNum φ).solve s evidence query utility u ign =
      callMap (Factor.mapNum φ) φ (n.solve (s.cast K) evidence query utility u ign) := by
  unfold Net.solve
  rw [enter_map h _ _ _ hn]
  rcases n.enter (s.cast K) 0 (if ign = true then evidence else []) with ⟨r, n1⟩
  cases r with
  | error e => rfl
  | ok ve =>
    dsimp only [callMap, Except.map]
    rw [show (n1.mapNum φ).names = n1.names from rfl, (solveNamed_map h s ve n1.names evidence query utility u).eq_map]
    cases solveNamed (s.cast K) ve n1.names evidence query utility u with
    | error e => rfl
    | ok a => rfl

omit [DecidableEq K] [DecidableEq β] in
theorem netMarginal_map (h : Embeds φ P) (n : Net K) (f : Factor K) (v : String) :
    (n.mapNum φ).marginal (f.mapNum φ) v = callMap (Factor.mapNum φ) φ (n.marginal f v) := by
  unfold Net.marginal
  rw [show (n.mapNum φ).names = n.names from rfl]
  cases mapGet n.names v with
  | none => rfl
  | some vv =>
    unfold Net.withVs
    rw [show (n.mapNum φ).vs = n.vs from rfl]
    cases n.vs with
    | none => rfl
    | some vs =>
      dsimp only
      rw [(marginal_map h vs f vv.2).eq_map]
      cases vs.marginal f vv.2 with
      | error e => rfl
      | ok a => rfl

end Net

end Bbn
