import Verif.Lemmas.NetSolver

/-!
# Tables with the same row-normalised entries make the same solver
-/

set_option autoImplicit false

namespace Bbn

variable {α : Type}

/-- The network with each table replaced. -/
def Net.retab (n : Net α) (g : NFactor α → NFactor α) : Net α := { n with factors := n.factors.map g }

/-- `g` changes only entries of chance tables, and no row-normalised entry. -/
structure Net.SameProbs [Field α] [DecidableEq α] (n : Net α) (g : NFactor α → NFactor α) : Prop where
  forVar : ∀ f, (g f).forVar = f.forVar
  given : ∀ f, (g f).given = f.given
  other : ∀ f ∈ n.factors, n.isKind .chance f.forVar = false → g f = f
  len : ∀ f ∈ n.factors, ∀ t, f.table = some t → ∃ t', (g f).table = some t' ∧ t'.length = t.length
  prob : ∀ f ∈ n.factors, ∀ w : World, (∀ s ∈ f.dims, w s < n.count s) → n.prob (g f) w = n.prob f w

section

variable [Field α] [DecidableEq α] {n : Net α} {g : NFactor α → NFactor α}

omit [Field α] [DecidableEq α] in
theorem retab_solverVars (n : Net α) (g : NFactor α → NFactor α) : ∀ (l : List NVar) (i : Nat),
    (n.retab g).solverVars i l = n.solverVars i l := by
  intro l
  induction l with
  | nil => intro i; rfl
  | cons v l ih =>
    intro i
    unfold Net.solverVars
    rw [ih]
    rfl

omit [Field α] [DecidableEq α] in
theorem retab_varOf (n : Net α) (g : NFactor α → NFactor α) : (n.retab g).varOf = n.varOf := by
  funext s
  unfold Net.varOf Net.nameTable
  rw [retab_solverVars]
  rfl

theorem Net.SameProbs.dims (h : n.SameProbs g) (f : NFactor α) : (g f).dims = f.dims := by
  unfold NFactor.dims; rw [h.forVar, h.given]

theorem Net.SameProbs.total (hn : n.Valid) (h : n.SameProbs g) {f : NFactor α} (hf : f ∈ n.factors)
    (ht : f.forVar = n.totalName) : g f = f := by
  apply h.other f hf
  rw [Bool.eq_false_iff]
  intro hk
  obtain ⟨v, hv, h1, h2⟩ := isKind_mem.1 hk
  have := total_utility hn hv (h1.trans ht)
  rw [h2] at this
  exact absurd this (by decide)

theorem retab_valid (hn : n.Valid) (h : n.SameProbs g) : (n.retab g).Valid where
  names := hn.names
  named := hn.named
  few := hn.few
  outcomes := hn.outcomes
  tables := by
    have : (n.retab g).factors.map NFactor.forVar = n.factors.map NFactor.forVar := by
      simp only [Net.retab, List.map_map]
      exact List.map_congr_left (fun f _ => h.forVar f)
    rw [this]; exact hn.tables
  hasTable := by
    intro v hv ht
    obtain ⟨f, hf, e⟩ := hn.hasTable v hv ht
    exact ⟨g f, List.mem_map_of_mem hf, by rw [h.forVar, e]⟩
  known := by
    intro f' hf'
    obtain ⟨f, hf, rfl⟩ := List.mem_map.1 hf'
    rw [h.forVar]; exact hn.known f hf
  dims := by
    intro f' hf'
    obtain ⟨f, hf, rfl⟩ := List.mem_map.1 hf'
    rw [h.dims]; exact hn.dims f hf
  parents := by
    intro f' hf'
    obtain ⟨f, hf, rfl⟩ := List.mem_map.1 hf'
    rw [h.forVar, h.given]; exact hn.parents f hf
  size := by
    intro f' hf'
    obtain ⟨f, hf, rfl⟩ := List.mem_map.1 hf'
    rw [h.forVar, h.dims]
    intro h1 h2
    obtain ⟨t, h3, h4⟩ := hn.size f hf h1 h2
    obtain ⟨t', h5, h6⟩ := h.len f hf t h3
    exact ⟨t', h5, h6.trans h4⟩
  single := hn.single
  weights := by
    intro i hi
    replace hi : n.totalUtility = some i := hi
    obtain ⟨v, j, f, h1, h2, h3, h4, h5, h6, h7⟩ := hn.weights i hi
    refine ⟨v, j, f, h1, h2, h3, ?_, h5, h6, h7⟩
    simp only [Net.retab, List.getElem?_map, h4, Option.map_some]
    rw [h.total hn (List.mem_of_getElem? h4) (by rw [h5, Net.totalName_eq hi h1])]

theorem retab_addTable (hn : n.Valid) (h : n.SameProbs g) {names : List (String × NVar × Var)} {R : List Var}
    (hs : SolverVars n names R) (st : List (Factor α) × List (Var × List Var) × Vs) {f : NFactor α}
    (hf : f ∈ n.factors) : (n.retab g).addTable names st (g f) = n.addTable names st f := by
  by_cases hk : n.isKind .chance f.forVar = true
  · have hti : n.isTable f = true := by
      simp only [Net.isTable, decide_eq_true_eq]
      refine ⟨?_, ?_⟩
      · intro e
        obtain ⟨v, hv, h1, h2⟩ := isKind_mem.1 hk
        have := total_utility hn hv (h1.trans e)
        rw [h2] at this; exact absurd this (by decide)
      · rw [Bool.eq_false_iff]
        intro hd
        obtain ⟨v, hv, h1, h2⟩ := isKind_mem.1 hk
        rw [← h1, isKind_iff hn hv, h2] at hd
        exact absurd hd (by decide)
    have hn' := retab_valid hn h
    have hs' : SolverVars (n.retab g) names R := by
      constructor
      · rw [retab_solverVars]; exact hs.names_eq
      · rw [retab_solverVars]; exact hs.vars_eq
    have hti' : (n.retab g).isTable (g f) = true := by
      unfold Net.isTable at hti ⊢
      rw [h.forVar]; exact hti
    obtain ⟨fac, c, a1, a2, a3, a4⟩ := addTable_table hn hs st hf hti
    obtain ⟨fac', c', b1, b2, b3, b4⟩ := addTable_table hn' hs' st (f := g f) (List.mem_map_of_mem hf) hti'
    have hid : fac'.id = fac.id := by rw [← a1, ← b1, h.forVar]; rfl
    have hvars : fac'.vars = fac.vars := by rw [a3.vars, b3.vars, h.dims, retab_varOf]
    simp only [Net.isTable, decide_eq_true_eq] at hti
    have hd := dims_isVar hn hf hti.1
    have hdata : fac'.data = fac.data := by
      apply data_ext b3.wf a3.wf.len hvars
      intro σ hσ
      -- the world that gives each variable the outcome σ gives it
      set w : World := fun s => σ (n.varOf s).id with hw
      have hag : ∀ s ∈ f.dims, σ (n.varOf s).id = n.ids w (n.varOf s).id := by
        intro s hs
        rw [(hd s hs).ids hn]
      have htup : tupleOf fac.vars σ = tupleOf fac.vars (n.ids w) := by
        rw [a3.vars]
        unfold tupleOf
        rw [List.map_map, List.map_map]
        exact List.map_congr_left hag
      have hfit : ∀ s ∈ f.dims, w s < n.count s := by
        intro s hs
        have := hσ (n.varOf s) (by rw [hvars, a3.vars]; exact List.mem_map_of_mem hs)
        rwa [(hd s hs).outcomes hn] at this
      have e1 : fac.val σ = fac.val (n.ids w) := by unfold Factor.val; rw [htup]
      have e2 : fac'.val σ = fac'.val (n.ids w) := by unfold Factor.val; rw [hvars, htup]
      rw [e1, e2, a3.val w hfit, if_pos hk]
      have := b3.val w (by rw [h.dims]; exact hfit)
      rw [if_pos (by rw [h.forVar]; exact hk)] at this
      exact this.trans (h.prob f hf w hfit)
    have heq : fac' = fac := by
      cases fac; cases fac'
      simp_all
    rw [a4, b4, heq, ← a2, ← b2, hid]
  · rw [h.other f hf (by simpa using hk)]
    rfl

theorem retab_addTables (hn : n.Valid) (h : n.SameProbs g) {names : List (String × NVar × Var)} {R : List Var}
    (hs : SolverVars n names R) : ∀ (l : List (NFactor α)) (st : List (Factor α) × List (Var × List Var) × Vs),
    (∀ f ∈ l, f ∈ n.factors) →
    (l.map g).foldlM ((n.retab g).addTable names) st = l.foldlM (n.addTable names) st := by
  intro l
  induction l with
  | nil => intro st _; rfl
  | cons f l ih =>
    intro st hl
    rw [List.map_cons, List.foldlM_cons, List.foldlM_cons, retab_addTable hn h hs st (hl f List.mem_cons_self)]
    congr 1
    funext st'
    exact ih st' (fun f hf => hl f (List.mem_cons_of_mem _ hf))

omit [Field α] [DecidableEq α] in
theorem retab_addVariables (n : Net α) (g : NFactor α → NFactor α) : ∀ (l : List NVar) (i : Nat) (vs : Vs),
    (n.retab g).addVariables i l vs = n.addVariables i l vs := by
  intro l
  induction l with
  | nil => intro i vs; rfl
  | cons v l ih =>
    intro i vs
    unfold Net.addVariables
    simp only [ih]
    rfl

omit [Field α] [DecidableEq α] in
theorem retab_nameMap (n : Net α) (g : NFactor α → NFactor α) : ∀ (l : List (NVar × Var)) (i : Nat)
    (m : List (String × NVar × Var)), (n.retab g).nameMap i l m = n.nameMap i l m := by
  intro l
  induction l with
  | nil => intro i m; rfl
  | cons v l ih =>
    intro i m
    unfold Net.nameMap
    simp only [ih]
    rfl

omit [DecidableEq α] in
theorem retab_policyFactors (n : Net α) (g : NFactor α → NFactor α) (varIDs : List (NVar × Var))
    (evidence : List (String × String)) : ∀ (l : List (String × Factor α)) (vs : Vs),
    (n.retab g).policyFactors varIDs evidence l vs = n.policyFactors varIDs evidence l vs := by
  intro l
  induction l with
  | nil => intro vs; rfl
  | cons v l ih =>
    intro vs
    unfold Net.policyFactors
    simp only [ih]
    rfl

theorem retab_utilityWeights (hn : n.Valid) (h : n.SameProbs g) : (n.retab g).utilityWeights = n.utilityWeights := by
  unfold Net.utilityWeights
  have ht : (n.retab g).totalUtility = n.totalUtility := rfl
  rw [ht]
  cases hi : n.totalUtility with
  | none => rfl
  | some i =>
    dsimp only
    obtain ⟨v, j, f, h1, h2, h3, h4, h5, h6, h7⟩ := hn.weights i hi
    have hv : goGet n.variables i = .ok v := by rw [goGet_eq, h1]
    have hd : derefFactor n.factors v = .ok f := by unfold derefFactor; rw [h3]; dsimp only; rw [goGet_eq, h4]
    have hd' : derefFactor (n.retab g).factors v = .ok f := by
      unfold derefFactor; rw [h3]; dsimp only
      rw [goGet_eq]
      simp only [Net.retab, List.getElem?_map, h4, Option.map_some]
      rw [h.total hn (List.mem_of_getElem? h4) (by rw [h5, Net.totalName_eq hi h1])]
    have hv' : goGet (n.retab g).variables i = .ok v := hv
    rw [hv, hv', ok_bind, ok_bind, hd, hd']
    rfl

/-- The solver is the very same. -/
theorem retab_toVE (hn : n.Valid) (h : n.SameProbs g) (sch : NSched α) (k : Nat) (evidence : List (String × String)) :
    (n.retab g).toVE sch k evidence = n.toVE sch k evidence := by
  obtain ⟨R, h1, h2⟩ := start_vars n hn
  unfold Net.toVE
  rw [retab_addVariables]
  have hvars : (n.retab g).variables = n.variables := rfl
  rw [hvars, h1, ok_bind, ok_bind]
  dsimp only
  rw [retab_nameMap, retab_utilityWeights hn h]
  have hfs : (n.retab g).factors = n.factors.map g := rfl
  rw [hfs, retab_addTables hn h h2 _ _ (fun _ h => h)]
  simp only [retab_policyFactors]
  rfl

end

end Bbn
