import Verif.Lemmas.NetTables

/-!
# The solver of a network
-/

set_option autoImplicit false

namespace Bbn

open Finset

variable {α : Type}

theorem varIDs_get (n : Net α) (l : List NVar) : ∀ (i j : Nat), (n.varIDs i l)[j]? =
    (l[j]?).map (fun v => if some (i + j) = n.totalUtility then zeroVariable else (v, n.solverVar (i + j) v)) := by
  induction l with
  | nil => intro i j; simp [Net.varIDs]
  | cons v l ih =>
    intro i j
    unfold Net.varIDs
    cases j with
    | zero => simp
    | succ j =>
      rw [List.getElem?_cons_succ, List.getElem?_cons_succ, ih]
      simp only [show i + 1 + j = i + (j + 1) by omega]

/-- The solver variable at a position. -/
def Net.varAt (n : Net α) (i : Nat) : Var :=
  match n.variables[i]? with
  | some v => n.solverVar i v
  | none => ⟨i, 0, 0, .chance⟩

theorem varAt_id (n : Net α) (i : Nat) : (n.varAt i).id = i := by
  unfold Net.varAt
  split <;> rfl

theorem varAt_eq {n : Net α} {i : Nat} {v : NVar} (h : n.variables[i]? = some v) : n.varAt i = n.solverVar i v := by
  simp [Net.varAt, h]

/-- A solver table belongs to a stored policy. -/
structure PolicyFac (n : Net α) (p : String × Factor α) (fac : Factor α) : Prop where
  vars : fac.vars = p.2.vars.map (fun w => n.varAt w.id)
  data : fac.data = p.2.data
  wf : fac.WF

theorem policyVar_spec {n : Net α} (hn : n.Valid) (hp : n.PoliciesOK) {p : String × Factor α} (hpm : p ∈ n.policies)
    {w : Var} (hw : w ∈ p.2.vars) : n.policyVar (n.varIDs 0 n.variables) w = .ok (n.varAt w.id) := by
  obtain ⟨v, h1, h2, h3, h4, h5⟩ := hp.vars p hpm w hw
  rw [varAt_eq h1]
  have ht : ¬ some w.id = n.totalUtility := by
    intro e
    exact h2 (total_utility hn (List.mem_of_getElem? h1) ((totalName_iff hn h1).2 e.symm))
  have hget : (n.varIDs 0 n.variables)[w.id]? = some (v, n.solverVar w.id v) := by
    rw [varIDs_get, h1]; simp [ht]
  unfold Net.policyVar
  by_cases hd : w.nodeType = .decision
  · rw [if_pos hd, goGet_eq.2 hget, ok_bind]
    dsimp only
    have hv : v.nodeType = .decision := by
      rcases h5 with h5 | h5
      · rw [← h5]; exact hd
      · rw [h5.1] at hd; exact absurd hd (by decide)
    by_cases hs : n.hasPolicy v.name = true
    · rw [if_pos hs]
      congr 1
      simp [Var.withNodeType, Net.solverVar, h3, h4, Net.solverType, hv, hs]
    · rw [if_neg hs]
      congr 1
      cases w
      simp_all [Net.solverVar, Net.solverType]
  · rw [if_neg hd]
    congr 1
    rcases h5 with h5 | h5
    · have hvd : v.nodeType ≠ .decision := by rw [← h5]; exact hd
      cases w
      simp_all [Net.solverVar, Net.solverType]
    · have : n.solverType v = .chance := by
        unfold Net.solverType
        split_ifs with hc
        · rfl
        · cases hvt : v.nodeType
          · rfl
          · exact absurd ⟨hvt, h5.2⟩ hc
          · exact absurd hvt h2
      cases w
      simp_all [Net.solverVar]

theorem size_varAt {n : Net α} (hp : n.PoliciesOK) {p : String × Factor α} (hpm : p ∈ n.policies) :
    ∀ l : List Var, (∀ w ∈ l, w ∈ p.2.vars) →
      (l.map (fun w => n.varAt w.id)).map Var.outcomes = l.map Var.outcomes := by
  intro l hl
  rw [List.map_map]
  apply List.map_congr_left
  intro w hw
  obtain ⟨v, h1, _, _, h4, _⟩ := hp.vars p hpm w (hl w hw)
  simp only [Function.comp, varAt_eq h1, h4, Net.solverVar]

theorem size_of_outcomes : ∀ {l l' : List Var}, l.map Var.outcomes = l'.map Var.outcomes → size l = size l' := by
  intro l
  induction l with
  | nil => intro l' h; cases l' with | nil => rfl | cons => simp at h
  | cons v l ih =>
    intro l' h
    cases l' with
    | nil => simp at h
    | cons v' l' =>
      simp only [List.map_cons, List.cons.injEq] at h
      simp only [size, h.1, ih h.2]

theorem flatIndex_of_outcomes : ∀ {l l' : List Var} {t : List Nat}, l.map Var.outcomes = l'.map Var.outcomes →
    t.length = l.length → flatIndex l t = flatIndex l' t := by
  intro l
  induction l with
  | nil => intro l' t h _; cases l' with | nil => rfl | cons => simp at h
  | cons v l ih =>
    intro l' t h ht
    cases l' with
    | nil => simp at h
    | cons v' l' =>
      simp only [List.map_cons, List.cons.injEq] at h
      cases t with
      | nil => simp at ht
      | cons i t =>
        simp only [List.length_cons, Nat.add_right_cancel_iff] at ht
        have hl : l.length = l'.length := by simpa using congrArg List.length h.2
        rw [flatIndex_cons _ _ _ _ ht, flatIndex_cons _ _ _ _ (ht.trans hl), ih h.2 ht, size_of_outcomes h.2]

theorem PolicyFac.val [Zero α] {n : Net α} (hp : n.PoliciesOK) {p : String × Factor α} (hpm : p ∈ n.policies)
    {fac : Factor α} (h : PolicyFac n p fac) (σ : Assignment) : fac.val σ = p.2.val σ := by
  unfold Factor.val
  rw [h.data, h.vars, flatIndex_of_outcomes (size_varAt hp hpm _ (fun _ h => h)) (by simp [tupleOf])]
  congr 2
  unfold tupleOf
  rw [List.map_map]
  apply List.map_congr_left
  intro w _
  simp only [Function.comp, varAt_id]

theorem policyFactors_spec [Zero α] {n : Net α} (hn : n.Valid) (hp : n.PoliciesOK) (evidence : List (String × String)) :
    ∀ (l : List (String × Factor α)) (vs : Vs), (∀ p ∈ l, p ∈ n.policies) →
    ∃ ps c, n.policyFactors (n.varIDs 0 n.variables) evidence l vs = .ok (ps, { vs with factorCounter := c }) ∧
      vs.factorCounter ≤ c ∧ (∀ f ∈ ps, vs.factorCounter ≤ f.id ∧ f.id < c) ∧ (ps.map Factor.id).Nodup ∧
      List.Forall₂ (PolicyFac n) (l.filter (fun p => ∀ e ∈ evidence, e.1 ≠ p.1)) ps := by
  intro l
  induction l with
  | nil => intro vs _; exact ⟨[], vs.factorCounter, rfl, le_rfl, by simp, by simp, by simp⟩
  | cons p l ih =>
    intro vs hl
    have hpm := hl p List.mem_cons_self
    have hl' : ∀ q ∈ l, q ∈ n.policies := fun q hq => hl q (List.mem_cons_of_mem _ hq)
    unfold Net.policyFactors
    by_cases hev : (mapGet evidence p.1).isSome = true
    · rw [if_pos hev, List.filter_cons_of_neg]
      · exact ih vs hl'
      · simp only [ne_eq, decide_eq_true_eq, not_forall, not_not]
        rw [mapGet_isSome] at hev
        obtain ⟨e, he, h⟩ := List.mem_map.1 hev
        exact ⟨e, he, h⟩
    · rw [if_neg hev]
      have hmap : p.2.vars.mapM (n.policyVar (n.varIDs 0 n.variables)) = .ok (p.2.vars.map (fun w => n.varAt w.id)) := by
        have : ∀ l : List Var, (∀ w ∈ l, w ∈ p.2.vars) →
            l.mapM (n.policyVar (n.varIDs 0 n.variables)) = .ok (l.map (fun w => n.varAt w.id)) := by
          intro l
          induction l with
          | nil => intro _; rfl
          | cons w l ih =>
            intro h
            rw [List.mapM_cons, policyVar_spec hn hp hpm (h w List.mem_cons_self),
              ih (fun u hu => h u (List.mem_cons_of_mem _ hu))]
            rfl
        exact this _ (fun _ h => h)
      have hsz := size_of_outcomes (size_varAt hp hpm p.2.vars (fun _ h => h))
      have hcreate : vs.createFactor (p.2.vars.map (fun w => n.varAt w.id)) (some p.2.data) =
          .ok (⟨vs.factorCounter, p.2.data, p.2.vars.map (fun w => n.varAt w.id)⟩,
            { vs with factorCounter := vs.factorCounter + 1 }) := by
        unfold Vs.createFactor
        dsimp only
        rw [if_neg (by rw [(hp.wf p hpm).len, hsz]; simp)]
      rw [hmap, ok_bind, hcreate, ok_bind]
      dsimp only
      obtain ⟨ps, c, h1, h2, h3, h4, h5⟩ := ih { vs with factorCounter := vs.factorCounter + 1 } hl'
      rw [h1, ok_bind]
      dsimp only at h2 h3 ⊢
      refine ⟨_, c, rfl, by omega, ?_, ?_, ?_⟩
      · intro g hg
        rcases List.mem_cons.1 hg with rfl | hg
        · dsimp only; omega
        · have := h3 g hg; omega
      · rw [List.map_cons, List.nodup_cons]
        refine ⟨?_, h4⟩
        intro h
        obtain ⟨g, hg, e⟩ := List.mem_map.1 h
        have := h3 g hg
        dsimp only at e; omega
      · rw [List.filter_cons_of_pos]
        · refine .cons ⟨rfl, rfl, ?_, ?_⟩ h5
          · rw [(hp.wf p hpm).len, hsz]
          · have := (hp.wf p hpm).nodup
            have e : (p.2.vars.map (fun w => n.varAt w.id)).map Var.id = p.2.vars.map Var.id := by
              rw [List.map_map]
              apply List.map_congr_left
              intro w _
              simp only [Function.comp, varAt_id]
            dsimp only
            rw [e]; exact this
        · rw [mapGet_isSome] at hev
          simp only [ne_eq, decide_eq_true_eq]
          intro e he h
          exact hev (h ▸ List.mem_map_of_mem he)

theorem utilityNames_eq (n : Net α) : n.utilityNames =
    ((n.solverVars 0 n.variables).filter (fun e => e.1.nodeType = .utility)).map (fun e => e.1.name) := by
  have : ∀ (l : List NVar) (i : Nat),
      ((l.zipIdx i).filter (fun p => some p.2 ≠ n.totalUtility ∧ p.1.nodeType = .utility)).map (fun p => p.1.name) =
      ((n.solverVars i l).filter (fun e => e.1.nodeType = .utility)).map (fun e => e.1.name) := by
    intro l
    induction l with
    | nil => intro i; rfl
    | cons v l ih =>
      intro i
      rw [List.zipIdx_cons]
      unfold Net.solverVars
      by_cases ht : some i = n.totalUtility
      · rw [if_pos ht, List.filter_cons_of_neg (by simp [ht]), ih]
      · rw [if_neg ht]
        by_cases hu : v.nodeType = .utility
        · rw [List.filter_cons_of_pos (by simp [ht, hu]), List.filter_cons_of_pos (by simp [hu]), List.map_cons,
            List.map_cons, ih]
        · rw [List.filter_cons_of_neg (by simp [hu]), List.filter_cons_of_neg (by simp [hu]), ih]
  exact this n.variables 0

theorem slicesIndex_idxOf {β : Type} [DecidableEq β] {x : β} {l : List β} (h : x ∈ l) :
    slicesIndex x l = some (l.idxOf x) := by
  induction l with
  | nil => simp at h
  | cons y l ih =>
    unfold slicesIndex
    by_cases hy : y = x
    · simp [hy]
    · rw [if_neg hy, ih (by simpa [Ne.symm hy] using h), List.idxOf_cons_ne _ hy]; rfl

theorem mem_utilityNames {n : Net α} (hn : n.Valid) {s : String} :
    s ∈ n.utilityNames ↔ ∃ v ∈ n.variables, v.name = s ∧ v.nodeType = .utility ∧ s ≠ n.totalName := by
  rw [utilityNames_eq, List.mem_map]
  constructor
  · rintro ⟨e, he, rfl⟩
    obtain ⟨h1, h2⟩ := List.mem_filter.1 he
    obtain ⟨j, h3, h4, _⟩ := (mem_solverVars n).1 h1
    refine ⟨e.1, List.mem_of_getElem? h3, rfl, by simpa using h2, ?_⟩
    rw [Nat.zero_add] at h4
    exact fun h => h4 ((totalName_iff hn h3).1 h).symm
  · rintro ⟨v, hv, rfl, h2, h3⟩
    obtain ⟨i, hi⟩ := List.getElem?_of_mem hv
    refine ⟨(v, n.solverVar i v), List.mem_filter.2 ⟨(mem_solverVars n).2 ⟨i, hi, ?_, by simp⟩, by simp [h2]⟩, rfl⟩
    rw [Nat.zero_add]
    exact fun e => h3 ((totalName_iff hn hi).2 e.symm)

/-- The weights handed to the solver. -/
def Net.solverWeights [Zero α] [One α] (n : Net α) : Option (List α) :=
  match n.totalUtility with
  | none => none
  | some _ => some (n.utilityNames.map n.weight)

theorem utilityWeights_spec [Zero α] [One α] {n : Net α} (hn : n.Valid) : n.utilityWeights = .ok n.solverWeights := by
  unfold Net.utilityWeights Net.solverWeights
  cases ht : n.totalUtility with
  | none => rfl
  | some i =>
    obtain ⟨v, j, f, h1, h2, h3, h4, h5, h6, h7⟩ := hn.weights i ht
    dsimp only
    rw [goGet_eq.2 h1, ok_bind]
    unfold derefFactor
    rw [h3]
    dsimp only
    rw [goGet_eq.2 h4, ok_bind]
    have hname := Net.totalName_eq ht h1
    have hfind : n.factors.find? (fun g => g.forVar = n.totalName) = some f := by
      cases hf : n.factors.find? (fun g => g.forVar = n.totalName) with
      | none =>
        rw [List.find?_eq_none] at hf
        have := hf f (List.mem_of_getElem? h4)
        simp [h5, hname] at this
      | some g =>
        have e : g.forVar = n.totalName := by simpa using List.find?_some hf
        rw [List.inj_on_of_nodup_map hn.tables (List.mem_of_find?_eq_some hf) (List.mem_of_getElem? h4)
          (by rw [e, h5, hname])]
    have hw : ∀ s, n.weight s = f.tab.getD (f.given.idxOf s) 0 := by
      intro s
      unfold Net.weight
      rw [ht, hfind]; rfl
    have key : ∀ l : List String, (∀ s ∈ l, s ∈ n.utilityNames) →
        l.mapM (weightFor f.tab f.given) = .ok (l.map n.weight) := by
      intro l
      induction l with
      | nil => intro _; rfl
      | cons s l ih =>
        intro h
        rw [List.mapM_cons, ih (fun t ht => h t (List.mem_cons_of_mem _ ht))]
        obtain ⟨u, hu, rfl, hu2, hu3⟩ := (mem_utilityNames hn).1 (h s List.mem_cons_self)
        have hmem := h7 u hu hu2 (by rw [← hname]; exact hu3)
        have : weightFor f.tab f.given u.name = .ok (n.weight u.name) := by
          unfold weightFor
          rw [slicesIndex_idxOf hmem]
          dsimp only
          rw [goGet_eq, hw, List.getD_eq_getElem?_getD]
          have hlt : f.given.idxOf u.name < f.tab.length := (List.idxOf_lt_length_of_mem hmem).trans_le h6
          rw [List.getElem?_eq_getElem hlt]; rfl
        rw [this]; rfl
    rw [key _ (fun _ h => h)]; rfl

/-- What `toVE` yields. -/
structure Solver [Field α] [DecidableEq α] (n : Net α) (pols : List (String × Factor α)) (vs : Vs)
    (fs ps : List (Factor α)) (deps : List (Var × List Var)) : Prop where
  vars : SolverVars n n.nameTable vs.variables
  problem : Problem vs (fs ++ ps) deps
  tables : List.Forall₂ (TableFac n) (n.factors.filter n.isTable) fs
  policies : List.Forall₂ (PolicyFac n) pols ps
  deps_eq : deps = (n.factors.filter n.isOpen).map n.depEntry

theorem decision_isVar {n : Net α} (hn : n.Valid) {s : String} (h : n.isKind .decision s = true) : n.IsVar s := by
  obtain ⟨v, hv, h1, h2⟩ := isKind_mem.1 h
  rw [← h1]; exact isVar_state hn hv (by rw [h2]; decide)

theorem isOpen_dims {n : Net α} (hn : n.Valid) {f : NFactor α} (hf : f ∈ n.factors) (h : n.isOpen f = true) :
    ∀ s ∈ f.dims, n.IsVar s := by
  simp only [Net.isOpen, decide_eq_true_eq] at h
  apply dims_isVar hn hf
  intro e
  obtain ⟨v, hv, h1, h2⟩ := isKind_mem.1 h.1
  have := total_utility hn hv (h1.trans e)
  rw [h2] at this; exact absurd this (by decide)

theorem policy_vars_mem {n : Net α} (hn : n.Valid) (hp : n.PoliciesOK) {R : List Var}
    {names : List (String × NVar × Var)} (hs : SolverVars n names R) {p : String × Factor α} (hpm : p ∈ n.policies)
    {w : Var} (hw : w ∈ p.2.vars) : n.varAt w.id ∈ R := by
  obtain ⟨v, h1, h2, _⟩ := hp.vars p hpm w hw
  rw [varAt_eq h1]
  exact hs.mem_of h1 (fun e => h2 (total_utility hn (List.mem_of_getElem? h1) ((totalName_iff hn h1).2 e)))

theorem toVE_spec [Field α] [DecidableEq α] (sch : NSched α) (k : Nat) {n : Net α} (hn : n.Valid) (hp : n.PoliciesOK)
    (evidence : List (String × String)) :
    ∃ vs fs ps deps, n.toVE sch k evidence = .ok (VE.new vs (fs ++ ps) deps n.solverWeights, n.nameTable) ∧
      Solver n ((sch.pol k n.policies).filter (fun p => ∀ e ∈ evidence, e.1 ≠ p.1)) vs fs ps deps := by
  obtain ⟨R, h1, h2⟩ := start_vars n hn
  have hnames := h2.names_eq
  rw [hnames] at h2
  obtain ⟨fs, c, a1, a2, a3, a4, a5⟩ := addTables_spec hn h2 n.factors [] [] { Vs.new with «variables» := R }
    (fun _ h => h) hn.tables (by simp)
  have hsub : ∀ p ∈ sch.pol k n.policies, p ∈ n.policies := fun p h => (sch.pol_perm k n.policies).subset h
  obtain ⟨ps, c', b1, b2, b3, b4, b5⟩ := policyFactors_spec hn hp evidence (sch.pol k n.policies)
    { Vs.new with «variables» := R, factorCounter := c } hsub
  simp only [List.nil_append] at a1
  dsimp only at b2 b3
  refine ⟨{ Vs.new with «variables» := R, factorCounter := c' }, fs, ps, (n.factors.filter n.isOpen).map n.depEntry,
    ?_, h2, ?_, a5, b5, rfl⟩
  · unfold Net.toVE
    rw [h1, ok_bind]
    dsimp only
    rw [hnames, a1, ok_bind]
    dsimp only
    rw [b1, ok_bind]
    dsimp only
    rw [utilityWeights_spec hn, ok_bind]
    rfl
  · have hfs : ∀ f ∈ fs, ∃ g ∈ n.factors.filter n.isTable, TableFac n g f := fun f hf => forall₂_mem_right a5 hf
    have hps : ∀ f ∈ ps, ∃ p ∈ n.policies, PolicyFac n p f := by
      intro f hf
      obtain ⟨p, hp1, hp2⟩ := forall₂_mem_right b5 hf
      exact ⟨p, hsub p (List.mem_filter.1 hp1).1, hp2⟩
    constructor
    · exact h2.ids
    · exact h2.index
    · rw [List.map_append, List.nodup_append]
      refine ⟨a4, b4, ?_⟩
      rintro x hx y hy rfl
      obtain ⟨f, hf, e1⟩ := List.mem_map.1 hx
      obtain ⟨g, hg, e2⟩ := List.mem_map.1 hy
      have := a3 f hf; have := b3 g hg
      omega
    · intro f hf
      rcases List.mem_append.1 hf with hf | hf
      · have := a3 f hf; dsimp only; omega
      · have := b3 f hf; dsimp only; omega
    · intro f hf
      rcases List.mem_append.1 hf with hf | hf
      · obtain ⟨_, _, h⟩ := hfs f hf; exact h.wf
      · obtain ⟨_, _, h⟩ := hps f hf; exact h.wf
    · intro f hf w hw
      rcases List.mem_append.1 hf with hf | hf
      · obtain ⟨g, hg, h⟩ := hfs f hf
        rw [h.vars] at hw
        obtain ⟨s, hs, rfl⟩ := List.mem_map.1 hw
        obtain ⟨hg1, hg2⟩ := List.mem_filter.1 hg
        simp only [Net.isTable, decide_eq_true_eq] at hg2
        exact (dims_isVar hn hg1 hg2.1 s hs).varOf_mem h2 hn
      · obtain ⟨p, hpm, h⟩ := hps f hf
        rw [h.vars] at hw
        obtain ⟨u, hu, rfl⟩ := List.mem_map.1 hw
        exact policy_vars_mem hn hp h2 hpm hu
    · rw [List.map_map]
      have : ((n.factors.filter n.isOpen).map (Prod.fst ∘ n.depEntry)) =
          ((n.factors.filter n.isOpen).map NFactor.forVar).map n.varOf := by
        rw [List.map_map]; rfl
      rw [this]
      refine List.Nodup.of_map Var.id ?_
      apply nodup_varOf hn
      · intro s hs
        obtain ⟨f, hf, rfl⟩ := List.mem_map.1 hs
        obtain ⟨hf1, hf2⟩ := List.mem_filter.1 hf
        exact isOpen_dims hn hf1 hf2 _ (by simp [NFactor.dims])
      · exact hn.tables.sublist (List.filter_sublist.map _)
    · intro e he
      obtain ⟨f, hf, rfl⟩ := List.mem_map.1 he
      obtain ⟨hf1, hf2⟩ := List.mem_filter.1 hf
      have hd := isOpen_dims hn hf1 hf2
      refine ⟨(hd f.forVar (by simp [NFactor.dims])).varOf_mem h2 hn, ?_⟩
      intro p hp
      obtain ⟨s, hs, rfl⟩ := List.mem_map.1 hp
      exact (hd s (by simp [NFactor.dims, hs])).varOf_mem h2 hn

end Bbn
