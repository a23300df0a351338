import Verif.Spec.Forgotten
import Verif.Lemmas.NetSolve
import Mathlib.Algebra.BigOperators.Ring.List

/-!
# The solver of a network where tables are missing
-/

set_option autoImplicit false

namespace Bbn

open Finset

variable {α : Type}

section
variable [Field α] [DecidableEq α] {n : Net α} (hn : n.evened.Valid) (hp : n.evened.PoliciesOK)

omit [DecidableEq α] in
theorem even_kind {v : NVar} (hv : v ∈ n.tableless) : v ∈ n.variables ∧ v.nodeType = .chance ∧ ∀ f ∈ n.factors, f.forVar ≠ v.name := by
  simpa [Net.tableless, List.mem_filter] using hv

omit [DecidableEq α] in
include hn in
theorem even_weights : n.utilityWeights = .ok n.evened.solverWeights := by
  rw [← utilityWeights_spec hn]
  unfold Net.utilityWeights
  have : n.evened.totalUtility = n.totalUtility := rfl
  rw [this]
  cases ht : n.totalUtility with
  | none => rfl
  | some i =>
    obtain ⟨v, j, f, h1, h2, h3, h4, h5, h6, h7⟩ := hn.weights i ht
    dsimp only
    have h1' : n.variables[i]? = some v := h1
    rw [goGet_eq.2 h1', goGet_eq.2 h1, ok_bind, ok_bind]
    have hj : n.factors[j]? = some f := by
      have h4' : (n.factors ++ n.tableless.map evenTable)[j]? = some f := h4
      rw [List.getElem?_append] at h4'
      split_ifs at h4' with hlt
      · exact h4'
      · exfalso
        obtain ⟨x, hx, rfl⟩ := List.mem_map.1 (List.mem_of_getElem? h4')
        obtain ⟨a1, a2, _⟩ := even_kind hx
        have := name_unique hn (u := x) (v := v) a1 (List.mem_of_getElem? h1) h5
        rw [← this, a2] at h2
        cases h2
    unfold derefFactor
    rw [h3]
    dsimp only
    rw [goGet_eq.2 hj, goGet_eq.2 h4]
    rfl

/-- Some of the tables of a well-formed network make a problem. -/
theorem problem_some {m : Net α} (hm : m.Valid) (hp : m.PoliciesOK) {R : List Var} (h2 : SolverVars m m.nameTable R)
    {l : List (NFactor α)} (hl : l.Sublist m.factors) {fs ps : List (Factor α)} {c c' : Nat}
    (a3 : ∀ f ∈ fs, f.id < c) (a4 : (fs.map Factor.id).Nodup)
    (a5 : List.Forall₂ (TableFac m) (l.filter m.isTable) fs) (b2 : c ≤ c') (b3 : ∀ f ∈ ps, c ≤ f.id ∧ f.id < c')
    (b4 : (ps.map Factor.id).Nodup) {pols : List (String × Factor α)} (hsub : ∀ p ∈ pols, p ∈ m.policies)
    (b5 : List.Forall₂ (PolicyFac m) pols ps) :
    Problem { Vs.new with «variables» := R, factorCounter := c' } (fs ++ ps) ((l.filter m.isOpen).map m.depEntry) := by
  have hfs : ∀ f ∈ fs, ∃ g ∈ l.filter m.isTable, TableFac m g f := fun f hf => forall₂_mem_right a5 hf
  have hps : ∀ f ∈ ps, ∃ p ∈ m.policies, PolicyFac m p f := by
    intro f hf
    obtain ⟨p, hp1, hp2⟩ := forall₂_mem_right b5 hf
    exact ⟨p, hsub p hp1, hp2⟩
  constructor
  · exact h2.ids
  · exact h2.index
  · rw [List.map_append, List.nodup_append]
    refine ⟨a4, b4, ?_⟩
    rintro x hx y hy rfl
    obtain ⟨f, hf, e1⟩ := List.mem_map.1 hx
    obtain ⟨g, hg, e2⟩ := List.mem_map.1 hy
    have := a3 f hf; have := b3 g hg
    omega
  · intro f hf
    rcases List.mem_append.1 hf with hf | hf
    · have := a3 f hf; dsimp only; omega
    · have := b3 f hf; dsimp only; omega
  · intro f hf
    rcases List.mem_append.1 hf with hf | hf
    · obtain ⟨_, _, h⟩ := hfs f hf; exact h.wf
    · obtain ⟨_, _, h⟩ := hps f hf; exact h.wf
  · intro f hf w hw
    rcases List.mem_append.1 hf with hf | hf
    · obtain ⟨g, hg, h⟩ := hfs f hf
      rw [h.vars] at hw
      obtain ⟨s, hs, rfl⟩ := List.mem_map.1 hw
      obtain ⟨hg1, hg2⟩ := List.mem_filter.1 hg
      simp only [Net.isTable, decide_eq_true_eq] at hg2
      exact (dims_isVar hm (hl.subset hg1) hg2.1 s hs).varOf_mem h2 hm
    · obtain ⟨p, hpm, h⟩ := hps f hf
      rw [h.vars] at hw
      obtain ⟨u, hu, rfl⟩ := List.mem_map.1 hw
      exact policy_vars_mem hm hp h2 hpm hu
  · rw [List.map_map]
    have : ((l.filter m.isOpen).map (Prod.fst ∘ m.depEntry)) =
        ((l.filter m.isOpen).map NFactor.forVar).map m.varOf := by
      rw [List.map_map]; rfl
    rw [this]
    refine List.Nodup.of_map Var.id ?_
    apply nodup_varOf hm
    · intro s hs
      obtain ⟨f, hf, rfl⟩ := List.mem_map.1 hs
      obtain ⟨hf1, hf2⟩ := List.mem_filter.1 hf
      exact isOpen_dims hm (hl.subset hf1) hf2 _ (by simp [NFactor.dims])
    · exact hm.tables.sublist ((List.filter_sublist.trans hl).map _)
  · intro e he
    obtain ⟨f, hf, rfl⟩ := List.mem_map.1 he
    obtain ⟨hf1, hf2⟩ := List.mem_filter.1 hf
    have hd := isOpen_dims hm (hl.subset hf1) hf2
    refine ⟨(hd f.forVar (by simp [NFactor.dims])).varOf_mem h2 hm, ?_⟩
    intro p hp
    obtain ⟨s, hs, rfl⟩ := List.mem_map.1 hp
    exact (hd s (by simp [NFactor.dims, hs])).varOf_mem h2 hm

omit [DecidableEq α] in
theorem addVariables_even : ∀ (l : List NVar) (i : Nat) (vs : Vs), n.addVariables i l vs = n.evened.addVariables i l vs := by
  intro l
  induction l with
  | nil => intro i vs; rfl
  | cons v l ih =>
    intro i vs
    unfold Net.addVariables
    simp only [ih]
    rfl

omit [DecidableEq α] in
theorem nameMap_even : ∀ (l : List (NVar × Var)) (i : Nat) (t : List (String × NVar × Var)),
    n.nameMap i l t = n.evened.nameMap i l t := by
  intro l
  induction l with
  | nil => intro i vs; rfl
  | cons v l ih =>
    intro i vs
    unfold Net.nameMap
    simp only [ih]
    rfl

omit [DecidableEq α] in
theorem policyFactors_even (ids : List (NVar × Var)) (evidence : List (String × String)) :
    ∀ (l : List (String × Factor α)) (vs : Vs),
    n.policyFactors ids evidence l vs = n.evened.policyFactors ids evidence l vs := by
  intro l
  induction l with
  | nil => intro vs; rfl
  | cons v l ih =>
    intro vs
    unfold Net.policyFactors
    simp only [ih]
    rfl

omit [DecidableEq α] in
theorem even_notOpen {f : NFactor α} (hn : n.evened.Valid) (hf : f ∈ n.tableless.map evenTable) :
    n.evened.isOpen f = false ∧ n.evened.isTable f = true ∧ n.evened.isKind .chance f.forVar = true := by
  obtain ⟨v, hv, rfl⟩ := List.mem_map.1 hf
  obtain ⟨h1, h2, _⟩ := even_kind hv
  have hc : n.evened.isKind .chance v.name = true := (isKind_iff hn (v := v) h1 .chance).2 h2
  have hd : n.evened.isKind .decision v.name = false := by
    rw [← Bool.not_eq_true, isKind_iff hn (v := v) h1, h2]; decide
  have ht : v.name ≠ n.evened.totalName := state_notTotal hn (v := v) h1 (by rw [h2]; decide)
  simp [Net.isOpen, Net.isTable, evenTable, hc, hd, ht]

/-- The solver of a network where tables are missing, and one for the network with even tables. They differ in the
tables `ex` of the variables without one, and in the numbers of the policies' tables. -/
theorem toVE_even (sch : NSched α) (k : Nat) (hn : n.evened.Valid) (hp : n.evened.PoliciesOK)
    (evidence : List (String × String)) :
    ∃ vs vs' fs ex ps ps' deps, n.toVE sch k evidence =
        .ok (VE.new vs (fs ++ ps) deps n.evened.solverWeights, n.evened.nameTable) ∧
      Problem vs (fs ++ ps) deps ∧ vs.variables = vs'.variables ∧
      List.Forall₂ (TableFac n.evened) (n.factors.filter n.evened.isTable) fs ∧
      List.Forall₂ (TableFac n.evened) (n.tableless.map evenTable) ex ∧
      List.Forall₂ (PolicyFac n.evened) ((sch.pol k n.policies).filter (fun p => ∀ e ∈ evidence, e.1 ≠ p.1)) ps ∧
      Solver n.evened ((sch.pol k n.policies).filter (fun p => ∀ e ∈ evidence, e.1 ≠ p.1)) vs' (fs ++ ex) ps' deps := by
  obtain ⟨R, h1, h2⟩ := start_vars n.evened hn
  have hnames := h2.names_eq
  rw [hnames] at h2
  have htab : ((n.factors ++ n.tableless.map evenTable).map NFactor.forVar).Nodup := hn.tables
  rw [List.map_append, List.nodup_append] at htab
  have hfilt : (n.tableless.map evenTable).filter n.evened.isOpen = [] := by
    rw [List.filter_eq_nil_iff]
    intro f hf
    rw [(even_notOpen hn hf).1]; simp
  have hfilt2 : (n.tableless.map evenTable).filter n.evened.isTable = n.tableless.map evenTable := by
    rw [List.filter_eq_self]
    intro f hf
    exact (even_notOpen hn hf).2.1
  obtain ⟨fs, c, a1, a2, a3, a4, a5⟩ := addTables_spec hn h2 n.factors [] [] { Vs.new with «variables» := R }
    (fun _ h => List.mem_append_left _ h) htab.1 (by simp)
  obtain ⟨ex, d, e1, e2, e3, e4, e5⟩ := addTables_spec hn h2 (n.tableless.map evenTable) [] []
    { Vs.new with «variables» := R, factorCounter := c } (fun _ h => List.mem_append_right _ h) htab.2.1 (by simp)
  have hsub : ∀ p ∈ sch.pol k n.policies, p ∈ n.evened.policies := fun p h => (sch.pol_perm k n.policies).subset h
  obtain ⟨ps, c', b1, b2, b3, b4, b5⟩ := policyFactors_spec hn hp evidence (sch.pol k n.policies)
    { Vs.new with «variables» := R, factorCounter := c } hsub
  obtain ⟨ps', d', f1, f2, f3, f4, f5⟩ := policyFactors_spec hn hp evidence (sch.pol k n.policies)
    { Vs.new with «variables» := R, factorCounter := d } hsub
  simp only [List.nil_append] at a1
  dsimp only at b2 b3 f2 f3 e2 e3
  have hsub' : ∀ p ∈ (sch.pol k n.policies).filter (fun p => ∀ e ∈ evidence, e.1 ≠ p.1), p ∈ n.evened.policies :=
    fun p h => hsub p (List.mem_filter.1 h).1
  have hF : List.Forall₂ (TableFac n.evened) (n.evened.factors.filter n.evened.isTable) (fs ++ ex) := by
    have : n.evened.factors.filter n.evened.isTable = n.factors.filter n.evened.isTable ++ n.tableless.map evenTable := by
      rw [← hfilt2, ← List.filter_append]; rfl
    rw [this]
    rw [hfilt2] at e5
    exact List.rel_append a5 e5
  have hO : n.evened.factors.filter n.evened.isOpen = n.factors.filter n.evened.isOpen := by
    have : n.evened.factors.filter n.evened.isOpen = n.factors.filter n.evened.isOpen ++ (n.tableless.map evenTable).filter n.evened.isOpen := by
      rw [← List.filter_append]; rfl
    rw [this, hfilt, List.append_nil]
  refine ⟨{ Vs.new with «variables» := R, factorCounter := c' }, { Vs.new with «variables» := R, factorCounter := d' }, fs, ex,
    ps, ps', (n.factors.filter n.evened.isOpen).map n.evened.depEntry, ?_, ?_, rfl, a5, by rw [hfilt2] at e5; exact e5, b5,
    h2, ?_, hF, f5, by rw [hO]⟩
  · unfold Net.toVE
    have h1' := (addVariables_even (n := n) n.variables 0 Vs.new).trans h1
    rw [h1', ok_bind]
    dsimp only
    rw [nameMap_even, hnames, show n.addTable = n.evened.addTable from rfl, a1, ok_bind]
    dsimp only
    rw [policyFactors_even, b1, ok_bind]
    dsimp only
    rw [even_weights hn, ok_bind]
    rfl
  · exact problem_some hn hp h2 (List.sublist_append_left _ _) (fun f hf => (a3 f hf).2) a4 a5 b2 b3 b4 hsub' b5
  · have := problem_some hn hp h2 (List.Sublist.refl _) (fs := fs ++ ex) (c := d) (fun f hf => by
      rcases List.mem_append.1 hf with hf | hf
      · have := a3 f hf; omega
      · exact (e3 f hf).2) (by
        rw [List.map_append, List.nodup_append]
        refine ⟨a4, e4, ?_⟩
        rintro x hx y hy rfl
        obtain ⟨f, hf, i1⟩ := List.mem_map.1 hx
        obtain ⟨g, hg, i2⟩ := List.mem_map.1 hy
        have := a3 f hf; have := e3 g hg
        omega) hF f2 f3 f4 hsub' f5
    rwa [hO] at this

omit [DecidableEq α] in
theorem even_prob [CharZero α] [DecidableEq α] (hn : n.evened.Valid) {v : NVar} (hv : v ∈ n.tableless) (w : World)
    (hw : w v.name < v.outcomes.length) : n.evened.prob (evenTable v) w = 1 / (v.outcomes.length : α) := by
  obtain ⟨h1, h2, _⟩ := even_kind hv
  have hc : n.evened.count v.name = v.outcomes.length := count_eq hn (v := v) h1
  have he : ∀ u : World, u v.name < v.outcomes.length → n.evened.entry (evenTable v) u = 1 / (v.outcomes.length : α) := by
    intro u hu
    simp [Net.entry, evenTable, NFactor.tab, NFactor.dims, rowMajor, List.getElem?_replicate, hu]
  have hpos : (v.outcomes.length : α) ≠ 0 := Nat.cast_ne_zero.2 (by omega)
  have hs : n.evened.rowSum (evenTable v) w = 1 := by
    unfold Net.rowSum
    rw [show (evenTable v : NFactor α).forVar = v.name from rfl, hc, Finset.sum_congr rfl (fun k hk => he _ (by
      simpa [World.set] using hk))]
    simp [hpos]
  unfold Net.prob
  rw [hs, if_neg one_ne_zero, he w hw, div_one]

/-- The product of the even tables is the same everywhere. -/
theorem joint_even [CharZero α] (hn : n.evened.Valid) {σ : Assignment} : ∀ {l : List NVar} {ex : List (Factor α)},
    (∀ v ∈ l, v ∈ n.tableless) → (∀ v ∈ l, σ (n.evened.varOf v.name).id < v.outcomes.length) →
    List.Forall₂ (TableFac n.evened) (l.map evenTable) ex →
    joint ex σ = (l.map (fun v => 1 / (v.outcomes.length : α))).prod := by
  intro l
  induction l with
  | nil => intro ex _ _ h; rw [List.map_nil, List.forall₂_nil_left_iff] at h; subst h; rfl
  | cons v l ih =>
    intro ex h1 h2 h
    rw [List.map_cons, List.forall₂_cons_left_iff] at h
    obtain ⟨f, fs, hf, hfs, rfl⟩ := h
    have := ih (fun u hu => h1 u (List.mem_cons_of_mem _ hu)) (fun u hu => h2 u (List.mem_cons_of_mem _ hu)) hfs
    unfold joint at this ⊢
    rw [List.map_cons, List.prod_cons, this, List.map_cons, List.prod_cons]
    congr 1
    have hv := h1 v List.mem_cons_self
    obtain ⟨a1, a2, _⟩ := even_kind hv
    have hvar := isVar_state hn (v := v) a1 (by rw [a2]; decide)
    have hlt := h2 v List.mem_cons_self
    have e := hf.val (fun _ => σ (n.evened.varOf v.name).id) (by
      intro s hs
      simp only [NFactor.dims, evenTable, List.nil_append, List.mem_singleton] at hs
      subst hs
      rw [count_eq hn (v := v) a1]; exact hlt)
    rw [if_pos (even_notOpen hn (List.mem_map_of_mem hv)).2.2, even_prob hn hv _ hlt] at e
    rw [← e]
    apply Factor.val_congr
    intro u hu
    rw [hf.vars] at hu
    simp only [NFactor.dims, evenTable, List.nil_append, List.map_cons, List.map_nil, List.mem_singleton] at hu
    rw [hu, hvar.ids hn]

theorem policies_vars {m : Net α} {pols : List (String × Factor α)} {ps : List (Factor α)}
    (h : List.Forall₂ (PolicyFac m) pols ps) {v : Var} : (∃ f ∈ ps, v ∈ f.vars) ↔ ∃ p ∈ pols, v ∈ p.2.vars.map (fun w => m.varAt w.id) := by
  constructor
  · rintro ⟨f, hf, hv⟩
    obtain ⟨p, hp, hpf⟩ := forall₂_mem_right h hf
    exact ⟨p, hp, by rw [← hpf.vars]; exact hv⟩
  · rintro ⟨p, hp, hv⟩
    obtain ⟨f, hf, hpf⟩ := forall₂_mem_left h hp
    exact ⟨f, hf, by rw [hpf.vars]; exact hv⟩

theorem policies_plain {m : Net α} (hp : m.PoliciesOK) {pols : List (String × Factor α)} (hpols : ∀ p ∈ pols, p ∈ m.policies)
    {ps : List (Factor α)} (h : List.Forall₂ (PolicyFac m) pols ps) : ps.filter (fun f => !f.isUtility) = ps := by
  rw [List.filter_eq_self]
  intro f hf
  obtain ⟨p, hp1, hp2⟩ := forall₂_mem_right h hf
  rw [policy_vars_state hp (hpols p hp1) hp2]; rfl

theorem policies_joint {m : Net α} (hp : m.PoliciesOK) (σ : Assignment) : ∀ {pols : List (String × Factor α)}
    {ps : List (Factor α)}, (∀ p ∈ pols, p ∈ m.policies) → List.Forall₂ (PolicyFac m) pols ps →
    joint ps σ = (pols.map (fun p => p.2.val σ)).prod := by
  intro pols ps hpols h
  induction h with
  | nil => rfl
  | @cons a b as bs hab _ ih =>
    have := ih (fun p hp => hpols p (List.mem_cons_of_mem _ hp))
    unfold joint at this ⊢
    rw [List.map_cons, List.prod_cons, this, List.map_cons, List.prod_cons, hab.val hp (hpols a List.mem_cons_self)]

/-- What `solve` returns for a query if every variable without a table that is not observed occurs somewhere. -/
theorem solve_query_even [CharZero α] (sch : NSched α) (hn : n.evened.Valid) (hp : n.evened.PoliciesOK)
    {evidence : List (String × String)} (hev : n.evened.EvidenceOK evidence) {query : List String}
    (hq : ∀ q ∈ query, ∃ v ∈ n.evened.stateVars, v.name = q) (ign : Bool)
    (hocc : ∀ v ∈ n.tableless, (∀ e ∈ evidence, e.1 ≠ v.name) → n.Occurs (n.active evidence ign) v.name) :
    ∃ vs fs ps deps g vs' C, C ≠ 0 ∧ n.solve sch evidence query false "" ign =
        (.ok g, { n with vs := some vs', names := n.evened.nameTable }) ∧
      Solver n.evened (sch.active 0 n.evened evidence ign) vs fs ps deps ∧ g.WF ∧
      (∀ v, v ∈ g.vars ↔ (∃ f ∈ probTables (fs ++ ps), v ∈ f.vars) ∧
        (∀ e ∈ (sch.ev evidence).map n.evened.solverEv, e.var.id ≠ v.id) ∧
        v ∉ hidden vs.variables deps ((sch.ev evidence).map n.evened.solverEv) (query.map n.evened.varOf)) ∧
      ∀ σ, Fits σ g.vars → C * g.val σ = sumOver (hidden vs.variables deps ((sch.ev evidence).map n.evened.solverEv)
        (query.map n.evened.varOf)) (fun τ => joint (probTables (fs ++ ps)) (plug ((sch.ev evidence).map n.evened.solverEv) τ)) σ := by
  obtain ⟨vs, vs', fs, ex, ps, ps', deps, h1, hP, hvs, hfs, hex, hps, hS⟩ :=
    toVE_even sch 0 hn hp (if ign then evidence else [])
  have hl := sch.ev_perm evidence
  have hperm := active_perm sch 0 n.evened evidence ign
  have hsub : ∀ p ∈ sch.active 0 n.evened evidence ign, p ∈ n.evened.policies := fun p h => active_sub p (hperm.subset h)
  set es := (sch.ev evidence).map n.evened.solverEv with hes
  have hst := stateSolver_ids hn
  have hexp : ex.filter (fun f => !f.isUtility) = ex := by
    rw [List.filter_eq_self]
    intro f hf
    obtain ⟨t, ht, htf⟩ := forall₂_mem_right hex hf
    have hk := even_notOpen hn ht
    have := table_kind hn (f := t) (List.mem_filter.2 ⟨List.mem_append_right _ ht, hk.2.1⟩) htf
    rw [← this]; exact hk.2.2
  have hprob : probTables (fs ++ ps) = probTables fs ++ ps := by
    unfold probTables
    rw [List.filter_append, policies_plain hp hsub hps]
  have hprob' : probTables (fs ++ ex ++ ps') = probTables fs ++ ex ++ ps' := by
    unfold probTables
    rw [List.filter_append, List.filter_append, policies_plain hp hsub hS.policies, hexp]
  have hless : ∀ v ∈ n.tableless, n.evened.IsVar v.name := fun v hv =>
    isVar_state hn (v := v) (even_kind hv).1 (by rw [(even_kind hv).2.1]; decide)
  -- where a variable without a table occurs
  have hsome : ∀ v ∈ n.tableless, (∀ e ∈ es, e.var.id ≠ (n.evened.varOf v.name).id) →
      ∃ f ∈ probTables (fs ++ ps), n.evened.varOf v.name ∈ f.vars := by
    intro v hv he
    have hfree : ∀ e ∈ evidence, e.1 ≠ v.name := by
      intro e hem h
      refine he (n.evened.solverEv e) (List.mem_map_of_mem (hl.symm.subset hem)) ?_
      simp only [Net.solverEv, h]
    rw [hprob]
    rcases hocc v hv hfree with ⟨t, ht, hvt⟩ | ⟨p, hpm, w, hw, hwn⟩
    · obtain ⟨t1, t2⟩ := List.mem_filter.1 ht
      have t2' : n.evened.isKind .chance t.forVar = true := t2
      obtain ⟨u, hu, u1, u2⟩ := isKind_mem.1 t2'
      have htab : n.evened.isTable t = true := by
        simp only [Net.isTable, decide_eq_true_eq]
        refine ⟨?_, ?_⟩
        · rw [← u1]; exact state_notTotal hn hu (by rw [u2]; decide)
        · rw [← u1, ← Bool.not_eq_true, isKind_iff hn hu, u2]; decide
      obtain ⟨f, hf, htf⟩ := forall₂_mem_left hfs (List.mem_filter.2 ⟨t1, htab⟩)
      have := table_kind hn (f := t) (List.mem_filter.2 ⟨List.mem_append_left _ t1, htab⟩) htf
      refine ⟨f, List.mem_append_left _ (List.mem_filter.2 ⟨hf, by rw [← this]; exact t2'⟩), ?_⟩
      rw [htf.vars]; exact List.mem_map_of_mem hvt
    · have hpm' : p ∈ sch.active 0 n.evened evidence ign := hperm.symm.subset hpm
      obtain ⟨f, hf, hv⟩ := (policies_vars hps (v := n.evened.varOf v.name)).2 ⟨p, hpm', List.mem_map.2 ⟨w, hw, by
        obtain ⟨i, u, i1, i2, i3⟩ := hless v hv
        obtain ⟨x, x1, x2⟩ := Option.map_eq_some_iff.1 hwn
        have x1' : n.evened.variables[w.id]? = some x := x1
        have hxu : x = u := name_unique hn (List.mem_of_getElem? x1') (List.mem_of_getElem? i1) (x2.trans i2.symm)
        subst hxu
        have hii : w.id = i := by
          have := (List.Nodup.of_map _ hn.names)
          exact (List.getElem?_inj (List.getElem?_eq_some_iff.1 x1').1 this).1 (x1'.trans i1.symm)
        rw [varAt_eq x1', ← i2, varOf_eq hn i1 i3, hii]⟩⟩
      exact ⟨f, List.mem_append_right _ hf, hv⟩
  have hiff : ∀ v, (∀ e ∈ es, e.var.id ≠ v.id) →
      ((∃ f ∈ probTables (fs ++ ex ++ ps'), v ∈ f.vars) ↔ ∃ f ∈ probTables (fs ++ ps), v ∈ f.vars) := by
    intro v he
    constructor
    · rintro ⟨f, hf, hv⟩
      rw [hprob'] at hf
      rcases List.mem_append.1 hf with hf | hf
      · rcases List.mem_append.1 hf with hf | hf
        · exact ⟨f, by rw [hprob]; exact List.mem_append_left _ hf, hv⟩
        · obtain ⟨t, ht, htf⟩ := forall₂_mem_right hex hf
          obtain ⟨u, hu, rfl⟩ := List.mem_map.1 ht
          rw [htf.vars] at hv
          simp only [NFactor.dims, evenTable, List.nil_append, List.map_cons, List.map_nil, List.mem_singleton] at hv
          subst hv
          exact hsome u hu he
      · obtain ⟨p, hp1, hv⟩ := (policies_vars hS.policies).1 ⟨f, hf, hv⟩
        obtain ⟨f, hf, hv⟩ := (policies_vars hps).2 ⟨p, hp1, hv⟩
        exact ⟨f, by rw [hprob]; exact List.mem_append_right _ hf, hv⟩
    · rintro ⟨f, hf, hv⟩
      rw [hprob] at hf
      rw [hprob']
      rcases List.mem_append.1 hf with hf | hf
      · exact ⟨f, List.mem_append_left _ (List.mem_append_left _ hf), hv⟩
      · obtain ⟨p, hp1, hv⟩ := (policies_vars hps).1 ⟨f, hf, hv⟩
        obtain ⟨f, hf, hv⟩ := (policies_vars hS.policies).2 ⟨p, hp1, hv⟩
        exact ⟨f, List.mem_append_right _ hf, hv⟩
  obtain ⟨g, st', g1, g2, g3, g4, _⟩ := solve_remove_spec (sch.ve 0) hP n.evened.solverWeights
    (ev_ok hn hev hl (by rw [hvs]; exact hS.vars)) (query.map n.evened.varOf) none (keep_none hP.facVars).symm
    (fun v hv => by
      have hv' : v ∈ hidden vs'.variables deps es (query.map n.evened.varOf) := by rw [← hvs]; exact hv
      have := hidden_occurs hn hp hl hperm hS _ hv'
      refine (hiff v ?_).1 this
      simp only [hidden, List.mem_filter, decide_eq_true_eq] at hv
      exact hv.2.2.1)
  have hgv : ∀ v, v ∈ g.vars ↔ (∃ f ∈ probTables (fs ++ ex ++ ps'), v ∈ f.vars) ∧ (∀ e ∈ es, e.var.id ≠ v.id) ∧
      v ∉ hidden vs'.variables deps es (query.map n.evened.varOf) := by
    intro v
    rw [g3 v, ← hvs]
    constructor
    · rintro ⟨a, b, c⟩; exact ⟨(hiff v b).2 a, b, c⟩
    · rintro ⟨a, b, c⟩; exact ⟨(hiff v b).1 a, b, c⟩
  refine ⟨vs', fs ++ ex, ps', deps, g, st'.vs, (n.tableless.map (fun v => 1 / (v.outcomes.length : α))).prod, ?_, ?_, hS, g2,
    hgv, ?_⟩
  · apply List.prod_ne_zero
    intro h
    obtain ⟨v, hv, e⟩ := List.mem_map.1 h
    have := (hn.outcomes v (even_kind hv).1).1
    rw [one_div, inv_eq_zero, Nat.cast_eq_zero] at e
    omega
  · unfold Net.solve Net.enter
    rw [h1]
    dsimp only
    unfold solveNamed
    rw [mapM_evidence hn (ev_known hev hl), ok_bind, mapM_query hn hq, ok_bind]
    simp only [Bool.false_eq_true, if_false]
    have : (VE.new vs (fs ++ ps) deps n.evened.solverWeights).solveQuery (sch.ve 0) es
        (query.map n.evened.varOf) = .ok (g, st') := g1
    rw [this]
  · intro σ hσ
    rw [g4 σ hσ, ← sumOver_mul_left, ← hvs]
    apply sumOver_congr
    · intro τ t1 t2
      have hj : joint (probTables (fs ++ ex ++ ps')) (plug es τ) =
          joint (probTables fs) (plug es τ) * joint ex (plug es τ) * joint ps' (plug es τ) := by
        rw [hprob', joint_append, joint_append]
      have hj2 : joint (fs.filter (fun f => !f.isUtility) ++ ps) (plug es τ) =
          joint (probTables fs) (plug es τ) * joint ps (plug es τ) := joint_append _ _ _
      rw [hj]
      have hkeep : (fs ++ ps).filter (fun f => !f.isUtility) = fs.filter (fun f => !f.isUtility) ++ ps := hprob
      rw [hkeep, hj2, policies_joint hp _ hsub hps, policies_joint hp _ hsub hS.policies,
        joint_even hn (fun _ h => h) ?_ hex]
      · ring
      · intro v hv
        have hvar := hless v hv
        have hout : (n.evened.varOf v.name).outcomes = v.outcomes.length := by
          rw [hvar.outcomes hn]; exact count_eq hn (v := v) (even_kind hv).1
        have hvS : n.evened.varOf v.name ∈ n.evened.stateSolver :=
          varOf_state (mem_stateVars.2 ⟨(even_kind hv).1, by rw [(even_kind hv).2.1]; decide⟩)
        rw [← hout]
        unfold plug
        cases hfind : es.find? (fun e => e.var.id = (n.evened.varOf v.name).id) with
        | some e =>
          dsimp only
          have he := ev_state hn hev hl e (List.mem_of_find?_eq_some hfind)
          have hid : e.var.id = (n.evened.varOf v.name).id := by simpa using List.find?_some hfind
          rw [← coherent_of_nodup hst _ he.1 _ hvS hid]
          exact he.2
        | none =>
          dsimp only
          rw [List.find?_eq_none] at hfind
          have hfree : ∀ e ∈ es, e.var.id ≠ (n.evened.varOf v.name).id := fun e he h => by simpa [h] using hfind e he
          by_cases hh : n.evened.varOf v.name ∈ hidden vs.variables deps es (query.map n.evened.varOf)
          · exact t2 _ hh
          · have hg : n.evened.varOf v.name ∈ g.vars := (g3 _).2 ⟨hsome v hv hfree, hfree, hh⟩
            rw [t1 _ ?_]
            · exact hσ _ hg
            · intro h
              obtain ⟨x, hx, e⟩ := List.mem_map.1 h
              have hx1 : x ∈ vs.variables := (List.mem_filter.1 hx).1
              have hx2 : n.evened.varOf v.name ∈ vs.variables := by rw [hvs]; exact hvar.varOf_mem hS.vars hn
              exact hh (coherent_of_nodup hP.ids x hx1 _ hx2 e ▸ hx)
    · exact hP.ids.sublist (List.filter_sublist.map _)

end

end Bbn
