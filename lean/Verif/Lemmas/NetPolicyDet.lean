import Verif.Lemmas.PolicyDet

/-!
# The policies of a network do not depend on map iteration order or on earlier calls
-/

set_option autoImplicit false

namespace Bbn

open Finset

variable {α : Type}

/-- The outcomes are in range for all variables the solver uses. -/
def Net.InRange (n : Net α) (σ : Assignment) : Prop :=
  ∀ i v, n.variables[i]? = some v → n.totalUtility ≠ some i → σ i < v.outcomes.length

theorem fits_iff {n : Net α} {names : List (String × NVar × Var)} {R : List Var} (h : SolverVars n names R)
    {σ : Assignment} : Fits σ R ↔ n.InRange σ := by
  constructor
  · intro hσ i v hi ht
    exact hσ _ (h.mem_of hi ht)
  · intro hσ w hw
    obtain ⟨v, h1, h2, h3⟩ := h.mem.1 hw
    have := hσ w.id v h1 (fun e => h2 e.symm)
    rw [h3]
    exact this

/-- Two stored policies with the same variables and the same entries. -/
def NLike [Zero α] (n : Net α) (f g : Factor α) : Prop := scope f = scope g ∧ ∀ σ, n.InRange σ → f.val σ = g.val σ

/-- The same policies for the same decisions. -/
def PolTwin [Zero α] (n : Net α) (P Q : List (String × Factor α)) : Prop :=
  ∀ s, Option.Rel (NLike n) (mapGet P s) (mapGet Q s)

theorem optRel_isSome {A B : Type} {r : A → B → Prop} {a : Option A} {b : Option B} (h : Option.Rel r a b) :
    a.isSome = b.isSome := by
  cases h <;> rfl

/-- The network with another history. -/
abbrev Net.past (n : Net α) (a : Option Vs) (b : List (String × NVar × Var)) (Q : List (String × Factor α)) : Net α :=
  { n with vs := a, names := b, policies := Q }

section

variable {n : Net α} {a : Option Vs} {b : List (String × NVar × Var)} {Q : List (String × Factor α)}

theorem past_solverType (hpol : ∀ s, (n.past a b Q).hasPolicy s = n.hasPolicy s) (v : NVar) :
    (n.past a b Q).solverType v = n.solverType v := by
  unfold Net.solverType
  rw [hpol]

theorem past_solverVars (hpol : ∀ s, (n.past a b Q).hasPolicy s = n.hasPolicy s) : ∀ (l : List NVar) (i : Nat),
    (n.past a b Q).solverVars i l = n.solverVars i l := by
  intro l
  induction l with
  | nil => intro i; rfl
  | cons v l ih =>
    intro i
    unfold Net.solverVars
    rw [ih]
    have : (n.past a b Q).solverVar i v = n.solverVar i v := by
      unfold Net.solverVar
      rw [past_solverType hpol]
      rfl
    rw [this]

theorem past_nameTable (hpol : ∀ s, (n.past a b Q).hasPolicy s = n.hasPolicy s) :
    (n.past a b Q).nameTable = n.nameTable := by
  unfold Net.nameTable
  rw [← past_solverVars hpol]

theorem past_varOf (hpol : ∀ s, (n.past a b Q).hasPolicy s = n.hasPolicy s) (s : String) :
    (n.past a b Q).varOf s = n.varOf s := by
  unfold Net.varOf
  rw [past_nameTable hpol]

theorem past_deps (hpol : ∀ s, (n.past a b Q).hasPolicy s = n.hasPolicy s) :
    ((n.past a b Q).factors.filter (n.past a b Q).isOpen).map (n.past a b Q).depEntry =
      (n.factors.filter n.isOpen).map n.depEntry := by
  have h1 : (n.past a b Q).isOpen = n.isOpen := by
    funext f
    unfold Net.isOpen
    rw [hpol]
    rfl
  have h2 : (n.past a b Q).depEntry = n.depEntry := by
    funext f
    unfold Net.depEntry
    rw [past_varOf hpol, List.map_congr_left (fun s _ => past_varOf hpol s)]
  rw [h1, h2]

/-- The tables of the network are the same for both runs. -/
theorem table_like [Field α] [DecidableEq α] (hn : n.Valid) (hpol : ∀ s, (n.past a b Q).hasPolicy s = n.hasPolicy s)
    {names : List (String × NVar × Var)} {R : List Var} (hs : SolverVars n names R)
    {f : NFactor α} (hf : f ∈ n.factors) (ht : f.forVar ≠ n.totalName) {fac fac' : Factor α} (h : TableFac n f fac)
    (h' : TableFac (n.past a b Q) f fac') : Like R fac fac' := by
  have hv : fac'.vars = fac.vars := by
    rw [h.vars, h'.vars]
    exact List.map_congr_left (fun s _ => past_varOf hpol s)
  refine ⟨by simp only [scope, hv], ?_⟩
  intro σ hσ
  set w : World := fun s => σ (n.varOf s).id with hw
  have hd := dims_isVar hn hf ht
  have hag : ∀ v ∈ fac.vars, σ v.id = n.ids w v.id := by
    intro v hv
    rw [h.vars] at hv
    obtain ⟨s, hs1, rfl⟩ := List.mem_map.1 hv
    rw [(hd s hs1).ids hn]
  have hr : ∀ s ∈ f.dims, w s < n.count s := by
    intro s hs1
    rw [← (hd s hs1).outcomes hn]
    exact hσ _ ((hd s hs1).varOf_mem hs hn)
  rw [fac.val_congr hag, fac'.val_congr (hv ▸ hag), h.val w hr]
  exact (h'.val w hr).symm

/-- Different runs order the policies differently, but the solver gets the same ones. -/
theorem policies_alike [Field α] [DecidableEq α] (hp : n.PoliciesOK) (hp' : (n.past a b Q).PoliciesOK)
    (htw : PolTwin n n.policies Q) {names : List (String × NVar × Var)} {R : List Var} (hs : SolverVars n names R)
    {L L' : List (String × Factor α)} (hL : L.Perm n.policies) (hL' : L'.Perm Q) {ps ps' : List (Factor α)}
    (h : List.Forall₂ (PolicyFac n) L ps) (h' : List.Forall₂ (PolicyFac (n.past a b Q)) L' ps') : Alike R ps ps' := by
  have hk : (L.map Prod.fst).Nodup := (hL.map Prod.fst).nodup_iff.2 hp.keys
  have hkQ : (Q.map Prod.fst).Nodup := hp'.keys
  -- the policies of the second run in the order of the first
  have hget : ∀ p ∈ L, ∃ g, (p.1, g) ∈ Q ∧ NLike n p.2 g := by
    intro p hpm
    have h1 := (mapGet_mem hp.keys (k := p.1) (x := p.2)).2 (hL.subset hpm)
    have h2 := htw p.1
    rw [h1] at h2
    cases hq : mapGet Q p.1 with
    | none => rw [hq] at h2; cases h2
    | some g =>
      rw [hq] at h2
      cases h2 with
      | some h2 => exact ⟨g, mapGet_some hq, h2⟩
  have : Nonempty (Factor α) := ⟨⟨0, [], []⟩⟩
  choose! g hg1 hg2 using hget
  set K := L.map (fun p => (p.1, g p)) with hK
  have hKkeys : K.map Prod.fst = L.map Prod.fst := by simp [hK]
  have hKQ : K.Perm Q := by
    have hKn : K.Nodup := List.Nodup.of_map Prod.fst (by rw [hKkeys]; exact hk)
    have hQn : Q.Nodup := List.Nodup.of_map Prod.fst hkQ
    rw [List.perm_ext_iff_of_nodup hKn hQn]
    intro q
    constructor
    · intro hq
      obtain ⟨p, hpm, rfl⟩ := List.mem_map.1 hq
      exact hg1 p hpm
    · intro hq
      have h1 := (mapGet_mem hkQ (k := q.1) (x := q.2)).2 hq
      have h2 := htw q.1
      rw [h1] at h2
      cases hq' : mapGet n.policies q.1 with
      | none => rw [hq'] at h2; cases h2
      | some f =>
        have hpm : (q.1, f) ∈ L := hL.symm.subset (mapGet_some hq')
        have h3 := (mapGet_mem hkQ (k := q.1) (x := g (q.1, f))).2 (hg1 _ hpm)
        rw [h1] at h3
        refine List.mem_map.2 ⟨(q.1, f), hpm, ?_⟩
        exact Prod.ext rfl (Option.some.inj h3).symm
  obtain ⟨m, hm1, hm2⟩ := List.perm_comp_forall₂ (hKQ.trans hL'.symm) h'
  refine ⟨m, hm2, ?_⟩
  have hval : ∀ p ∈ L, ∀ fac, PolicyFac n p fac → fac.val = p.2.val ∧ scope fac = scope p.2 := by
    intro p hpm fac hfac
    refine ⟨funext (hfac.val hp (hL.subset hpm)), ?_⟩
    simp only [scope, hfac.vars, List.map_map]
    congr 2
    funext w
    simp [varAt_id]
  have hval' : ∀ p ∈ K, ∀ fac, PolicyFac (n.past a b Q) p fac → fac.val = p.2.val ∧ scope fac = scope p.2 := by
    intro p hpm fac hfac
    refine ⟨funext (hfac.val hp' (hKQ.subset hpm)), ?_⟩
    simp only [scope, hfac.vars, List.map_map]
    congr 2
    funext w
    simp [varAt_id]
  have hlike : ∀ p ∈ L, NLike n p.2 (g p) := hg2
  clear hL hL' h' hK hKkeys hKQ hm2 hk hg1 hg2
  have key : ∀ (L : List (String × Factor α)) (ps m : List (Factor α)), List.Forall₂ (PolicyFac n) L ps →
      List.Forall₂ (PolicyFac (n.past a b Q)) (L.map (fun p => (p.1, g p))) m →
      (∀ p ∈ L, ∀ fac, PolicyFac n p fac → fac.val = p.2.val ∧ scope fac = scope p.2) →
      (∀ p ∈ L.map (fun p => (p.1, g p)), ∀ fac, PolicyFac (n.past a b Q) p fac → fac.val = p.2.val ∧ scope fac = scope p.2) →
      (∀ p ∈ L, NLike n p.2 (g p)) → List.Forall₂ (Like R) ps m := by
    intro L
    induction L with
    | nil =>
      intro ps m h1 h2 _ _ _
      cases h1; cases h2; exact .nil
    | cons p L ih =>
      intro ps m h1 h2 h3 h4 h5
      cases h1 with
      | @cons _ fac _ ps h1 h1' =>
        cases h2 with
        | @cons _ fac' _ m h2 h2' =>
          refine .cons ?_ (ih ps m h1' h2' (fun q hq => h3 q (by simp [hq])) (fun q hq => h4 q (by simp at hq ⊢; exact .inr hq))
            (fun q hq => h5 q (by simp [hq])))
          obtain ⟨a1, a2⟩ := h3 p (by simp) fac h1
          obtain ⟨b1, b2⟩ := h4 (p.1, g p) (by simp) fac' h2
          obtain ⟨c1, c2⟩ := h5 p (by simp)
          exact ⟨by rw [a2, b2, c1], fun σ hσ => by rw [a1, b1]; exact c2 σ ((fits_iff hs).1 hσ)⟩
  exact key L ps m h hm1 hval hval' hlike

end

/-- What is stored under a name. -/
theorem store_get (solved : List (Var × Factor α × Factor α)) (s : String) : ∀ (l : List (String × NVar × Var))
    (P : List (String × Factor α)), (l.map Prod.fst).Nodup →
    mapGet (l.foldl (storePolicy solved) P) s =
      match mapGet l s with
      | none => mapGet P s
      | some e => if e.2.nodeType ≠ .decision then mapGet P s
        else match mapGet solved e.2 with
          | none => mapGet P s
          | some q => some q.2 := by
  intro l
  induction l with
  | nil => intro P _; rfl
  | cons e l ih =>
    intro P hnd
    rw [List.map_cons, List.nodup_cons] at hnd
    rw [List.foldl_cons, ih _ hnd.2]
    have hput : ∀ k, k ≠ e.1 → mapGet (storePolicy solved P e) k = mapGet P k := by
      intro k hk
      unfold storePolicy
      split_ifs
      · rfl
      · split
        · rfl
        · rw [mapGet_mapSet, if_neg hk]
    by_cases hs : s = e.1
    · subst hs
      have h1 : mapGet l e.1 = none := mapGet_none.2 hnd.1
      have h2 : mapGet (e :: l) e.1 = some e.2 := by simp [mapGet]
      rw [h1, h2]
      dsimp only
      unfold storePolicy
      by_cases hd : e.2.2.nodeType ≠ .decision
      · rw [if_pos hd, if_pos hd]
      · rw [if_neg hd, if_neg hd]
        cases mapGet solved e.2.2 with
        | none => rfl
        | some q =>
          dsimp only
          rw [mapGet_mapSet, if_pos rfl]
    · have h2 : mapGet (e :: l) s = mapGet l s := by
        unfold mapGet
        rw [List.find?_cons_of_neg]
        simpa using fun h => hs h.symm
      rw [h2, hput s hs]

/-- Looking up the same decision in two runs. -/
theorem solved_get [Zero α] {R : List Var} {ps ps' : List (Var × Factor α × Factor α)}
    (h : List.Forall₂ (fun p p' => p.1 = p'.1 ∧ Like R p.2.1 p'.2.1 ∧ Like R p.2.2 p'.2.2) ps ps') (w : Var) :
    Option.Rel (fun q q' => Like R q.2 q'.2) (mapGet ps w) (mapGet ps' w) := by
  induction h with
  | nil => exact .none
  | @cons p p' ps ps' h _ ih =>
    by_cases hw : p.1 = w
    · have h1 : mapGet (p :: ps) w = some p.2 := by simp [mapGet, hw]
      have h2 : mapGet (p' :: ps') w = some p'.2 := by simp [mapGet, ← h.1, hw]
      rw [h1, h2]
      exact .some h.2.2
    · have h1 : mapGet (p :: ps) w = mapGet ps w := by
        unfold mapGet; rw [List.find?_cons_of_neg]; simpa using hw
      have h2 : mapGet (p' :: ps') w = mapGet ps' w := by
        unfold mapGet; rw [List.find?_cons_of_neg]; simpa [← h.1] using hw
      rw [h1, h2]
      exact ih

/-- Without open decisions nothing is stored. -/
theorem policySteps_done [Field α] [LinearOrder α] [IsStrictOrderedRing α] (sch : NSched α) (k : Nat) (single : Bool)
    (left : Nat) {n : Net α} (hn : n.Valid) (hp : n.PoliciesSolved) (hne : n.openDecisions = []) (m : Net α)
    (h : Net.policySteps sch single (left + 1) k n = (.ok (), m)) : m.policies = n.policies := by
  obtain ⟨vs, fs, ps, deps, c1, hS⟩ := toVE_spec sch k hn hp.toPoliciesOK []
  have hd : decisionVars vs.variables = [] := by
    rw [decisionVars, List.filter_eq_nil_iff]
    intro w hw
    simp only [decide_eq_true_eq]
    intro hwd
    obtain ⟨v, d1, d2, d3⟩ := hS.vars.mem.1 hw
    rw [d3] at hwd
    have hwd : n.solverType v = .decision := hwd
    unfold Net.solverType at hwd
    split_ifs at hwd with hc
    have : v ∈ n.openDecisions := by
      simp only [Net.openDecisions, List.mem_filter, decide_eq_true_eq]
      exact ⟨List.mem_of_getElem? d1, hwd, by simpa [hwd] using hc⟩
    rw [hne] at this
    simp at this
  obtain ⟨decs, t, e1, e2, _⟩ := getDecisions_new (sch.ve k) hS.problem n.solverWeights
  rw [hd] at e2
  have e2 := e2.eq_nil
  subst e2
  have hsp : (VE.new vs (fs ++ ps) deps n.solverWeights).solvePolicies (sch.ve k) single =
      .ok (none, { VE.new vs (fs ++ ps) deps n.solverWeights with tick := t }) := by
    unfold VE.solvePolicies
    rw [e1, ok_bind]
    rfl
  rw [Net.policySteps, Net.enter, c1] at h
  dsimp only at h
  rw [hsp] at h
  dsimp only at h
  rw [← (Prod.mk.inj h).2]

/-- One step of `SolvePolicies` in two runs. -/
theorem policyStep_twin [Field α] [LinearOrder α] [IsStrictOrderedRing α] (sch sch' : NSched α) (k : Nat) (single : Bool)
    (left : Nat) {n : Net α} {a : Option Vs} {b : List (String × NVar × Var)} {Q : List (String × Factor α)} (hn : n.Valid)
    (hs : n.Solvable) (hp : n.PoliciesSolved) (hp' : (n.past a b Q).PoliciesSolved) (htw : PolTwin n n.policies Q)
    (hne : n.openDecisions ≠ []) :
    ∃ vs vs' names P Q', Net.policySteps sch single (left + 1) k n =
        Net.policySteps sch single left (k + 1) (n.past (some vs) names P) ∧
      Net.policySteps sch' single (left + 1) k (n.past a b Q) =
        Net.policySteps sch' single left (k + 1) (n.past (some vs') names Q') ∧
      (n.past (some vs) names P).PoliciesSolved ∧ (n.past (some vs') names Q').PoliciesSolved ∧ PolTwin n P Q' ∧
      (single = false → (n.past (some vs) names P).openDecisions = []) ∧
      (single = true → (n.past (some vs) names P).openDecisions.length + 1 = n.openDecisions.length) := by
  have hpol : ∀ s, (n.past a b Q).hasPolicy s = n.hasPolicy s := fun s => (optRel_isSome (htw s)).symm
  have hopen : (n.past a b Q).openDecisions = n.openDecisions := by
    unfold Net.openDecisions
    simp only [hpol]
  have hn' : (n.past a b Q).Valid := hn.with a b Q
  have hs' : (n.past a b Q).Solvable := hs.with a b Q
  obtain ⟨vs, fs, ps, deps, h1, hS⟩ := toVE_spec sch k hn hp.toPoliciesOK []
  obtain ⟨vs', fs', ps', deps', h1', hS'⟩ := toVE_spec sch' k hn' hp'.toPoliciesOK []
  have hdeps : deps' = deps := by rw [hS.deps_eq, hS'.deps_eq, past_deps hpol]
  subst hdeps
  have hvars : vs.variables = vs'.variables := by
    rw [hS.vars.vars_eq, hS'.vars.vars_eq]
    rw [← past_solverVars hpol]
  have hfilt : ∀ l : List (String × Factor α), l.filter (fun p => ∀ e ∈ ([] : List (String × String)), e.1 ≠ p.1) = l := by
    intro l; simp
  have hal : Alike vs.variables (fs ++ ps) (fs' ++ ps') := by
    refine Alike.append ⟨fs', List.Perm.refl _, ?_⟩ ?_
    · have ht := hS.tables
      have ht' := hS'.tables
      have e : (n.past a b Q).factors.filter (n.past a b Q).isTable = n.factors.filter n.isTable := rfl
      rw [e] at ht'
      have hmem : ∀ f ∈ n.factors.filter n.isTable, f ∈ n.factors ∧ f.forVar ≠ n.totalName := by
        intro f hf
        obtain ⟨h1, h2⟩ := List.mem_filter.1 hf
        simp only [Net.isTable, decide_eq_true_eq] at h2
        exact ⟨h1, h2.1⟩
      have key : ∀ (T : List (NFactor α)) (fs fs' : List (Factor α)), List.Forall₂ (TableFac n) T fs →
          List.Forall₂ (TableFac (n.past a b Q)) T fs' → (∀ f ∈ T, f ∈ n.factors ∧ f.forVar ≠ n.totalName) →
          List.Forall₂ (Like vs.variables) fs fs' := by
        intro T
        induction T with
        | nil => intro fs fs' h1 h2 _; cases h1; cases h2; exact .nil
        | cons f T ih =>
          intro fs fs' h1 h2 hm
          cases h1 with
          | cons h1 h1' =>
            cases h2 with
            | cons h2 h2' =>
              obtain ⟨hf, hft⟩ := hm f (by simp)
              exact .cons (table_like hn hpol hS.vars hf hft h1 h2) (ih _ _ h1' h2' (fun g hg => hm g (by simp [hg])))
      exact key _ _ _ ht ht' hmem
    · refine policies_alike hp.toPoliciesOK hp'.toPoliciesOK htw hS.vars ?_ ?_ hS.policies hS'.policies
      · rw [hfilt]; exact sch.pol_perm k n.policies
      · rw [hfilt]; exact sch'.pol_perm k Q
  have hpols : ∀ p ∈ (sch.pol k n.policies).filter (fun p => ∀ e ∈ ([] : List (String × String)), e.1 ≠ p.1),
      p ∈ n.policies := fun p h => (sch.pol_perm k n.policies).subset (List.mem_filter.1 h).1
  have hpols' : ∀ p ∈ (sch'.pol k Q).filter (fun p => ∀ e ∈ ([] : List (String × String)), e.1 ≠ p.1),
      p ∈ Q := fun p h => (sch'.pol_perm k Q).subset (List.mem_filter.1 h).1
  have hw : (n.past a b Q).solverWeights = n.solverWeights := rfl
  rw [hw] at h1'
  have hu := utility_ok hn hp.toPoliciesOK hpols hS hs.utility
  have hu' := utility_ok hn' hp'.toPoliciesOK hpols' hS' hs'.utility
  rw [← hvars, hw] at hu'
  have hd := decisionOK_of hn hs.used hS
  have hd' := decisionOK_of hn' hs'.used hS'
  rw [← hvars] at hd'
  have hdne : decisionVars vs.variables ≠ [] := by
    obtain ⟨v, hv⟩ := List.exists_mem_of_ne_nil _ hne
    simp only [Net.openDecisions, List.mem_filter, decide_eq_true_eq] at hv
    obtain ⟨i, hi⟩ := List.getElem?_of_mem hv.1
    have ht : n.totalUtility ≠ some i := by
      intro e
      have := total_utility hn hv.1 ((totalName_iff hn hi).2 e)
      rw [hv.2.1] at this
      exact absurd this (by decide)
    refine List.ne_nil_of_mem (a := n.solverVar i v) ?_
    simp only [decisionVars, List.mem_filter, decide_eq_true_eq]
    refine ⟨hS.vars.mem_of hi ht, ?_⟩
    show n.solverType v = .decision
    unfold Net.solverType
    rw [if_neg (by simp [hv.2.2]), hv.2.1]
  obtain ⟨solved, solved', ve1, ve1', b1, b1', b2⟩ := solvePolicies_twin (sch.ve k) (sch'.ve k) hvars hS.problem hS'.problem
    hu hu' hd hd' hal (decAcyclic_of hn hS hs.acyclic) hdne single
  obtain ⟨ve, n1, so, ve2, c1, c2, rfl, new, c3, _, c5, c6, c7, _⟩ := policyStep_spec sch k single hn hs.toFeasible hp hne
  obtain ⟨ve', n1', so', ve2', c1', c2', rfl, new', c3', _, c5', c6', c7', _⟩ := policyStep_spec sch' k single hn' hs'.toFeasible hp'
    (by rw [hopen]; exact hne)
  obtain rfl : ve = VE.new vs (fs ++ ps) deps' n.solverWeights := by
    unfold Net.enter at c1
    rw [h1] at c1
    exact (Except.ok.inj (Prod.mk.inj c1).1).symm
  obtain rfl : ve' = VE.new vs' (fs' ++ ps') deps' n.solverWeights := by
    unfold Net.enter at c1'
    rw [h1'] at c1'
    exact (Except.ok.inj (Prod.mk.inj c1').1).symm
  rw [b1] at c2
  rw [b1'] at c2'
  obtain ⟨e1, rfl⟩ := Prod.mk.inj (Except.ok.inj c2)
  obtain ⟨e1', rfl⟩ := Prod.mk.inj (Except.ok.inj c2')
  obtain rfl := Option.some.inj e1
  obtain rfl := Option.some.inj e1'
  have hnt := past_nameTable hpol
  rw [hnt] at c1' c3'
  refine ⟨ve1.vs, ve1'.vs, n.nameTable, n.policies ++ new, Q ++ new', ?_, ?_, c7 _ _, c7' _ _, ?_, ?_, ?_⟩
  · rw [Net.policySteps, c1]
    dsimp only
    rw [b1]
    dsimp only at c3 ⊢
    rw [c3]
  · rw [Net.policySteps, c1']
    dsimp only
    rw [b1']
    dsimp only at c3' ⊢
    rw [c3']
  · intro s
    rw [← c3, ← c3']
    dsimp only
    have hkn : (n.nameTable.map Prod.fst).Nodup := hS.vars.keys hn
    have hk1 : ((sch.names k n.nameTable).map Prod.fst).Nodup :=
      ((sch.names_perm k n.nameTable).map Prod.fst).nodup_iff.2 hkn
    have hk2 : ((sch'.names k n.nameTable).map Prod.fst).Nodup :=
      ((sch'.names_perm k n.nameTable).map Prod.fst).nodup_iff.2 hkn
    rw [store_get _ _ _ _ hk1, store_get _ _ _ _ hk2, mapGet_perm (sch.names_perm k n.nameTable) hk1,
      mapGet_perm (sch'.names_perm k n.nameTable) hk2]
    cases mapGet n.nameTable s with
    | none => exact htw s
    | some e =>
      dsimp only
      split_ifs
      · exact htw s
      · have h := solved_get b2 e.2
        cases hq : mapGet solved e.2 with
        | none =>
          rw [hq] at h
          cases hq' : mapGet solved' e.2 with
          | none => exact htw s
          | some q' => rw [hq'] at h; cases h
        | some q =>
          rw [hq] at h
          cases hq' : mapGet solved' e.2 with
          | none => rw [hq'] at h; cases h
          | some q' =>
            rw [hq'] at h
            cases h with
            | some h => exact .some ⟨h.scope, fun σ hσ => h.val σ ((fits_iff hS.vars).2 hσ)⟩
  · intro e
    rw [openDecisions_append, List.filter_eq_nil_iff]
    intro v hv
    simpa using c5 e v hv
  · intro e
    rw [openDecisions_append]
    obtain ⟨v, hv, hu⟩ := c6 e
    have hnd : n.openDecisions.Nodup := (List.Nodup.of_map _ hn.names).filter _
    have : n.openDecisions.filter (fun v => v.name ∉ new.map Prod.fst) = n.openDecisions.erase v := by
      rw [hnd.erase_eq_filter]
      apply List.filter_congr
      intro u hum
      have h := hu u hum
      by_cases e : u = v
      · rw [decide_eq_false (not_not.2 (h.2 e)), e]; simp
      · rw [decide_eq_true (mt h.1 e)]; simp [e]
    rw [this, List.length_erase_of_mem hv]
    have := List.length_pos_of_mem hv
    omega

/-- The whole loop in two runs. -/
theorem policySteps_twin [Field α] [LinearOrder α] [IsStrictOrderedRing α] (sch sch' : NSched α) (single : Bool) :
    ∀ (left k : Nat) (n : Net α) (a : Option Vs) (b : List (String × NVar × Var)) (Q : List (String × Factor α)), n.Valid →
      (n.openDecisions ≠ [] → n.Solvable) → n.PoliciesSolved → (n.past a b Q).PoliciesSolved → PolTwin n n.policies Q →
      ∀ m m', Net.policySteps sch single left k n = (.ok (), m) →
        Net.policySteps sch' single left k (n.past a b Q) = (.ok (), m') → PolTwin n m.policies m'.policies := by
  intro left
  induction left with
  | zero =>
    intro k n a b Q _ _ _ _ htw m m' h h'
    obtain rfl := (Prod.mk.inj h).2
    obtain rfl := (Prod.mk.inj h').2
    exact htw
  | succ left ih =>
    intro k n a b Q hn hs hp hp' htw m m' h h'
    by_cases hne : n.openDecisions = []
    · have hpol : ∀ s, (n.past a b Q).hasPolicy s = n.hasPolicy s := fun s => (optRel_isSome (htw s)).symm
      have hopen : (n.past a b Q).openDecisions = n.openDecisions := by
        unfold Net.openDecisions
        simp only [hpol]
      rw [policySteps_done sch k single left hn hp hne m h,
        policySteps_done sch' k single left (hn.with a b Q) hp' (by rw [hopen]; exact hne) m' h']
      exact htw
    · obtain ⟨vs, vs', names, P, Q', h1, h1', h2, h2', h3, h4, h5⟩ := policyStep_twin sch sch' k single left hn (hs hne) hp hp'
        htw hne
      rw [h1] at h
      rw [h1'] at h'
      exact ih (k + 1) (n.past (some vs) names P) (some vs') names Q' (hn.with _ _ _) (fun _ => (hs hne).with _ _ _) h2 h2' h3
        m m' h h'

end Bbn
