import Verif.Lemmas.NetOptimal
import Verif.Lemmas.NetListed
import Verif.Lemmas.PolicyKnown
import Verif.Props.NetPolicies
import Verif.Props.NetUtility
import Verif.Props.Decide

/-!
# What the policies of a network depend on, and that they are optimal
-/

set_option autoImplicit false

namespace Bbn

open Finset

variable {α : Type}

theorem mem_decisions {n : Net α} {s : String} : s ∈ n.decisions ↔ n.isKind .decision s = true := by
  rw [isKind_mem]
  simp only [Net.decisions, List.mem_map, List.mem_filter, decide_eq_true_eq]
  constructor
  · rintro ⟨v, ⟨a, b⟩, c⟩; exact ⟨v, a, c, b⟩
  · rintro ⟨v, a, c, b⟩; exact ⟨v, ⟨a, b⟩, c⟩

theorem decisions_nodup {n : Net α} (hn : n.Valid) : n.decisions.Nodup :=
  hn.names.sublist (List.filter_sublist.map _)

theorem nameAt_varOf {n : Net α} (hn : n.Valid) {s : String} (h : n.IsVar s) : n.nameAt (n.varOf s) = s := by
  obtain ⟨i, v, h1, rfl, h3⟩ := h
  rw [varOf_eq hn h1 h3]
  exact nameAt_eq h1

theorem byTables_eq [Zero α] {n : Net α} {tables : List (String × NFactor α)} (hnd : (tables.map Prod.fst).Nodup)
    {t : String × NFactor α} (ht : t ∈ tables) : n.byTables tables t.1 = n.entry t.2 := by
  funext w
  unfold Net.byTables
  cases hf : tables.find? (fun x => x.1 = t.1) with
  | none =>
    rw [List.find?_eq_none] at hf
    simpa using hf t ht
  | some x =>
    have h1 : x.1 = t.1 := by simpa using List.find?_some hf
    rw [List.inj_on_of_nodup_map hnd (List.mem_of_find?_eq_some hf) ht h1]; rfl

theorem Net.Strategy.congr [CommSemiring α] [PartialOrder α] {n : Net α} (hn : n.Valid) {ds : List String} {d : String}
    {δ δ' : World → α} (h : n.Strategy ds d δ) (he : ∀ w, n.Allowed w → δ' w = δ w) : n.Strategy ds d δ' := by
  refine ⟨fun w hw => by rw [he w hw]; exact h.nonneg w hw, fun w hw => ?_, fun w w' hw hw' hk => ?_⟩
  · rw [← h.one w hw]
    apply Finset.sum_congr rfl
    intro k hk
    apply he
    intro v hv
    unfold World.set
    split_ifs with e
    · rw [← count_eq hn (mem_stateVars.1 hv).1, e]; exact Finset.mem_range.1 hk
    · exact hw v hv
  · rw [he w hw, he w' hw']; exact h.known w w' hw hw' hk

/-- All decisions of a network solved together: the solver problem, its solution, and the returned tables. -/
structure Together [Field α] [LinearOrder α] (sch : NSched α) (n N : Net α) (tables : List (String × NFactor α)) (n' : Net α)
    (vs : Vs) (fs : List (Factor α)) (deps : List (Var × List Var)) (solved : List (Var × Factor α × Factor α)) (st' : VE α) :
    Prop where
  valid : N.Valid
  fresh : N.policies = []
  policies : N.PoliciesOK
  solver : Solver N [] vs fs [] deps
  utility : UtilityOK vs.variables (fs ++ []) N.solverWeights
  decision : DecisionOK vs.variables (fs ++ [])
  acyclic : DecAcyclic deps
  solution : (VE.new vs (fs ++ []) deps N.solverWeights).solvePolicies (sch.ve 0) false = .ok (some solved, st')
  stored : ∀ p ∈ n'.policies, ∃ q ∈ solved, q.1 = N.varOf p.1 ∧ q.2.2 = p.2
  back : ∀ x, x ∈ solved.map (fun p => p.1) → N.varOf (N.nameAt x) = x ∧ n.isKind .decision (N.nameAt x) = true
  names : ((solved.map (fun p => p.1)).map N.nameAt).Perm n.decisions
  table : ∀ p ∈ solved, ∃ t ∈ tables, t.1 = N.nameAt p.1 ∧ t.2.dims = p.2.2.vars.map n.nameAt ∧
      ∀ w : World, (∀ s ∈ t.2.dims, w s < n.count s) → p.2.2.val (n.ids w) = n.entry t.2 w
  value : ∀ p ∈ solved, ∀ w, n.Allowed w → p.2.2.val (N.ids w) = n.byTables tables (N.nameAt p.1) w

theorem together [Field α] [LinearOrder α] [IsStrictOrderedRing α] (sch : NSched α) {n : Net α} (hn : n.Valid)
    (hs : n.Solvable) (hd : n.decisions ≠ []) {stepwise : Bool} (hone : stepwise = true → n.decisions.length = 1)
    {tables : List (String × NFactor α)} {n' : Net α} (h1 : n.solvePolicies sch stepwise = (.ok tables, n')) :
    ∃ vs fs deps solved st', Together sch n { n with policies := [] } tables n' vs fs deps solved st' := by
  obtain ⟨tables', m', h1', h2, h3, h4, h5, h6, ⟨vs0, names0, pols0, h7⟩, h8, ⟨m, hm1, hm2, _⟩, h9, _⟩ :=
    solvePolicies_net sch hn (fun _ => hs.toFeasible) stepwise
  rw [h1] at h1'
  obtain ⟨e1, rfl⟩ := Prod.mk.inj h1'
  obtain rfl := Except.ok.inj e1
  set N : Net α := { n with policies := [] } with hN
  have hNv : N.Valid := hn.with n.vs n.names []
  have hNp : N.policies = [] := rfl
  have hpo : N.PoliciesOK := ⟨List.nodup_nil, by simp [hNp], by simp [hNp], by simp [hNp]⟩
  obtain ⟨vs, fs, deps, solved, st', hS, hu, hdo, hac, hsol, hstore⟩ := solved_together sch hn hs hd hone hN hm1
  rw [← hm2] at hstore
  obtain ⟨o1, o2, o3⟩ := C28_order (sch.ve 0) hS.problem N.solverWeights hac hsol
  have hdv : ∀ x, x ∈ solved.map (fun p => p.1) → ∃ s, n.isKind .decision s = true ∧ x = N.varOf s :=
    fun x hx => (decision_vars hNv hNp hS).1 (o1.subset hx)
  have hname : ∀ s, n.isKind .decision s = true → N.nameAt (N.varOf s) = s :=
    fun s h => nameAt_varOf hNv (decision_isVar hNv h)
  have hback : ∀ x, x ∈ solved.map (fun p => p.1) → N.varOf (N.nameAt x) = x ∧ n.isKind .decision (N.nameAt x) = true := by
    intro x hx
    obtain ⟨s, h, rfl⟩ := hdv x hx
    rw [hname s h]; exact ⟨rfl, h⟩
  -- the names of the solved decisions
  have hperm : ((solved.map (fun p => p.1)).map N.nameAt).Perm n.decisions := by
    rw [List.perm_ext_iff_of_nodup]
    · intro s
      rw [List.mem_map, mem_decisions]
      constructor
      · rintro ⟨x, hx, rfl⟩; exact (hback x hx).2
      · intro h
        exact ⟨N.varOf s, o1.symm.subset ((decision_vars hNv hNp hS).2 ⟨s, h, rfl⟩), hname s h⟩
    · refine (List.nodup_map_iff_inj_on o2).2 ?_
      intro x hx y hy e
      rw [← (hback x hx).1, e, (hback y hy).1]
    · exact decisions_nodup hn
  -- each solved policy is what the returned table says
  have htab : ∀ p ∈ solved, ∃ t ∈ tables, t.1 = N.nameAt p.1 ∧ t.2.dims = p.2.2.vars.map n.nameAt ∧
      ∀ w : World, (∀ s ∈ t.2.dims, w s < n.count s) → p.2.2.val (n.ids w) = n.entry t.2 w := by
    intro p hp
    obtain ⟨hb1, hb2⟩ := hback p.1 (List.mem_map_of_mem hp)
    obtain ⟨t, ht, hte⟩ := List.mem_map.1 ((h3 _).2 hb2)
    obtain ⟨q, hq, hqe⟩ := List.mem_map.1 (h8.symm.subset (List.mem_map_of_mem (f := Prod.fst) ht))
    obtain ⟨r, hr, hr1, hr2⟩ := hstore q hq
    have : r = p := List.inj_on_of_nodup_map o2 hr hp (by rw [hr1, hqe, hte, hb1])
    subst this
    rw [hr2]
    exact ⟨t, ht, hte, h9 t ht q hq hqe⟩
  have hdims : ∀ t ∈ tables, ∀ s ∈ t.2.dims, ∃ v ∈ n.stateVars, v.name = s := by
    intro t ht s hst
    have hpt := h4 t ht
    have key : ∀ k, k ≠ NodeType.utility → n.isKind k s = true → ∃ v ∈ n.stateVars, v.name = s := by
      intro k hk h
      obtain ⟨v, hv, e1, e2⟩ := isKind_mem.1 h
      exact ⟨v, mem_stateVars.2 ⟨hv, by rw [e2]; exact hk⟩, e1⟩
    rcases List.mem_append.1 hst with h | h
    · rcases hpt.parents s h with h | h
      · exact key _ (by decide) h
      · exact key _ (by decide) h
    · exact key .decision (by decide) (by rw [List.mem_singleton.1 h, hpt.forVar]; exact hpt.decision)
  have hval : ∀ p ∈ solved, ∀ w, n.Allowed w → p.2.2.val (N.ids w) = n.byTables tables (N.nameAt p.1) w := by
    intro p hp w hw
    obtain ⟨t, ht, hte, _, hv⟩ := htab p hp
    rw [← hte, byTables_eq h2 ht]
    refine hv w (fun s hs => ?_)
    obtain ⟨v, hv, rfl⟩ := hdims t ht s hs
    rw [count_eq hn (mem_stateVars.1 hv).1]
    exact hw v hv
  exact ⟨vs, fs, deps, solved, st', hNv, hNp, hpo, hS, hu, hdo, hac, hsol, hstore, hback, hperm, htab, hval⟩

/-- After `SolvePolicies`, each stored policy is what the returned table says. -/
theorem stored_tables [Field α] [LinearOrder α] [IsStrictOrderedRing α] (sch : NSched α) {n : Net α} (hn : n.Valid)
    (hs : (∃ s, n.isKind .decision s = true) → n.Feasible) {stepwise : Bool} {tables : List (String × NFactor α)}
    {n' : Net α} (h1 : n.solvePolicies sch stepwise = (.ok tables, n')) :
    (n'.policies.map Prod.fst).Perm n.decisions ∧
      ∀ p ∈ n'.policies, ∀ w, n.Allowed w → p.2.val (n.ids w) = n.byTables tables p.1 w := by
  obtain ⟨tables', m', h1', h2, h3, h4, h5, h6, h7, h8, _, h9, _⟩ := solvePolicies_net sch hn hs stepwise
  rw [h1] at h1'
  obtain ⟨e1, rfl⟩ := Prod.mk.inj h1'
  obtain rfl := Except.ok.inj e1
  constructor
  · rw [List.perm_ext_iff_of_nodup (h8.nodup_iff.2 h2) (decisions_nodup hn)]
    intro s
    rw [h8.mem_iff, h3, mem_decisions]
  · intro p hp w hw
    obtain ⟨t, ht, hte⟩ := List.mem_map.1 (h8.subset (List.mem_map_of_mem (f := Prod.fst) hp))
    rw [← hte, byTables_eq h2 ht]
    refine (h9 t ht p hp hte.symm).2 w ?_
    intro s hst
    have hpt := h4 t ht
    have key : ∀ k, k ≠ NodeType.utility → n.isKind k s = true → w s < n.count s := by
      intro k hk h
      obtain ⟨v, hv, rfl, e2⟩ := isKind_mem.1 h
      rw [count_eq hn hv]
      exact hw v (mem_stateVars.2 ⟨hv, by rw [e2]; exact hk⟩)
    rcases List.mem_append.1 hst with h | h
    · rcases hpt.parents s h with h | h
      · exact key _ (by decide) h
      · exact key _ (by decide) h
    · exact key .decision (by decide) (by rw [List.mem_singleton.1 h, hpt.forVar]; exact hpt.decision)

/-- **C84.** After `SolvePolicies`, in both modes, `SolveUtility` reports the expected total utility if every decision is
taken as the returned tables say. -/
theorem C84_utility_after_policies [Field α] [LinearOrder α] [IsStrictOrderedRing α] (sch sch' : NSched α) {n : Net α}
    (hn : n.Valid) (hs : n.Solvable) (stepwise ign : Bool) :
    ∃ tables n' g n'', n.solvePolicies sch stepwise = (.ok tables, n') ∧
      n'.solveUtility sch' [] [] "" ign = (.ok g, n'') ∧ g.data = [n.expectedTotal (n.byTables tables)] := by
  obtain ⟨tables, n', h1, h2, h3, h4, h5, h6, ⟨vs0, names0, pols0, h7⟩, h8, _, _, _⟩ :=
    solvePolicies_net sch hn (fun _ => hs.toFeasible) stepwise
  obtain ⟨hpp, htb⟩ := stored_tables sch hn (fun _ => hs.toFeasible) h1
  refine ⟨tables, n', ?_⟩
  have hvars : n'.variables = n.variables := by rw [h7]
  have hfac : n'.factors = n.factors := by rw [h7]
  have hpolicy : ∀ s, n.isKind .decision s = true → n'.hasPolicy s = true := by
    intro s h
    unfold Net.hasPolicy
    exact mapGet_isSome.2 (h8.symm.subset ((h3 s).2 h))
  have hkind : ∀ k s, n'.isKind k s = n.isKind k s := by intro k s; unfold Net.isKind; rw [hvars]
  obtain ⟨g, n'', k1, k2⟩ := C75_expected_utility sch' h5 h6.toPoliciesOK (evidence := []) ⟨List.nodup_nil, by simp⟩
    (u := "") (.inl ⟨rfl, by rw [h7]; exact hs.utility⟩) ign (by
      intro v hv _
      refine List.mem_filter.2 ⟨hv, ?_⟩
      simp only [decide_eq_true_eq]
      refine ⟨?_, by simp, by simp, ?_⟩
      · obtain ⟨hv1, hv2⟩ := mem_stateVars.1 hv
        cases ht : v.nodeType with
        | chance => exact .inl rfl
        | utility => exact absurd ht hv2
        | decision => exact .inr (hpolicy _ (by rw [isKind_iff hn (by rw [← hvars]; exact hv1)]; exact ht))
      · intro f _ hf1 hf2
        rw [hpolicy f.forVar (by rw [← hkind]; exact hf1)] at hf2
        exact absurd hf2 (by decide))
  refine ⟨g, n'', h1, k1, ?_⟩
  rw [k2]
  congr 1
  have hact : n'.active [] ign = n'.policies := by
    unfold Net.active
    split_ifs
    · simp
    · rfl
  rw [hact]
  unfold Net.total Net.expectedTotal
  have hst : n'.stateVars = n.stateVars := by unfold Net.stateVars; rw [hvars]
  rw [hst]
  apply sumWorlds_congr _ _ (stateVars_names hn)
  intro w hw _
  have hprod : (n'.policies.map (fun p => p.2.val (n.ids w))).prod = (n.decisions.map (fun d => n.byTables tables d w)).prod := by
    rw [← (hpp.map _).prod_eq, List.map_map]
    congr 1
    apply List.map_congr_left
    intro p hp
    exact htb p hp w hw
  have e1 : n'.joint n'.policies w = (n.chanceTables.map (fun f => n.prob f w)).prod *
      (n'.policies.map (fun p => p.2.val (n.ids w))).prod := by
    rw [h7]; rfl
  have e2 : n'.asked "" w = n.totalIn w := by
    rw [h7]; rfl
  dsimp only
  rw [e1, e2, hprod, if_pos (by intro e he; cases he)]
  ring

/-- What matters for more decisions matters for fewer. -/
theorem Net.Matters.mono {n : Net α} {ds ds' : List String} (h : ∀ s, n.Known ds' s → n.Known ds s) {s : String}
    (hm : n.Matters ds s) : n.Matters ds' s := by
  induction hm with
  | utility hf hu ht hs => exact .utility hf hu ht hs
  | chance hf hu hc hk _ hs ih => exact .chance hf hu hc (fun h' => hk (h _ h')) ih hs

/-- What matters for all decisions matters in each order. -/
theorem matters_order {n : Net α} (hm : ∀ d ∈ n.decisions, n.Matters n.decisions d) (order : List String)
    (hp : order.Perm n.decisions) (_ : n.Ordered order) (A : List String) (d : String) (B : List String)
    (hl : order = A ++ d :: B) : n.Matters (A ++ [d]) d := by
  have hsub : ∀ e ∈ A ++ [d], e ∈ n.decisions := fun e he => hp.subset (by
    rw [hl]; simp only [List.mem_append, List.mem_cons, List.not_mem_nil, or_false] at he ⊢; tauto)
  refine (hm d (hsub d (by simp))).mono (fun s h => ?_)
  rcases h with h | ⟨f, hf, h1, h2⟩
  · exact .inl (hsub s h)
  · exact .inr ⟨f, hf, hsub _ h1, h2⟩

/-- All decisions solved together: what each policy uses, in which order. Nothing is assumed about the entries of the
tables, nor that the decisions matter. -/
theorem together_order [Field α] [LinearOrder α] [IsStrictOrderedRing α] (sch : NSched α) {n : Net α} (hn : n.Valid)
    (hs : n.Solvable) (hd : n.decisions ≠ []) {stepwise : Bool} (hone : stepwise = true → n.decisions.length = 1) :
    ∃ tables n' order, n.solvePolicies sch stepwise = (.ok tables, n') ∧ order.Perm n.decisions ∧ n.Ordered order ∧
      (n.Ordered n.decisions → order = n.decisions) ∧
      ∀ A d B, order = A ++ d :: B → n.Strategy A d (n.byTables tables d) ∧
        ∀ t ∈ tables, t.1 = d → ∀ s ∈ t.2.given, n.Known (A ++ [d]) s := by
  obtain ⟨tables, n', h1, h2, h3, h4, h5, h6, ⟨vs0, names0, pols0, h7⟩, h8, _, _, _⟩ :=
    solvePolicies_net sch hn (fun _ => hs.toFeasible) stepwise
  obtain ⟨vs, fs, deps, solved, st', hT⟩ := together sch hn hs hd hone h1
  set N : Net α := { n with policies := [] } with hN
  obtain ⟨hNv, hNp, hpo, hS, hu, hdo, hac, hsol, hstore, hback, hperm, htab, hval⟩ := hT
  obtain ⟨o1, o2, o3⟩ := C28_order (sch.ve 0) hS.problem N.solverWeights hac hsol
  have hname : ∀ s, n.isKind .decision s = true → N.nameAt (N.varOf s) = s :=
    fun s h => nameAt_varOf hNv (decision_isVar hNv h)
  have hsplit : ∀ A p B, solved = A ++ p :: B →
      ((solved.map (fun p => p.1)).map N.nameAt).reverse =
        ((B.map (fun p => p.1)).reverse.map N.nameAt) ++ N.nameAt p.1 :: ((A.map (fun p => p.1)).reverse.map N.nameAt) := by
    intro A p B hl
    rw [hl]; simp
  have hunsplit : ∀ A d B, ((solved.map (fun p => p.1)).map N.nameAt).reverse = A ++ d :: B →
      ∃ A' p B', solved = A' ++ p :: B' ∧ A = (B'.map (fun p => p.1)).reverse.map N.nameAt ∧ d = N.nameAt p.1 := by
    intro A d B hl
    have hl2 : (solved.map (fun p => p.1)).map N.nameAt = B.reverse ++ d :: A.reverse := by
      rw [← List.reverse_reverse (List.map _ _), hl]; simp
    rw [List.map_map] at hl2
    obtain ⟨A', r, hA, _, hr⟩ := List.map_eq_append_iff.1 hl2
    obtain ⟨p, B', hr2, hp2, hB⟩ := List.map_eq_cons_iff.1 hr
    refine ⟨A', p, B', by rw [hA, hr2], ?_, hp2.symm⟩
    rw [← List.reverse_reverse A, ← hB, List.map_reverse, List.map_map]
  -- the declared order
  have hord : n.Ordered ((solved.map (fun p => p.1)).map N.nameAt).reverse := by
    intro A d B hl p hpd
    obtain ⟨A', q, B', hl', rfl, rfl⟩ := hunsplit A d B hl
    have hqm : q ∈ solved := by rw [hl']; simp
    have := o3 (B'.map (fun p => p.1)).reverse q.1 (A'.map (fun p => p.1)).reverse (by rw [hl']; simp) (N.varOf p) (by
      obtain ⟨k1, k2, f, hf, k3, k4⟩ := hpd
      have hb := hback q.1 (List.mem_map_of_mem hqm)
      refine ⟨N.depEntry f, ?_, ?_, List.mem_map_of_mem k4, varOf_decision hNv hNp k1⟩
      · rw [hS.deps_eq]
        refine List.mem_map_of_mem (List.mem_filter.2 ⟨hf, ?_⟩)
        rw [no_policies_open hNp, k3]; exact hb.2
      · show (N.varOf f.forVar).id = q.1.id
        rw [k3, hb.1])
    refine List.mem_map.2 ⟨N.varOf p, this, hname p hpd.1⟩
  -- names of a part of the solved decisions
  have hpart : ∀ l : List (Var × Factor α × Factor α), (∀ p ∈ l, p ∈ solved) →
      (∀ e ∈ (l.map (fun p => p.1)).reverse.map N.nameAt, n.isKind .decision e = true) ∧
      ((l.map (fun p => p.1)).reverse.map N.nameAt).map N.varOf = (l.map (fun p => p.1)).reverse := by
    intro l hl
    constructor
    · intro e he
      obtain ⟨x, hx, rfl⟩ := List.mem_map.1 he
      obtain ⟨p, hp, rfl⟩ := List.mem_map.1 (List.mem_reverse.1 hx)
      exact (hback p.1 (List.mem_map_of_mem (hl p hp))).2
    · rw [List.map_map]
      conv_rhs => rw [← List.map_id (l.map (fun p => p.1)).reverse]
      apply List.map_congr_left
      intro x hx
      obtain ⟨p, hp, rfl⟩ := List.mem_map.1 (List.mem_reverse.1 hx)
      exact (hback p.1 (List.mem_map_of_mem (hl p hp))).1
  have b1 := solver_known (sch.ve 0) hS.problem (fun _ => hu) hdo hac hsol
  refine ⟨tables, n', ((solved.map (fun p => p.1)).map N.nameAt).reverse, h1, (List.reverse_perm _).trans hperm, ?_, ?_, ?_⟩
  · exact hord
  · -- the listed order
    intro ho
    have hl := solver_listed (sch.ve 0) hS.problem N.solverWeights (topo_listed hNv hS ho) hsol
    have hopen : N.openDecisions = n.variables.filter (fun v => v.nodeType = .decision) := by
      unfold Net.openDecisions
      apply List.filter_congr
      intro v _
      simp [Net.hasPolicy, hNp, mapGet]
    rw [if_neg (by simp), decisionVars_open hNv hS, hopen] at hl
    rw [hl, ← List.map_reverse, List.reverse_reverse, List.map_map]
    unfold Net.decisions
    apply List.map_congr_left
    intro v hv
    refine hname v.name (mem_decisions.1 ?_)
    exact List.mem_map_of_mem hv
  · -- strategies
    intro A d B hl
    obtain ⟨A', p, B', hl', rfl, rfl⟩ := hunsplit A d B hl
    have hpm : p ∈ solved := by rw [hl']; simp
    obtain ⟨c3, c4⟩ := b1 A' p B' hl'
    have hsub : ∀ q ∈ B', q ∈ solved := fun q hq => by rw [hl']; simp [hq]
    obtain ⟨e1, e2⟩ := hpart B' hsub
    have hb := hback p.1 (List.mem_map_of_mem hpm)
    have hkn : ∀ v ∈ p.2.2.vars, v ∈ vs.variables ∧
        Known deps (((B'.map (fun p => p.1)).reverse.map N.nameAt ++ [N.nameAt p.1]).map N.varOf) v := by
      intro v hv
      obtain ⟨k1, k2⟩ := c3 v hv
      refine ⟨k1, Known.mono ?_ k2⟩
      rw [List.map_append, e2, List.map_singleton, hb.1]
      intro x hx
      simp only [List.mem_cons, List.mem_append, List.mem_reverse, List.not_mem_nil, or_false] at hx ⊢
      exact hx.symm
    refine ⟨?_, ?_⟩
    · have := policy_strategy hNv hNp hS (ds := (B'.map (fun p => p.1)).reverse.map N.nameAt) (d := N.nameAt p.1)
        e1 hb.2 hkn (by rw [e2, hb.1]; exact c4)
      have h' : n.Strategy ((B'.map (fun p => p.1)).reverse.map N.nameAt) (N.nameAt p.1) (fun w => p.2.2.val (N.ids w)) :=
        ⟨this.nonneg, this.one, this.known⟩
      exact h'.congr hn (fun w hw => (hval p hpm w hw).symm)
    · intro t ht hte s hs
      obtain ⟨t', ht', hte', hdm, _⟩ := htab p hpm
      have : t = t' := List.inj_on_of_nodup_map h2 ht ht' (by rw [hte, hte'])
      subst this
      have hsm : s ∈ t.2.dims := by simp [NFactor.dims, hs]
      rw [hdm] at hsm
      obtain ⟨x, hx, rfl⟩ := List.mem_map.1 hsm
      obtain ⟨k1, k2⟩ := hkn x hx
      obtain ⟨u, a1, a2, a3⟩ := hS.vars.mem.1 k1
      have e : x = N.varOf u.name := by rw [varOf_eq hNv a1 (fun e => a2 e.symm)]; exact a3
      have hvar : N.IsVar u.name := ⟨x.id, u, a1, rfl, fun e => a2 e.symm⟩
      have hnu : n.nameAt x = u.name := nameAt_eq a1
      rw [hnu]
      rw [e] at k2
      refine (known_iff hNv hNp hS ?_ hvar).1 k2
      intro e he
      rcases List.mem_append.1 he with he | he
      · exact e1 e he
      · rw [List.mem_singleton.1 he]; exact hb.2

/-- **C81**, in detail. If all decisions are solved together, or there is only one: the returned policies are strategies in some
order of the decisions that respects their declared order, and is the listed order if this respects the declared one, each using only what is known by then. No other such
strategies, also randomised ones, have a higher expected total utility. And what `SolveUtility` reports afterwards is
this highest expected utility. For every iteration order of every map. -/
theorem C81_listed [Field α] [LinearOrder α] [IsStrictOrderedRing α] (sch sch' : NSched α) {n : Net α} (hn : n.Valid)
    (hs : n.Solvable) (hd : n.decisions ≠ []) (hnn : ∀ f ∈ n.chanceTables, ∀ x ∈ f.tab, 0 ≤ x)
    (hm : ∀ order, order.Perm n.decisions → n.Ordered order → ∀ A d B, order = A ++ d :: B → n.Matters (A ++ [d]) d)
    {stepwise : Bool}
    (hone : stepwise = true → n.decisions.length = 1) (ign : Bool) :
    ∃ tables n' order, n.solvePolicies sch stepwise = (.ok tables, n') ∧ order.Perm n.decisions ∧ n.Ordered order ∧
      (n.Ordered n.decisions → order = n.decisions) ∧
      (∀ A d B, order = A ++ d :: B → n.Strategy A d (n.byTables tables d) ∧
        ∀ t ∈ tables, t.1 = d → ∀ s ∈ t.2.given, n.Known (A ++ [d]) s) ∧
      (∀ δ : String → World → α, (∀ A d B, order = A ++ d :: B → n.Strategy A d (δ d)) →
        n.expectedTotal δ ≤ n.expectedTotal (n.byTables tables)) ∧
      ∃ g n'', n'.solveUtility sch' [] [] "" ign = (.ok g, n'') ∧ g.data = [n.expectedTotal (n.byTables tables)] := by
  obtain ⟨tables, n', h1, h2, h3, h4, h5, h6, ⟨vs0, names0, pols0, h7⟩, h8, _, _, _⟩ :=
    solvePolicies_net sch hn (fun _ => hs.toFeasible) stepwise
  obtain ⟨vs, fs, deps, solved, st', hT⟩ := together sch hn hs hd hone h1
  set N : Net α := { n with policies := [] } with hN
  obtain ⟨hNv, hNp, hpo, hS, hu, hdo, hac, hsol, hstore, hback, hperm, htab, hval⟩ := hT
  obtain ⟨o1, o2, o3⟩ := C28_order (sch.ve 0) hS.problem N.solverWeights hac hsol
  have hname : ∀ s, n.isKind .decision s = true → N.nameAt (N.varOf s) = s :=
    fun s h => nameAt_varOf hNv (decision_isVar hNv h)
  have hsplit : ∀ A p B, solved = A ++ p :: B →
      ((solved.map (fun p => p.1)).map N.nameAt).reverse =
        ((B.map (fun p => p.1)).reverse.map N.nameAt) ++ N.nameAt p.1 :: ((A.map (fun p => p.1)).reverse.map N.nameAt) := by
    intro A p B hl
    rw [hl]; simp
  have hunsplit : ∀ A d B, ((solved.map (fun p => p.1)).map N.nameAt).reverse = A ++ d :: B →
      ∃ A' p B', solved = A' ++ p :: B' ∧ A = (B'.map (fun p => p.1)).reverse.map N.nameAt ∧ d = N.nameAt p.1 := by
    intro A d B hl
    have hl2 : (solved.map (fun p => p.1)).map N.nameAt = B.reverse ++ d :: A.reverse := by
      rw [← List.reverse_reverse (List.map _ _), hl]; simp
    rw [List.map_map] at hl2
    obtain ⟨A', r, hA, _, hr⟩ := List.map_eq_append_iff.1 hl2
    obtain ⟨p, B', hr2, hp2, hB⟩ := List.map_eq_cons_iff.1 hr
    refine ⟨A', p, B', by rw [hA, hr2], ?_, hp2.symm⟩
    rw [← List.reverse_reverse A, ← hB, List.map_reverse, List.map_map]
  -- the declared order
  have hord : n.Ordered ((solved.map (fun p => p.1)).map N.nameAt).reverse := by
    intro A d B hl p hpd
    obtain ⟨A', q, B', hl', rfl, rfl⟩ := hunsplit A d B hl
    have hqm : q ∈ solved := by rw [hl']; simp
    have := o3 (B'.map (fun p => p.1)).reverse q.1 (A'.map (fun p => p.1)).reverse (by rw [hl']; simp) (N.varOf p) (by
      obtain ⟨k1, k2, f, hf, k3, k4⟩ := hpd
      have hb := hback q.1 (List.mem_map_of_mem hqm)
      refine ⟨N.depEntry f, ?_, ?_, List.mem_map_of_mem k4, varOf_decision hNv hNp k1⟩
      · rw [hS.deps_eq]
        refine List.mem_map_of_mem (List.mem_filter.2 ⟨hf, ?_⟩)
        rw [no_policies_open hNp, k3]; exact hb.2
      · show (N.varOf f.forVar).id = q.1.id
        rw [k3, hb.1])
    refine List.mem_map.2 ⟨N.varOf p, this, hname p hpd.1⟩
  -- names of a part of the solved decisions
  have hpart : ∀ l : List (Var × Factor α × Factor α), (∀ p ∈ l, p ∈ solved) →
      (∀ e ∈ (l.map (fun p => p.1)).reverse.map N.nameAt, n.isKind .decision e = true) ∧
      ((l.map (fun p => p.1)).reverse.map N.nameAt).map N.varOf = (l.map (fun p => p.1)).reverse := by
    intro l hl
    constructor
    · intro e he
      obtain ⟨x, hx, rfl⟩ := List.mem_map.1 he
      obtain ⟨p, hp, rfl⟩ := List.mem_map.1 (List.mem_reverse.1 hx)
      exact (hback p.1 (List.mem_map_of_mem (hl p hp))).2
    · rw [List.map_map]
      conv_rhs => rw [← List.map_id (l.map (fun p => p.1)).reverse]
      apply List.map_congr_left
      intro x hx
      obtain ⟨p, hp, rfl⟩ := List.mem_map.1 (List.mem_reverse.1 hx)
      exact (hback p.1 (List.mem_map_of_mem (hl p hp))).1
  obtain ⟨b1, b2⟩ := solvePolicies_best (sch.ve 0) hS.problem hu hdo hac (by
      intro f hf hu
      rw [List.append_nil] at hf
      exact tables_nonneg hNv hS hnn hf hu) hsol (by
    intro A p B hl
    have hpm : p ∈ solved := by rw [hl]; simp
    obtain ⟨c1, c2⟩ := hpart (B ++ [p]) (by
      intro q hq
      rw [hl]
      simp only [List.mem_append, List.mem_cons] at hq ⊢
      tauto)
    have hb := hback p.1 (List.mem_map_of_mem hpm)
    have hmat : ∀ ds s, n.Matters ds s → N.Matters ds s := by
      intro ds s h
      induction h with
      | utility hf hu ht hs => exact .utility hf hu ht hs
      | chance hf hu hc hk _ hs ih => exact .chance hf hu hc hk ih hs
    have hl1 := linked_of hNv hNp hS (ds := ((B ++ [p]).map (fun p => p.1)).reverse.map N.nameAt) c1
      (by intro d hd; simp only [List.map_append, List.map_cons, List.map_nil, List.reverse_append, List.reverse_cons,
            List.reverse_nil, List.nil_append, List.cons_append, List.mem_cons, List.mem_append, List.not_mem_nil,
            or_false] at hd ⊢
          exact hd.symm)
      (hmat _ _ (hm _ ((List.reverse_perm _).trans hperm) hord _ _ _ (hsplit A p B hl)))
    rw [c2, hb.1] at hl1
    have : (fun i => Unknown vs.variables deps ((B ++ [p]).map (fun p => p.1)).reverse i) =
        Unknown vs.variables deps (p.1 :: B.map (fun p => p.1)) := by
      funext i
      unfold Unknown
      have : ∀ v, Known deps ((B ++ [p]).map (fun p => p.1)).reverse v ↔ Known deps (p.1 :: B.map (fun p => p.1)) v :=
        fun v => ⟨Known.mono (by intro x hx; simpa using hx), Known.mono (by intro x hx; simpa using hx)⟩
      simp only [this]
    rw [← this]
    exact hl1)
  have hG : ∀ w, n.Allowed w → ∀ F : String → α, (solved.map (fun p => F (N.nameAt p.1))).prod = (n.decisions.map F).prod := by
    intro w _ F
    rw [← (hperm.map F).prod_eq, List.map_map, List.map_map]; rfl
  have hexp : N.expectedTotal (n.byTables tables) = n.expectedTotal (n.byTables tables) := rfl
  have hsum : sumOver (vs.variables.filter (fun v => v.nodeType ≠ .utility)) (fun τ =>
      joint ((fs ++ []).filter (fun f => !f.isUtility)) τ * totalUtility vs.variables (fs ++ []) N.solverWeights τ *
        (solved.map (fun p => p.2.2.val τ)).prod) (fun _ => 0) = n.expectedTotal (n.byTables tables) := by
    rw [← hexp]
    refine expected_world hNv hS (G := fun τ => (solved.map (fun p => p.2.2.val τ)).prod) ?_ hpo
    intro w hw
    show _ = (n.decisions.map (fun d => n.byTables tables d w)).prod
    rw [← hG w hw (fun d => n.byTables tables d w)]
    congr 1
    apply List.map_congr_left
    intro p hp
    exact hval p hp w hw
  refine ⟨tables, n', ((solved.map (fun p => p.1)).map N.nameAt).reverse, h1, (List.reverse_perm _).trans hperm, ?_, ?_, ?_, ?_, ?_⟩
  · exact hord
  · -- the listed order
    intro ho
    have hl := solver_listed (sch.ve 0) hS.problem N.solverWeights (topo_listed hNv hS ho) hsol
    have hopen : N.openDecisions = n.variables.filter (fun v => v.nodeType = .decision) := by
      unfold Net.openDecisions
      apply List.filter_congr
      intro v _
      simp [Net.hasPolicy, hNp, mapGet]
    rw [if_neg (by simp), decisionVars_open hNv hS, hopen] at hl
    rw [hl, ← List.map_reverse, List.reverse_reverse, List.map_map]
    unfold Net.decisions
    apply List.map_congr_left
    intro v hv
    refine hname v.name (mem_decisions.1 ?_)
    exact List.mem_map_of_mem hv
  · -- strategies
    intro A d B hl
    obtain ⟨A', p, B', hl', rfl, rfl⟩ := hunsplit A d B hl
    have hpm : p ∈ solved := by rw [hl']; simp
    obtain ⟨_, _, c3, c4⟩ := b1 A' p B' hl'
    have hsub : ∀ q ∈ B', q ∈ solved := fun q hq => by rw [hl']; simp [hq]
    obtain ⟨e1, e2⟩ := hpart B' hsub
    have hb := hback p.1 (List.mem_map_of_mem hpm)
    have hkn : ∀ v ∈ p.2.2.vars, v ∈ vs.variables ∧
        Known deps (((B'.map (fun p => p.1)).reverse.map N.nameAt ++ [N.nameAt p.1]).map N.varOf) v := by
      intro v hv
      obtain ⟨k1, k2⟩ := c3 v hv
      refine ⟨k1, Known.mono ?_ k2⟩
      rw [List.map_append, e2, List.map_singleton, hb.1]
      intro x hx
      simp only [List.mem_cons, List.mem_append, List.mem_reverse, List.not_mem_nil, or_false] at hx ⊢
      exact hx.symm
    refine ⟨?_, ?_⟩
    · have := policy_strategy hNv hNp hS (ds := (B'.map (fun p => p.1)).reverse.map N.nameAt) (d := N.nameAt p.1)
        e1 hb.2 hkn (by rw [e2, hb.1]; exact c4)
      have h' : n.Strategy ((B'.map (fun p => p.1)).reverse.map N.nameAt) (N.nameAt p.1) (fun w => p.2.2.val (N.ids w)) :=
        ⟨this.nonneg, this.one, this.known⟩
      exact h'.congr hn (fun w hw => (hval p hpm w hw).symm)
    · intro t ht hte s hs
      obtain ⟨t', ht', hte', hdm, _⟩ := htab p hpm
      have : t = t' := List.inj_on_of_nodup_map h2 ht ht' (by rw [hte, hte'])
      subst this
      have hsm : s ∈ t.2.dims := by simp [NFactor.dims, hs]
      rw [hdm] at hsm
      obtain ⟨x, hx, rfl⟩ := List.mem_map.1 hsm
      obtain ⟨k1, k2⟩ := hkn x hx
      obtain ⟨u, a1, a2, a3⟩ := hS.vars.mem.1 k1
      have e : x = N.varOf u.name := by rw [varOf_eq hNv a1 (fun e => a2 e.symm)]; exact a3
      have hvar : N.IsVar u.name := ⟨x.id, u, a1, rfl, fun e => a2 e.symm⟩
      have hnu : n.nameAt x = u.name := nameAt_eq a1
      rw [hnu]
      rw [e] at k2
      refine (known_iff hNv hNp hS ?_ hvar).1 k2
      intro e he
      rcases List.mem_append.1 he with he | he
      · exact e1 e he
      · rw [List.mem_singleton.1 he]; exact hb.2
  · -- nothing is better
    intro δ hδ
    have hz : Fits (fun _ => 0) vs.variables := fun v hv => hdo.outcomes v hv
    have := b2 (fun x σ => δ (N.nameAt x) (N.worldOf σ)) (by
      intro A p B hl
      obtain ⟨e1, e2⟩ := hpart B (fun q hq => by rw [hl]; simp [hq])
      have hb := hback p.1 (List.mem_map_of_mem (by rw [hl]; simp))
      have hst := hδ _ _ _ (hsplit A p B hl)
      have := strategy_policy hNv hNp hS e1 hb.2 (δ := δ (N.nameAt p.1)) ⟨hst.nonneg, hst.one, hst.known⟩
      rw [e2, hb.1] at this
      exact this) (fun _ => 0) hz (utility_zero hu hz)
    rw [hsum] at this
    refine le_trans (le_of_eq ?_) this
    symm
    refine expected_world hNv hS (δ := δ) (G := fun τ => (solved.map (fun p => δ (N.nameAt p.1) (N.worldOf τ))).prod) ?_ hpo
    intro w hw
    show _ = (n.decisions.map (fun d => δ d w)).prod
    rw [← hG w hw (fun d => δ d w)]
    congr 1
    apply List.map_congr_left
    intro p hp
    obtain ⟨A, B, hl⟩ := List.append_of_mem hp
    have hst := hδ _ _ _ (hsplit A p B hl)
    obtain ⟨e1, _⟩ := hpart B (fun q hq => by rw [hl]; simp [hq])
    refine hst.known _ _ (worldOf_fits hNv _) hw (fun s hk => ?_)
    obtain ⟨v, hv, rfl⟩ := known_isVar hn (by
      intro e he
      rcases List.mem_append.1 he with he | he
      · exact e1 e he
      · rw [List.mem_singleton.1 he]; exact (hback p.1 (List.mem_map_of_mem hp)).2) hk
    exact worldOf_ids hNv hw hv
  · -- what is reported afterwards
    obtain ⟨t2, m2, g, n'', k1, k2, k3⟩ := C84_utility_after_policies sch sch' hn hs stepwise ign
    rw [h1] at k1
    obtain ⟨e1, rfl⟩ := Prod.mk.inj k1
    obtain rfl := Except.ok.inj e1
    exact ⟨g, n'', k2, k3⟩

/-- **C81.** If all decisions are solved together, or there is only one: the returned policies are strategies in some
order of the decisions that respects their declared order, each using only what is known by then. No other such
strategies, also randomised ones, have a higher expected total utility. And what `SolveUtility` reports afterwards is
this highest expected utility. For every iteration order of every map. -/
theorem C81_optimal [Field α] [LinearOrder α] [IsStrictOrderedRing α] (sch sch' : NSched α) {n : Net α} (hn : n.Valid)
    (hs : n.Solvable) (hd : n.decisions ≠ []) (hnn : ∀ f ∈ n.chanceTables, ∀ x ∈ f.tab, 0 ≤ x)
    (hm : ∀ order, order.Perm n.decisions → n.Ordered order → ∀ A d B, order = A ++ d :: B → n.Matters (A ++ [d]) d)
    {stepwise : Bool}
    (hone : stepwise = true → n.decisions.length = 1) (ign : Bool) :
    ∃ tables n' order, n.solvePolicies sch stepwise = (.ok tables, n') ∧ order.Perm n.decisions ∧ n.Ordered order ∧
      (∀ A d B, order = A ++ d :: B → n.Strategy A d (n.byTables tables d) ∧
        ∀ t ∈ tables, t.1 = d → ∀ s ∈ t.2.given, n.Known (A ++ [d]) s) ∧
      (∀ δ : String → World → α, (∀ A d B, order = A ++ d :: B → n.Strategy A d (δ d)) →
        n.expectedTotal δ ≤ n.expectedTotal (n.byTables tables)) ∧
      ∃ g n'', n'.solveUtility sch' [] [] "" ign = (.ok g, n'') ∧ g.data = [n.expectedTotal (n.byTables tables)] := by
  obtain ⟨tables, n', order, h1, h2, h3, _, h4⟩ := C81_listed sch sch' hn hs hd hnn hm hone ign
  exact ⟨tables, n', order, h1, h2, h3, h4⟩

/-- **C82.** If all decisions are solved together, or there is only one: the policy of the decision taken last puts
probability only on best outcomes. In every world, also in one that is not to be expected under the policies, another
outcome of the decision is not worth more. -/
theorem C82_best_response [Field α] [LinearOrder α] [IsStrictOrderedRing α] (sch : NSched α) {n : Net α} (hn : n.Valid)
    (hs : n.Solvable) (hd : n.decisions ≠ []) (hnn : ∀ f ∈ n.chanceTables, ∀ x ∈ f.tab, 0 ≤ x)
    (hm : ∀ d ∈ n.decisions, n.Matters n.decisions d) {stepwise : Bool}
    (hone : stepwise = true → n.decisions.length = 1) :
    ∃ tables n' d t, n.solvePolicies sch stepwise = (.ok tables, n') ∧ (d, t) ∈ tables ∧
      (∀ e, ¬ n.DecisionParent d e) ∧
      ∀ w : World, (∀ v ∈ n.variables, w v.name < v.outcomes.length) → n.entry t w ≠ 0 → ∀ k < n.count d,
        n.worth n.decisions (w.set d k) ≤ n.worth n.decisions w := by
  obtain ⟨tables, n', h1, h2, h3, h4, _⟩ := solvePolicies_net sch hn (fun _ => hs.toFeasible) stepwise
  obtain ⟨vs, fs, deps, solved, st', hT⟩ := together sch hn hs hd hone h1
  set N : Net α := { n with policies := [] } with hN
  obtain ⟨hNv, hNp, hpo, hS, hu, hdo, hac, hsol, hstore, hback, hperm, htab, hval⟩ := hT
  have hkind : ∀ d ∈ n.decisions, N.isKind .decision d = true := fun d hd => mem_decisions.1 hd
  have hall : (decisionVars vs.variables).Perm (n.decisions.map N.varOf) := by
    obtain ⟨o1, o2, _⟩ := C28_order (sch.ve 0) hS.problem N.solverWeights hac hsol
    refine o1.symm.trans ?_
    have := hperm.map N.varOf
    rw [List.map_map] at this
    refine List.Perm.trans (List.Perm.of_eq ?_) this
    conv_lhs => rw [← List.map_id (solved.map (fun p => p.1))]
    apply List.map_congr_left
    intro x hx
    exact (hback x hx).1.symm
  have hun : unseen vs.variables deps (decisionVars vs.variables) = unseen vs.variables deps (n.decisions.map N.varOf) := by
    unfold unseen
    apply List.filter_congr
    intro v _
    have : Known deps (decisionVars vs.variables) v ↔ Known deps (n.decisions.map N.varOf) v :=
      ⟨Known.mono (fun x hx => hall.subset hx), Known.mono (fun x hx => hall.symm.subset hx)⟩
    simp only [this]
  match hsv : solved, hsol, hback, hperm, htab, hval with
  | [], _, _, hperm, _, _ =>
    simp only [List.map_nil, List.nil_perm] at hperm
    exact absurd hperm hd
  | p :: ps, hsol, hback, hperm, htab, hval =>
    obtain ⟨hb1, hb2⟩ := hback p.1 (by simp)
    have hlink : Linked (fs ++ []) (fun i => ∃ v ∈ unseen vs.variables deps (decisionVars vs.variables), v.id = i) p.1.id := by
      have hmat : ∀ s, n.Matters n.decisions s → N.Matters n.decisions s := by
        intro s h
        induction h with
        | utility hf hu ht hs => exact .utility hf hu ht hs
        | chance hf hu hc hk _ hs ih => exact .chance hf hu hc hk ih hs
      have := linked_gen hNv hS (H := fun i => ∃ v ∈ unseen vs.variables deps (decisionVars vs.variables), v.id = i)
        (all := n.decisions) ?_ (hmat _ (hm _ (mem_decisions.2 hb2)))
      · rw [hb1] at this; exact this
      · intro f hf u hu huv hc hk
        refine ⟨N.varOf u, ?_, rfl⟩
        rw [hun]
        obtain ⟨v, hv, rfl, hvt⟩ := isKind_mem.1 hc
        refine (unseen_vars hNv hNp hS hkind).symm.subset (List.mem_map_of_mem (f := fun v : NVar => N.varOf v.name)
          (List.mem_filter.2 ⟨hv, ?_⟩))
        simp only [decide_eq_true_eq]
        exact ⟨hvt, hk⟩
    obtain ⟨c1, c2, c3⟩ := solvePolicies_first (sch.ve 0) hS.problem hu hdo hac (by
      intro f hf hu
      rw [List.append_nil] at hf
      exact tables_nonneg hNv hS hnn hf hu) (single := false) hsol rfl hlink
    obtain ⟨t, ht, hte, hdm, hv⟩ := htab p (by simp)
    refine ⟨tables, n', N.nameAt p.1, t.2, h1, by rw [← hte]; exact ht, ?_, ?_⟩
    · intro e ⟨k1, k2, f, hf, k3, k4⟩
      refine c2 (N.varOf e) ((decision_vars hNv hNp hS).2 ⟨e, k2, rfl⟩) ⟨N.depEntry f, ?_, ?_, ?_, ?_⟩
      · rw [hS.deps_eq]
        refine List.mem_map_of_mem (List.mem_filter.2 ⟨hf, ?_⟩)
        rw [no_policies_open hNp, k3]; exact k2
      · show (N.varOf f.forVar).id = _
        rw [k3]
      · rw [← hb1]; exact List.mem_map_of_mem k4
      · rw [← hb1]; exact varOf_decision hNv hNp hb2
    · intro w hw hne k hk
      have hvar := decision_isVar hNv hb2
      have hfits : Fits (N.ids w) vs.variables := fits_solver hS.vars hw (fun _ h => h)
      have hinr : n.Allowed w := fun v hv => hw v (mem_stateVars.1 hv).1
      have := c3 (N.ids w) hfits (utility_zero hu hfits) (by
        rw [hval p (by simp) w hinr, ← hte, byTables_eq h2 ht]
        exact hne) k (by
        rw [← hb1, hvar.outcomes hNv]; exact hk)
      simp only [Bool.false_eq_true, if_false] at this
      rw [hun] at this
      rw [← hb1, ← ids_set hNv hvar] at this
      have hw2 : N.FitsAll (w.set (N.nameAt p.1) k) := by
        intro v hv
        unfold World.set
        split_ifs with e
        · rw [← count_eq hNv hv, e]; exact hk
        · exact hw v hv
      rw [worth_world hNv hNp hS hkind hpo hw2, worth_world hNv hNp hS hkind hpo hw] at this
      exact this

/-- The umbrella decision matters: it is a parent of the comfort. -/
theorem Ex.umb_matters : ∀ d ∈ Ex.umb.decisions, Ex.umb.Matters Ex.umb.decisions d := by
  intro d hd
  have : Ex.umb.decisions = ["Umbrella"] := by decide
  rw [this, List.mem_singleton] at hd
  rw [hd]
  exact .utility (f := ⟨"Effort", ["Umbrella"], some [0, -5], [2], 1⟩) (by decide) (by decide) (by decide) (by decide)

/-- A case: after solving the policies of the umbrella network, `SolveUtility` reports at least what is to be expected
if one never takes the umbrella, which is 70. -/
example (sch sch' : NSched ℚ) : ∃ tables n' g n'' x, Ex.umb.solvePolicies sch true = (.ok tables, n') ∧
    n'.solveUtility sch' [] [] "" false = (.ok g, n'') ∧ g.data = [x] ∧ 70 ≤ x := by
  obtain ⟨tables, n', order, h1, h2, _, _, h5, g, n'', h6, h7⟩ := C81_optimal sch sch' Ex.umb_valid Ex.umb_solvable
    (by decide) (by decide) (matters_order Ex.umb_matters) (stepwise := true) (fun _ => by decide) false
  refine ⟨tables, n', g, n'', _, h1, h6, h7, ?_⟩
  have := h5 (fun _ w => if w "Umbrella" = 0 then 1 else 0) (by
    intro A d B hl
    have hd : d = "Umbrella" := by
      have : d ∈ Ex.umb.decisions := h2.subset (by rw [hl]; simp)
      have e : Ex.umb.decisions = ["Umbrella"] := by decide
      rwa [e, List.mem_singleton] at this
    subst hd
    refine ⟨?_, ?_, ?_⟩
    · intro w _; split <;> decide
    · intro w _
      have : Ex.umb.count "Umbrella" = 2 := by decide
      rw [this]
      simp [World.set]
    · intro w w' _ _ h
      rw [h "Umbrella" (.inl (by simp))])
  refine le_trans ?_ this
  decide +kernel

/-- A case: with a bad forecast, the umbrella network's policy never leaves the umbrella at home. -/
example (sch : NSched ℚ) : ∃ tables n' t, Ex.umb.solvePolicies sch true = (.ok tables, n') ∧ ("Umbrella", t) ∈ tables ∧
    Ex.umb.entry t (fun s => if s = "Forecast" then 1 else 0) = 0 := by
  obtain ⟨tables, n', d, t, h1, h2, _, h3⟩ := C82_best_response sch Ex.umb_valid Ex.umb_solvable
    (by decide) (by decide) Ex.umb_matters (stepwise := true) (fun _ => by decide)
  obtain ⟨_, _, k1, _, k2, _⟩ := C46_policy_tables sch Ex.umb_valid (fun _ => Ex.umb_solvable.toFeasible) true
  rw [h1] at k1
  obtain ⟨e1, rfl⟩ := Prod.mk.inj k1
  obtain rfl := Except.ok.inj e1
  have hd : d = "Umbrella" := by
    have : d ∈ Ex.umb.decisions := mem_decisions.2 ((k2 d).1 (List.mem_map_of_mem (f := Prod.fst) h2))
    have e : Ex.umb.decisions = ["Umbrella"] := by decide
    rwa [e, List.mem_singleton] at this
  subst hd
  refine ⟨tables, n', t, h1, h2, ?_⟩
  by_contra hne
  have := h3 _ (by decide) hne 1 (by decide)
  revert this
  decide +kernel

/-! ## What a policy depends on -/

/-- **C80, what holds.** Each returned policy depends only on decisions and on what is known to a decision; if the
decisions are solved one at a time, on what is known to its own decision. (Missing: it may depend on decisions that
are not known to its own decision.) -/
theorem C80_partial [Field α] [LinearOrder α] [IsStrictOrderedRing α] (sch : NSched α) {n : Net α} (hn : n.Valid)
    (hs : (∃ s, n.isKind .decision s = true) → n.Feasible) (stepwise : Bool) :
    ∃ tables n', n.solvePolicies sch stepwise = (.ok tables, n') ∧ ∀ t ∈ tables, ∀ s ∈ t.2.given,
      n.isKind .decision s = true ∨
      ∃ f ∈ n.factors, n.isKind .decision f.forVar = true ∧ (stepwise = true → f.forVar = t.1) ∧ s ∈ f.given := by
  obtain ⟨tables, n', h1, h2, h3, h4, h5, h6, h7, h8, _, h9, h10⟩ := solvePolicies_net sch hn hs stepwise
  refine ⟨tables, n', h1, ?_⟩
  intro t ht s hs
  obtain ⟨p, hp, hpe⟩ := List.mem_map.1 (h8.symm.subset (List.mem_map_of_mem (f := Prod.fst) ht))
  have hsm : s ∈ t.2.dims := by simp [NFactor.dims, hs]
  rw [(h9 t ht p hp hpe).1] at hsm
  obtain ⟨x, hx, rfl⟩ := List.mem_map.1 hsm
  rw [← hpe]
  exact h10 p hp x hx

/-- **C80 for one decision.** The policy of the only decision depends only on the decision's parents. -/
theorem C80_one_decision [Field α] [LinearOrder α] [IsStrictOrderedRing α] (sch : NSched α) {n : Net α} (hn : n.Valid)
    (hs : n.Feasible) {d : String} (hd : n.decisions = [d]) (stepwise : Bool) :
    ∃ t n', n.solvePolicies sch stepwise = (.ok [(d, t)], n') ∧
      ∀ s ∈ t.given, ∃ f ∈ n.factors, f.forVar = d ∧ s ∈ f.given := by
  obtain ⟨tables, n', h1, h2⟩ := C80_partial sch hn (fun _ => hs) stepwise
  obtain ⟨_, _, k1, k2, k3, k4, _⟩ := C46_policy_tables sch hn (fun _ => hs) stepwise
  rw [h1] at k1
  obtain ⟨e1, rfl⟩ := Prod.mk.inj k1
  obtain rfl := Except.ok.inj e1
  have hone : ∀ s, n.isKind .decision s = true → s = d := by
    intro s h
    have := mem_decisions.2 h
    rwa [hd, List.mem_singleton] at this
  have hk : tables.map Prod.fst = [d] := by
    rw [← List.perm_singleton, List.perm_ext_iff_of_nodup k2 (by simp)]
    intro s
    rw [k3, ← mem_decisions, hd]
  match tables, hk, h1, h2, k4 with
  | [(e, t)], hk, h1, h2, k4 =>
    simp only [List.map_cons, List.map_nil, List.cons.injEq, and_true] at hk
    subst hk
    refine ⟨t, n', h1, fun s hs => ?_⟩
    rcases h2 (e, t) (by simp) s hs with h | ⟨f, hf, h3, _, h4⟩
    · have hpt := k4 _ (List.mem_singleton_self _)
      have hnd := hpt.dims
      unfold NFactor.dims at hnd
      rw [List.nodup_append] at hnd
      exact absurd ((hone s h).trans hpt.forVar.symm) (hnd.2.2 s hs t.forVar (by simp))
    · exact ⟨f, hf, hone _ h3, h4⟩

/-- A case: the umbrella policy depends on nothing but the forecast. -/
example (sch : NSched ℚ) : ∃ t n', Ex.umb.solvePolicies sch true = (.ok [("Umbrella", t)], n') ∧
    ∀ s ∈ t.given, s = "Forecast" := by
  obtain ⟨t, n', h1, h2⟩ := C80_one_decision sch Ex.umb_valid Ex.umb_solvable.toFeasible (d := "Umbrella") (by decide) true
  refine ⟨t, n', h1, fun s hs => ?_⟩
  obtain ⟨f, hf, h3, h4⟩ := h2 s hs
  have : ∀ f ∈ Ex.umb.factors, f.forVar = "Umbrella" → ∀ s ∈ f.given, s = "Forecast" := by decide
  exact this f hf h3 s h4

namespace Ex

/-- Two people who do not see each other choose a side, and are happy if they choose the same. -/
def sides : Net ℚ where
  name := "sides"
  info := ""
  «variables» := [⟨"Ann", .decision, ["left", "right"], (0, 0), "", some 0⟩,
    ⟨"Bob", .decision, ["left", "right"], (0, 0), "", some 1⟩, ⟨"Joy", .utility, ["joy"], (0, 0), "", some 2⟩]
  factors := [⟨"Ann", [], none, [], 2⟩, ⟨"Bob", [], none, [], 2⟩, ⟨"Joy", ["Ann", "Bob"], some [1, 0, 0, 1], [2, 2], 1⟩]
  policies := []
  vs := none
  names := []
  totalUtility := none

theorem sides_new : newNet "sides" "" [nv "Ann" .decision ["left", "right"], nv "Bob" .decision ["left", "right"],
    nv "Joy" .utility ["joy"]] [⟨"Ann", [], none, [], 0⟩, ⟨"Bob", [], none, [], 0⟩,
    nf "Joy" ["Ann", "Bob"] [1, 0, 0, 1]] = .ok sides := rfl

theorem sides_valid : sides.Valid where
  names := by decide
  named := by decide
  few := by decide
  outcomes := by decide
  tables := by decide
  hasTable := by decide
  known := by decide
  dims := by decide
  parents := by decide
  size := by
    intro f hf h1 h2
    simp only [sides, List.mem_cons, List.not_mem_nil, or_false] at hf
    rcases hf with rfl | rfl | rfl
    · exact absurd h2 (by decide)
    · exact absurd h2 (by decide)
    · exact ⟨_, rfl, by decide⟩
  single := by decide
  weights := by intro i h; cases h

theorem sides_solvable : sides.Solvable where
  utility := by decide
  used := by decide
  acyclic := by
    have hno : ∀ p d, ¬ sides.DecisionParent p d := by
      rintro p d ⟨h1, h2, f, hf, rfl, h3⟩
      have : ∀ f ∈ sides.factors, sides.isKind .decision f.forVar = true → f.given = [] := by decide
      rw [this f hf h2] at h3
      cases h3
    intro s h
    obtain ⟨_, h, _⟩ := Relation.TransGen.head'_iff.1 h
    exact hno _ _ h

theorem sides_matters : ∀ d ∈ sides.decisions, sides.Matters sides.decisions d := by
  intro d hd
  refine .utility (f := ⟨"Joy", ["Ann", "Bob"], some [1, 0, 0, 1], [2, 2], 1⟩) (by decide) (by decide) (by decide) ?_
  revert d
  decide

end Ex

theorem entry_agree [Zero α] {n : Net α} {f : NFactor α} {w w' : World} (h : ∀ s ∈ f.dims, w s = w' s) :
    n.entry f w = n.entry f w' := by
  unfold Net.entry
  congr 2
  apply List.map_congr_left
  intro s hs
  rw [h s hs]

/-- **C80 fails.** Neither of the two knows the other's choice, but whatever order the maps are iterated in, one of the
returned policies depends on the choice of the other: on a variable that is no parent of the decision. -/
theorem C80_refuted (sch : NSched ℚ) : ∃ tables n', Ex.sides.solvePolicies sch false = (.ok tables, n') ∧
    ∃ t ∈ tables, ∃ s ∈ t.2.given, ∀ f ∈ Ex.sides.factors, f.forVar = t.1 → s ∉ f.given := by
  obtain ⟨tables, n', d, t, h1, h2, _, h3⟩ := C82_best_response sch Ex.sides_valid Ex.sides_solvable
    (by decide) (by decide) Ex.sides_matters (stepwise := false) (by simp)
  obtain ⟨_, _, k1, _, k2, k3, _⟩ := C46_policy_tables sch Ex.sides_valid (fun _ => Ex.sides_solvable.toFeasible) false
  rw [h1] at k1
  obtain ⟨e1, rfl⟩ := Prod.mk.inj k1
  obtain rfl := Except.ok.inj e1
  have hdec : ∀ f ∈ Ex.sides.factors, Ex.sides.isKind .decision f.forVar = true → f.given = [] := by decide
  have hdd : Ex.sides.isKind .decision d = true := (k2 d).1 (List.mem_map_of_mem (f := Prod.fst) h2)
  refine ⟨tables, n', h1, (d, t), h2, ?_⟩
  by_contra hc
  have hg : t.given = [] := by
    cases hg : t.given with
    | nil => rfl
    | cons s l =>
      exfalso
      apply hc
      refine ⟨s, by simp [hg], ?_⟩
      intro f hf hfd
      rw [hdec f hf (by rw [hfd]; exact hdd)]
      simp
  have hpt := k3 _ h2
  have hdims : t.dims = [d] := by unfold NFactor.dims; rw [hg, hpt.forVar]; rfl
  have hd2 : d = "Ann" ∨ d = "Bob" := by
    have : d ∈ Ex.sides.decisions := mem_decisions.2 hdd
    have e : Ex.sides.decisions = ["Ann", "Bob"] := by decide
    rw [e] at this
    simpa using this
  -- the table gives some outcome positive probability
  have hsum : Ex.sides.entry t (fun s => if s = d then 0 else 0) + Ex.sides.entry t (fun s => if s = d then 1 else 0) = 1 := by
    have hc : Ex.sides.count d = 2 := by rcases hd2 with rfl | rfl <;> decide
    have := hpt.one (fun _ => 0) (by
      intro s hs
      rw [hdims, List.mem_singleton] at hs
      rw [hs, hc]; decide)
    unfold Net.rowSum at this
    rw [hpt.forVar, hc, Finset.sum_range_succ, Finset.sum_range_succ, Finset.sum_range_zero, zero_add] at this
    exact this
  have hval : ∀ (w : World), Ex.sides.entry t w = Ex.sides.entry t (fun s => if s = d then w d else 0) := by
    intro w
    apply entry_agree
    intro s hs
    rw [hdims, List.mem_singleton] at hs
    simp [hs]
  have key : ∀ a b : Nat, a < 2 → b < 2 → a ≠ b → Ex.sides.entry t (fun s => if s = d then a else 0) = 0 := by
    intro a b ha hb hab
    by_contra hne
    have := h3 (fun s => if s = d then a else if s = "Joy" then 0 else b) (by
      intro v hv
      simp only [Ex.sides, List.mem_cons, List.not_mem_nil, or_false] at hv
      rcases hv with rfl | rfl | rfl <;> rcases hd2 with rfl | rfl <;> simp [ha, hb]) (by
      rw [hval]; simpa using hne) b (by rcases hd2 with rfl | rfl <;> exact hb)
    revert this
    have hab2 : (a = 0 ∧ b = 1) ∨ (a = 1 ∧ b = 0) := by omega
    rcases hd2 with rfl | rfl <;> rcases hab2 with ⟨rfl, rfl⟩ | ⟨rfl, rfl⟩ <;> decide +kernel
  have h0 := key 0 1 (by decide) (by decide) (by decide)
  have h1 := key 1 0 (by decide) (by decide) (by decide)
  rw [h0, h1] at hsum
  norm_num at hsum

end Bbn
