import Verif.Lemmas.NetOptimal
import Verif.Lemmas.NetListed
import Verif.Lemmas.Ties
import Verif.Props.Decide

/-!
# Decisions solved one after another
-/

set_option autoImplicit false

namespace Bbn

open Finset

variable {α : Type}

/-- `Net.worthTo` with stored policies. -/
def Net.worthPols [Field α] [DecidableEq α] (n : Net α) (pols : List (String × Factor α)) (d : String) (w : World) : α :=
  sumWorlds (n.hiddenFrom (pols.map Prod.fst) d) (fun w => n.joint pols w * n.totalIn w) w

section
variable [Field α] [LinearOrder α] {n : Net α} (hn : n.Valid) {pols : List (String × Factor α)} {vs : Vs}
  {fs ps : List (Factor α)} {deps : List (Var × List Var)} (hS : Solver n pols vs fs ps deps)
include hn hS

/-- The open decisions of the solver. -/
theorem open_vars {x : Var} : x ∈ decisionVars vs.variables ↔
    ∃ s, n.isKind .decision s = true ∧ n.hasPolicy s = false ∧ x = n.varOf s := by
  simp only [decisionVars, List.mem_filter, decide_eq_true_eq]
  constructor
  · rintro ⟨h1, h2⟩
    obtain ⟨v, a1, a2, a3⟩ := hS.vars.mem.1 h1
    have hv := List.mem_of_getElem? a1
    rw [a3] at h2
    have h2 : n.solverType v = .decision := h2
    unfold Net.solverType at h2
    split_ifs at h2 with hc
    exact ⟨v.name, (isKind_iff hn hv _).2 h2, by simpa [h2] using hc, by
      rw [varOf_eq hn a1 (fun e => a2 e.symm)]; exact a3⟩
  · rintro ⟨s, hs, ho, rfl⟩
    refine ⟨(decision_isVar hn hs).varOf_mem hS.vars hn, ?_⟩
    obtain ⟨v, hv, rfl, ht⟩ := isKind_mem.1 hs
    obtain ⟨i, hi⟩ := List.getElem?_of_mem hv
    rw [varOf_eq hn hi (fun e => by
      have := total_utility hn hv ((totalName_iff hn hi).2 e)
      rw [ht] at this; exact absurd this (by decide))]
    show n.solverType v = .decision
    unfold Net.solverType
    rw [if_neg (by simp [ho]), ht]

/-- What the solver sums out. -/
theorem hiddenFrom_vars {d : String} (hd : n.isKind .decision d = true)
    (ho : n.hasPolicy d = false) :
    (unseen vs.variables deps [n.varOf d]).Perm
      ((n.hiddenFrom (n.policies.map Prod.fst) d).map (fun v => n.varOf v.name)) := by
  have hkn : ∀ {s}, n.IsVar s → (Known deps [n.varOf d] (n.varOf s) ↔ n.Known [d] s) := by
    intro s h
    exact known_iff_open hn hS (ds := [d]) (by simpa using hd) (by simpa using ho) h
  have hst : ∀ v ∈ n.hiddenFrom (n.policies.map Prod.fst) d, v ∈ n.stateVars := by
    intro v hv
    obtain ⟨h1, h2⟩ := List.mem_filter.1 hv
    simp only [decide_eq_true_eq] at h2
    refine mem_stateVars.2 ⟨h1, ?_⟩
    rcases h2.1 with h | ⟨h, _⟩ <;> rw [h] <;> decide
  have hty : ∀ v, n.solverType v = .chance ↔
      v.nodeType = .chance ∨ v.nodeType = .decision ∧ v.name ∈ n.policies.map Prod.fst := by
    intro v
    unfold Net.solverType Net.hasPolicy
    rw [← mapGet_isSome]
    split_ifs with h
    · exact ⟨fun _ => .inr h, fun _ => rfl⟩
    · exact ⟨fun e => .inl e, fun e => e.resolve_right h⟩
  rw [List.perm_ext_iff_of_nodup]
  · intro x
    unfold unseen
    rw [List.mem_filter, List.mem_map]
    simp only [decide_eq_true_eq]
    constructor
    · rintro ⟨h1, h2, h3⟩
      obtain ⟨v, a1, a2, a3⟩ := hS.vars.mem.1 h1
      have hv := List.mem_of_getElem? a1
      have e : n.varOf v.name = x := by rw [varOf_eq hn a1 (fun e => a2 e.symm)]; exact a3.symm
      refine ⟨v, List.mem_filter.2 ⟨hv, ?_⟩, e⟩
      simp only [decide_eq_true_eq]
      constructor
      · rw [a3] at h2
        exact (hty v).1 h2
      · rw [← hkn ⟨x.id, v, a1, rfl, fun e => a2 e.symm⟩, e]
        exact h3
    · rintro ⟨v, hv, rfl⟩
      have hv' := hv
      obtain ⟨h1, h2⟩ := List.mem_filter.1 hv
      simp only [decide_eq_true_eq] at h2
      have hvar := isVar_state hn h1 (mem_stateVars.1 (hst v hv')).2
      refine ⟨hvar.varOf_mem hS.vars hn, ?_, ?_⟩
      · obtain ⟨i, hi⟩ := List.getElem?_of_mem h1
        rw [varOf_eq hn hi (fun e => (mem_stateVars.1 (hst v hv')).2 (total_utility hn h1 ((totalName_iff hn hi).2 e)))]
        exact (hty v).2 h2.1
      · rw [hkn hvar]; exact h2.2
  · exact (List.Nodup.of_map _ hS.vars.ids).filter _
  · refine (List.nodup_map_iff_inj_on ?_).2 ?_
    · exact (List.Nodup.of_map _ hn.names).filter _
    · intro u hu v hv e
      have h1 := mem_stateVars.1 (hst u hu)
      have h2 := mem_stateVars.1 (hst v hv)
      exact name_unique hn h1.1 h2.1 (Net.IsVar.inj hn (isVar_state hn h1.1 h1.2) (isVar_state hn h2.1 h2.2)
        (congrArg Var.id e))

/-- What the solver compares, as a sum over worlds. -/
theorem worthPols_world (hpo : n.PoliciesOK) (hpp : pols.Perm n.policies) {d : String}
    (hd : n.isKind .decision d = true) (ho : n.hasPolicy d = false) {w : World} (hw : n.FitsAll w) :
    sumOver (unseen vs.variables deps [n.varOf d]) (fun τ =>
      joint ((fs ++ ps).filter (fun f => !f.isUtility)) τ * totalUtility vs.variables (fs ++ ps) n.solverWeights τ)
      (n.ids w) = n.worthPols n.policies d w := by
  rw [sumOver_perm (hiddenFrom_vars hn hS hd ho) (hS.vars.ids.sublist (List.filter_sublist.map _))]
  symm
  unfold Net.worthPols
  have hst : ∀ v ∈ n.hiddenFrom (n.policies.map Prod.fst) d, v ∈ n.variables ∧ v.nodeType ≠ .utility := by
    intro v hv
    obtain ⟨h1, h2⟩ := List.mem_filter.1 hv
    simp only [decide_eq_true_eq] at h2
    refine ⟨h1, ?_⟩
    rcases h2.1 with h | ⟨h, _⟩ <;> rw [h] <;> decide
  apply sumWorlds_eq hn
  · exact hst
  · exact hn.names.sublist (List.filter_sublist.map _)
  · intro w' h1 h2
    have hfit : n.FitsAll w' := by
      intro v hv
      by_cases hu : v.name ∈ (n.hiddenFrom (n.policies.map Prod.fst) d).map NVar.name
      · obtain ⟨u, hu1, hu2⟩ := List.mem_map.1 hu
        have := name_unique hn (List.mem_filter.1 hu1).1 hv hu2
        exact this ▸ h1 u hu1
      · rw [h2 _ hu]; exact hw v hv
    have hj := joint_world hn hpo (fun p hp => hpp.subset hp) hS (w := w') hfit.state
    unfold probTables at hj
    rw [hj, totalUtility_world hn hpo (fun p hp => hpp.subset hp) hS hfit]
    unfold Net.joint
    rw [(hpp.map (fun p => p.2.val (n.ids w'))).prod_eq]

end

theorem Net.Matters.with {n m : Net α} (h1 : m.factors = n.factors) (h2 : m.variables = n.variables)
    (h3 : m.totalUtility = n.totalUtility) {ds : List String} {s : String} (h : n.Matters ds s) : m.Matters ds s := by
  have hk : ∀ t s, m.isKind t s = n.isKind t s := by intro t s; unfold Net.isKind; rw [h2]
  have ht : m.totalName = n.totalName := by unfold Net.totalName; rw [h3, h2]
  have hc : m.chanceTables = n.chanceTables := by unfold Net.chanceTables; rw [h1]; simp only [hk]
  induction h with
  | @utility f s hf hu ht' hs => exact .utility (h1 ▸ hf) (by rw [hk]; exact hu) (by rw [ht]; exact ht') hs
  | @chance f u s hf hu hch hkn _ hs ih =>
    exact .chance (hc ▸ hf) hu (by rw [hk]; exact hch) (by unfold Net.Known at hkn ⊢; rw [h1]; exact hkn) ih hs

/-- A policy that comes next after stored policies: no open decision has to wait for it, and it uses only what is known. -/
structure Net.NextAfter (n : Net α) (pols : List (String × Factor α)) (p : String × Factor α) : Prop where
  decision : n.isKind .decision p.1 = true
  new : p.1 ∉ pols.map Prod.fst
  last : ∀ e, n.isKind .decision e = true → e ∉ pols.map Prod.fst → ¬ n.DecisionParent p.1 e
  listed : n.Ordered n.decisions → ∀ A B, n.decisions = A ++ p.1 :: B → ∀ e ∈ B, e ∈ pols.map Prod.fst
  sees : ∀ x ∈ p.2.vars, (n.isKind .decision (n.nameAt x) = true ∧ n.nameAt x ∉ pols.map Prod.fst) ∨
    ∃ f ∈ n.factors, f.forVar = p.1 ∧ n.nameAt x ∈ f.given

/-- The policy is a best response to stored policies. -/
structure Net.BestAfter [Field α] [LinearOrder α] (n : Net α) (pols : List (String × Factor α)) (p : String × Factor α) :
    Prop extends n.NextAfter pols p where
  best : (∀ f ∈ n.chanceTables, ∀ x ∈ f.tab, 0 ≤ x) → n.Matters [p.1] p.1 → ∀ w, n.FitsAll w → p.2.val (n.ids w) ≠ 0 →
    ∀ k < n.count p.1, n.worthPols pols p.1 (w.set p.1 k) ≤ n.worthPols pols p.1 w
  even : (∀ f ∈ n.chanceTables, ∀ x ∈ f.tab, 0 ≤ x) → n.Matters [p.1] p.1 → ∀ w, n.FitsAll w → n.joint pols w ≠ 0 →
    ∀ k < n.count p.1, p.2.val (n.ids (w.set p.1 k)) =
      let best := bestOutcomes (n.count p.1) (fun c => n.worthPols pols p.1 (w.set p.1 c))
      if k ∈ best then 1 / (best.length : α) else 0

/-- One step of solving the decisions one after another, in detail. -/
theorem stepwise_any [Field α] [LinearOrder α] [IsStrictOrderedRing α] (sch : NSched α) (k : Nat)
    {n : Net α} (hn : n.Valid) (hs : n.Solvable) (hp : n.PoliciesOK)
    (hpn : ∀ p ∈ n.policies, ∀ σ, Fits σ p.2.vars → 0 ≤ p.2.val σ) (hne : n.openDecisions ≠ []) :
    ∃ vs fs ps deps q st' p,
      n.toVE sch k [] = .ok (VE.new vs (fs ++ ps) deps n.solverWeights, n.nameTable) ∧
      Solver n ((sch.pol k n.policies).filter (fun p => ∀ e ∈ ([] : List (String × String)), e.1 ≠ p.1)) vs fs ps deps ∧
      ((sch.pol k n.policies).filter (fun p => ∀ e ∈ ([] : List (String × String)), e.1 ≠ p.1)).Perm n.policies ∧
      UtilityOK vs.variables (fs ++ ps) n.solverWeights ∧ DecisionOK vs.variables (fs ++ ps) ∧
      DecAcyclic deps ∧
      (VE.new vs (fs ++ ps) deps n.solverWeights).solvePolicies (sch.ve k) true = .ok (some [q], st') ∧
      ((sch.names k n.nameTable).map Prod.fst).Nodup ∧
      (∀ e ∈ sch.names k n.nameTable, e.2.2.nodeType = .decision → e.1 ∉ n.policies.map Prod.fst) ∧
      (sch.names k n.nameTable).filterMap (storedPolicy [q]) = [p] ∧ q.1 = n.varOf p.1 ∧ q.2.2 = p.2 ∧
      n.hasPolicy p.1 = false ∧
      (∀ vs names, Net.PoliciesOK { n with vs := vs, names := names, policies := n.policies ++ [p] }) ∧
      (∃ d, p.2.Rows d ∧ (n.variables[d.id]?).map NVar.name = some p.1) ∧
      (n.Matters [p.1] p.1 →
        Linked (fs ++ ps) (fun i => ∃ v ∈ unseen vs.variables deps [q.1], v.id = i) q.1.id) ∧
      ((∀ f ∈ n.chanceTables, ∀ x ∈ f.tab, 0 ≤ x) → ∀ f ∈ fs ++ ps, f.isUtility = false → f.NonNeg) ∧
      n.BestAfter n.policies p := by
  obtain ⟨ve, n1, solved, ve', h1, h2, rfl, new, h3, h4, h5, h6, h7, h8, h9⟩ := policyStep_any sch k true hn hs.toFeasible hp hne
  obtain ⟨vs, fs, ps, deps, c0, hS⟩ := toVE_spec sch k hn hp []
  have hve : ve = VE.new vs (fs ++ ps) deps n.solverWeights := by
    unfold Net.enter at h1
    rw [c0] at h1
    exact (Except.ok.inj (Prod.mk.inj h1).1).symm
  have hpp : ((sch.pol k n.policies).filter (fun p => ∀ e ∈ ([] : List (String × String)), e.1 ≠ p.1)).Perm n.policies := by
    rw [List.filter_eq_self.2 (by simp)]
    exact sch.pol_perm k n.policies
  have hpols := fun p hp => hpp.subset hp (a := p)
  obtain ⟨v, hv, huniq⟩ := h6 rfl
  simp only [Net.openDecisions, List.mem_filter, decide_eq_true_eq] at hv
  have hkeys := (h7 none []).keys
  rw [List.map_append, List.nodup_append] at hkeys
  have hnew : new.map Prod.fst = [v.name] := by
    rw [← List.perm_singleton, List.perm_ext_iff_of_nodup hkeys.2.1 (by simp)]
    intro s
    rw [List.mem_singleton]
    constructor
    · intro h
      obtain ⟨p, hp1, rfl⟩ := List.mem_map.1 h
      obtain ⟨u, hu, e⟩ := h4 p hp1
      rw [← e, (huniq u hu).1 (by rw [e]; exact h)]
    · rintro rfl
      exact (huniq v (by simp only [Net.openDecisions, List.mem_filter, decide_eq_true_eq]; exact hv)).2 rfl
  obtain ⟨p, rfl⟩ : ∃ p, new = [p] := List.length_eq_one_iff.1 (by rw [← List.length_map (f := Prod.fst), hnew]; rfl)
  have hpv : v.name = p.1 := by simpa using hnew.symm
  have hpd : n.isKind .decision p.1 = true := by rw [← hpv]; exact (isKind_iff hn hv.1 _).2 hv.2.1
  have hpo : n.hasPolicy p.1 = false := by rw [← hpv]; exact hv.2.2
  -- the stored policy is the one the solver found first
  have hvk : ((sch.names k n.nameTable).map Prod.fst).Nodup :=
    ((sch.names_perm k n.nameTable).map Prod.fst).nodup_iff.2 (hS.vars.keys hn)
  rw [hve] at h2
  have hu := utility_ok hn hp hpols hS hs.utility
  have hdo := decisionOK_of hn hs.used hS
  have hac := decAcyclic_of hn hS hs.acyclic
  have hdne : decisionVars vs.variables ≠ [] := List.ne_nil_of_mem ((open_vars hn hS).2 ⟨p.1, hpd, hpo, rfl⟩)
  obtain ⟨q, rfl⟩ : ∃ q, solved = [q] := by
    obtain ⟨ps', st', b1, _, _, _, b5⟩ := solver_policies (sch.ve k) hS.problem (fun _ => hu) hdo hac hdne true
    rw [h2] at b1
    obtain rfl := Option.some.inj (Prod.mk.inj (Except.ok.inj b1)).1
    exact List.length_eq_one_iff.1 (b5 rfl)
  have hget : ∀ e ∈ sch.names k n.nameTable, e.2.2 = n.varOf e.1 := by
    intro e he
    have : mapGet n.nameTable e.1 = some e.2 :=
      (mapGet_mem (hS.vars.keys hn)).2 ((sch.names_perm k n.nameTable).subset he)
    unfold Net.varOf
    rw [this]; rfl
  have hfresh : ∀ e ∈ sch.names k n.nameTable, e.2.2.nodeType = .decision → e.1 ∉ n.policies.map Prod.fst := by
    intro e he hd hm
    have hem := (sch.names_perm k n.nameTable).subset he
    obtain ⟨i, a1, a2, a3, a4⟩ := (hS.vars.get hn).1 ((mapGet_mem (hS.vars.keys hn)).2 hem)
    rw [a4] at hd
    have hd : n.solverType e.2.1 = .decision := hd
    unfold Net.solverType at hd
    split_ifs at hd with hc
    apply hc
    refine ⟨hd, ?_⟩
    unfold Net.hasPolicy
    rw [mapGet_isSome, a2]
    exact hm
  have hstore : (sch.names k n.nameTable).filterMap (storedPolicy [q]) = [p] := by
    dsimp only at h3
    rw [foldl_store [q] _ _ hvk hfresh] at h3
    exact List.append_cancel_left h3
  obtain ⟨hq1, hq2⟩ : q.1 = n.varOf p.1 ∧ q.2.2 = p.2 := by
    have hm : p ∈ (sch.names k n.nameTable).filterMap (storedPolicy [q]) := by rw [hstore]; simp
    obtain ⟨e, he, hst⟩ := List.mem_filterMap.1 hm
    unfold storedPolicy at hst
    split_ifs at hst with hdd
    obtain ⟨r, hr, rfl⟩ := Option.map_eq_some_iff.1 hst
    have := mapGet_some hr
    rw [List.mem_singleton] at this
    rw [← this]
    exact ⟨hget e he, rfl⟩
  have hlinked : n.Matters [p.1] p.1 →
      Linked (fs ++ ps) (fun i => ∃ v ∈ unseen vs.variables deps [q.1], v.id = i) q.1.id := by
    intro hm
    rw [hq1]
    refine linked_gen hn hS ?_ hm
    intro f hf u hu huv hc hk
    refine ⟨n.varOf u, ?_, rfl⟩
    obtain ⟨v, hv, rfl, hvt⟩ := isKind_mem.1 hc
    refine (hiddenFrom_vars hn hS hpd hpo).symm.subset (List.mem_map_of_mem (f := fun v : NVar => n.varOf v.name)
      (List.mem_filter.2 ⟨hv, ?_⟩))
    simp only [decide_eq_true_eq]
    exact ⟨.inl hvt, hk⟩
  have hnonneg : (∀ f ∈ n.chanceTables, ∀ x ∈ f.tab, 0 ≤ x) → ∀ f ∈ fs ++ ps, f.isUtility = false → f.NonNeg := by
    intro hnn f hf hfu
    rcases List.mem_append.1 hf with hf | hf
    · exact tables_nonneg hn hS hnn hf hfu
    · obtain ⟨r, hr, hrf⟩ := forall₂_mem_right hS.policies hf
      intro σ hσ
      rw [hrf.val hp (hpols r hr)]
      apply hpn r (hpols r hr)
      intro x hx
      obtain ⟨v, h1, _, h3, h4, _⟩ := hp.vars r (hpols r hr) x hx
      have := hσ (n.varAt x.id) (by rw [hrf.vars]; exact List.mem_map_of_mem (f := fun w : Var => n.varAt w.id) hx)
      rw [varAt_eq h1] at this
      rw [h4]; exact this
  obtain ⟨c1, c2, c3⟩ := solvePolicies_head (sch.ve k) hS.problem hu hdo hac (single := true) (ds := [q.1]) h2 (by simp)
  refine ⟨vs, fs, ps, deps, q, ve', p, c0, hS, hpp, hu, hdo, hac, h2, hvk, hfresh, hstore, hq1, hq2, hpo, h7,
    h9 p (by simp), hlinked, hnonneg, ⟨hpd, ?_, ?_, ?_, ?_⟩, ?_, ?_⟩
  · intro h
    have := mapGet_isSome.2 h
    unfold Net.hasPolicy at hpo
    rw [this] at hpo
    exact absurd hpo (by simp)
  · intro e he hen ⟨k1, k2, f, hf, k3, k4⟩
    have heo : n.hasPolicy e = false := by
      cases h : n.hasPolicy e with
      | false => rfl
      | true => exact absurd (mapGet_isSome.1 h) hen
    refine c2 (n.varOf e) ((open_vars hn hS).2 ⟨e, he, heo, rfl⟩) ⟨n.depEntry f, ?_, ?_, ?_, ?_⟩
    · rw [hS.deps_eq]
      refine List.mem_map_of_mem (List.mem_filter.2 ⟨hf, ?_⟩)
      simp only [Net.isOpen, decide_eq_true_eq]
      rw [k3]; exact ⟨k2, heo⟩
    · show (n.varOf f.forVar).id = _
      rw [k3]
    · rw [hq1]; exact List.mem_map_of_mem k4
    · rw [hq1]
      have := (open_vars hn hS).2 ⟨p.1, hpd, hpo, rfl⟩
      simpa [decisionVars] using (List.mem_filter.1 this).2
  · intro ho A B hl e heB
    by_contra hen
    have hsl := solver_listed (sch.ve k) hS.problem n.solverWeights (topo_listed hn hS ho) h2
    rw [if_pos rfl, decisionVars_open hn hS, ← List.map_reverse] at hsl
    have hnames : n.decisions.filter (fun s => n.hasPolicy s = false) = n.openDecisions.map NVar.name := by
      unfold Net.decisions Net.openDecisions
      rw [List.filter_map, List.filter_filter]
      congr 1
      apply List.filter_congr
      intro v _
      simp only [Function.comp]
      rw [Bool.decide_and, Bool.and_comm]
    rcases hr : n.openDecisions.reverse with _ | ⟨u, O⟩
    · rw [hr] at hsl; simp at hsl
    rw [hr] at hsl
    simp only [List.map_cons, List.map_nil, List.take_succ_cons, List.take_zero, List.cons.injEq, and_true] at hsl
    have hu : u ∈ n.openDecisions := by rw [← List.mem_reverse, hr]; simp
    simp only [Net.openDecisions, List.mem_filter, decide_eq_true_eq] at hu
    obtain ⟨j, hj⟩ := List.getElem?_of_mem hu.1
    obtain ⟨j', hj'⟩ := List.getElem?_of_mem hv.1
    have hdt : ∀ {i : Nat} {x : NVar}, n.variables[i]? = some x → x.nodeType = .decision → n.totalUtility ≠ some i := by
      intro i x hi hx e
      have := total_utility hn (List.mem_of_getElem? hi) ((totalName_iff hn hi).2 e)
      rw [hx] at this; exact absurd this (by decide)
    have huv : u = v := by
      rw [hq1, ← hpv, varOf_eq hn hj' (hdt hj' hv.2.1), varOf_eq hn hj (hdt hj hu.2.1)] at hsl
      obtain rfl : j' = j := congrArg Var.id hsl
      exact Option.some.inj (hj.symm.trans hj')
    have hlast : n.openDecisions.map NVar.name = O.reverse.map NVar.name ++ [p.1] := by
      rw [← List.reverse_reverse n.openDecisions, hr, List.reverse_cons, List.map_append, List.map_singleton, huv, hpv]
    have hpf : n.decisions.filter (fun s => n.hasPolicy s = false) =
        A.filter (fun s => n.hasPolicy s = false) ++ p.1 :: B.filter (fun s => n.hasPolicy s = false) := by
      rw [hl, List.filter_append, List.filter_cons_of_pos (by simpa using hpo)]
    rw [hnames, hlast] at hpf
    have heo : n.hasPolicy e = false := by
      cases h : n.hasPolicy e with
      | false => rfl
      | true => exact absurd (mapGet_isSome.1 h) hen
    have heB' : e ∈ B.filter (fun s => n.hasPolicy s = false) := List.mem_filter.2 ⟨heB, by simpa using heo⟩
    obtain ⟨C, x, hC⟩ := List.eq_nil_or_concat (B.filter (fun s => n.hasPolicy s = false)) |>.resolve_left
      (List.ne_nil_of_mem heB')
    rw [hC, List.concat_eq_append, ← List.cons_append, ← List.append_assoc] at hpf
    have hx := (List.append_inj' hpf rfl).2
    have hxp : p.1 = x := by simpa using hx
    have hmem : p.1 ∈ B := by
      have : x ∈ B.filter (fun s => n.hasPolicy s = false) := by rw [hC, List.concat_eq_append]; simp
      rw [hxp]; exact (List.mem_filter.1 this).1
    have hnd : n.decisions.Nodup := hn.names.sublist (List.filter_sublist.map _)
    rw [hl] at hnd
    exact (List.nodup_cons.1 (List.nodup_append.1 hnd).2.1).1 hmem
  · intro x hx
    rcases h8 p (by simp) x hx with ⟨k1, k2⟩ | ⟨f, hf, _, k2, k3⟩
    · refine .inl ⟨k1, fun h => ?_⟩
      have := mapGet_isSome.2 h
      unfold Net.hasPolicy at k2
      rw [this] at k2
      exact absurd k2 (by simp)
    · exact .inr ⟨f, hf, k2 rfl, k3⟩
  · intro hnn hm w hw hne2 k' hk'
    have hvar := decision_isVar hn hpd
    have hlink := hlinked hm
    have hnf := hnonneg hnn
    have hfits : Fits (n.ids w) vs.variables := fits_solver hS.vars hw (fun _ h => h)
    have := c3 hnf hlink (n.ids w) hfits (utility_zero hu hfits) (by rw [hq2]; exact hne2) k' (by
      rw [hq1, hvar.outcomes hn]; exact hk')
    rw [hq1, ← ids_set hn hvar] at this
    have hw2 : n.FitsAll (w.set p.1 k') := by
      intro v hv
      unfold World.set
      split_ifs with e
      · rw [← count_eq hn hv, e]; exact hk'
      · exact hw v hv
    rw [worthPols_world hn hS hp hpp hpd hpo hw2, worthPols_world hn hS hp hpp hpd hpo hw] at this
    exact this
  · intro hnn hm w hw hpos k' hk'
    have hvar := decision_isVar hn hpd
    have hfits : Fits (n.ids w) vs.variables := fits_solver hS.vars hw (fun _ h => h)
    have hout : q.1.outcomes = n.count p.1 := by rw [hq1, hvar.outcomes hn]
    obtain ⟨_, _, c4⟩ := solvePolicies_exact (sch.ve k) hS.problem hu hdo hac (single := true) (ds := [q.1]) h2 (by simp)
    have := c4 (hnonneg hnn) (hlinked hm) (n.ids w) hfits (utility_zero hu hfits) ⟨n.ids w q.1.id, by
      rw [hq1]
      exact hfits _ (hvar.varOf_mem hS.vars hn), n.ids w, hfits, fun i _ => by rw [upd_self], by
      have hj := joint_world hn hp hpols hS (w := w) hw.state
      unfold probTables at hj
      rw [hj]
      unfold Net.joint at hpos ⊢
      rwa [(hpp.map (fun p => p.2.val (n.ids w))).prod_eq]⟩ k' (by rw [hout]; exact hk')
    have hbo : bestOutcomes q.1.outcomes (fun c => sumOver (unseen vs.variables deps [q.1]) (fun τ =>
        joint ((fs ++ ps).filter (fun f => !f.isUtility)) τ * totalUtility vs.variables (fs ++ ps) n.solverWeights τ)
        ((n.ids w).upd q.1.id c)) =
        bestOutcomes (n.count p.1) (fun c => n.worthPols n.policies p.1 (w.set p.1 c)) := by
      have hc : ∀ c < n.count p.1, sumOver (unseen vs.variables deps [q.1]) (fun τ =>
          joint ((fs ++ ps).filter (fun f => !f.isUtility)) τ * totalUtility vs.variables (fs ++ ps) n.solverWeights τ)
          ((n.ids w).upd q.1.id c) = n.worthPols n.policies p.1 (w.set p.1 c) := by
        intro c hc
        have hw2 : n.FitsAll (w.set p.1 c) := by
          intro v hv
          unfold World.set
          split_ifs with e
          · rw [← count_eq hn hv, e]; exact hc
          · exact hw v hv
        rw [hq1, ← ids_set hn hvar, worthPols_world hn hS hp hpp hpd hpo hw2]
      rw [hout]
      unfold bestOutcomes
      apply List.filter_congr
      intro c hc1
      rw [List.mem_range] at hc1
      rw [decide_eq_decide]
      refine forall₂_congr (fun c' hc' => ?_)
      dsimp only
      rw [hc c hc1, hc c' hc']
    rw [hbo] at this
    rw [ids_set hn hvar, ← hq2, ← hq1]
    exact this

/-- One step of solving the decisions one after another. -/
theorem stepwise_step [Field α] [LinearOrder α] [IsStrictOrderedRing α] (sch : NSched α) (left k : Nat)
    {n : Net α} (hn : n.Valid) (hs : n.Solvable) (hp : n.PoliciesSolved) (hne : n.openDecisions ≠ []) :
    ∃ vs names p, Net.policySteps sch true (left + 1) k n =
        Net.policySteps sch true left (k + 1) { n with vs := some vs, names := names, policies := n.policies ++ [p] } ∧
      Net.PoliciesSolved { n with vs := some vs, names := names, policies := n.policies ++ [p] } ∧
      n.BestAfter n.policies p := by
  obtain ⟨vs, fs, ps, deps, q, st', p, c0, hS, hpp, hu, hdo, hac, h2, hvk, hfresh, hstore, hq1, hq2, hpo, h7, h9, _, _,
    hbest⟩ := stepwise_any sch k hn hs hp.toPoliciesOK (fun p hpm σ hσ => by
      obtain ⟨d, ⟨_, hr2, _⟩, _⟩ := hp.rows p hpm
      exact hr2 σ hσ) hne
  refine ⟨st'.vs, n.nameTable, p, ?_, ⟨h7 _ _, ?_⟩, hbest⟩
  · rw [Net.policySteps]
    unfold Net.enter
    rw [c0]
    dsimp only
    rw [h2]
    dsimp only
    rw [foldl_store [q] _ _ hvk hfresh, hstore]
  · intro r hr
    rcases List.mem_append.1 hr with hr | hr
    · exact hp.rows r hr
    · rw [List.mem_singleton.1 hr]
      exact h9

theorem Net.NextAfter.with {n : Net α} {vs : Option Vs} {names : List (String × NVar × Var)}
    {pols l : List (String × Factor α)} {p : String × Factor α}
    (h : Net.NextAfter { n with vs := vs, names := names, policies := pols } l p) : n.NextAfter l p :=
  ⟨h.decision, h.new, h.last, h.listed, h.sees⟩

theorem Net.BestAfter.with [Field α] [LinearOrder α] {n : Net α} {vs : Option Vs} {names : List (String × NVar × Var)}
    {pols l : List (String × Factor α)} {p : String × Factor α}
    (h : Net.BestAfter { n with vs := vs, names := names, policies := pols } l p) : n.BestAfter l p :=
  ⟨h.toNextAfter.with, fun h1 h2 => h.best h1
    (Net.Matters.with (n := n) (m := { n with vs := vs, names := names, policies := pols }) rfl rfl rfl h2), fun h1 h2 =>
    h.even h1 (Net.Matters.with (n := n) (m := { n with vs := vs, names := names, policies := pols }) rfl rfl rfl h2)⟩

/-- Solving the decisions one after another: each policy is a best response to those solved before. -/
theorem stepwise_loop [Field α] [LinearOrder α] [IsStrictOrderedRing α] (sch : NSched α) :
    ∀ (left k : Nat) (n : Net α), n.Valid → (n.openDecisions ≠ [] → n.Solvable) → n.PoliciesSolved →
      n.openDecisions.length = left → ∀ m, Net.policySteps sch true left k n = (.ok (), m) →
      ∃ new, m.policies = n.policies ++ new ∧ ∀ A p B, new = A ++ p :: B → n.BestAfter (n.policies ++ A) p := by
  intro left
  induction left with
  | zero =>
    intro k n _ _ _ _ m hm
    rw [Net.policySteps] at hm
    obtain rfl := (Prod.mk.inj hm).2
    exact ⟨[], by simp, by simp⟩
  | succ left ih =>
    intro k n hn hs hp hl m hm
    have hne : n.openDecisions ≠ [] := by intro e; rw [e] at hl; simp at hl
    obtain ⟨vs, names, p, h1, h2, h3⟩ := stepwise_step sch left k hn (hs hne) hp hne
    rw [h1] at hm
    obtain ⟨new, h4, h5⟩ := ih (k + 1) _ (hn.with (some vs) names (n.policies ++ [p])) (fun _ => (hs hne).with _ _ _) h2 (by
      rw [openDecisions_append]
      obtain ⟨v, hv, hv1, hv2⟩ := isKind_mem.1 h3.decision
      have hvo : v ∈ n.openDecisions := by
        simp only [Net.openDecisions, List.mem_filter, decide_eq_true_eq]
        refine ⟨hv, hv2, ?_⟩
        cases h : n.hasPolicy v.name with
        | false => rfl
        | true => exact absurd (by rw [← hv1]; exact mapGet_isSome.1 h) h3.new
      have hnd : n.openDecisions.Nodup := (List.Nodup.of_map _ hn.names).filter _
      have : n.openDecisions.filter (fun v => v.name ∉ [p].map Prod.fst) = n.openDecisions.erase v := by
        rw [hnd.erase_eq_filter]
        apply List.filter_congr
        intro u hum
        by_cases e : u = v
        · subst e; simp [hv1]
        · have : u.name ≠ p.1 := by
            intro e2
            exact e (name_unique hn (List.mem_filter.1 hum).1 hv (e2.trans hv1.symm))
          simp [e, this]
      rw [this, List.length_erase_of_mem hvo]
      omega) m hm
    refine ⟨p :: new, by rw [h4]; simp, ?_⟩
    intro A q B e
    cases A with
    | nil =>
      simp only [List.nil_append, List.cons.injEq] at e
      rw [← e.1, List.append_nil]
      exact h3
    | cons x A =>
      simp only [List.cons_append, List.cons.injEq] at e
      have := (h5 A q B e.2).with
      rw [← e.1]
      simpa using this

end Bbn
