import Verif.Lemmas.NetUtility
import Verif.Lemmas.Policies
import Verif.Spec.NetPolicy

/-!
# `SolvePolicies` of a network
-/

set_option autoImplicit false

namespace Bbn

open Finset

variable {α : Type}

/-- The decision is last, and each row is a probability distribution. -/
def Factor.Rows [CommSemiring α] [LE α] (f : Factor α) (d : Var) : Prop :=
  (∃ others, f.vars = others ++ [d]) ∧ (∀ σ, Fits σ f.vars → 0 ≤ f.val σ) ∧
    ∀ σ, Fits σ f.vars → ∑ k ∈ range d.outcomes, f.val (σ.upd d.id k) = 1

/-- What is known about each solved policy. -/
theorem solve_list_rows [Field α] [LinearOrder α] [IsStrictOrderedRing α] {R : List Var} {deps : List (Var × List Var)}
    (hF : Fixed R deps) (sch : Sched α) (single : Bool) (L : List Var) : ∀ (st st' : VE α)
      (ps : List (Var × Factor α × Factor α)), PState R deps st L →
      (∀ d ∈ L, 0 < d.outcomes) → LastFirst deps L → VE.solvePolicyList sch single L st = .ok (ps, st') →
      ∀ p ∈ ps, p.2.2.WF ∧ (∀ v ∈ p.2.2.vars, v ∈ R ∧ v.nodeType ≠ .utility) ∧ p.2.2.Rows p.1 ∧
        ∀ v ∈ p.2.2.vars, v ∈ live R st := by
  induction L with
  | nil =>
    intro st st' ps _ _ _ h
    simp only [VE.solvePolicyList, Except.ok.injEq, Prod.mk.injEq] at h
    rw [← h.1]; simp
  | cons d L ih =>
    intro st st' ps h hpos hord hs
    obtain ⟨fac, pol, st1, hr, a1, a2, a3, a4, a5, _, a7, a8, a9, _, _, a12, _⟩ :=
      policy_elim hF sch h (hpos d (by simp)) hord single
    have hfl : ∀ v ∈ fac.vars, v ∈ live R st := by
      intro v hv
      obtain ⟨f, hf, hvf⟩ := a4 v hv
      have hvR := h.good.sub f hf v hvf
      have := h.gone v hvR (mem_scopes_sup.2 ⟨f, hf, mem_scope.2 ⟨v, hvf, rfl⟩⟩)
      simp only [live, List.mem_filter, decide_eq_true_eq]
      exact ⟨hvR, this⟩
    have hfR : ∀ v ∈ fac.vars, v ∈ R ∧ v.nodeType ≠ .utility := by
      intro v hv
      have := hfl v hv
      simp only [live, List.mem_filter, decide_eq_true_eq] at this
      exact ⟨this.1, this.2.1⟩
    have hpvars : ∀ v, v ∈ pol.vars ↔ v ∈ fac.vars := by
      intro v
      rw [a8]
      simp only [otherVars, List.mem_append, List.mem_filter, decide_eq_true_eq, List.mem_singleton]
      constructor
      · rintro (h | rfl)
        · exact h.1
        · exact a5
      · intro hv
        by_cases e : v.id = d.id
        · exact .inr (coherent_of_nodup a3.nodup v hv d a5 e)
        · exact .inl ⟨hv, by simpa using e⟩
    have hfits : ∀ σ, Fits σ pol.vars → Fits σ fac.vars := fun σ hσ v hv => hσ v ((hpvars v).2 hv)
    have hrows : pol.WF ∧ (∀ v ∈ pol.vars, v ∈ R ∧ v.nodeType ≠ .utility) ∧ pol.Rows d ∧ ∀ v ∈ pol.vars, v ∈ live R st := by
      refine ⟨a7, fun v hv => hfR v ((hpvars v).1 hv), ⟨⟨_, a8⟩, ?_, ?_⟩, fun v hv => hfl v ((hpvars v).1 hv)⟩
      · intro σ hσ
        rw [a9 σ (hfits σ hσ)]
        unfold policyVal
        split_ifs
        · exact one_div_nonneg.2 (Nat.cast_nonneg _)
        · exact le_rfl
      · intro σ hσ
        rw [← sum_best d.outcomes (hpos d (by simp)) (fun c => fac.val (σ.upd d.id c))]
        apply Finset.sum_congr rfl
        intro k hk
        rw [a9 _ (fits_upd_mem a3.nodup (hfits σ hσ) a5 (by simpa using hk)), policyVal_upd]
    unfold VE.solvePolicyList at hs
    rw [a1, ok_bind] at hs
    dsimp only at hs
    cases single with
    | true =>
      rw [if_pos rfl] at hs
      have := (Prod.mk.inj (Except.ok.inj hs)).1
      rw [← this]
      simpa using hrows
    | false =>
      rw [if_neg (by simp)] at hs
      obtain ⟨⟨ps1, st2⟩, h3, hs⟩ := bind_ok hs
      have := (Prod.mk.inj (Except.ok.inj hs)).1
      rw [← this]
      intro p hp
      rcases List.mem_cons.1 hp with rfl | hp
      · exact hrows
      · obtain ⟨c1, c2, c3, c4⟩ := ih st1 st2 ps1 a2 (fun e he => hpos e (by simp [he])) hord.tail h3 p hp
        exact ⟨c1, c2, c3, fun v hv => a12.symm.subset (List.mem_append.2 (.inl (c4 v hv)))⟩

/-- The name of the variable with the ID of this solver variable. -/
def Net.nameAt (n : Net α) (w : Var) : String := ((n.variables[w.id]?).map NVar.name).getD ""

theorem nameAt_eq {n : Net α} {w : Var} {v : NVar} (h : n.variables[w.id]? = some v) : n.nameAt w = v.name := by
  simp [Net.nameAt, h]

/-- The policy uses only decisions and what is known to decisions: for stepwise solving, only what is known to its own. -/
def Net.InformedBy (n : Net α) (stepwise : Bool) (p : String × Factor α) : Prop :=
  ∀ x ∈ p.2.vars, n.isKind .decision (n.nameAt x) = true ∨
    ∃ f ∈ n.factors, n.isKind .decision f.forVar = true ∧ (stepwise = true → f.forVar = p.1) ∧ n.nameAt x ∈ f.given

/-- The same for a policy that was just solved: of the decisions, it uses only those that were still open. -/
def Net.SeesOpen (n : Net α) (stepwise : Bool) (p : String × Factor α) : Prop :=
  ∀ x ∈ p.2.vars, (n.isKind .decision (n.nameAt x) = true ∧ n.hasPolicy (n.nameAt x) = false) ∨
    ∃ f ∈ n.factors, n.isKind .decision f.forVar = true ∧ (stepwise = true → f.forVar = p.1) ∧ n.nameAt x ∈ f.given

theorem Net.SeesOpen.informed {n : Net α} {stepwise : Bool} {p : String × Factor α} (h : n.SeesOpen stepwise p) :
    n.InformedBy stepwise p := fun x hx => (h x hx).imp And.left id

/-- The decisions without a policy. -/
def Net.openDecisions (n : Net α) : List NVar :=
  n.variables.filter (fun v => v.nodeType = .decision ∧ n.hasPolicy v.name = false)

/-- Stored policies have the decision last, and their rows are probability distributions. -/
structure Net.PoliciesSolved [CommSemiring α] [LE α] (n : Net α) : Prop extends n.PoliciesOK where
  rows : ∀ p ∈ n.policies, ∃ d, p.2.Rows d ∧ (n.variables[d.id]?).map NVar.name = some p.1

/-- The order of the decisions, as the solver sees it. -/
theorem decEdge_parent [Field α] [DecidableEq α] {n : Net α} (hn : n.Valid) {pols : List (String × Factor α)} {vs : Vs}
    {fs ps : List (Factor α)} {deps : List (Var × List Var)} (hS : Solver n pols vs fs ps deps) {p d : Var}
    (h : DecEdge deps p d) : ∃ u v, n.variables[p.id]? = some u ∧ n.variables[d.id]? = some v ∧
      n.DecisionParent u.name v.name := by
  obtain ⟨e, he, h1, h2, h3⟩ := h
  rw [hS.deps_eq] at he
  obtain ⟨f, hf, rfl⟩ := List.mem_map.1 he
  obtain ⟨hf1, hf2⟩ := List.mem_filter.1 hf
  have hd := isOpen_dims hn hf1 hf2
  simp only [Net.isOpen, decide_eq_true_eq] at hf2
  obtain ⟨s, hs, rfl⟩ := List.mem_map.1 h2
  obtain ⟨i, u, a1, rfl, a3⟩ := hd s (by simp [NFactor.dims, hs])
  obtain ⟨j, v, b1, b2, b3⟩ := hd f.forVar (by simp [NFactor.dims])
  have ev : (n.depEntry f).1 = n.solverVar j v := by
    unfold Net.depEntry
    rw [← b2]; exact varOf_eq hn b1 b3
  have eu := varOf_eq hn a1 a3
  rw [ev] at h1
  rw [eu] at h3 ⊢
  have hud : u.nodeType = .decision := by
    have h3 : n.solverType u = .decision := h3
    unfold Net.solverType at h3
    split_ifs at h3
    exact h3
  refine ⟨u, v, a1, by rw [← h1]; exact b1, ?_, ?_, f, hf1, b2.symm, hs⟩
  · rw [isKind_iff hn (List.mem_of_getElem? a1)]; exact hud
  · rw [b2]; exact hf2.1

theorem decAcyclic_of [Field α] [DecidableEq α] {n : Net α} (hn : n.Valid) {pols : List (String × Factor α)} {vs : Vs}
    {fs ps : List (Factor α)} {deps : List (Var × List Var)} (hS : Solver n pols vs fs ps deps)
    (hac : ∀ s, ¬ Relation.TransGen n.DecisionParent s s) : DecAcyclic deps := by
  intro v hv
  have key : ∀ a b, Relation.TransGen (DecEdge deps) a b → ∃ x y, n.variables[a.id]? = some x ∧
      n.variables[b.id]? = some y ∧ Relation.TransGen n.DecisionParent x.name y.name := by
    intro a b h
    induction h with
    | single h =>
      obtain ⟨x, y, h1, h2, h3⟩ := decEdge_parent hn hS h
      exact ⟨x, y, h1, h2, .single h3⟩
    | tail _ h ih =>
      obtain ⟨x, y, h1, h2, h3⟩ := ih
      obtain ⟨x', y', g1, g2, g3⟩ := decEdge_parent hn hS h
      rw [h2] at g1
      cases g1
      exact ⟨x, y', h1, g2, h3.tail g3⟩
  obtain ⟨x, y, h1, h2, h3⟩ := key v v hv
  rw [h1] at h2
  cases h2
  exact hac _ h3

/-- Every solver variable occurs in a table. -/
theorem decisionOK_of [Field α] [DecidableEq α] {n : Net α} (hn : n.Valid)
    (hused : ∀ v ∈ n.variables, v.nodeType = .decision → ∃ f ∈ n.factors, f.forVar ≠ n.totalName ∧
      n.isKind .decision f.forVar = false ∧ v.name ∈ f.given)
    {pols : List (String × Factor α)} {vs : Vs} {fs ps : List (Factor α)}
    {deps : List (Var × List Var)} (hS : Solver n pols vs fs ps deps) : DecisionOK vs.variables (fs ++ ps) where
  outcomes := by
    intro w hw
    obtain ⟨v, h1, _, h3⟩ := hS.vars.mem.1 hw
    rw [h3]
    exact (hn.outcomes v (List.mem_of_getElem? h1)).1
  occurs := by
    intro w hw hu
    obtain ⟨v, h1, h2, h3⟩ := hS.vars.mem.1 hw
    have hv := List.mem_of_getElem? h1
    have hvar : n.varOf v.name = w := by rw [varOf_eq hn h1 (fun e => h2 e.symm)]; exact h3.symm
    have hvu : v.nodeType ≠ .utility := by
      intro e
      apply hu
      rw [h3]
      exact solverType_utility.2 e
    have htab : ∀ f ∈ n.factors, n.isTable f = true → v.name ∈ f.dims → ∃ g ∈ fs ++ ps, w ∈ g.vars := by
      intro f hf hft hvf
      obtain ⟨g, hg, hgt⟩ := forall₂_mem_left hS.tables (List.mem_filter.2 ⟨hf, hft⟩)
      exact ⟨g, List.mem_append.2 (.inl hg), by rw [hgt.vars, ← hvar]; exact List.mem_map_of_mem hvf⟩
    by_cases hd : v.nodeType = .decision
    · obtain ⟨f, hf, f1, f2, f3⟩ := hused v hv hd
      exact htab f hf (by simp [Net.isTable, f1, f2]) (by simp [NFactor.dims, f3])
    · obtain ⟨f, hf, hfn⟩ := hn.hasTable v hv hd
      refine htab f hf ?_ (by simp [NFactor.dims, hfn])
      simp only [Net.isTable, decide_eq_true_eq]
      refine ⟨?_, ?_⟩
      · rw [hfn]; exact state_notTotal hn hv hvu
      · rw [hfn]
        by_contra hc
        rw [Bool.not_eq_false, isKind_iff hn hv] at hc
        exact hd hc

/-- Solving the policies of a solver problem. -/
theorem solver_policies [Field α] [LinearOrder α] [IsStrictOrderedRing α] (sch : Sched α) {vs : Vs}
    {fs : List (Factor α)} {deps : List (Var × List Var)} (hp : Problem vs fs deps) {weights : Option (List α)}
    (hu : utilities vs.variables ≠ [] → UtilityOK vs.variables fs weights) (hd : DecisionOK vs.variables fs) (hac : DecAcyclic deps)
    (hne : decisionVars vs.variables ≠ []) (single : Bool) :
    ∃ ps st', (VE.new vs fs deps weights).solvePolicies sch single = .ok (some ps, st') ∧
      (ps.map Prod.fst).Nodup ∧
      (∀ p ∈ ps, p.1 ∈ decisionVars vs.variables ∧ p.2.2.WF ∧
        (∀ v ∈ p.2.2.vars, v ∈ vs.variables ∧ v.nodeType ≠ .utility) ∧ p.2.2.Rows p.1 ∧
        ∀ v ∈ p.2.2.vars, v.nodeType = .decision ∨ Known deps (if single then [p.1] else decisionVars vs.variables) v) ∧
      (single = false → ∀ d ∈ decisionVars vs.variables, d ∈ ps.map Prod.fst) ∧ (single = true → ps.length = 1) := by
  obtain ⟨ps, st', h⟩ := solvePolicies_ok sch hp hu hd hac hne single
  refine ⟨ps, st', h, ?_⟩
  obtain ⟨decs, t, st1, st2, i1, i2, i3, i4, i5⟩ := solvePolicies_inv sch h
  have hps := solve_list_order sch single _ st2 i5
  obtain ⟨decs', t', d1, d2, d3⟩ := getDecisions_new sch hp weights
  rw [i1] at d1
  simp only [Except.ok.injEq, Prod.mk.injEq] at d1
  obtain ⟨rfl, rfl⟩ := d1
  obtain ⟨st1', a1, a2, a4, a8, a9⟩ := start_any sch hp hu hd i1
  rw [i3] at a1
  obtain rfl : st1 = st1' := Except.ok.inj a1
  have hF := hp.fixed
  obtain ⟨decs2, t2, e1, _, _⟩ := getDecisions_spec sch st1 (hF.vars.of_core a2.core) (a2.depsOK hF)
  obtain ⟨h0, _, _⟩ := new_good hp weights
  have : decs = decs2 := (getDecisions_det sch sch hF a8 (by rw [h0]) a9 (by rw [h0]) e1 i1).symm
  subst this
  obtain ⟨st2', b1, b2, b3, b4, b5, _⟩ := elim_full hF sch a2 single e1 rfl
  rw [i4] at b1
  obtain rfl : st2 = st2' := Except.ok.inj b1
  have hdn : decs.Nodup := d2.nodup_iff.2 ((List.Nodup.of_map _ hp.ids).filter _)
  have hrows := solve_list_rows hF sch single decs.reverse st2 st' ps b2
    (fun d hdd => hd.outcomes d (a2.openD d hdd).1) (lastFirst_reverse hdn (d3 hac)) i5
  have hps : ps.map Prod.fst = if single then decs.reverse.take 1 else decs.reverse := hps
  have hLmem : ∀ v ∈ vs.variables, v.nodeType = .decision → v ∈ decs.reverse := by
    intro v hv hvd
    exact List.mem_reverse.2 (d2.symm.subset (List.mem_filter.2 ⟨hv, by simpa using hvd⟩))
  have hun := hiddenR_eq hF a2 a4 hLmem (considered single decs) (fun d hd => List.mem_reverse.2 (mem_considered hd))
  have hlive : ∀ v ∈ live vs.variables st2, v.nodeType = .decision ∨ Known deps (considered single decs) v := by
    intro v hv
    have hnd : (live vs.variables st2 ++ hiddenR vs.variables decs.reverse st1
        ((considered single decs).flatMap (depsOf deps))).Nodup :=
      b5.nodup_iff.1 ((List.Nodup.of_map _ hp.ids).filter _)
    by_contra hc
    rw [not_or] at hc
    have hm : v ∈ unseen vs.variables deps (considered single decs) := by
      simp only [live, List.mem_filter, decide_eq_true_eq] at hv
      simp only [unseen, List.mem_filter, decide_eq_true_eq]
      refine ⟨hv.1, ?_, hc.2⟩
      cases ht : v.nodeType with
      | chance => rfl
      | decision => exact absurd ht hc.1
      | utility => exact absurd ht hv.2.1
    rw [← hun] at hm
    exact (List.nodup_append.1 hnd).2.2 v hv v hm rfl
  refine ⟨?_, ?_, ?_, ?_⟩
  · rw [hps]
    split_ifs
    · exact (List.nodup_reverse.2 hdn).sublist (List.take_sublist _ _)
    · exact List.nodup_reverse.2 hdn
  · intro p hpm
    have hpc : p.1 ∈ considered single decs := by
      have : p.1 ∈ ps.map Prod.fst := List.mem_map_of_mem hpm
      rw [hps] at this
      exact this
    obtain ⟨c1, c2, c3, c4⟩ := hrows p hpm
    refine ⟨d2.subset (mem_considered hpc), c1, c2, c3, fun v hv => ?_⟩
    refine (hlive v (c4 v hv)).imp id (Known.mono (fun d hd => ?_))
    cases single with
    | true =>
      rw [if_pos rfl]
      unfold considered at hd hpc
      rw [if_pos rfl] at hd hpc
      match hr : decs.reverse.take 1 with
      | [] => rw [hr] at hd; cases hd
      | [y] =>
        rw [hr] at hd hpc
        rw [List.mem_singleton] at hd hpc ⊢
        rw [hd, hpc]
      | y :: z :: l =>
        have := congrArg List.length hr
        simp at this
        omega
    | false =>
      rw [if_neg (by simp)]
      exact d2.subset (mem_considered hd)
  · intro e d hdm
    rw [hps, if_neg (by simp [e])]
    exact List.mem_reverse.2 (d2.symm.subset hdm)
  · intro e
    have := congrArg List.length hps
    rw [if_pos e, List.length_map, List.length_take, List.length_reverse] at this
    have : 0 < decs.length := List.length_pos_iff.2 i2
    omega

/-- What the loop over the names stores for one name. -/
def storedPolicy (solved : List (Var × Factor α × Factor α)) (e : String × NVar × Var) : Option (String × Factor α) :=
  if e.2.2.nodeType ≠ .decision then none else (mapGet solved e.2.2).map (fun p => (e.1, p.2))

theorem foldl_store (solved : List (Var × Factor α × Factor α)) (l : List (String × NVar × Var)) :
    ∀ (policies : List (String × Factor α)), (l.map Prod.fst).Nodup →
      (∀ e ∈ l, e.2.2.nodeType = .decision → e.1 ∉ policies.map Prod.fst) →
      l.foldl (storePolicy solved) policies = policies ++ l.filterMap (storedPolicy solved) := by
  induction l with
  | nil => intro policies _ _; simp
  | cons e l ih =>
    intro policies hnd hnew
    rw [List.map_cons, List.nodup_cons] at hnd
    rw [List.foldl_cons, List.filterMap_cons]
    by_cases hd : e.2.2.nodeType ≠ .decision
    · have e1 : storePolicy solved policies e = policies := by unfold storePolicy; rw [if_pos hd]
      have e2 : storedPolicy solved e = none := by unfold storedPolicy; rw [if_pos hd]
      rw [e1, e2]
      exact ih policies hnd.2 (fun x hx => hnew x (by simp [hx]))
    · cases hg : mapGet solved e.2.2 with
      | none =>
        have e1 : storePolicy solved policies e = policies := by unfold storePolicy; rw [if_neg hd, hg]
        have e2 : storedPolicy solved e = none := by unfold storedPolicy; rw [if_neg hd, hg]; rfl
        rw [e1, e2]
        exact ih policies hnd.2 (fun x hx => hnew x (by simp [hx]))
      | some p =>
        have e1 : storePolicy solved policies e = mapSet policies e.1 p.2 := by unfold storePolicy; rw [if_neg hd, hg]
        have e2 : storedPolicy solved e = some (e.1, p.2) := by unfold storedPolicy; rw [if_neg hd, hg]; rfl
        rw [not_not] at hd
        rw [e1, e2, mapSet_new (hnew e (by simp) hd), ih _ hnd.2]
        · simp
        · intro x hx hxd
          rw [List.map_append, List.mem_append]
          rintro (h | h)
          · exact hnew x (by simp [hx]) hxd h
          · simp only [List.map_cons, List.map_nil, List.mem_singleton] at h
            exact hnd.1 (h ▸ List.mem_map_of_mem hx)

theorem filterMap_keys_sublist {A B : Type} {g : A × B → Option A} (h : ∀ e a, g e = some a → a = e.1) (l : List (A × B)) :
    (l.filterMap g).Sublist (l.map Prod.fst) := by
  induction l with
  | nil => exact List.Sublist.refl _
  | cons e l ih =>
    rw [List.filterMap_cons, List.map_cons]
    cases hg : g e with
    | none => exact ih.cons _
    | some a =>
      rw [h e a hg]
      exact ih.cons_cons _

/-- One iteration of `SolvePolicies` with open decisions. -/
theorem policyStep_any [Field α] [LinearOrder α] [IsStrictOrderedRing α] (sch : NSched α) (k : Nat) (single : Bool)
    {n : Net α} (hn : n.Valid) (hs : n.Feasible) (hp : n.PoliciesOK) (hne : n.openDecisions ≠ []) :
    ∃ ve n1 solved ve', n.enter sch k [] = (.ok ve, n1) ∧ ve.solvePolicies (sch.ve k) single = .ok (some solved, ve') ∧
      n1 = { n with vs := some ve.vs, names := n.nameTable } ∧
      ∃ new : List (String × Factor α), (sch.names k n1.names).foldl (storePolicy solved) n1.policies = n.policies ++ new ∧
        (∀ p ∈ new, ∃ v ∈ n.openDecisions, v.name = p.1) ∧
        (single = false → ∀ v ∈ n.openDecisions, v.name ∈ new.map Prod.fst) ∧ (single = true →
          ∃ v ∈ n.openDecisions, ∀ u ∈ n.openDecisions, u.name ∈ new.map Prod.fst ↔ u = v) ∧
        (∀ vs names, Net.PoliciesOK { n with vs := vs, names := names, policies := n.policies ++ new }) ∧
        (∀ p ∈ new, n.SeesOpen single p) ∧
        ∀ p ∈ new, ∃ d, p.2.Rows d ∧ (n.variables[d.id]?).map NVar.name = some p.1 := by
  obtain ⟨vs, fs, ps, deps, h1, hS⟩ := toVE_spec sch k hn hp []
  have hpols : ∀ p ∈ (sch.pol k n.policies).filter (fun p => ∀ e ∈ ([] : List (String × String)), e.1 ≠ p.1),
      p ∈ n.policies := fun p h => (sch.pol_perm k n.policies).subset (List.mem_filter.1 h).1
  have hdecs : ∀ w, w ∈ decisionVars vs.variables ↔ ∃ i v, n.variables[i]? = some v ∧ v.nodeType = .decision ∧
      n.hasPolicy v.name = false ∧ w = n.solverVar i v := by
    intro w
    simp only [decisionVars, List.mem_filter, decide_eq_true_eq]
    rw [hS.vars.mem]
    constructor
    · rintro ⟨⟨v, a1, a2, a3⟩, a4⟩
      rw [a3] at a4
      have a4 : n.solverType v = .decision := a4
      unfold Net.solverType at a4
      split_ifs at a4 with hc
      refine ⟨w.id, v, a1, a4, ?_, a3⟩
      simpa [a4] using hc
    · rintro ⟨i, v, a1, a2, a3, rfl⟩
      refine ⟨⟨v, a1, ?_, rfl⟩, ?_⟩
      · intro e
        have := total_utility hn (List.mem_of_getElem? a1) ((totalName_iff hn a1).2 e.symm)
        rw [a2] at this
        exact absurd this (by decide)
      · show n.solverType v = .decision
        unfold Net.solverType
        rw [if_neg (by simp [a3]), a2]
  have hdne : decisionVars vs.variables ≠ [] := by
    obtain ⟨v, hv⟩ := List.exists_mem_of_ne_nil _ hne
    simp only [Net.openDecisions, List.mem_filter, decide_eq_true_eq] at hv
    obtain ⟨i, hi⟩ := List.getElem?_of_mem hv.1
    exact List.ne_nil_of_mem ((hdecs _).2 ⟨i, v, hi, hv.2.1, hv.2.2, rfl⟩)
  obtain ⟨solved, ve', b1, b2, b3, b4, b5⟩ := solver_policies (sch.ve k) hS.problem
    (fun h => utility_ok hn hp hpols hS (by
      rw [utilities_vars hn hS] at h
      obtain ⟨u, hu⟩ := List.exists_mem_of_ne_nil _ h
      obtain ⟨s, hs', _⟩ := List.mem_map.1 hu
      obtain ⟨v, hv, rfl, h2, h3⟩ := (mem_utilityNames hn).1 hs'
      exact List.ne_nil_of_mem (List.mem_filter.2 ⟨hv, by simpa using ⟨h2, h3⟩⟩))) (decisionOK_of hn hs.used hS) (decAcyclic_of hn hS hs.acyclic)
    hdne single
  refine ⟨_, _, solved, ve', by unfold Net.enter; rw [h1], b1, rfl, ?_⟩
  dsimp only
  have hkeys : ((sch.names k n.nameTable).map Prod.fst).Nodup :=
    ((sch.names_perm k n.nameTable).map Prod.fst).nodup_iff.2 (hS.vars.keys hn)
  have hname : ∀ e, e ∈ sch.names k n.nameTable ↔ ∃ i, n.variables[i]? = some e.2.1 ∧ e.2.1.name = e.1 ∧
      n.totalUtility ≠ some i ∧ e.2.2 = n.solverVar i e.2.1 := by
    intro e
    rw [(sch.names_perm k n.nameTable).mem_iff, ← hS.vars.get hn, mapGet_mem (hS.vars.keys hn)]
  have hdec : ∀ e ∈ sch.names k n.nameTable, e.2.2.nodeType = .decision →
      ∃ i, n.variables[i]? = some e.2.1 ∧ e.2.1.name = e.1 ∧ e.2.1.nodeType = .decision ∧ n.hasPolicy e.1 = false ∧
        e.2.2 = n.solverVar i e.2.1 ∧ n.totalUtility ≠ some i := by
    intro e he hd
    obtain ⟨i, a1, a2, a3, a4⟩ := (hname e).1 he
    rw [a4] at hd
    have hd : n.solverType e.2.1 = .decision := hd
    unfold Net.solverType at hd
    split_ifs at hd with hc
    exact ⟨i, a1, a2, hd, by rw [← a2]; simpa [hd] using hc, a4, a3⟩
  have hstored : ∀ e p, storedPolicy solved e = some p → e.2.2.nodeType = .decision ∧
      ∃ q, mapGet solved e.2.2 = some q ∧ p = (e.1, q.2) := by
    intro e p h
    unfold storedPolicy at h
    split_ifs at h with hd
    obtain ⟨q, hq, rfl⟩ := Option.map_eq_some_iff.1 h
    exact ⟨not_not.1 hd, q, hq, rfl⟩
  have hput : ∀ i v, n.variables[i]? = some v → v.nodeType = .decision → n.hasPolicy v.name = false →
      n.solverVar i v ∈ solved.map Prod.fst →
      v.name ∈ ((sch.names k n.nameTable).filterMap (storedPolicy solved)).map Prod.fst := by
    intro i v hi hd hnp hm
    obtain ⟨q, hq⟩ := Option.isSome_iff_exists.1 (mapGet_isSome.2 hm)
    have ht : n.totalUtility ≠ some i := by
      intro e
      have := total_utility hn (List.mem_of_getElem? hi) ((totalName_iff hn hi).2 e)
      rw [hd] at this
      exact absurd this (by decide)
    refine List.mem_map.2 ⟨(v.name, q.2), List.mem_filterMap.2 ⟨(v.name, v, n.solverVar i v), (hname _).2 ⟨i, hi, rfl, ht, rfl⟩, ?_⟩, rfl⟩
    unfold storedPolicy
    have hst : n.solverType v = .decision := by
      unfold Net.solverType
      rw [if_neg (by simp [hnp]), hd]
    have : (n.solverVar i v).nodeType = .decision := hst
    dsimp only
    rw [if_neg (by simp [this]), hq]
    rfl
  have hnewp : ∀ p ∈ (sch.names k n.nameTable).filterMap (storedPolicy solved), ∃ i v, n.variables[i]? = some v ∧
      v.name = p.1 ∧ v.nodeType = .decision ∧ n.hasPolicy p.1 = false ∧ p.2.WF ∧
      (∀ w ∈ p.2.vars, w ∈ vs.variables ∧ w.nodeType ≠ .utility) ∧ p.2.Rows (n.solverVar i v) := by
    intro p hpm
    obtain ⟨e, he, hst⟩ := List.mem_filterMap.1 hpm
    obtain ⟨hd, q, hq, rfl⟩ := hstored e p hst
    obtain ⟨i, a1, a2, a3, a4, a5, _⟩ := hdec e he hd
    obtain ⟨c1, c2, c3, c4, _⟩ := b3 _ (mapGet_some hq)
    exact ⟨i, e.2.1, a1, a2, a3, a4, c2, c3, by rw [← a5]; exact c4⟩
  refine ⟨(sch.names k n.nameTable).filterMap (storedPolicy solved), foldl_store solved _ _ hkeys ?_, ?_, ?_, ?_, ?_, ?_, ?_⟩
  · intro e he hd hm
    obtain ⟨_, _, _, _, h, _⟩ := hdec e he hd
    have := mapGet_isSome.2 hm
    unfold Net.hasPolicy at h
    rw [this] at h
    exact absurd h (by simp)
  · intro p hpm
    obtain ⟨e, he, hst⟩ := List.mem_filterMap.1 hpm
    obtain ⟨hd, q, hq, rfl⟩ := hstored e p hst
    obtain ⟨i, a1, a2, a3, a4, _⟩ := hdec e he hd
    exact ⟨e.2.1, by simp [Net.openDecisions, List.mem_of_getElem? a1, a3, a2, a4], a2⟩
  · intro hsf v hv
    have hv' := hv
    simp only [Net.openDecisions, List.mem_filter, decide_eq_true_eq] at hv
    obtain ⟨i, hi⟩ := List.getElem?_of_mem hv.1
    exact hput i v hi hv.2.1 hv.2.2 (b4 hsf _ ((hdecs _).2 ⟨i, v, hi, hv.2.1, hv.2.2, rfl⟩))
  · intro hst
    obtain ⟨x, rfl⟩ := List.length_eq_one_iff.1 (b5 hst)
    obtain ⟨i, v, a1, a2, a3, a4⟩ := (hdecs _).1 (b3 x (by simp)).1
    refine ⟨v, by simp [Net.openDecisions, List.mem_of_getElem? a1, a2, a3], ?_⟩
    intro u hu
    constructor
    · intro hm
      obtain ⟨p, hpm, hpn⟩ := List.mem_map.1 hm
      obtain ⟨e, he, hst⟩ := List.mem_filterMap.1 hpm
      obtain ⟨hd, q, hq, rfl⟩ := hstored e p hst
      obtain ⟨j, c1, c2, c3, c4, c5, _⟩ := hdec e he hd
      have hx := mapGet_some hq
      simp only [List.mem_singleton] at hx
      have : e.2.2 = x.1 := by rw [← hx]
      rw [c5, a4] at this
      have hij : j = i := congrArg Var.id this
      subst hij
      rw [a1] at c1
      cases c1
      simp only [Net.openDecisions, List.mem_filter] at hu
      exact name_unique hn hu.1 (List.mem_of_getElem? a1) (hpn.symm.trans c2.symm)
    · rintro rfl
      exact hput i u a1 a2 a3 (by simp [← a4])
  · intro vs' names'
    have hgrow : ∀ s, n.hasPolicy s = true → Net.hasPolicy { n with vs := vs', names := names', policies := n.policies ++ (sch.names k n.nameTable).filterMap (storedPolicy solved) } s = true := by
      intro s h
      refine mapGet_isSome.2 ?_
      have := mapGet_isSome.1 h
      rw [List.map_append]
      exact List.mem_append.2 (.inl this)
    refine ⟨?_, ?_, ?_, ?_⟩
    · show ((n.policies ++ _).map Prod.fst).Nodup
      rw [List.map_append, List.nodup_append]
      refine ⟨hp.keys, ?_, ?_⟩
      · refine (hkeys.sublist (?_ : List.Sublist _ _))
        rw [List.map_filterMap]
        refine filterMap_keys_sublist (fun e p h => ?_) _
        cases hst : storedPolicy solved e with
        | none => rw [hst] at h; simp at h
        | some q =>
          rw [hst] at h
          obtain ⟨_, _, _, rfl⟩ := hstored e q hst
          simpa using h.symm
      · rintro x hx y hy rfl
        obtain ⟨p, hpm, rfl⟩ := List.mem_map.1 hy
        obtain ⟨_, _, _, _, _, h, _⟩ := hnewp p hpm
        have := mapGet_isSome.2 hx
        unfold Net.hasPolicy at h
        rw [this] at h
        exact absurd h (by simp)
    · intro p hpm
      rcases List.mem_append.1 hpm with hpm | hpm
      · exact hp.wf p hpm
      · obtain ⟨_, _, _, _, _, _, h, _⟩ := hnewp p hpm
        exact h
    · intro p hpm
      rcases List.mem_append.1 hpm with hpm | hpm
      · exact hp.decision p hpm
      · obtain ⟨i, v, h1, h2, h3, _, _, _, ⟨o, h4⟩, _⟩ := hnewp p hpm
        exact ⟨i, v, h1, h2, h3, n.solverVar i v, by rw [h4]; simp, rfl⟩
    · intro p hpm w hw
      rcases List.mem_append.1 hpm with hpm | hpm
      · obtain ⟨v, h1, h2, h3, h4, h5⟩ := hp.vars p hpm w hw
        exact ⟨v, h1, h2, h3, h4, h5.imp id (fun h => ⟨h.1, hgrow _ h.2⟩)⟩
      · obtain ⟨_, _, _, _, _, _, _, h, _⟩ := hnewp p hpm
        obtain ⟨hwR, hwu⟩ := h w hw
        obtain ⟨v, c1, c2, c3⟩ := hS.vars.mem.1 hwR
        refine ⟨v, c1, ?_, ?_, ?_, ?_⟩
        · intro e
          apply hwu
          rw [c3]
          exact solverType_utility.2 e
        · rw [c3]; rfl
        · rw [c3]; rfl
        · by_cases hc : v.nodeType = .decision ∧ n.hasPolicy v.name = true
          · refine .inr ⟨?_, hgrow _ hc.2⟩
            rw [c3]
            show n.solverType v = .chance
            unfold Net.solverType
            rw [if_pos hc]
          · left
            rw [c3]
            show n.solverType v = v.nodeType
            unfold Net.solverType
            rw [if_neg hc]
  · intro p hpm x hx
    obtain ⟨e, he, hst⟩ := List.mem_filterMap.1 hpm
    obtain ⟨hd, q, hq, rfl⟩ := hstored e p hst
    obtain ⟨i, a1, a2, a3, a4, a5, a6⟩ := hdec e he hd
    obtain ⟨c1, c2, c3, c4, c5⟩ := b3 _ (mapGet_some hq)
    dsimp only at hx
    have hdk : ∀ y ∈ decisionVars vs.variables, n.isKind .decision (n.nameAt y) = true ∧
        n.hasPolicy (n.nameAt y) = false := by
      intro y hy
      obtain ⟨j, v, d1, d2, d3, rfl⟩ := (hdecs y).1 hy
      have : n.nameAt (n.solverVar j v) = v.name := nameAt_eq d1
      rw [this, isKind_iff hn (List.mem_of_getElem? d1)]
      exact ⟨d2, d3⟩
    rcases c5 x hx with h | h | ⟨g, hg, hg1, hg2⟩
    · exact .inl (hdk x (List.mem_filter.2 ⟨(c3 x hx).1, by simpa using h⟩))
    · left
      cases single with
      | true =>
        rw [if_pos rfl, List.mem_singleton] at h
        rw [h]
        exact hdk _ c1
      | false =>
        rw [if_neg (by simp)] at h
        exact hdk _ h
    · right
      rw [hS.deps_eq] at hg
      obtain ⟨f, hf, rfl⟩ := List.mem_map.1 hg
      obtain ⟨hf1, hf2⟩ := List.mem_filter.1 hf
      have hd2 := isOpen_dims hn hf1 hf2
      simp only [Net.isOpen, decide_eq_true_eq] at hf2
      obtain ⟨s, hs2, rfl⟩ := List.mem_map.1 hg2
      obtain ⟨j, u, d1, rfl, d3⟩ := hd2 s (by simp [NFactor.dims, hs2])
      refine ⟨f, hf1, hf2.1, ?_, ?_⟩
      · intro est
        rw [if_pos est, List.mem_singleton] at hg1
        obtain ⟨j, v, k1, k2, k3⟩ := hd2 f.forVar (by simp [NFactor.dims])
        have ev : (n.depEntry f).1 = n.solverVar j v := by
          unfold Net.depEntry
          rw [← k2]; exact varOf_eq hn k1 k3
        rw [ev] at hg1
        dsimp only at hg1
        rw [a5] at hg1
        have hij : j = i := congrArg Var.id hg1
        subst hij
        rw [k1] at a1
        cases a1
        exact k2.symm.trans a2
      · rw [varOf_eq hn d1 d3]
        have : n.nameAt (n.solverVar j u) = u.name := nameAt_eq d1
        rw [this]
        exact hs2
  · intro p hpm
    obtain ⟨i, v, h1, h2, _, _, _, _, h⟩ := hnewp p hpm
    refine ⟨_, h, ?_⟩
    show (n.variables[i]?).map NVar.name = _
    rw [h1, ← h2]; rfl

/-- One iteration of the loop, if the policies so far are solved ones. -/
theorem policyStep_spec [Field α] [LinearOrder α] [IsStrictOrderedRing α] (sch : NSched α) (k : Nat) (single : Bool)
    {n : Net α} (hn : n.Valid) (hs : n.Feasible) (hp : n.PoliciesSolved) (hne : n.openDecisions ≠ []) :
    ∃ ve n1 solved ve', n.enter sch k [] = (.ok ve, n1) ∧ ve.solvePolicies (sch.ve k) single = .ok (some solved, ve') ∧
      n1 = { n with vs := some ve.vs, names := n.nameTable } ∧
      ∃ new : List (String × Factor α), (sch.names k n1.names).foldl (storePolicy solved) n1.policies = n.policies ++ new ∧
        (∀ p ∈ new, ∃ v ∈ n.openDecisions, v.name = p.1) ∧
        (single = false → ∀ v ∈ n.openDecisions, v.name ∈ new.map Prod.fst) ∧ (single = true →
          ∃ v ∈ n.openDecisions, ∀ u ∈ n.openDecisions, u.name ∈ new.map Prod.fst ↔ u = v) ∧
        (∀ vs names, Net.PoliciesSolved { n with vs := vs, names := names, policies := n.policies ++ new }) ∧
        ∀ p ∈ new, n.SeesOpen single p := by
  obtain ⟨ve, n1, solved, ve', h1, h2, h3, new, h4, h5, h6, h7, h8, h9, h10⟩ := policyStep_any sch k single hn hs hp.toPoliciesOK hne
  refine ⟨ve, n1, solved, ve', h1, h2, h3, new, h4, h5, h6, h7, fun vs names => ⟨h8 vs names, ?_⟩, h9⟩
  intro p hpm
  rcases List.mem_append.1 hpm with hpm | hpm
  · exact hp.rows p hpm
  · exact h10 p hpm

theorem Net.Valid.with {n : Net α} (hn : n.Valid) (vs : Option Vs) (names : List (String × NVar × Var))
    (policies : List (String × Factor α)) : Net.Valid { n with vs := vs, names := names, policies := policies } :=
  ⟨hn.names, hn.named, hn.few, hn.outcomes, hn.tables, hn.hasTable, hn.known, hn.dims, hn.parents, hn.size, hn.single,
    hn.weights⟩

theorem Net.Feasible.with {n : Net α} (hs : n.Feasible) (vs : Option Vs) (names : List (String × NVar × Var))
    (policies : List (String × Factor α)) : Net.Feasible { n with vs := vs, names := names, policies := policies } :=
  ⟨hs.used, hs.acyclic⟩

theorem Net.Solvable.with {n : Net α} (hs : n.Solvable) (vs : Option Vs) (names : List (String × NVar × Var))
    (policies : List (String × Factor α)) : Net.Solvable { n with vs := vs, names := names, policies := policies } :=
  ⟨hs.toFeasible.with vs names policies, hs.utility⟩

/-- The open decisions after policies are added. -/
theorem openDecisions_append {n : Net α} {new : List (String × Factor α)} {vs : Option Vs}
    {names : List (String × NVar × Var)} :
    Net.openDecisions { n with vs := vs, names := names, policies := n.policies ++ new } =
      n.openDecisions.filter (fun v => v.name ∉ new.map Prod.fst) := by
  unfold Net.openDecisions
  rw [List.filter_filter]
  apply List.filter_congr
  intro v _
  have : Net.hasPolicy { n with vs := vs, names := names, policies := n.policies ++ new } v.name = false ↔
      n.hasPolicy v.name = false ∧ v.name ∉ new.map Prod.fst := by
    unfold Net.hasPolicy
    rw [← Bool.not_eq_true, mapGet_isSome, ← Bool.not_eq_true, mapGet_isSome, List.map_append, List.mem_append, not_or]
  rw [← Bool.decide_and, decide_eq_decide, this]
  tauto

/-- The network has been entered: the names lead to the right IDs. -/
structure Net.Ready (n : Net α) : Prop where
  solver : ∃ vs, n.vs = some vs
  names : ∀ i v, n.variables[i]? = some v → n.totalUtility ≠ some i →
    ∃ w : Var, mapGet n.names v.name = some (v, w) ∧ w.id = i

/-- One iteration of the loop. -/
theorem policySteps_step [Field α] [LinearOrder α] [IsStrictOrderedRing α] (sch : NSched α) (single : Bool) (left k : Nat)
    {n : Net α} (hn : n.Valid) (hs : n.Feasible) (hp : n.PoliciesSolved) (hne : n.openDecisions ≠ []) :
    ∃ vs names new, Net.policySteps sch single (left + 1) k n =
        Net.policySteps sch single left (k + 1) { n with vs := some vs, names := names, policies := n.policies ++ new } ∧
      Net.Ready { n with vs := some vs, names := names, policies := n.policies ++ new } ∧
      Net.PoliciesSolved { n with vs := some vs, names := names, policies := n.policies ++ new } ∧
      (single = false → n.openDecisions.filter (fun v => v.name ∉ new.map Prod.fst) = []) ∧
      (single = true → (n.openDecisions.filter (fun v => v.name ∉ new.map Prod.fst)).length + 1 = n.openDecisions.length) ∧
      ∀ p ∈ new, n.InformedBy single p := by
  obtain ⟨ve, n1, solved, ve', h1, h2, rfl, new, h3, h4, h5, h6, h7, h8⟩ := policyStep_spec sch k single hn hs hp hne
  refine ⟨ve'.vs, n.nameTable, new, ?_, ⟨⟨_, rfl⟩, ?_⟩, h7 _ _, ?_, ?_, fun p hp => (h8 p hp).informed⟩
  · rw [Net.policySteps, h1]
    dsimp only
    rw [h2]
    dsimp only at h3 ⊢
    rw [h3]
  · intro i v hi ht
    exact ⟨_, (selfVars n).get_of hn hi ht, rfl⟩
  · intro e
    rw [List.filter_eq_nil_iff]
    intro v hv
    simpa using h5 e v hv
  · intro e
    obtain ⟨v, hv, hu⟩ := h6 e
    have hnd : n.openDecisions.Nodup := (List.Nodup.of_map _ hn.names).filter _
    have : n.openDecisions.filter (fun v => v.name ∉ new.map Prod.fst) = n.openDecisions.erase v := by
      rw [hnd.erase_eq_filter]
      apply List.filter_congr
      intro u hum
      have h := hu u hum
      by_cases e : u = v
      · rw [decide_eq_false (not_not.2 (h.2 e)), e]; simp
      · rw [decide_eq_true (mt h.1 e)]; simp [e]
    rw [this, List.length_erase_of_mem hv]
    have := List.length_pos_of_mem hv
    omega

/-- The whole loop. -/
theorem policySteps_spec [Field α] [LinearOrder α] [IsStrictOrderedRing α] (sch : NSched α) (single : Bool) :
    ∀ (left k : Nat) (n : Net α), n.Valid → (n.openDecisions ≠ [] → n.Feasible) → n.PoliciesSolved →
      (left = 0 → n.Ready) → (single = true → n.openDecisions.length ≤ left) →
      (single = false → left = 0 → n.openDecisions = []) →
      ∃ n', Net.policySteps sch single left k n = (.ok (), n') ∧ n'.PoliciesSolved ∧ n'.Ready ∧ n'.openDecisions = [] ∧
        ∃ vs names policies, n' = { n with vs := vs, names := names, policies := policies } ∧
          ∀ p ∈ policies, p ∈ n.policies ∨ n.InformedBy single p := by
  intro left
  induction left with
  | zero =>
    intro k n hn _ hp hr h1 h2
    refine ⟨n, rfl, hp, hr rfl, ?_, n.vs, n.names, n.policies, by cases n; rfl, fun p h => .inl h⟩
    cases single with
    | true => exact List.length_eq_zero_iff.1 (Nat.le_zero.1 (h1 rfl))
    | false => exact h2 rfl rfl
  | succ left ih =>
    intro k n hn hs hp _ h1 h2
    by_cases hne : n.openDecisions = []
    · obtain ⟨vs, fs, ps, deps, c1, hS⟩ := toVE_spec sch k hn hp.toPoliciesOK []
      have hd : decisionVars vs.variables = [] := by
        rw [decisionVars, List.filter_eq_nil_iff]
        intro w hw
        simp only [decide_eq_true_eq]
        intro hwd
        obtain ⟨v, d1, d2, d3⟩ := hS.vars.mem.1 hw
        rw [d3] at hwd
        have hwd : n.solverType v = .decision := hwd
        unfold Net.solverType at hwd
        split_ifs at hwd with hc
        have : v ∈ n.openDecisions := by
          simp only [Net.openDecisions, List.mem_filter, decide_eq_true_eq]
          exact ⟨List.mem_of_getElem? d1, hwd, by simpa [hwd] using hc⟩
        rw [hne] at this
        simp at this
      obtain ⟨decs, t, e1, e2, _⟩ := getDecisions_new (sch.ve k) hS.problem n.solverWeights
      rw [hd] at e2
      have e2 := e2.eq_nil
      subst e2
      refine ⟨{ n with vs := some vs, names := n.nameTable }, ?_, ?_, ⟨⟨_, rfl⟩, ?_⟩, hne, _, _, n.policies, rfl, fun p h => .inl h⟩
      · rw [Net.policySteps, Net.enter, c1]
        dsimp only
        have : (VE.new vs (fs ++ ps) deps n.solverWeights).solvePolicies (sch.ve k) single =
            .ok (none, { VE.new vs (fs ++ ps) deps n.solverWeights with tick := t }) := by
          unfold VE.solvePolicies
          rw [e1, ok_bind]
          rfl
        rw [this]
        dsimp only
        rw [(new_good hS.problem n.solverWeights).1]
      · exact ⟨⟨hp.keys, hp.wf, hp.decision, hp.vars⟩, hp.rows⟩
      · intro i v hi ht
        exact ⟨_, (selfVars n).get_of hn hi ht, rfl⟩
    · obtain ⟨vs, names, new, a1, a2, a3, a4, a5, a6⟩ := policySteps_step sch single left k hn (hs hne) hp hne
      rw [a1]
      obtain ⟨n', b1, b2, b3, b4, vs', names', pols', rfl, b5⟩ := ih (k + 1) _ (hn.with (some vs) names (n.policies ++ new))
        (fun _ => (hs hne).with _ _ _) a3 (fun _ => a2)
        (by
          intro e
          rw [openDecisions_append]
          have := a5 e
          have := h1 e
          omega)
        (by
          intro e _
          rw [openDecisions_append]
          exact a4 e)
      refine ⟨_, b1, b2, b3, b4, vs', names', pols', rfl, fun p hpm => ?_⟩
      rcases b5 p hpm with h | h
      · rcases List.mem_append.1 h with h | h
        · exact .inl h
        · exact .inr (a6 p h)
      · exact .inr h

theorem size_nameAt {n : Net α} (hn : n.Valid) {l : List Var}
    (h : ∀ w ∈ l, ∃ v, n.variables[w.id]? = some v ∧ w.outcomes = v.outcomes.length) :
    size l = ((l.map n.nameAt).map n.count).prod := by
  induction l with
  | nil => rfl
  | cons w l ih =>
    obtain ⟨v, h1, h2⟩ := h w (by simp)
    simp only [List.map_cons, size, List.prod_cons]
    rw [ih (fun t ht => h t (List.mem_cons_of_mem _ ht)), nameAt_eq h1, count_eq hn (List.mem_of_getElem? h1), h2]

theorem flatIndex_nameAt {n : Net α} (hn : n.Valid) (x : World) {l : List Var}
    (h : ∀ w ∈ l, ∃ v, n.variables[w.id]? = some v ∧ w.outcomes = v.outcomes.length) :
    flatIndex l (tupleOf l (n.ids x)) = rowMajor ((l.map n.nameAt).map (fun s => (n.count s, x s))) := by
  induction l with
  | nil => rfl
  | cons w l ih =>
    obtain ⟨v, h1, h2⟩ := h w (by simp)
    have hl : ∀ t ∈ l, ∃ v, n.variables[t.id]? = some v ∧ t.outcomes = v.outcomes.length :=
      fun t ht => h t (List.mem_cons_of_mem _ ht)
    simp only [List.map_cons, rowMajor, tupleOf]
    rw [flatIndex_cons _ _ _ _ (by simp)]
    have := ih hl
    simp only [tupleOf] at this
    have hid : n.ids x w.id = x v.name := by simp [Net.ids, h1]
    rw [this, size_nameAt hn hl, hid, nameAt_eq h1, List.map_map, List.map_map, List.map_map]
    congr 2

/-- One returned policy, whatever the numbers are. -/
theorem policyTable_any [Zero α] {n : Net α} (hn : n.Valid) (hp : n.PoliciesOK) (hr : n.Ready) {p : String × Factor α}
    (hpm : p ∈ n.policies) {others : List Var} {d : Var} (b1 : p.2.vars = others ++ [d])
    (b4 : (n.variables[d.id]?).map NVar.name = some p.1) (vs : Vs) :
    ∃ t vs', n.policyTable vs p.1 p.2 = .ok (t, vs') ∧ t.forVar = p.1 ∧ n.isKind .decision p.1 = true ∧ t.dims.Nodup ∧
      (∀ s ∈ t.given, n.isKind .chance s = true ∨ n.isKind .decision s = true) ∧
      (∃ data, t.table = some data ∧ data.length = (t.dims.map n.count).prod) ∧ t.dims = p.2.vars.map n.nameAt ∧
      (∀ w : World, (∀ s ∈ t.dims, w s < n.count s) → Fits (n.ids w) p.2.vars) ∧
      ∀ w : World, (∀ s ∈ t.dims, w s < n.count s) → n.entry t w = p.2.val (n.ids w) := by
  obtain ⟨i, v, a1, a2, a3, _⟩ := hp.decision p hpm
  have hwf := hp.wf p hpm
  have hvars := hp.vars p hpm
  have ht : n.totalUtility ≠ some i := by
    intro e
    have := total_utility hn (List.mem_of_getElem? a1) ((totalName_iff hn a1).2 e)
    rw [a3] at this
    exact absurd this (by decide)
  obtain ⟨w, c1, c2⟩ := hr.names i v a1 ht
  obtain ⟨v', hv', hvn⟩ := Option.map_eq_some_iff.1 b4
  have hdi : d.id = i := pos_unique hn hv' a1 (by rw [hvn, a2])
  have hvv : v' = v := by rw [hdi, a1] at hv'; exact (Option.some.inj hv').symm
  subst hvv
  have hidx : firstIdx w.id p.2.vars = some others.length := by
    have hmem : w.id ∈ p.2.vars.map Var.id := by rw [b1, c2, ← hdi]; simp
    obtain ⟨j, hj⟩ := Option.ne_none_iff_exists'.1 (fun e => firstIdx_none.1 e hmem)
    obtain ⟨x, hx, hxi⟩ := firstIdx_some hj
    have h1 : (p.2.vars.map Var.id)[j]? = some w.id := by rw [List.getElem?_map, hx, ← hxi]; rfl
    have h2 : (p.2.vars.map Var.id)[others.length]? = some w.id := by
      rw [List.getElem?_map, b1]; simp [hdi, c2]
    have hlt : j < (p.2.vars.map Var.id).length := (List.getElem?_eq_some_iff.1 h1).1
    rw [hj, (List.getElem?_inj hlt hwf.nodup).1 (h1.trans h2.symm)]
  have hnew : p.2.vars.eraseIdx others.length ++ [d] = p.2.vars := by
    rw [b1, List.eraseIdx_append_of_length_le (le_refl _)]
    simp
  obtain ⟨g, g1, g2, _, g4, g5⟩ := rearrange_spec vs p.2 hwf p.2.vars (List.Perm.refl _)
  have hnames : others.mapM (fun v => (do
        let x ← goGet n.variables v.id
        return x.name : Except Fault String)) = .ok (others.map n.nameAt) := by
    apply mapM_ok
    intro u hu
    obtain ⟨y, h1, _⟩ := hvars u (by rw [b1]; simp [hu])
    have : goGet n.variables u.id = .ok y := by rw [goGet_eq]; exact h1
    rw [this, ok_bind, nameAt_eq h1]
    rfl
  have hout : ∀ u ∈ p.2.vars, ∃ y, n.variables[u.id]? = some y ∧ u.outcomes = y.outcomes.length := by
    intro u hu
    obtain ⟨y, h1, _, _, h4, _⟩ := hvars u hu
    exact ⟨y, h1, h4⟩
  set t : NFactor α := { forVar := p.1, given := others.map n.nameAt, table := some g.data, outcomes := [], columns := 0 }
    with htd
  have hdims : t.dims = p.2.vars.map n.nameAt := by
    rw [b1, List.map_append, List.map_singleton, nameAt_eq hv', hvn]; rfl
  have hdn : t.dims.Nodup := by
    rw [hdims]
    refine List.Nodup.map_on ?_ (List.Nodup.of_map _ hwf.nodup)
    intro x hx y hy e
    obtain ⟨x', x1, _⟩ := hout x hx
    obtain ⟨y', y1, _⟩ := hout y hy
    rw [nameAt_eq x1, nameAt_eq y1] at e
    exact coherent_of_nodup hwf.nodup x hx y hy (pos_unique hn x1 y1 e)
  have hfits : ∀ x : World, (∀ s ∈ t.dims, x s < n.count s) → Fits (n.ids x) p.2.vars := by
    intro x hx u hu
    obtain ⟨y, h1, h2⟩ := hout u hu
    have := hx (n.nameAt u) (by rw [hdims]; exact List.mem_map_of_mem hu)
    rw [nameAt_eq h1, count_eq hn (List.mem_of_getElem? h1)] at this
    rw [h2]
    simpa [Net.ids, h1] using this
  have hentry : ∀ x : World, (∀ s ∈ t.dims, x s < n.count s) → n.entry t x = p.2.val (n.ids x) := by
    intro x hx
    rw [← g5 _ (hfits x hx)]
    unfold Net.entry Factor.val
    rw [hdims, g4, flatIndex_nameAt hn x hout]
    rfl
  refine ⟨t, { vs with factorCounter := vs.factorCounter + 1 }, ?_, rfl, ?_, hdn, ?_, ⟨g.data, rfl, ?_⟩, hdims, hfits, hentry⟩
  · unfold Net.policyTable
    rw [← a2, c1]
    dsimp only
    rw [hidx]
    dsimp only
    have hg : goGet p.2.vars others.length = .ok d := by rw [goGet_eq, b1]; simp
    rw [hg, ok_bind, hnew, g1, ok_bind]
    dsimp only
    have : p.2.vars.dropLast = others := by rw [b1]; simp
    rw [this, hnames, ok_bind, a2]
    rfl
  · rw [← a2, isKind_iff hn (List.mem_of_getElem? a1)]; exact a3
  · intro s hs
    obtain ⟨u, hu, rfl⟩ := List.mem_map.1 hs
    obtain ⟨y, h1, h2, _⟩ := hvars u (by rw [b1]; simp [hu])
    have hy := List.mem_of_getElem? h1
    rw [nameAt_eq h1, isKind_iff hn hy, isKind_iff hn hy]
    cases hk : y.nodeType
    · exact .inl rfl
    · exact .inr rfl
    · exact absurd hk h2
  · rw [g2.len, g4, size_nameAt hn hout, hdims]
/-- The decision of a stored policy, and the variable of it. -/
theorem policy_decision {n : Net α} (hn : n.Valid) (hp : n.PoliciesOK) {p : String × Factor α} (hpm : p ∈ n.policies)
    {d : Var} (hd : d ∈ p.2.vars) (b4 : (n.variables[d.id]?).map NVar.name = some p.1) :
    n.IsVar p.1 ∧ d.outcomes = n.count p.1 ∧ d.id = (n.varOf p.1).id := by
  obtain ⟨i, v, a1, a2, a3, _⟩ := hp.decision p hpm
  obtain ⟨v', hv', hvn⟩ := Option.map_eq_some_iff.1 b4
  have ht : n.totalUtility ≠ some i := by
    intro e
    have := total_utility hn (List.mem_of_getElem? a1) ((totalName_iff hn a1).2 e)
    rw [a3] at this
    exact absurd this (by decide)
  have hdi : d.id = i := pos_unique hn hv' a1 (by rw [hvn, a2])
  refine ⟨⟨i, v, a1, a2, ht⟩, ?_, ?_⟩
  · obtain ⟨y, h1, _, _, h2, _⟩ := hp.vars p hpm d hd
    rw [hdi, a1] at h1
    cases h1
    rw [h2, ← a2, count_eq hn (List.mem_of_getElem? a1)]
  · rw [← a2, varOf_eq hn a1 ht, hdi]
    rfl

/-- One returned policy. -/
theorem policyTable_spec [Field α] [LinearOrder α] [IsStrictOrderedRing α] {n : Net α} (hn : n.Valid)
    (hp : n.PoliciesSolved) (hr : n.Ready) {p : String × Factor α} (hpm : p ∈ n.policies) (vs : Vs) :
    ∃ t vs', n.policyTable vs p.1 p.2 = .ok (t, vs') ∧ n.PolicyTable p.1 t ∧ t.dims = p.2.vars.map n.nameAt ∧
      ∀ w : World, (∀ s ∈ t.dims, w s < n.count s) → n.entry t w = p.2.val (n.ids w) := by
  obtain ⟨d, ⟨⟨others, b1⟩, b2, b3⟩, b4⟩ := hp.rows p hpm
  obtain ⟨t, vs', h1, h2, h3, h4, h5, h6, hdims, hfits, hentry⟩ := policyTable_any hn hp.toPoliciesOK hr hpm b1 b4 vs
  obtain ⟨hdIs, hdo, hdi⟩ := policy_decision hn hp.toPoliciesOK hpm (d := d) (by rw [b1]; simp) b4
  refine ⟨t, vs', h1, ⟨h2, h3, h4, h5, h6, ?_, ?_⟩, hdims, hentry⟩
  · intro x hx
    rw [hentry x hx]
    exact b2 _ (hfits x hx)
  · intro x hx
    unfold Net.rowSum
    rw [h2]
    show ∑ k ∈ range (n.count p.1), n.entry t (x.set p.1 k) = 1
    rw [← b3 _ (hfits x hx), hdo]
    apply Finset.sum_congr rfl
    intro k hk
    rw [hentry]
    · rw [ids_set hn hdIs, hdi]
    · intro s hs
      unfold World.set
      split_ifs with e
      · rw [e]; exact Finset.mem_range.1 hk
      · exact hx s hs

/-- The returned policies, if each can be returned. -/
theorem policyTables_any [Zero α] {n : Net α} {R : String × Factor α → NFactor α → Prop} :
    ∀ (l : List (String × Factor α)),
      (∀ p ∈ l, ∀ vs, ∃ t vs', n.policyTable vs p.1 p.2 = .ok (t, vs') ∧ R p t) →
      (l.map Prod.fst).Nodup → ∀ (vs : Vs) (acc : List (String × NFactor α)),
      (∀ p ∈ l, p.1 ∉ acc.map Prod.fst) → ∃ ts vs', n.policyTables l vs acc = .ok (acc ++ ts, vs') ∧
        List.Forall₂ (fun (p : String × Factor α) (t : String × NFactor α) => t.1 = p.1 ∧ R p t.2) l ts := by
  intro l
  induction l with
  | nil => intro _ _ vs acc _; exact ⟨[], vs, by simp [Net.policyTables], .nil⟩
  | cons p l ih =>
    intro hl hnd vs acc hacc
    rw [List.map_cons, List.nodup_cons] at hnd
    obtain ⟨t, vs1, h1, h2⟩ := hl p (by simp) vs
    obtain ⟨ts, vs2, k1, k2⟩ := ih (fun q hq => hl q (by simp [hq])) hnd.2 vs1 (acc ++ [(p.1, t)]) (by
      intro q hq hm
      rw [List.map_append, List.mem_append] at hm
      rcases hm with hm | hm
      · exact hacc q (by simp [hq]) hm
      · simp only [List.map_cons, List.map_nil, List.mem_singleton] at hm
        exact hnd.1 (hm ▸ List.mem_map_of_mem hq))
    refine ⟨(p.1, t) :: ts, vs2, ?_, .cons ⟨rfl, h2⟩ k2⟩
    rw [Net.policyTables, h1, ok_bind]
    dsimp only
    rw [mapSet_new (hacc p (by simp)), k1]
    simp

/-- The returned policies. -/
theorem policyTables_spec [Field α] [LinearOrder α] [IsStrictOrderedRing α] {n : Net α} (hn : n.Valid)
    (hp : n.PoliciesSolved) (hr : n.Ready) : ∀ (l : List (String × Factor α)), (∀ p ∈ l, p ∈ n.policies) →
      (l.map Prod.fst).Nodup → ∀ (vs : Vs) (acc : List (String × NFactor α)),
      (∀ p ∈ l, p.1 ∉ acc.map Prod.fst) → ∃ ts vs', n.policyTables l vs acc = .ok (acc ++ ts, vs') ∧
        List.Forall₂ (fun (p : String × Factor α) (t : String × NFactor α) => t.1 = p.1 ∧ n.PolicyTable p.1 t.2 ∧
          t.2.dims = p.2.vars.map n.nameAt ∧ ∀ w : World, (∀ s ∈ t.2.dims, w s < n.count s) → n.entry t.2 w = p.2.val (n.ids w)) l ts := by
  intro l hl hnd vs acc hacc
  exact policyTables_any l (fun p hpm vs => policyTable_spec hn hp hr (hl p hpm) vs) hnd vs acc hacc

/-- `SolvePolicies` of a network. -/
theorem solvePolicies_net [Field α] [LinearOrder α] [IsStrictOrderedRing α] (sch : NSched α) {n : Net α} (hn : n.Valid)
    (hs : (∃ s, n.isKind .decision s = true) → n.Feasible) (stepwise : Bool) :
    ∃ tables n', n.solvePolicies sch stepwise = (.ok tables, n') ∧ (tables.map Prod.fst).Nodup ∧
      (∀ s, s ∈ tables.map Prod.fst ↔ n.isKind .decision s = true) ∧ (∀ t ∈ tables, n.PolicyTable t.1 t.2) ∧
      n'.Valid ∧ n'.PoliciesSolved ∧
      (∃ vs names policies, n' = { n with vs := vs, names := names, policies := policies }) ∧
      (n'.policies.map Prod.fst).Perm (tables.map Prod.fst) ∧
      (∃ m, Net.policySteps sch stepwise (n.countDecisionSteps stepwise) 0 { n with policies := [] } = (.ok (), m) ∧
        n'.policies = m.policies ∧ n'.Ready) ∧
      (∀ t ∈ tables, ∀ p ∈ n'.policies, p.1 = t.1 → t.2.dims = p.2.vars.map n.nameAt ∧
        ∀ w : World, (∀ s ∈ t.2.dims, w s < n.count s) → p.2.val (n.ids w) = n.entry t.2 w) ∧
      ∀ p ∈ n'.policies, n.InformedBy stepwise p := by
  have hopen : Net.openDecisions { n with policies := [] } = n.variables.filter (fun v => v.nodeType = .decision) := by
    unfold Net.openDecisions
    apply List.filter_congr
    intro v _
    simp [Net.hasPolicy, mapGet]
  have hpos : 0 < n.countDecisionSteps stepwise := by
    unfold Net.countDecisionSteps
    dsimp only
    split_ifs <;> omega
  obtain ⟨n1, h1, h2, h3, h4, vs, names, pols, rfl, hinf⟩ := policySteps_spec sch stepwise (n.countDecisionSteps stepwise) 0
    { n with policies := [] } (hn.with n.vs n.names []) (by
      rw [hopen]
      intro hne
      obtain ⟨v, hv⟩ := List.exists_mem_of_ne_nil _ hne
      simp only [List.mem_filter, decide_eq_true_eq] at hv
      exact (hs ⟨v.name, (isKind_iff hn hv.1 _).2 hv.2⟩).with n.vs n.names [])
    ⟨⟨List.nodup_nil, by simp, by simp, by simp⟩, by simp⟩ (fun e => absurd e hpos.ne')
    (by
      intro e
      rw [hopen]
      unfold Net.countDecisionSteps
      rw [if_neg (by simp [e])]
      dsimp only
      split_ifs with h0 <;> omega)
    (by
      intro e h0
      unfold Net.countDecisionSteps at h0
      rw [if_pos (by simp [e])] at h0
      exact absurd h0 (by decide))
  set m : Net α := { n with vs := vs, names := names, policies := pols } with hm
  have hmv : m.Valid := hn.with vs names pols
  obtain ⟨vs1, hvs⟩ := h3.solver
  have hperm := sch.pol_perm (n.countDecisionSteps stepwise) m.policies
  obtain ⟨ts, vs2, k1, k2⟩ := policyTables_spec hmv h2 h3 (sch.pol (n.countDecisionSteps stepwise) m.policies)
    (fun p hp => hperm.subset hp) ((hperm.map Prod.fst).nodup_iff.2 h2.keys) vs1 [] (by simp)
  have hkeys : ts.map Prod.fst = (sch.pol (n.countDecisionSteps stepwise) m.policies).map Prod.fst := by
    clear k1 hperm
    generalize sch.pol (n.countDecisionSteps stepwise) m.policies = l at k2
    induction k2 with
    | nil => rfl
    | cons h _ ih => rw [List.map_cons, List.map_cons, ih, h.1]
  have hnd : (ts.map Prod.fst).Nodup := by rw [hkeys]; exact (hperm.map Prod.fst).nodup_iff.2 h2.keys
  have hkp : (m.policies.map Prod.fst).Perm (ts.map Prod.fst) := by rw [hkeys]; exact (hperm.map Prod.fst).symm
  refine ⟨ts, { m with vs := some vs2 }, ?_, hnd, ?_, ?_, hn.with _ _ _, ?_, ⟨_, _, _, rfl⟩, hkp, ⟨m, h1, rfl, ⟨_, rfl⟩, h3.names⟩, ?_,
    fun p hp => (hinf p hp).resolve_left (by simp)⟩
  · unfold Net.solvePolicies
    dsimp only
    rw [h1]
    dsimp only
    rw [Net.withVs, hvs]
    dsimp only
    rw [k1]
    rfl
  · intro s
    rw [← hkp.mem_iff]
    constructor
    · intro h
      obtain ⟨p, hp, rfl⟩ := List.mem_map.1 h
      obtain ⟨i, v, a1, a2, a3, _⟩ := h2.decision p hp
      rw [← a2, isKind_iff hn (List.mem_of_getElem? a1)]
      exact a3
    · intro h
      obtain ⟨v, hv, a1, a2⟩ := isKind_mem.1 h
      by_contra hc
      have : v ∈ m.openDecisions := by
        simp only [Net.openDecisions, List.mem_filter, decide_eq_true_eq]
        refine ⟨hv, a2, ?_⟩
        rw [← Bool.not_eq_true]
        intro hp
        rw [a1] at hp
        exact hc (mapGet_isSome.1 hp)
      rw [h4] at this
      simp at this
  · intro t ht
    obtain ⟨p, _, h, hpt, _⟩ := forall₂_mem_right k2 ht
    rw [h]
    exact ⟨hpt.forVar, hpt.decision, hpt.dims, hpt.parents, hpt.size, hpt.nonneg, hpt.one⟩
  · exact ⟨⟨h2.keys, h2.wf, h2.decision, h2.vars⟩, h2.rows⟩
  · intro t ht p hp he
    obtain ⟨q, hq, h, _, hdm, hv⟩ := forall₂_mem_right k2 ht
    have hq' := hperm.subset hq
    have : p = q := by
      have e : p.1 = q.1 := he.trans h
      have g1 := (mapGet_mem h2.keys (k := p.1) (x := p.2)).2 hp
      have g2 := (mapGet_mem h2.keys (k := q.1) (x := q.2)).2 hq'
      rw [e, g2] at g1
      exact Prod.ext e (Option.some.inj g1).symm
    subst this
    exact ⟨hdm, fun w hw => (hv w hw).symm⟩

end Bbn
