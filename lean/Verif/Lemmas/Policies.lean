import Verif.Lemmas.Best
import Verif.Lemmas.TopoDet

/-!
# `SolvePolicies` from the start
-/

set_option autoImplicit false

namespace Bbn

open Finset

variable {α : Type}

theorem Problem.fixed {vs : Vs} {fs : List (Factor α)} {deps : List (Var × List Var)} (hp : Problem vs fs deps) :
    Fixed vs.variables deps := ⟨⟨hp.ids, hp.index⟩, hp.depKeys, hp.depVars⟩

/-- The decisions of a problem, in topological order. -/
theorem getDecisions_new (sch : Sched α) {vs : Vs} {fs : List (Factor α)} {deps : List (Var × List Var)}
    (hp : Problem vs fs deps) (weights : Option (List α)) :
    ∃ decs t, (VE.new vs fs deps weights).getDecisions sch = .ok (decs, t) ∧
      decs.Perm (decisionVars vs.variables) ∧ (DecAcyclic deps → TopoOrdered deps decs) := by
  obtain ⟨h0, _, hR⟩ := new_good hp weights
  rw [h0]
  refine getDecisions_spec sch _ hR ⟨?_, fun e he p hpe => hR.index_lt ((hp.depVars e he).2 p hpe)⟩
  rintro v hv p ⟨e, he, h1, h2, h3⟩
  simp [(hp.depVars e he).2 p h2, h3]

/-- The state after the utilities are summed. -/
theorem start_spec [CommSemiring α] (sch : Sched α) {vs : Vs} {fs : List (Factor α)} {deps : List (Var × List Var)}
    (hp : Problem vs fs deps) {weights : Option (List α)} (hu : UtilityOK vs.variables fs weights)
    (hd : DecisionOK vs.variables fs) {decs : List Var} {t : Nat}
    (hdec : (VE.new vs fs deps weights).getDecisions sch = .ok (decs, t)) :
    ∃ st1 : VE α, VE.sumUtilities sch { VE.new vs fs deps weights with tick := t } = .ok st1 ∧
      PState vs.variables deps st1 decs.reverse ∧
      live vs.variables st1 = vs.variables.filter (fun v => v.nodeType ≠ .utility) ∧
      (∀ v ∈ vs.variables, v.nodeType ≠ .utility → st1.eliminated[v.index]? = some false) ∧
      (∀ σ, Fits σ vs.variables → (∀ u ∈ utilities vs.variables, σ u.id = 0) → joint st1.factors σ =
        joint (fs.filter (fun f => !f.isUtility)) σ * totalUtility vs.variables fs weights σ) ∧
      st1.vs.variables = vs.variables ∧ st1.deps = deps ∧
      ∃ s : Factor α, st1.factors = fs.filter (fun f => !f.isUtility) ++ [s] ∧
        ∀ (H : Nat → Prop) (v : Var), v ∈ vs.variables → v.nodeType ≠ .utility → Linked fs H v.id →
          LinkedS (scopes st1.factors) (scope s) H v.id := by
  obtain ⟨h0, hg, hR⟩ := new_good hp weights
  obtain ⟨decs', t', d1, d2, _⟩ := getDecisions_new sch hp weights
  rw [hdec] at d1
  simp only [Except.ok.injEq, Prod.mk.injEq] at d1
  obtain ⟨rfl, rfl⟩ := d1
  set R := vs.variables with hRd
  have e0 : ({ VE.new vs fs deps weights with tick := t } : VE α) =
      ⟨vs, List.replicate vs.variables.length false, deps, fs, weights, t, []⟩ := by rw [h0]
  rw [e0]
  set st0 : VE α := ⟨vs, List.replicate vs.variables.length false, deps, fs, weights, t, []⟩ with hst0
  obtain ⟨n, el, s, b1, b2, b3, b4, b5, b6, b7⟩ := sumUtilities_spec sch st0 hR (by simp [hst0]) hg hu
  have hel : ∀ v ∈ R, v.nodeType ≠ .utility → el[v.index]? = some false := by
    intro v hv hvu
    rw [b4 v hv hvu]
    simp only [hst0]
    rw [List.getElem?_replicate, if_pos (hR.index_lt hv)]
  have hdm : ∀ v, v ∈ decs ↔ v ∈ R ∧ v.nodeType = .decision := by
    intro v; rw [d2.mem_iff]; simp [decisionVars]
  have hs1 : ∀ v ∈ R, v.nodeType ≠ .utility → ∀ f ∈ fs, v ∈ f.vars →
      ∃ g ∈ fs.filter (fun f => !f.isUtility) ++ [s], v ∈ g.vars := by
    intro v _ hvu f hf hvf
    cases hfu : f.isUtility with
    | true => exact ⟨s, by simp, (b6 v).2 ⟨⟨f, hf, hfu, hvf⟩, hvu⟩⟩
    | false => exact ⟨f, by simp [hf, hfu], hvf⟩
  have hnu : ∀ f ∈ fs, f.isUtility = false → ∀ v ∈ f.vars, v.nodeType ≠ .utility := by
    intro f _ hfu v hv hvt
    simp only [Factor.isUtility, List.any_eq_false, decide_eq_true_eq] at hfu
    exact hfu v hv hvt
  have hs2 : ∀ g ∈ fs.filter (fun f => !f.isUtility) ++ [s], ∀ v ∈ g.vars, v.nodeType ≠ .utility := by
    intro g hg v hv
    rcases List.mem_append.1 hg with hg | hg
    · obtain ⟨hg1, hg2⟩ := List.mem_filter.1 hg
      exact hnu g hg1 (by simpa using hg2) v hv
    · simp only [List.mem_singleton] at hg
      subst hg
      exact ((b6 v).1 hv).2
  refine ⟨_, b1, ⟨?_, rfl, b3, b2, ?_, ?_, ?_, ?_, ?_⟩, ?_, hel, ?_, rfl, rfl, s, rfl, ?_⟩
  · simp only [hst0]
    symm
    rw [List.map_congr_left (g := id), List.map_id]
    intro v hv
    unfold openVar
    rw [if_neg]
    · rfl
    · rintro ⟨h1, h2⟩
      exact h2 (List.mem_reverse.2 ((hdm v).2 ⟨hv, h1⟩))
  · intro v hv hvu _
    obtain ⟨f, hf, hvf⟩ := hd.occurs v hv hvu
    obtain ⟨g, hg, hvg⟩ := hs1 v hv hvu f hf hvf
    exact mem_scopes_sup.2 ⟨g, hg, mem_scope.2 ⟨v, hvg, rfl⟩⟩
  · intro v hv hin
    obtain ⟨g, hg, hin⟩ := mem_scopes_sup.1 hin
    obtain ⟨w, hw, e⟩ := mem_scope.1 hin
    have : w = v := coherent_of_nodup hR.ids w (b2.sub g hg w hw) v hv e
    subst this
    have hwu := hs2 g hg w hw
    exact ⟨hwu, hel w hv hwu⟩
  · intro d hdd
    obtain ⟨h1, h2⟩ := (hdm d).1 (List.mem_reverse.1 hdd)
    exact ⟨h1, h2, hel d h1 (by rw [h2]; decide)⟩
  · rw [List.nodup_reverse]
    exact d2.nodup_iff.2 ((List.Nodup.of_map _ hR.ids).filter _)
  · rintro d _ p ⟨e, he, h1, h2, h3⟩
    exact List.mem_reverse.2 ((hdm p).2 ⟨(hp.depVars e he).2 p h2, h3⟩)
  · unfold live
    apply List.filter_congr
    intro v hv
    rw [Bool.eq_iff_iff]
    simp only [decide_eq_true_eq]
    exact ⟨fun h => h.1, fun h => ⟨h, hel v hv h⟩⟩
  · intro σ hσ hσu
    simp only [hst0]
    rw [joint_append]
    have e1 : joint [s] σ = s.val σ := by simp [joint]
    rw [e1, b7 σ (hσ.mono (b2.sub s (by simp))) hσu]
    simp only [hst0]
    rw [total_eq (List.Nodup.of_map _ hR.ids) weights fs hp.facVars hu.only]
  · intro H v hv hvu hl
    have key : ∀ i, Linked fs H i → ∀ v ∈ R, v.id = i → v.nodeType ≠ .utility →
        LinkedS (scopes (fs.filter (fun f => !f.isUtility) ++ [s])) (scope s) H i := by
      intro i hl
      induction hl with
      | @util f w hf hfu hw =>
        intro v hv e hvu
        have : w = v := coherent_of_nodup hR.ids w (hp.facVars f hf w hw) v hv e.symm
        subst this
        exact .util (mem_scope.2 ⟨w, (b6 w).2 ⟨⟨f, hf, hfu, hw⟩, hvu⟩, rfl⟩)
      | @step f u w hf huf hw hH hl ih =>
        intro v hv e hvu
        have : w = v := coherent_of_nodup hR.ids w (hp.facVars f hf w hw) v hv e.symm
        subst this
        cases hfu : f.isUtility with
        | true => exact .util (mem_scope.2 ⟨w, (b6 w).2 ⟨⟨f, hf, hfu, hw⟩, hvu⟩, rfl⟩)
        | false =>
          refine .step (s := scope f) ?_ (mem_scope.2 ⟨u, huf, rfl⟩) (mem_scope.2 ⟨w, hw, rfl⟩) hH
            (ih u (hp.facVars f hf u huf) rfl (hnu f hf hfu u huf))
          unfold scopes
          simp only [Multiset.mem_coe, List.mem_map]
          exact ⟨f, by simp [hf, hfu], rfl⟩
    exact key v.id hl v hv rfl hvu

theorem lastFirst_reverse {deps : List (Var × List Var)} {decs : List Var} (hn : decs.Nodup) (h : TopoOrdered deps decs) :
    LastFirst deps decs.reverse := by
  intro A d B hl e he hedge
  -- `decs = B.reverse ++ d :: A.reverse`
  have hd : decs = B.reverse ++ d :: A.reverse := by
    have := congrArg List.reverse hl
    simpa using this
  obtain ⟨B1, B2, hB⟩ := List.append_of_mem he
  have hd2 : decs = B2.reverse ++ e :: (B1.reverse ++ d :: A.reverse) := by
    rw [hd, hB]; simp
  have hmem := h _ _ _ hd2 d hedge
  rw [hd2, List.nodup_append] at hn
  exact hn.2.2 d hmem d (by simp) rfl

/-- Nothing about the utility is needed to solve the decisions without a panic. -/
theorem solve_list_ok [Field α] [LinearOrder α] [IsStrictOrderedRing α] {R : List Var} {deps : List (Var × List Var)}
    (hF : Fixed R deps) (sch : Sched α) (single : Bool) (L : List Var) : ∀ (st : VE α), PState R deps st L →
      (∀ d ∈ L, 0 < d.outcomes) → LastFirst deps L →
      ∃ ps st', VE.solvePolicyList sch single L st = .ok (ps, st') := by
  induction L with
  | nil => intro st _ _ _; exact ⟨[], st, rfl⟩
  | cons d L ih =>
    intro st h hpos hord
    obtain ⟨fac, pol, st', hr, a1, a2, _⟩ := policy_elim hF sch h (hpos d (by simp)) hord single
    obtain ⟨ps, st'', b1⟩ := ih st' a2 (fun e he => hpos e (by simp [he])) hord.tail
    unfold VE.solvePolicyList
    rw [a1, ok_bind]
    dsimp only
    cases single with
    | true => exact ⟨_, _, rfl⟩
    | false =>
      rw [if_neg (by simp), b1, ok_bind]
      exact ⟨_, _, rfl⟩

/-- The decisions are solved in the order given; in single mode only the first one. -/
theorem solve_list_order [Field α] [LinearOrder α] (sch : Sched α) (single : Bool)
    (L : List Var) : ∀ (st : VE α) {ps : List (Var × Factor α × Factor α)} {st' : VE α},
      VE.solvePolicyList sch single L st = .ok (ps, st') →
      ps.map (fun p => p.1) = if single then L.take 1 else L := by
  induction L with
  | nil =>
    intro st ps st' h
    simp only [VE.solvePolicyList, Except.ok.injEq, Prod.mk.injEq] at h
    rw [← h.1]; simp
  | cons d L ih =>
    intro st ps st' h
    unfold VE.solvePolicyList at h
    obtain ⟨⟨p, st1⟩, h1, h⟩ := bind_ok h
    have hp1 : p.1 = d := by
      unfold VE.solvePolicy at h1
      obtain ⟨x1, _, h1⟩ := bind_ok h1
      obtain ⟨x2, _, h1⟩ := bind_ok h1
      obtain ⟨x3, _, h1⟩ := bind_ok h1
      obtain ⟨x4, _, h1⟩ := bind_ok h1
      have h2 : ((d, x1.1, x2.1), x4) = (p, st1) := Except.ok.inj h1
      rw [← (Prod.mk.inj h2).1]
    dsimp only at h
    cases single with
    | true =>
      have h2 : ([p], st1) = (ps, st') := Except.ok.inj h
      rw [← (Prod.mk.inj h2).1]
      simp [hp1]
    | false =>
      rw [if_neg (by simp)] at h
      obtain ⟨⟨ps1, st2⟩, h3, h⟩ := bind_ok h
      have h2 : (p :: ps1, st2) = (ps, st') := Except.ok.inj h
      have := ih st1 h3
      simp only [Bool.false_eq_true, if_false] at this ⊢
      rw [← (Prod.mk.inj h2).1, List.map_cons, this, hp1]

/-- The steps of `SolvePolicies`. -/
theorem solvePolicies_inv [Field α] [LinearOrder α] (sch : Sched α) {st st' : VE α}
    {single : Bool} {ps : List (Var × Factor α × Factor α)} (h : st.solvePolicies sch single = .ok (some ps, st')) :
    ∃ decs t st1 st2, st.getDecisions sch = .ok (decs, t) ∧ decs ≠ [] ∧
      VE.sumUtilities sch { st with tick := t } = .ok st1 ∧ st1.eliminateHidden sch [] [] single = .ok st2 ∧
      VE.solvePolicyList sch single decs.reverse st2 = .ok (ps, st') := by
  unfold VE.solvePolicies at h
  obtain ⟨⟨decs, t⟩, h1, h⟩ := bind_ok h
  dsimp only at h
  by_cases h0 : decs.length = 0
  · rw [if_pos h0] at h
    have := Except.ok.inj h
    simp at this
  · rw [if_neg h0] at h
    obtain ⟨st1, h2, h⟩ := bind_ok h
    obtain ⟨st2, h3, h⟩ := bind_ok h
    obtain ⟨⟨ps', st3⟩, h4, h⟩ := bind_ok h
    have h5 : (some ps', st3) = (some ps, st') := Except.ok.inj h
    obtain ⟨e1, rfl⟩ := Prod.mk.inj h5
    cases e1
    exact ⟨decs, t, st1, st2, h1, by rintro rfl; exact h0 rfl, h2, h3, h4⟩

/-- The state after the utilities are summed, if there are any. -/
theorem start_any [CommSemiring α] (sch : Sched α) {vs : Vs} {fs : List (Factor α)} {deps : List (Var × List Var)}
    (hp : Problem vs fs deps) {weights : Option (List α)} (hu : utilities vs.variables ≠ [] → UtilityOK vs.variables fs weights)
    (hd : DecisionOK vs.variables fs) {decs : List Var} {t : Nat}
    (hdec : (VE.new vs fs deps weights).getDecisions sch = .ok (decs, t)) :
    ∃ st1 : VE α, VE.sumUtilities sch { VE.new vs fs deps weights with tick := t } = .ok st1 ∧
      PState vs.variables deps st1 decs.reverse ∧
      (∀ v ∈ vs.variables, v.nodeType ≠ .utility → st1.eliminated[v.index]? = some false) ∧
      st1.vs.variables = vs.variables ∧ st1.deps = deps := by
  by_cases hut : utilities vs.variables = []
  · obtain ⟨h0, hg, hR⟩ := new_good hp weights
    obtain ⟨decs', t', d1, d2, _⟩ := getDecisions_new sch hp weights
    rw [hdec] at d1
    simp only [Except.ok.injEq, Prod.mk.injEq] at d1
    obtain ⟨rfl, rfl⟩ := d1
    have hdm : ∀ v, v ∈ decs ↔ v ∈ vs.variables ∧ v.nodeType = .decision := by
      intro v; rw [d2.mem_iff]; simp [decisionVars]
    have hel : ∀ v ∈ vs.variables, (List.replicate vs.variables.length false)[v.index]? = some false := by
      intro v hv
      rw [List.getElem?_replicate, if_pos (hR.index_lt hv)]
    have hnu : ∀ v ∈ vs.variables, v.nodeType ≠ .utility := by
      intro v hv e
      have := List.filter_eq_nil_iff.1 hut v hv
      simp [e] at this
    rw [h0]
    refine ⟨⟨vs, List.replicate vs.variables.length false, deps, fs, weights, t, []⟩, ?_,
      ⟨?_, rfl, by simp, hg, ?_, ?_, ?_, ?_, ?_⟩, fun v hv _ => hel v hv, rfl, rfl⟩
    · unfold VE.sumUtilities
      dsimp only
      have hut : vs.variables.filter (fun u => u.nodeType = .utility) = [] := hut
      rw [hut]
      rfl
    · symm
      dsimp only
      rw [List.map_congr_left (g := id), List.map_id]
      intro v hv
      unfold openVar
      rw [if_neg]
      · rfl
      · rintro ⟨h1, h2⟩
        exact h2 (List.mem_reverse.2 ((hdm v).2 ⟨hv, h1⟩))
    · intro v hv hvu _
      obtain ⟨f, hf, hvf⟩ := hd.occurs v hv hvu
      exact mem_scopes_sup.2 ⟨f, hf, mem_scope.2 ⟨v, hvf, rfl⟩⟩
    · intro v hv _
      exact ⟨hnu v hv, hel v hv⟩
    · intro d hdd
      obtain ⟨h1, h2⟩ := (hdm d).1 (List.mem_reverse.1 hdd)
      exact ⟨h1, h2, hel d h1⟩
    · rw [List.nodup_reverse]
      exact d2.nodup_iff.2 ((List.Nodup.of_map _ hR.ids).filter _)
    · rintro d _ p ⟨e, he, h1, h2, h3⟩
      exact List.mem_reverse.2 ((hdm p).2 ⟨(hp.depVars e he).2 p h2, h3⟩)
  · obtain ⟨st1, a1, a2, _, a4, _, a6, a7, _⟩ := start_spec sch hp (hu hut) hd hdec
    exact ⟨st1, a1, a2, a4, a6, a7⟩

theorem solvePolicies_run [Field α] [LinearOrder α] (sch : Sched α) {st st1 st2 st' : VE α}
    {single : Bool} {ps : List (Var × Factor α × Factor α)} {decs : List Var} {t : Nat}
    (h1 : st.getDecisions sch = .ok (decs, t)) (h0 : decs ≠ [])
    (h2 : VE.sumUtilities sch { st with tick := t } = .ok st1) (h3 : st1.eliminateHidden sch [] [] single = .ok st2)
    (h4 : VE.solvePolicyList sch single decs.reverse st2 = .ok (ps, st')) :
    st.solvePolicies sch single = .ok (some ps, st') := by
  unfold VE.solvePolicies
  rw [h1, ok_bind]
  dsimp only
  rw [if_neg (by simpa using h0), h2, ok_bind, h3, ok_bind, h4, ok_bind]
  rfl

/-- `SolvePolicies` does not panic. -/
theorem solvePolicies_ok [Field α] [LinearOrder α] [IsStrictOrderedRing α] (sch : Sched α) {vs : Vs}
    {fs : List (Factor α)} {deps : List (Var × List Var)} (hp : Problem vs fs deps) {weights : Option (List α)}
    (hu : utilities vs.variables ≠ [] → UtilityOK vs.variables fs weights) (hd : DecisionOK vs.variables fs) (hac : DecAcyclic deps)
    (hne : decisionVars vs.variables ≠ []) (single : Bool) :
    ∃ ps st', (VE.new vs fs deps weights).solvePolicies sch single = .ok (some ps, st') := by
  obtain ⟨decs, t, d1, d2, d3⟩ := getDecisions_new sch hp weights
  obtain ⟨st1, a1, a2, _⟩ := start_any sch hp hu hd d1
  have hF := hp.fixed
  obtain ⟨decs', t', e1, _, _⟩ := getDecisions_spec sch st1 (hF.vars.of_core a2.core) (a2.depsOK hF)
  obtain ⟨st2, b1, b2, _⟩ := elim_full hF sch a2 single e1 rfl
  have hdn : decs.Nodup := d2.nodup_iff.2 ((List.Nodup.of_map _ hp.ids).filter _)
  obtain ⟨ps, st', c1⟩ := solve_list_ok hF sch single decs.reverse st2 b2
    (fun d hdd => hd.outcomes d (a2.openD d hdd).1) (lastFirst_reverse hdn (d3 hac))
  have hdne : decs ≠ [] := by
    rintro rfl; exact hne (d2.symm.eq_nil)
  exact ⟨ps, st', solvePolicies_run sch d1 hdne a1 b1 c1⟩

/-- The policies solved together are at least as good as any others. -/
theorem solvePolicies_best [Field α] [LinearOrder α] [IsStrictOrderedRing α] (sch : Sched α) {vs : Vs}
    {fs : List (Factor α)} {deps : List (Var × List Var)} (hp : Problem vs fs deps) {weights : Option (List α)}
    (hu : UtilityOK vs.variables fs weights) (hd : DecisionOK vs.variables fs) (hac : DecAcyclic deps)
    (hnn : ∀ f ∈ fs, f.isUtility = false → f.NonNeg)
    {ps : List (Var × Factor α × Factor α)} {st' : VE α}
    (h : (VE.new vs fs deps weights).solvePolicies sch false = .ok (some ps, st'))
    (hlink : ∀ A p B, ps = A ++ p :: B →
      Linked fs (Unknown vs.variables deps (p.1 :: B.map (fun p => p.1))) p.1.id) :
    (∀ A p B, ps = A ++ p :: B → p.2.2.WF ∧ (∃ others, p.2.2.vars = others ++ [p.1] ∧ p.1 ∉ others) ∧
      (∀ v ∈ p.2.2.vars, v ∈ vs.variables ∧ Known deps (p.1 :: B.map (fun p => p.1)) v) ∧
      PolicyFor vs.variables deps (B.map (fun p => p.1)).reverse p.1 p.2.2.val) ∧
    ∀ (δ : Var → Assignment → α),
      (∀ A p B, ps = A ++ p :: B → PolicyFor vs.variables deps (B.map (fun p => p.1)).reverse p.1 (δ p.1)) →
      ∀ σ, Fits σ vs.variables → (∀ u ∈ utilities vs.variables, σ u.id = 0) →
        sumOver (vs.variables.filter (fun v => v.nodeType ≠ .utility)) (fun τ =>
          joint (fs.filter (fun f => !f.isUtility)) τ * totalUtility vs.variables fs weights τ *
            (ps.map (fun p => δ p.1 τ)).prod) σ ≤
        sumOver (vs.variables.filter (fun v => v.nodeType ≠ .utility)) (fun τ =>
          joint (fs.filter (fun f => !f.isUtility)) τ * totalUtility vs.variables fs weights τ *
            (ps.map (fun p => p.2.2.val τ)).prod) σ := by
  obtain ⟨decs, t, st1, st2, i1, i2, i3, i4, i5⟩ := solvePolicies_inv sch h
  have hps := solve_list_order sch false _ st2 i5
  simp only [Bool.false_eq_true, if_false] at hps
  obtain ⟨decs', t', d1, d2, d3⟩ := getDecisions_new sch hp weights
  rw [i1] at d1
  simp only [Except.ok.injEq, Prod.mk.injEq] at d1
  obtain ⟨rfl, rfl⟩ := d1
  obtain ⟨st1', a1, a2, a3, a4, a5, _, _, s, a6, a7⟩ := start_spec sch hp hu hd i1
  rw [i3] at a1
  obtain rfl : st1 = st1' := Except.ok.inj a1
  have hF := hp.fixed
  set R := vs.variables with hRd
  obtain ⟨decs2, t2, e1, _, _⟩ := getDecisions_spec sch st1 (hF.vars.of_core a2.core) (a2.depsOK hF)
  obtain ⟨st2', b1, b2, b3, b4, b5, b6, ⟨hs, b7, b8⟩, b9⟩ := elim_full hF sch a2 false e1 rfl
  rw [i4] at b1
  obtain rfl : st2 = st2' := Except.ok.inj b1
  obtain ⟨b9, b10⟩ := b9 rfl
  have hdn : decs.Nodup := d2.nodup_iff.2 ((List.Nodup.of_map _ hp.ids).filter _)
  have hsplit : ∀ A d B, decs.reverse = A ++ d :: B → ∃ A' p B', ps = A' ++ p :: B' ∧ p.1 = d ∧
      B'.map (fun p => p.1) = B := by
    intro A d B hl
    rw [← hps] at hl
    obtain ⟨A', r, hA, _, hr⟩ := List.map_eq_append_iff.1 hl
    obtain ⟨p, B', hr2, hp2, hB⟩ := List.map_eq_cons_iff.1 hr
    exact ⟨A', p, B', by rw [hA, hr2], hp2, hB⟩
  have hS : Signed st1.factors (scope s) := by
    refine ⟨s, fs.filter (fun f => !f.isUtility), ?_, rfl, ?_⟩
    · rw [a6]; exact List.perm_append_comm
    · intro f hf
      obtain ⟨f1, f2⟩ := List.mem_filter.1 hf
      exact hnn f f1 (by simpa using f2)
  obtain ⟨U', s1, s2⟩ := hS.elims b7
  obtain ⟨ps', st3, c1, c2, c3, c4⟩ := solve_list hF sch decs.reverse st2 b2
    (fun d hdd => hd.outcomes d (a2.openD d hdd).1) (lastFirst_reverse hdn (d3 hac)) b9
    ⟨U', s1, by
      intro A d B hl
      obtain ⟨A', p, B', hpe, rfl, rfl⟩ := hsplit A d B hl
      have hdL : p.1 ∈ decs.reverse := by rw [hl]; simp
      obtain ⟨hdR, hdt, _⟩ := a2.openD p.1 hdL
      apply s2
      · intro hm
        obtain ⟨w, hw, e⟩ := List.mem_map.1 (b8 hm)
        have hwR : w ∈ R := (List.mem_filter.1 (b4 w hw).1).1
        have : w = p.1 := coherent_of_nodup hF.vars.ids w hwR p.1 hdR e
        exact (b4 w hw).2 (this ▸ hdL)
      · exact a7 _ _ hdR (by rw [hdt]; decide) (hlink A' p B' hpe)⟩
  rw [i5] at c1
  obtain ⟨rfl, rfl⟩ := Prod.mk.inj (Except.ok.inj c1)
  refine ⟨c3, ?_⟩
  intro δ hδ σ hσ hσu
  have hδ' : ∀ A d B, decs.reverse = A ++ d :: B → PolicyFor R deps B.reverse d (δ d) := by
    intro A d B hl
    obtain ⟨A', p, B', hpe, rfl, rfl⟩ := hsplit A d B hl
    exact hδ A' p B' hpe
  have hRn : (R.map Var.id).Nodup := hp.ids
  have hmove : ∀ (G : Assignment → α), OnlyKnown R deps decs.reverse G →
      sumOver (R.filter (fun v => v.nodeType ≠ .utility)) (fun τ =>
          joint (fs.filter (fun f => !f.isUtility)) τ * totalUtility R fs weights τ * G τ) σ =
        sumOver (live R st2) (fun τ => joint st2.factors τ * G τ) σ := by
    intro G hG
    rw [← a3]
    have hln : ((live R st1).map Var.id).Nodup := (List.filter_sublist.map _).nodup hRn
    have hln' : ((live R st2).map Var.id).Nodup := (List.filter_sublist.map _).nodup hRn
    have hjoint : sumOver (live R st1) (fun τ =>
          joint (fs.filter (fun f => !f.isUtility)) τ * totalUtility R fs weights τ * G τ) σ =
        sumOver (live R st1) (fun τ => joint st1.factors τ * G τ) σ := by
      apply sumOver_congr _ hln
      intro τ h1 h2
      have hτ : Fits τ R := fits_of_agree hRn (fun v hv => (List.mem_filter.1 hv).1) hσ h1 h2
      rw [a5 τ hτ]
      intro u hu
      rw [h1 u.id, hσu u hu]
      intro hm
      obtain ⟨w, hw, e⟩ := List.mem_map.1 hm
      obtain ⟨hw1, hw2⟩ := List.mem_filter.1 hw
      obtain ⟨hu1, hu2⟩ := List.mem_filter.1 hu
      have : w = u := coherent_of_nodup hRn w hw1 u hu1 e
      subst this
      simp only [decide_eq_true_eq] at hw2 hu2
      exact hw2.1 hu2
    rw [hjoint, sumOver_perm b5 hln, sumOver_append]
    apply sumOver_congr _ hln'
    intro τ h1 h2
    have hτ : Fits τ R := fits_of_agree hRn (fun v hv => (List.mem_filter.1 hv).1) hσ h1 h2
    rw [b6 τ hτ, ← sumOver_onlyKnown hG]
    · intro v hv hm
      obtain ⟨w, hw, e⟩ := List.mem_map.1 hm
      have hwR : w ∈ R := (List.mem_filter.1 (b4 w hw).1).1
      have : w = v := coherent_of_nodup hRn w hwR v hv e
      exact this ▸ b10 w hw
    · have := (b5.map Var.id).nodup_iff.1 hln
      rw [List.map_append, List.nodup_append] at this
      exact this.2.1
  have hG1 : OnlyKnown R deps decs.reverse (fun τ => (decs.reverse.map (fun d => δ d τ)).prod) := by
    apply OnlyKnown.prod
    intro e he
    obtain ⟨A, B, hl⟩ := List.append_of_mem he
    have := (hδ' A e B hl).known
    intro σ τ hστ
    exact this σ τ (fun v hv hk => hστ v hv (hk.mono (by
      intro x hx; rw [hl]; simp at hx ⊢; tauto)))
  have hG2 : OnlyKnown R deps decs.reverse (fun τ => (ps.map (fun p => p.2.2.val τ)).prod) := by
    apply OnlyKnown.prod
    intro p hpp
    obtain ⟨A, B, hl⟩ := List.append_of_mem hpp
    have := (c3 A p B hl).2.2.2.known
    intro σ τ hστ
    exact this σ τ (fun v hv hk => hστ v hv (hk.mono (by
      intro x hx
      rw [← hps, hl]
      simp at hx ⊢; tauto)))
  have e1 : ∀ τ, (ps.map (fun p => δ p.1 τ)).prod = (decs.reverse.map (fun d => δ d τ)).prod := by
    intro τ; rw [← hps, List.map_map]; rfl
  simp only [e1]
  rw [hmove _ hG1, hmove _ hG2]
  exact c4 δ hδ' σ hσ

theorem getDecisions_det (sch sch' : Sched α) {R : List Var} {deps : List (Var × List Var)} (hF : Fixed R deps)
    {st st' : VE α} (hv : st.vs.variables = R) (hv' : st'.vs.variables = R) (hd : st.deps = deps) (hd' : st'.deps = deps)
    {decs decs' : List Var} {t t' : Nat} (h : st.getDecisions sch = .ok (decs, t))
    (h' : st'.getDecisions sch' = .ok (decs', t')) : decs = decs' := by
  unfold VE.getDecisions at h h'
  rw [hv, hd] at h
  rw [hv', hd'] at h'
  have := sortTopological_det sch sch' (dec := R.filter (fun v => v.nodeType = .decision)) hF.idKeys st.tick st'.tick
  rw [h, h'] at this
  exact Except.ok.inj this

/-- The chance variables summed out before the first policy. -/
theorem hiddenR_eq [Field α] [LinearOrder α] [IsStrictOrderedRing α] {R : List Var} {deps : List (Var × List Var)}
    (hF : Fixed R deps) {L : List Var} {st : VE α} (h : PState R deps st L)
    (hel : ∀ v ∈ R, v.nodeType ≠ .utility → st.eliminated[v.index]? = some false)
    (hL : ∀ v ∈ R, v.nodeType = .decision → v ∈ L) (ds : List Var) (hds : ∀ d ∈ ds, d ∈ L) :
    hiddenR R L st (ds.flatMap (depsOf deps)) = unseen R deps ds := by
  unfold hiddenR unseen
  apply List.filter_congr
  intro v hv
  simp only [decide_eq_decide]
  constructor
  · rintro ⟨h1, _, h3⟩
    have hc : v.nodeType = .chance := by
      rcases openVar_chance.1 h1 with h | h
      · exact h
      · exact absurd (hL v hv h.1) h.2
    refine ⟨hc, ?_⟩
    rintro (hk | ⟨e, he, h4, h5⟩)
    · rw [(h.openD v (hds v hk)).2.1] at hc; cases hc
    · refine h3 v (List.mem_flatMap.2 ⟨e.1, h4, ?_⟩) rfl
      rw [depsOf_eq hF.keys he]; exact h5
  · rintro ⟨h1, h2⟩
    refine ⟨openVar_chance.2 (.inl h1), hel v hv (by rw [h1]; decide), ?_⟩
    intro p hp e
    obtain ⟨d, hd, hpd⟩ := List.mem_flatMap.1 hp
    obtain ⟨e1, he1, e2, e3⟩ := depsOf_mem hpd
    have hpR : p ∈ R := (hF.dvars e1 he1).2 p e3
    have : p = v := hF.vars.ext_index hpR hv e
    subst this
    exact h2 (.inr ⟨e1, he1, e2 ▸ hd, e3⟩)

/-- The first policy is a best response. -/
theorem solvePolicies_head [Field α] [LinearOrder α] [IsStrictOrderedRing α] (sch : Sched α) {vs : Vs}
    {fs : List (Factor α)} {deps : List (Var × List Var)} (hp : Problem vs fs deps) {weights : Option (List α)}
    (hu : UtilityOK vs.variables fs weights) (hd : DecisionOK vs.variables fs) (hac : DecAcyclic deps)
    {single : Bool}
    {p : Var × Factor α × Factor α} {ps : List (Var × Factor α × Factor α)} {st' : VE α}
    (h : (VE.new vs fs deps weights).solvePolicies sch single = .ok (some (p :: ps), st'))
    {ds : List Var} (hds : ds = if single then [p.1] else decisionVars vs.variables) :
    p.1 ∈ decisionVars vs.variables ∧ (∀ e ∈ decisionVars vs.variables, ¬ DecEdge deps p.1 e) ∧
    ((∀ f ∈ fs, f.isUtility = false → f.NonNeg) →
      Linked fs (fun i => ∃ v ∈ unseen vs.variables deps ds, v.id = i) p.1.id → ∀ σ, Fits σ vs.variables → (∀ u ∈ utilities vs.variables, σ u.id = 0) →
      p.2.2.val σ ≠ 0 → ∀ k < p.1.outcomes,
        sumOver (unseen vs.variables deps ds) (fun τ => joint (fs.filter (fun f => !f.isUtility)) τ *
          totalUtility vs.variables fs weights τ) (σ.upd p.1.id k) ≤
        sumOver (unseen vs.variables deps ds) (fun τ => joint (fs.filter (fun f => !f.isUtility)) τ *
          totalUtility vs.variables fs weights τ) σ) := by
  obtain ⟨decs, t, st1, st2, i1, i2, i3, i4, i5⟩ := solvePolicies_inv sch h
  have hps := solve_list_order sch single _ st2 i5
  obtain ⟨decs', t', d1, d2, d3⟩ := getDecisions_new sch hp weights
  rw [i1] at d1
  simp only [Except.ok.injEq, Prod.mk.injEq] at d1
  obtain ⟨rfl, rfl⟩ := d1
  obtain ⟨st1', a1, a2, a3, a4, a5, a8, a9, s, a6, a7⟩ := start_spec sch hp hu hd i1
  rw [i3] at a1
  obtain rfl : st1 = st1' := Except.ok.inj a1
  have hF := hp.fixed
  have hRn : (vs.variables.map Var.id).Nodup := hp.ids
  set R := vs.variables with hRd
  obtain ⟨decs2, t2, e1, _, _⟩ := getDecisions_spec sch st1 (hF.vars.of_core a2.core) (a2.depsOK hF)
  obtain ⟨h0, _, _⟩ := new_good hp weights
  have : decs2 = decs := getDecisions_det sch sch hF a8 (by rw [h0]) a9 (by rw [h0]) e1 i1
  subst this
  have hdn : decs2.Nodup := d2.nodup_iff.2 ((List.Nodup.of_map _ hp.ids).filter _)
  obtain ⟨L', hL'⟩ : ∃ L', decs2.reverse = p.1 :: L' := by
    cases hr : decs2.reverse with
    | nil => simp at hr; exact absurd hr i2
    | cons x L' =>
      rw [hr] at hps
      cases single <;> simp at hps <;> exact ⟨L', by rw [hps.1]⟩
  have hLmem : ∀ v ∈ R, v.nodeType = .decision → v ∈ decs2.reverse := by
    intro v hv hvd
    exact List.mem_reverse.2 (d2.symm.subset (List.mem_filter.2 ⟨hv, by simpa using hvd⟩))
  obtain ⟨st2', b1, b2, b3, b4, b5, b6, ⟨hs, b7, b8⟩, _⟩ := elim_full hF sch a2 single e1 rfl
  rw [i4] at b1
  obtain rfl : st2 = st2' := Except.ok.inj b1
  have hun : hiddenR R decs2.reverse st1 ((considered single decs2).flatMap (depsOf deps)) = unseen R deps ds := by
    rw [hiddenR_eq hF a2 a4 hLmem]
    · unfold unseen
      apply List.filter_congr
      intro v _
      have : Known deps (considered single decs2) v ↔ Known deps ds v := by
        rw [hds]
        unfold considered
        cases single with
        | true => simp only [if_true]; rw [hL']; simp
        | false =>
          simp only [Bool.false_eq_true, if_false]
          constructor
          · exact Known.mono (fun d hd => d2.subset (List.mem_reverse.1 hd))
          · exact Known.mono (fun d hd => List.mem_reverse.2 (d2.symm.subset hd))
      simp only [this]
    · intro d hdd
      exact List.mem_reverse.2 (mem_considered hdd)
  rw [hun] at b3 b4 b5 b6 b8
  have hord := lastFirst_reverse hdn (d3 hac)
  rw [hL'] at b2 hord i5
  obtain ⟨hdR, hdt, hde⟩ := b2.openD p.1 (by simp)
  obtain ⟨fac, pol, st3, hr, c1, c2, c3, c4, c5, c6, c7, c8, c9, _⟩ :=
    policy_elim hF sch b2 (hd.outcomes _ hdR) hord single
  have hpe : p = (p.1, fac, pol) := by
    unfold VE.solvePolicyList at i5
    rw [c1, ok_bind] at i5
    dsimp only at i5
    cases single with
    | true =>
      rw [if_pos rfl] at i5
      have := (Prod.mk.inj (Except.ok.inj i5)).1
      exact (List.cons.inj this).1.symm
    | false =>
      rw [if_neg (by simp)] at i5
      obtain ⟨x, _, i6⟩ := bind_ok i5
      have := (Prod.mk.inj (Except.ok.inj i6)).1
      exact (List.cons.inj this).1.symm
  have hpol : p.2.2 = pol := by rw [hpe]
  refine ⟨List.mem_filter.2 ⟨hdR, by simpa using hdt⟩, ?_, ?_⟩
  · intro e he hed
    have heL : e ∈ p.1 :: L' := by
      rw [← hL']; exact List.mem_reverse.2 (d2.symm.subset he)
    rcases List.mem_cons.1 heL with rfl | he'
    · exact hac _ (Relation.TransGen.single hed)
    · exact hord [] p.1 L' rfl e he' hed
  intro hnn hlink σ hσ hσu hne k hk
  have hS : Signed st1.factors (scope s) := by
    refine ⟨s, fs.filter (fun f => !f.isUtility), ?_, rfl, ?_⟩
    · rw [a6]; exact List.perm_append_comm
    · intro f hf
      obtain ⟨f1, f2⟩ := List.mem_filter.1 hf
      exact hnn f f1 (by simpa using f2)
  obtain ⟨U', s1, s2⟩ := hS.elims b7
  have hdU : p.1.id ∈ U' := by
    have hl := s2 (fun i => ∃ v ∈ unseen R deps ds, v.id = i) p.1.id (by
      intro hm
      obtain ⟨w, hw, e⟩ := List.mem_map.1 (b8 hm)
      have hwR : w ∈ R := (List.mem_filter.1 (b4 w hw).1).1
      have : w = p.1 := coherent_of_nodup hRn w hwR p.1 hdR e
      exact (b4 w hw).2 (by rw [this, hL']; simp)) (a7 _ _ hdR (by rw [hdt]; decide) hlink)
    refine hl.mem ?_
    rintro j hj ⟨v, hv, rfl⟩
    have hvR : v ∈ R := (List.mem_filter.1 hv).1
    have hvl : v ∈ live R st2 := by
      have := b2.gone v hvR hj
      simp only [live, List.mem_filter, decide_eq_true_eq]
      exact ⟨hvR, this⟩
    have hnd := (b5.nodup_iff.1 ((List.Nodup.of_map _ hRn).filter _))
    rw [List.nodup_append] at hnd
    exact hnd.2.2 v hvl v hv rfl
  rw [hpol] at hne
  have hfR : ∀ v ∈ fac.vars, v ∈ R := by
    intro v hv
    obtain ⟨f, hf, hvf⟩ := c4 v hv
    exact b2.good.sub f hf v hvf
  have hu2 : ∀ k' < p.1.outcomes, sumOver (unseen R deps ds) (fun τ => joint (fs.filter (fun f => !f.isUtility)) τ *
      totalUtility R fs weights τ) (σ.upd p.1.id k') = joint st2.factors (σ.upd p.1.id k') := by
    intro k' hk'
    have hf := fits_upd_mem hRn hσ hdR hk'
    rw [b6 _ hf]
    symm
    apply sumOver_congr _ ((List.filter_sublist.map _).nodup hRn)
    intro τ h1 h2
    have hτ : Fits τ R := fits_of_agree hRn (fun v hv => (List.mem_filter.1 hv).1) hf h1 h2
    rw [a5 τ hτ]
    intro u hu
    obtain ⟨hu1, hu2⟩ := List.mem_filter.1 hu
    rw [h1 u.id]
    · simp only [Assignment.upd]
      rw [if_neg, hσu u hu]
      intro e
      have := coherent_of_nodup hRn u hu1 p.1 hdR e
      rw [this, hdt] at hu2
      simp at hu2
    · intro hm
      obtain ⟨w, hw, e⟩ := List.mem_map.1 hm
      obtain ⟨hw1, hw2⟩ := List.mem_filter.1 hw
      have : w = u := coherent_of_nodup hRn w hw1 u hu1 e
      subst this
      simp only [decide_eq_true_eq] at hw2 hu2
      rw [hw2.1] at hu2; cases hu2
  have hσd : σ p.1.id < p.1.outcomes := hσ _ hdR
  have hself : σ = σ.upd p.1.id (σ p.1.id) := by
    funext i
    simp only [Assignment.upd]
    split
    · next h => rw [h]
    · rfl
  have hrest : ∀ k, joint (st2.factors.filter (fun f => p.1.id ∉ scope f)) (σ.upd p.1.id k) =
      joint (st2.factors.filter (fun f => p.1.id ∉ scope f)) σ := by
    intro k
    apply joint_congr
    intro f hf v hv
    have : v.id ≠ p.1.id := by
      intro e
      have hh := (List.mem_filter.1 hf).2
      simp only [decide_eq_true_eq] at hh
      exact hh (mem_scope.2 ⟨v, hv, e⟩)
    simp [Assignment.upd, this]
  have hnn2 : 0 ≤ joint (st2.factors.filter (fun f => p.1.id ∉ scope f)) σ := by
    obtain ⟨u, rest, hp, hu, hn⟩ := s1
    apply joint_nonneg
    · intro f hf
      exact hσ.mono (b2.good.sub f (List.mem_filter.1 hf).1)
    · intro f hf
      obtain ⟨hf1, hf2⟩ := List.mem_filter.1 hf
      simp only [decide_eq_true_eq] at hf2
      rcases List.mem_cons.1 (hp.subset hf1) with rfl | hf3
      · rw [hu] at hf2; exact absurd hdU hf2
      · exact hn f hf3
  have hjk : ∀ k' < p.1.outcomes, joint st2.factors (σ.upd p.1.id k') =
      fac.val (σ.upd p.1.id k') * joint (st2.factors.filter (fun f => p.1.id ∉ scope f)) σ := by
    intro k' hk'
    have hf := fits_upd_mem hRn hσ hdR hk'
    rw [c6 _ (fun f hf' => hf.mono (b2.good.sub f hf')), hrest]
  rw [hu2 k hk]
  conv_rhs => rw [hself]
  rw [hu2 _ hσd, hjk k hk, hjk _ hσd]
  apply mul_le_mul_of_nonneg_right _ hnn2
  rw [hself, c9 _ (hself ▸ hσ.mono hfR), policyVal_upd] at hne
  have hb : σ p.1.id ∈ bestOutcomes p.1.outcomes (fun c => fac.val (σ.upd p.1.id c)) := by
    by_contra hb
    rw [if_neg hb] at hne
    exact hne rfl
  exact (mem_bestOutcomes.1 hb).2 k hk

theorem solvePolicies_first [Field α] [LinearOrder α] [IsStrictOrderedRing α] (sch : Sched α) {vs : Vs}
    {fs : List (Factor α)} {deps : List (Var × List Var)} (hp : Problem vs fs deps) {weights : Option (List α)}
    (hu : UtilityOK vs.variables fs weights) (hd : DecisionOK vs.variables fs) (hac : DecAcyclic deps)
    (hnn : ∀ f ∈ fs, f.isUtility = false → f.NonNeg) {single : Bool}
    {p : Var × Factor α × Factor α} {ps : List (Var × Factor α × Factor α)} {st' : VE α}
    (h : (VE.new vs fs deps weights).solvePolicies sch single = .ok (some (p :: ps), st'))
    {ds : List Var} (hds : ds = if single then [p.1] else decisionVars vs.variables)
    (hlink : Linked fs (fun i => ∃ v ∈ unseen vs.variables deps ds, v.id = i) p.1.id) :
    p.1 ∈ decisionVars vs.variables ∧ (∀ e ∈ decisionVars vs.variables, ¬ DecEdge deps p.1 e) ∧
    ∀ σ, Fits σ vs.variables → (∀ u ∈ utilities vs.variables, σ u.id = 0) →
      p.2.2.val σ ≠ 0 → ∀ k < p.1.outcomes,
        sumOver (unseen vs.variables deps ds) (fun τ => joint (fs.filter (fun f => !f.isUtility)) τ *
          totalUtility vs.variables fs weights τ) (σ.upd p.1.id k) ≤
        sumOver (unseen vs.variables deps ds) (fun τ => joint (fs.filter (fun f => !f.isUtility)) τ *
          totalUtility vs.variables fs weights τ) σ :=
  have h := solvePolicies_head sch hp hu hd hac h hds
  ⟨h.1, h.2.1, h.2.2 hnn hlink⟩

theorem eliminateHidden_single [CommSemiring α] (sch : Sched α) (st : VE α) {decs : List Var} {t : Nat}
    (h : st.getDecisions sch = .ok (decs, t)) (hl : decs.length ≤ 1) :
    st.eliminateHidden sch [] [] true = st.eliminateHidden sch [] [] false := by
  have : decs.reverse.take 1 = decs.reverse := List.take_of_length_le (by simpa using hl)
  unfold VE.eliminateHidden VE.getDecisionParents
  rw [h, ok_bind, ok_bind]
  dsimp only
  rw [if_pos rfl, if_neg (by simp), this]

/-- With a single decision it makes no difference whether all decisions are solved or only the last one. -/
theorem solvePolicies_single [Field α] [LinearOrder α] [IsStrictOrderedRing α] (sch : Sched α) {vs : Vs}
    {fs : List (Factor α)} {deps : List (Var × List Var)} (hp : Problem vs fs deps) {weights : Option (List α)}
    (hu : UtilityOK vs.variables fs weights) (hd : DecisionOK vs.variables fs) (hac : DecAcyclic deps)
    {d : Var} (hone : decisionVars vs.variables = [d]) :
    (VE.new vs fs deps weights).solvePolicies sch true = (VE.new vs fs deps weights).solvePolicies sch false := by
  obtain ⟨decs, t, d1, d2, d3⟩ := getDecisions_new sch hp weights
  rw [hone] at d2
  obtain rfl : decs = [d] := List.perm_singleton.1 d2
  obtain ⟨st1, a1, a2, _, _, _, a8, a9, _⟩ := start_spec sch hp hu hd d1
  have hF := hp.fixed
  obtain ⟨decs', t', e1, e2, _⟩ := getDecisions_spec sch st1 (hF.vars.of_core a2.core) (a2.depsOK hF)
  have hl1 : decs'.length ≤ 1 := by
    obtain ⟨h0, _, _⟩ := new_good hp weights
    rw [getDecisions_det sch sch hF a8 (by rw [h0]) a9 (by rw [h0]) e1 d1]; simp
  obtain ⟨st2, b1, b2, _⟩ := elim_full hF sch a2 false e1 rfl
  have hlf := lastFirst_reverse (by simp) (d3 hac)
  simp only [List.reverse_cons, List.reverse_nil, List.nil_append] at b2 hlf
  obtain ⟨hdR, _, _⟩ := b2.openD d (by simp)
  obtain ⟨fac, pol, n, c1, c2, _⟩ := policy_step hF sch b2 (hd.outcomes d hdR) (hlf [] d [] rfl)
  obtain ⟨decs2, t2, f1, f2, _⟩ := getDecisions_spec sch _ (hF.vars.of_core c2.core) (c2.depsOK hF)
  have hl2 : decs2.length ≤ 1 := by
    have : decs2 = [] := by
      rw [List.eq_nil_iff_forall_not_mem]
      intro v hv
      exact absurd (c2.decisions.1 (f2.subset hv)) (by simp)
    simp [this]
  unfold VE.solvePolicies
  rw [d1, ok_bind, ok_bind]
  dsimp only
  rw [if_neg (by simp), if_neg (by simp), a1, ok_bind, ok_bind, eliminateHidden_single sch st1 e1 hl1, b1, ok_bind, ok_bind]
  simp only [List.reverse_cons, List.reverse_nil, List.nil_append]
  unfold VE.solvePolicyList
  rw [c1 true, c1 false, eliminateHidden_single sch _ f1 hl2]
  obtain ⟨st3, g1, _⟩ := elim_full hF sch c2 false f1 rfl
  rw [g1, ok_bind, ok_bind, ok_bind]
  dsimp only
  rw [if_pos rfl, if_neg (by simp)]
  rfl

end Bbn
