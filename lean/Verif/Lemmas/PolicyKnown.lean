import Verif.Lemmas.NetListed

/-!
# Decisions solved together use only what is known by then
-/

set_option autoImplicit false

namespace Bbn

variable {α : Type}

/-- Each solved policy uses only what is known to its decision and to those solved later. -/
theorem solve_list_known [Field α] [LinearOrder α] [IsStrictOrderedRing α] {R : List Var} {deps : List (Var × List Var)}
    (hF : Fixed R deps) (sch : Sched α) (L : List Var) : ∀ (st st' : VE α) (ps : List (Var × Factor α × Factor α)),
      PState R deps st L → (∀ d ∈ L, 0 < d.outcomes) → LastFirst deps L → (∀ v ∈ live R st, Known deps L v) →
      VE.solvePolicyList sch false L st = .ok (ps, st') → ∀ A p B, ps = A ++ p :: B →
        (∀ v ∈ p.2.2.vars, v ∈ R ∧ Known deps (p.1 :: B.map (fun p => p.1)) v) ∧
        PolicyFor R deps (B.map (fun p => p.1)).reverse p.1 p.2.2.val := by
  induction L with
  | nil =>
    intro st st' ps _ _ _ _ h A p B e
    simp only [VE.solvePolicyList, Except.ok.injEq, Prod.mk.injEq] at h
    rw [← h.1] at e
    simp at e
  | cons d L ih =>
    intro st st' ps h hpos hord hkn hs
    obtain ⟨fac, pol, st1, hr, a1, a2, a3, a4, a5, _, _, a8, a9, _, _, _, _, _, a16⟩ :=
      policy_elim hF sch h (hpos d (by simp)) hord false
    obtain ⟨a16, _⟩ := a16 rfl
    have hfR : ∀ v ∈ fac.vars, v ∈ R := by
      intro v hv
      obtain ⟨f, hf, hvf⟩ := a4 v hv
      exact h.good.sub f hf v hvf
    have hflive : ∀ v ∈ fac.vars, v ∈ live R st := by
      intro v hv
      obtain ⟨f, hf, hvf⟩ := a4 v hv
      have := h.gone v (hfR v hv) (mem_scopes_sup.2 ⟨f, hf, mem_scope.2 ⟨v, hvf, rfl⟩⟩)
      simp only [live, List.mem_filter, decide_eq_true_eq]
      exact ⟨hfR v hv, this⟩
    have hpvars : ∀ v ∈ pol.vars, v ∈ fac.vars := by
      intro v hv
      rw [a8] at hv
      rcases List.mem_append.1 hv with hv | hv
      · exact (mem_otherVars.1 hv).1
      · simp only [List.mem_singleton] at hv
        rw [hv]; exact a5
    have hpknown : ∀ v ∈ pol.vars, v ∈ R ∧ Known deps (d :: L) v := fun v hv =>
      ⟨hfR v (hpvars v hv), hkn v (hflive v (hpvars v hv))⟩
    have hpf : PolicyFor R deps L.reverse d pol.val :=
      policyFor_solved hF.vars.ids (hpos d (by simp)) hfR a5 a9 (fun v hv =>
        ⟨(hpknown v hv).1, (hpknown v hv).2.mono (by intro x hx; simp at hx ⊢; tauto)⟩)
    unfold VE.solvePolicyList at hs
    rw [a1, ok_bind] at hs
    dsimp only at hs
    rw [if_neg (by simp)] at hs
    obtain ⟨⟨ps1, st2⟩, h3, hs⟩ := bind_ok hs
    have hps := (Prod.mk.inj (Except.ok.inj hs)).1
    have hl := solve_list_order sch false L st1 h3
    rw [if_neg (by simp)] at hl
    intro A p B e
    rw [← hps] at e
    cases A with
    | nil =>
      simp only [List.nil_append, List.cons.injEq] at e
      obtain ⟨rfl, rfl⟩ := e
      rw [hl]
      exact ⟨hpknown, hpf⟩
    | cons x A =>
      simp only [List.cons_append, List.cons.injEq] at e
      exact ih st1 st2 ps1 a2 (fun e he => hpos e (by simp [he])) hord.tail a16 h3 A p B e.2

theorem solver_known [Field α] [LinearOrder α] [IsStrictOrderedRing α] (sch : Sched α) {vs : Vs}
    {fs : List (Factor α)} {deps : List (Var × List Var)} (hp : Problem vs fs deps) {weights : Option (List α)}
    (hu : utilities vs.variables ≠ [] → UtilityOK vs.variables fs weights) (hd : DecisionOK vs.variables fs)
    (hac : DecAcyclic deps) {ps : List (Var × Factor α × Factor α)} {st' : VE α}
    (h : (VE.new vs fs deps weights).solvePolicies sch false = .ok (some ps, st')) :
    ∀ A p B, ps = A ++ p :: B →
      (∀ v ∈ p.2.2.vars, v ∈ vs.variables ∧ Known deps (p.1 :: B.map (fun p => p.1)) v) ∧
      PolicyFor vs.variables deps (B.map (fun p => p.1)).reverse p.1 p.2.2.val := by
  obtain ⟨decs, t, st1, st2, i1, i2, i3, i4, i5⟩ := solvePolicies_inv sch h
  obtain ⟨decs', t', d1, d2, d3⟩ := getDecisions_new sch hp weights
  rw [i1] at d1
  simp only [Except.ok.injEq, Prod.mk.injEq] at d1
  obtain ⟨rfl, rfl⟩ := d1
  obtain ⟨st1', a1, a2, a4, a8, a9⟩ := start_any sch hp hu hd i1
  rw [i3] at a1
  obtain rfl : st1 = st1' := Except.ok.inj a1
  have hF := hp.fixed
  obtain ⟨decs2, t2, e1, _, _⟩ := getDecisions_spec sch st1 (hF.vars.of_core a2.core) (a2.depsOK hF)
  obtain ⟨st2', b1, b2, b3, b4, b5, b6, _, b9⟩ := elim_full hF sch a2 false e1 rfl
  rw [i4] at b1
  obtain rfl : st2 = st2' := Except.ok.inj b1
  have hdn : decs.Nodup := d2.nodup_iff.2 ((List.Nodup.of_map _ hp.ids).filter _)
  exact solve_list_known hF sch decs.reverse st2 st' ps b2
    (fun d hdd => hd.outcomes d (a2.openD d hdd).1) (lastFirst_reverse hdn (d3 hac)) (b9 rfl).1 i5

end Bbn
