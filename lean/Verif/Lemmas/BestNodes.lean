import Verif.Lemmas.Policies

/-!
# Decisions solved together: each policy answers the later ones in the best way
-/

set_option autoImplicit false

namespace Bbn

open Finset

variable {α : Type} [Field α] [LinearOrder α] [IsStrictOrderedRing α]

/-- One solved decision: an outcome it may take is best in every situation. -/
theorem point_best {R : List Var} {deps : List (Var × List Var)} (hF : Fixed R deps) {st : VE α} {d : Var} {L : List Var}
    (h : PState R deps st (d :: L)) {fac pol : Factor α} (hfs : ∀ v ∈ fac.vars, ∃ f ∈ st.factors, v ∈ f.vars)
    (hjoint : ∀ σ, FitsFs σ st.factors →
      joint st.factors σ = fac.val σ * joint (st.factors.filter (fun f => d.id ∉ scope f)) σ)
    (hpv : ∀ σ, Fits σ fac.vars → pol.val σ = policyVal fac d σ) {U : Finset Nat} (hS : Signed st.factors U)
    (hdU : d.id ∈ U) {σ : Assignment} (hσ : Fits σ R) (hne : pol.val σ ≠ 0) {k : Nat} (hk : k < d.outcomes) :
    joint st.factors (σ.upd d.id k) ≤ joint st.factors σ := by
  have hRn := hF.vars.ids
  obtain ⟨hdR, _, _⟩ := h.openD d (by simp)
  have hfR : ∀ v ∈ fac.vars, v ∈ R := by
    intro v hv
    obtain ⟨f, hf, hvf⟩ := hfs v hv
    exact h.good.sub f hf v hvf
  have hself : σ = σ.upd d.id (σ d.id) := by
    funext i
    simp only [Assignment.upd]
    split
    · next h => rw [h]
    · rfl
  have hrest : ∀ k, joint (st.factors.filter (fun f => d.id ∉ scope f)) (σ.upd d.id k) =
      joint (st.factors.filter (fun f => d.id ∉ scope f)) σ := by
    intro k
    apply joint_congr
    intro f hf v hv
    have : v.id ≠ d.id := by
      intro e
      have hh := (List.mem_filter.1 hf).2
      simp only [decide_eq_true_eq] at hh
      exact hh (mem_scope.2 ⟨v, hv, e⟩)
    simp [Assignment.upd, this]
  have hnn2 : 0 ≤ joint (st.factors.filter (fun f => d.id ∉ scope f)) σ := by
    obtain ⟨u, rest, hp, hu, hn⟩ := hS
    apply joint_nonneg
    · intro f hf
      exact hσ.mono (h.good.sub f (List.mem_filter.1 hf).1)
    · intro f hf
      obtain ⟨hf1, hf2⟩ := List.mem_filter.1 hf
      simp only [decide_eq_true_eq] at hf2
      rcases List.mem_cons.1 (hp.subset hf1) with rfl | hf3
      · rw [hu] at hf2; exact absurd hdU hf2
      · exact hn f hf3
  have hjk : ∀ k' < d.outcomes, joint st.factors (σ.upd d.id k') =
      fac.val (σ.upd d.id k') * joint (st.factors.filter (fun f => d.id ∉ scope f)) σ := by
    intro k' hk'
    have hf := fits_upd_mem hRn hσ hdR hk'
    rw [hjoint _ (fun f hf' => hf.mono (h.good.sub f hf')), hrest]
  conv_rhs => rw [hself]
  rw [hjk k hk, hjk _ (hσ _ hdR)]
  apply mul_le_mul_of_nonneg_right _ hnn2
  rw [hself, hpv _ (hself ▸ hσ.mono hfR), policyVal_upd] at hne
  have hb : σ d.id ∈ bestOutcomes d.outcomes (fun c => fac.val (σ.upd d.id c)) := by
    by_contra hb
    rw [if_neg hb] at hne
    exact hne rfl
  exact (mem_bestOutcomes.1 hb).2 k hk

omit [LinearOrder α] [IsStrictOrderedRing α] in
/-- Moving a sum over the unknown past an elimination. -/
theorem sum_unknown {R : List Var} {deps : List (Var × List Var)} (hRn : (R.map Var.id).Nodup) {ls ls' hr : List Var}
    (hln : (ls.map Var.id).Nodup) (hls : ∀ v ∈ ls, v ∈ R) (hperm : ls.Perm (ls' ++ hr)) {L K : List Var}
    (hKL : ∀ d ∈ K, d ∈ L) (hhr : ∀ v ∈ hr, ¬ Known deps L v) {F F' : Assignment → α} {P : Assignment → Prop}
    (hP : ∀ σ τ, P σ → (∀ i, i ∉ ls.map Var.id → τ i = σ i) → P τ)
    (hF : ∀ σ, Fits σ R → P σ → F' σ = sumOver hr F σ) {G : Assignment → α} (hG : OnlyKnown R deps L G) {σ : Assignment}
    (hσ : Fits σ R) (hPσ : P σ) :
    sumOver (ls.filter (fun v => ¬ Known deps K v)) (fun τ => F τ * G τ) σ =
      sumOver (ls'.filter (fun v => ¬ Known deps K v)) (fun τ => F' τ * G τ) σ := by
  have hln2 := (hperm.map Var.id).nodup_iff.1 hln
  rw [List.map_append, List.nodup_append] at hln2
  have hp := hperm.filter (fun v => decide (¬ Known deps K v))
  have e1 : hr.filter (fun v => decide (¬ Known deps K v)) = hr := List.filter_eq_self.2 (fun v hv => by
    simp only [decide_eq_true_eq]
    exact fun hk => hhr v hv (hk.mono hKL))
  rw [List.filter_append, e1] at hp
  have hmem : ∀ v, v ∈ ls' ++ hr → v ∈ R := fun v hv => hls v (hperm.symm.subset hv)
  rw [sumOver_perm hp (hln.sublist (List.filter_sublist.map _)), sumOver_append]
  apply sumOver_congr _ (hln2.1.sublist (List.filter_sublist.map _))
  intro τ h1 h2
  have hτ : Fits τ R := fits_of_agree hRn (fun v hv => hmem v (List.mem_append_left _ (List.mem_filter.1 hv).1)) hσ h1 h2
  rw [hF τ hτ (hP σ τ hPσ ?_), ← sumOver_onlyKnown hG ?_ _ hln2.2.1]
  · intro v hv hm
    obtain ⟨w, hw, e⟩ := List.mem_map.1 hm
    have : w = v := coherent_of_nodup hRn w (hmem w (List.mem_append_right _ hw)) v hv e
    exact this ▸ hhr w hw
  · intro i hi
    refine h1 i (fun hm => hi ?_)
    obtain ⟨w, hw, e⟩ := List.mem_map.1 hm
    exact e ▸ List.mem_map_of_mem (hperm.symm.subset (List.mem_append_left _ (List.mem_filter.1 hw).1))

/-- Solving all decisions: whatever happened before, each policy takes only outcomes that are best against the policies of
the later decisions. -/
theorem solve_list_each {R : List Var} {deps : List (Var × List Var)}
    (hF : Fixed R deps) (sch : Sched α) (L : List Var) : ∀ (st : VE α), PState R deps st L →
      (∀ d ∈ L, 0 < d.outcomes) → LastFirst deps L → (∀ v ∈ live R st, Known deps L v) →
      (∃ U, Signed st.factors U ∧ ∀ A d B, L = A ++ d :: B →
        LinkedS (scopes st.factors) U (Unknown R deps (d :: B)) d.id) →
      ∀ ps st', VE.solvePolicyList sch false L st = .ok (ps, st') → ∀ A p B, ps = A ++ p :: B →
        ∀ σ, Fits σ R → p.2.2.val σ ≠ 0 → ∀ k < p.1.outcomes,
          sumOver ((live R st).filter (fun v => ¬ Known deps (p.1 :: B.map (fun p => p.1)) v))
            (fun τ => joint st.factors τ * (A.map (fun p => p.2.2.val τ)).prod) (σ.upd p.1.id k) ≤
          sumOver ((live R st).filter (fun v => ¬ Known deps (p.1 :: B.map (fun p => p.1)) v))
            (fun τ => joint st.factors τ * (A.map (fun p => p.2.2.val τ)).prod) σ := by
  induction L with
  | nil =>
    intro st _ _ _ _ _ ps st' hrun A p B hl
    obtain ⟨rfl, _⟩ := Prod.mk.inj (Except.ok.inj hrun)
    simp at hl
  | cons d L ih =>
    intro st h hpos hord hkn hsig
    obtain ⟨U, hS, hlink⟩ := hsig
    obtain ⟨hdR, hdt, hde⟩ := h.openD d (by simp)
    have hdn : d ∉ L := (List.nodup_cons.1 h.nodup).1
    have hdun : ¬ Known deps L d := hord.unknown hdt hdn
    obtain ⟨fac, pol, st', hr, a1, a2, a3, a4, a5, a6, a7, a8, a9, a10, a11, a12, a13, ⟨hs, a14, a15⟩, a16⟩ :=
      policy_elim hF sch h (hpos d (by simp)) hord false
    obtain ⟨a16, a17⟩ := a16 rfl
    have hfR : ∀ v ∈ fac.vars, v ∈ R := by
      intro v hv
      obtain ⟨f, hf, hvf⟩ := a4 v hv
      exact h.good.sub f hf v hvf
    have hflive : ∀ v ∈ fac.vars, v ∈ live R st := by
      intro v hv
      obtain ⟨f, hf, hvf⟩ := a4 v hv
      have := h.gone v (hfR v hv) (mem_scopes_sup.2 ⟨f, hf, mem_scope.2 ⟨v, hvf, rfl⟩⟩)
      simp only [live, List.mem_filter, decide_eq_true_eq]
      exact ⟨hfR v hv, this⟩
    have hpvars : ∀ v ∈ pol.vars, v ∈ fac.vars := by
      intro v hv
      rw [a8] at hv
      rcases List.mem_append.1 hv with hv | hv
      · exact (mem_otherVars.1 hv).1
      · simp only [List.mem_singleton] at hv
        rw [hv]; exact a5
    have hpknown : ∀ v ∈ pol.vars, v ∈ R ∧ Known deps (d :: L) v := fun v hv =>
      ⟨hfR v (hpvars v hv), hkn v (hflive v (hpvars v hv))⟩
    have hpf : PolicyFor R deps L.reverse d pol.val :=
      policyFor_solved hF.vars.ids (hpos d (by simp)) hfR a5 a9 (fun v hv =>
        ⟨(hpknown v hv).1, (hpknown v hv).2.mono (by intro x hx; simp at hx ⊢; tauto)⟩)
    -- the utility stays where it has to be
    have hsig' : ∃ U, Signed st'.factors U ∧ ∀ A e B, L = A ++ e :: B →
        LinkedS (scopes st'.factors) U (Unknown R deps (e :: B)) e.id := by
      have hS1 : Signed (st.factors ++ [pol]) U := by
        obtain ⟨u, rest, hp, hu, hn⟩ := hS
        refine ⟨u, rest ++ [pol], hp.append_right [pol], hu, ?_⟩
        intro f hf
        rcases List.mem_append.1 hf with hf | hf
        · exact hn f hf
        · simp only [List.mem_singleton] at hf
          subst hf
          intro σ hσ
          have hσ' : Fits σ fac.vars := by
            intro v hv
            apply hσ
            rw [a8]
            by_cases e : v.id = d.id
            · rw [coherent_of_nodup a3.nodup v hv d a5 e]; simp
            · exact List.mem_append_left _ (mem_otherVars.2 ⟨hv, e⟩)
          rw [a9 σ hσ', policyVal]
          split
          · positivity
          · exact le_rfl
      obtain ⟨U', s1, s2⟩ := hS1.elims a14
      refine ⟨U', s1, ?_⟩
      intro A e B hl
      apply s2
      · intro hm
        obtain ⟨w, hw, e2⟩ := List.mem_map.1 (a15 hm)
        have heL : e ∈ L := by rw [hl]; simp
        have heR := (a2.openD e heL).1
        have hwR : w ∈ R := (List.mem_filter.1 (a11 w hw).1).1
        have : w = e := coherent_of_nodup hF.vars.ids w hwR e heR e2
        exact (a11 w hw).2 (this ▸ heL)
      · refine (hlink (d :: A) e B (by rw [hl]; rfl)).mono ?_
        unfold scopes
        rw [List.map_append]
        exact Multiset.coe_le.2 (List.sublist_append_left _ _).subperm
    intro qs stq hrun A p B hl σ hσ hne k hk
    have hpos' : ∀ e ∈ L, 0 < e.outcomes := fun e he => hpos e (by simp [he])
    obtain ⟨ps, st'', b1, b2, b3, _⟩ := solve_list hF sch L st' a2 hpos' hord.tail a16 hsig'
    have hqs : qs = (d, fac, pol) :: ps := by
      unfold VE.solvePolicyList at hrun
      rw [a1, ok_bind] at hrun
      dsimp only at hrun
      rw [if_neg (by simp), b1, ok_bind] at hrun
      exact (Prod.mk.inj (Except.ok.inj hrun)).1.symm
    rw [hqs] at hl
    cases A with
    | nil =>
      simp only [List.nil_append, List.cons.injEq] at hl
      obtain ⟨rfl, rfl⟩ := hl
      have hnil : (live R st).filter (fun v => ¬ Known deps (d :: ps.map (fun p => p.1)) v) = [] :=
        List.filter_eq_nil_iff.2 (fun v hv => by
          simp only [decide_eq_true_eq, not_not]
          rw [b2]
          exact hkn v hv)
      dsimp only at hk hne ⊢
      rw [hnil]
      simp only [sumOver, List.map_nil, List.prod_nil, mul_one]
      have hdU : d.id ∈ U := by
        refine (hlink [] d L rfl).mem ?_
        intro j hj hun
        obtain ⟨f, hf, hj2⟩ := mem_scopes_sup.1 hj
        obtain ⟨v, hv, e⟩ := mem_scope.1 hj2
        have hvR := h.good.sub f hf v hv
        have := h.gone v hvR (e ▸ hj)
        exact hun v hvR e (hkn v (by
          simp only [live, List.mem_filter, decide_eq_true_eq]
          exact ⟨hvR, this⟩))
      exact point_best hF h a4 a6 a9 hS hdU hσ hne hk
    | cons x A =>
      simp only [List.cons_append, List.cons.injEq] at hl
      obtain ⟨rfl, hl⟩ := hl
      have hG : OnlyKnown R deps L (fun τ => (A.map (fun p => p.2.2.val τ)).prod) := by
        apply OnlyKnown.prod
        intro q hq
        obtain ⟨A1, B1, hq⟩ := List.append_of_mem hq
        have := (b3 A1 q (B1 ++ p :: B) (by rw [hl, hq]; simp)).2.2.2.known
        intro σ τ hστ
        exact this σ τ (fun v hv hk => hστ v hv (hk.mono (by
          intro x hx
          rw [← b2, hl, hq]
          simp only [List.map_append, List.map_cons, List.mem_append, List.mem_cons, List.mem_reverse, List.not_mem_nil,
            or_false] at hx ⊢
          tauto)))
      have hpL : p.1 ∈ L := by rw [← b2, hl]; simp
      have hKL : ∀ e ∈ p.1 :: B.map (fun p => p.1), e ∈ L := by
        intro e he
        rw [← b2, hl]
        simp only [List.map_append, List.map_cons, List.mem_append]
        exact .inr he
      have hmove : ∀ σ, Fits σ R →
          sumOver ((live R st).filter (fun v => ¬ Known deps (p.1 :: B.map (fun p => p.1)) v))
            (fun τ => joint st.factors τ * (((d, fac, pol) :: A).map (fun p => p.2.2.val τ)).prod) σ =
          sumOver ((live R st').filter (fun v => ¬ Known deps (p.1 :: B.map (fun p => p.1)) v))
            (fun τ => joint st'.factors τ * (A.map (fun p => p.2.2.val τ)).prod) σ := by
        intro σ hσ
        rw [← sum_unknown hF.vars.ids ((List.filter_sublist.map _).nodup hF.vars.ids) (fun v hv => (List.mem_filter.1 hv).1)
          a12 hKL a17 (P := fun _ => True) (fun _ _ _ _ => trivial) (fun σ hσ _ => a13 σ hσ) hG hσ trivial]
        congr 1
        funext τ
        rw [List.map_cons, List.prod_cons, mul_assoc]
      rw [hmove _ (fits_upd_mem hF.vars.ids hσ (a2.openD _ hpL).1 hk), hmove _ hσ]
      exact ih st' a2 hpos' hord.tail a16 hsig' ps st'' b1 A p B hl σ hσ hne k hk

/-- Decisions solved together: whatever happened before, each policy takes only outcomes that are best against the
policies of the later decisions. -/
theorem solvePolicies_each (sch : Sched α) {vs : Vs}
    {fs : List (Factor α)} {deps : List (Var × List Var)} (hp : Problem vs fs deps) {weights : Option (List α)}
    (hu : UtilityOK vs.variables fs weights) (hd : DecisionOK vs.variables fs) (hac : DecAcyclic deps)
    (hnn : ∀ f ∈ fs, f.isUtility = false → f.NonNeg)
    {ps : List (Var × Factor α × Factor α)} {st' : VE α}
    (h : (VE.new vs fs deps weights).solvePolicies sch false = .ok (some ps, st'))
    (hlink : ∀ A p B, ps = A ++ p :: B →
      Linked fs (Unknown vs.variables deps (p.1 :: B.map (fun p => p.1))) p.1.id)
    {A : List (Var × Factor α × Factor α)} {p : Var × Factor α × Factor α} {B : List (Var × Factor α × Factor α)}
    (hl : ps = A ++ p :: B) {σ : Assignment} (hσ : Fits σ vs.variables) (hσu : ∀ u ∈ utilities vs.variables, σ u.id = 0)
    (hne : p.2.2.val σ ≠ 0) {k : Nat} (hk : k < p.1.outcomes) :
    sumOver (vs.variables.filter (fun v => v.nodeType ≠ .utility ∧ ¬ Known deps (p.1 :: B.map (fun p => p.1)) v)) (fun τ =>
      joint (fs.filter (fun f => !f.isUtility)) τ * totalUtility vs.variables fs weights τ *
        (A.map (fun p => p.2.2.val τ)).prod) (σ.upd p.1.id k) ≤
    sumOver (vs.variables.filter (fun v => v.nodeType ≠ .utility ∧ ¬ Known deps (p.1 :: B.map (fun p => p.1)) v)) (fun τ =>
      joint (fs.filter (fun f => !f.isUtility)) τ * totalUtility vs.variables fs weights τ *
        (A.map (fun p => p.2.2.val τ)).prod) σ := by
  obtain ⟨decs, t, st1, st2, i1, i2, i3, i4, i5⟩ := solvePolicies_inv sch h
  have hps := solve_list_order sch false _ st2 i5
  simp only [Bool.false_eq_true, if_false] at hps
  obtain ⟨decs', t', d1, d2, d3⟩ := getDecisions_new sch hp weights
  rw [i1] at d1
  simp only [Except.ok.injEq, Prod.mk.injEq] at d1
  obtain ⟨rfl, rfl⟩ := d1
  obtain ⟨st1', a1, a2, a3, a4, a5, _, _, s, a6, a7⟩ := start_spec sch hp hu hd i1
  rw [i3] at a1
  obtain rfl : st1 = st1' := Except.ok.inj a1
  have hF := hp.fixed
  set R := vs.variables with hRd
  obtain ⟨decs2, t2, e1, _, _⟩ := getDecisions_spec sch st1 (hF.vars.of_core a2.core) (a2.depsOK hF)
  obtain ⟨st2', b1, b2, b3, b4, b5, b6, ⟨hs, b7, b8⟩, b9⟩ := elim_full hF sch a2 false e1 rfl
  rw [i4] at b1
  obtain rfl : st2 = st2' := Except.ok.inj b1
  obtain ⟨b9, b10⟩ := b9 rfl
  have hdn : decs.Nodup := d2.nodup_iff.2 ((List.Nodup.of_map _ hp.ids).filter _)
  have hsplit : ∀ A d B, decs.reverse = A ++ d :: B → ∃ A' p B', ps = A' ++ p :: B' ∧ p.1 = d ∧
      B'.map (fun p => p.1) = B := by
    intro A d B hl
    rw [← hps] at hl
    obtain ⟨A', r, hA, _, hr⟩ := List.map_eq_append_iff.1 hl
    obtain ⟨p, B', hr2, hp2, hB⟩ := List.map_eq_cons_iff.1 hr
    exact ⟨A', p, B', by rw [hA, hr2], hp2, hB⟩
  have hS : Signed st1.factors (scope s) := by
    refine ⟨s, fs.filter (fun f => !f.isUtility), ?_, rfl, ?_⟩
    · rw [a6]; exact List.perm_append_comm
    · intro f hf
      obtain ⟨f1, f2⟩ := List.mem_filter.1 hf
      exact hnn f f1 (by simpa using f2)
  obtain ⟨U', s1, s2⟩ := hS.elims b7
  have hord := lastFirst_reverse hdn (d3 hac)
  have hpos : ∀ d ∈ decs.reverse, 0 < d.outcomes := fun d hdd => hd.outcomes d (a2.openD d hdd).1
  have hsig : ∃ U, Signed st2.factors U ∧ ∀ A d B, decs.reverse = A ++ d :: B →
      LinkedS (scopes st2.factors) U (Unknown R deps (d :: B)) d.id := by
    refine ⟨U', s1, ?_⟩
    intro A d B hl
    obtain ⟨A', p, B', hpe, rfl, rfl⟩ := hsplit A d B hl
    have hdL : p.1 ∈ decs.reverse := by rw [hl]; simp
    obtain ⟨hdR, hdt, _⟩ := a2.openD p.1 hdL
    apply s2
    · intro hm
      obtain ⟨w, hw, e⟩ := List.mem_map.1 (b8 hm)
      have hwR : w ∈ R := (List.mem_filter.1 (b4 w hw).1).1
      have : w = p.1 := coherent_of_nodup hF.vars.ids w hwR p.1 hdR e
      exact (b4 w hw).2 (this ▸ hdL)
    · exact a7 _ _ hdR (by rw [hdt]; decide) (hlink A' p B' hpe)
  obtain ⟨ps', st3, c1, c2, c3, _⟩ := solve_list hF sch decs.reverse st2 b2 hpos hord b9 hsig
  rw [i5] at c1
  obtain ⟨rfl, rfl⟩ := Prod.mk.inj (Except.ok.inj c1)
  have hRn : (R.map Var.id).Nodup := hp.ids
  have hpL : p.1 ∈ decs.reverse := by rw [← hps, hl]; simp
  obtain ⟨hpR, hpt, _⟩ := a2.openD p.1 hpL
  have hG : OnlyKnown R deps decs.reverse (fun τ => (A.map (fun p => p.2.2.val τ)).prod) := by
    apply OnlyKnown.prod
    intro q hq
    obtain ⟨A1, B1, hq⟩ := List.append_of_mem hq
    have := (c3 A1 q (B1 ++ p :: B) (by rw [hl, hq]; simp)).2.2.2.known
    intro σ τ hστ
    exact this σ τ (fun v hv hk => hστ v hv (hk.mono (by
      intro x hx
      rw [← hps, hl, hq]
      simp only [List.map_append, List.map_cons, List.mem_append, List.mem_cons, List.mem_reverse, List.not_mem_nil,
        or_false] at hx ⊢
      tauto)))
  have hKL : ∀ e ∈ p.1 :: B.map (fun p => p.1), e ∈ decs.reverse := by
    intro e he
    rw [← hps, hl]
    simp only [List.map_append, List.map_cons, List.mem_append]
    exact .inr he
  have hvars : R.filter (fun v => v.nodeType ≠ .utility ∧ ¬ Known deps (p.1 :: B.map (fun p => p.1)) v) =
      (live R st1).filter (fun v => ¬ Known deps (p.1 :: B.map (fun p => p.1)) v) := by
    rw [a3, List.filter_filter]
    refine List.filter_congr (fun v _ => ?_)
    rw [Bool.eq_iff_iff]
    simp only [decide_eq_true_eq, Bool.and_eq_true]
    exact and_comm
  have hutil : ∀ u ∈ utilities R, u.id ∉ (live R st1).map Var.id := by
    intro u hu hm
    obtain ⟨w, hw, e⟩ := List.mem_map.1 hm
    obtain ⟨hw1, hw2⟩ := List.mem_filter.1 hw
    obtain ⟨hu1, hu2⟩ := List.mem_filter.1 hu
    have : w = u := coherent_of_nodup hRn w hw1 u hu1 e
    subst this
    simp only [decide_eq_true_eq] at hw2 hu2
    exact hw2.1 hu2
  have hmove : ∀ σ, Fits σ R → (∀ u ∈ utilities R, σ u.id = 0) →
      sumOver ((live R st1).filter (fun v => ¬ Known deps (p.1 :: B.map (fun p => p.1)) v)) (fun τ =>
        joint (fs.filter (fun f => !f.isUtility)) τ * totalUtility R fs weights τ *
          (A.map (fun p => p.2.2.val τ)).prod) σ =
      sumOver ((live R st2).filter (fun v => ¬ Known deps (p.1 :: B.map (fun p => p.1)) v)) (fun τ =>
        joint st2.factors τ * (A.map (fun p => p.2.2.val τ)).prod) σ := by
    intro σ hσ h0
    refine sum_unknown hRn ((List.filter_sublist.map _).nodup hRn) (fun v hv => (List.mem_filter.1 hv).1) b5 hKL b10
      (P := fun σ => ∀ u ∈ utilities R, σ u.id = 0) ?_ ?_ hG hσ h0
    · intro σ τ h1 h2 u hu
      rw [h2 _ (hutil u hu)]
      exact h1 u hu
    · intro σ hσ h0
      have hrn := (b5.map Var.id).nodup_iff.1 ((List.filter_sublist.map _).nodup hRn)
      rw [List.map_append, List.nodup_append] at hrn
      rw [b6 σ hσ]
      apply sumOver_congr _ hrn.2.1
      intro τ h1 h2
      have hτ : Fits τ R := fits_of_agree hRn (fun v hv => (List.mem_filter.1 (b4 v hv).1).1) hσ h1 h2
      rw [a5 τ hτ]
      intro u hu
      rw [h1 u.id, h0 u hu]
      intro hm
      refine hutil u hu ?_
      obtain ⟨w, hw, e⟩ := List.mem_map.1 hm
      exact e ▸ List.mem_map_of_mem (b4 w hw).1
  rw [hvars, hmove _ (fits_upd_mem hRn hσ hpR hk), hmove _ hσ hσu]
  · exact solve_list_each hF sch decs.reverse st2 b2 hpos hord b9 hsig _ _ i5 A p B hl σ hσ hne k hk
  · intro u hu
    have : u.id ≠ p.1.id := by
      intro e
      obtain ⟨hu1, hu2⟩ := List.mem_filter.1 hu
      rw [coherent_of_nodup hRn u hu1 p.1 hpR e, hpt] at hu2
      simp at hu2
    simp only [Assignment.upd, this, if_false]
    exact hσu u hu

end Bbn
