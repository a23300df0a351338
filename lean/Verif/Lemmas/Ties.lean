import Verif.Lemmas.Policies

/-!
# Policies take exactly the best outcomes

`solvePolicies_head` says that a policy takes no outcome but the best ones. Here: in situations that can occur, it takes all
of them, and evenly.
-/

set_option autoImplicit false

namespace Bbn

open Finset

variable {α : Type}

/-- Eliminating variables from one factor `u` and others that are not negative: if the others have the product zero after it,
they had so before, whatever the outcomes of the eliminated variables. -/
theorem zero_elims [CommSemiring α] [PartialOrder α] [IsOrderedRing α] [NoZeroDivisors α] {R : List Var}
    (hR : (R.map Var.id).Nodup) {hs : List Var} {fs fs' : List (Factor α)} (he : Elims hs fs fs') :
    ∀ {u : Factor α} {rest : List (Factor α)}, fs.Perm (u :: rest) → (∀ f ∈ rest, f.NonNeg) →
      (∀ f ∈ fs, ∀ v ∈ f.vars, v ∈ R) →
      ∃ u' rest', fs'.Perm (u' :: rest') ∧ (∀ f ∈ rest', f.NonNeg) ∧
        (∀ (H : Nat → Prop) (i : Nat), i ∉ hs.map Var.id → LinkedS (scopes fs) (scope u) H i →
          LinkedS (scopes fs') (scope u') H i) ∧
        ∀ σ τ, Fits σ R → Fits τ R → (∀ i, i ∉ hs.map Var.id → τ i = σ i) → joint rest' σ = 0 → joint rest τ = 0 := by
  induction he with
  | nil fs =>
    intro u rest hp hn _
    refine ⟨u, rest, hp, hn, fun _ _ _ h => h, fun σ τ _ _ h h0 => ?_⟩
    rw [joint_congr (τ := σ) (fun f _ v _ => h v.id (by simp))]
    exact h0
  | @cons v w hs fs fs' g hid hw hsub hsc hfit hval _ ih =>
    intro u rest hp hn hin
    have hU : scope u ∈ scopes fs := by rw [scopes_perm hp]; simp [scopes]
    set p : Factor α → Bool := fun f => v.id ∈ scope f with hpd
    have hscopes : scopes (fs.filter (fun f => decide (v.id ∉ scope f)) ++ [g]) = elimScopes v.id (scopes fs) := by
      have app : ∀ a b : List (Factor α), scopes (a ++ b) = scopes a + scopes b := by
        intro a b; simp [scopes]
      have hsf := scopes_filter fs v.id p (fun f _ => by simp [hpd])
      have e : fs.filter (fun f => decide (v.id ∉ scope f)) = fs.filter (fun f => !p f) :=
        List.filter_congr (fun f _ => by simp [hpd])
      rw [app, e, hsf.2, elimScopes]
      congr 1
      simp [scopes, hsc]
    obtain ⟨fw, hfw, hww⟩ := hw
    have hwR : w ∈ R := hin fw hfw w hww
    have hgR : ∀ x ∈ g.vars, x ∈ R := by
      intro x hx
      obtain ⟨f, hf, hxf⟩ := hsub x hx
      exact hin f hf x hxf
    have hin' : ∀ f ∈ fs.filter (fun f => decide (v.id ∉ scope f)) ++ [g], ∀ x ∈ f.vars, x ∈ R := by
      intro f hf
      rcases List.mem_append.1 hf with hf | hf
      · exact hin f (List.mem_filter.1 hf).1
      · rw [List.mem_singleton] at hf; subst hf; exact hgR
    have hp2 := hp.filter (fun f => decide (v.id ∉ scope f))
    have hp3 := hp.filter (fun f => decide (v.id ∈ scope f))
    -- the rest, split by the variable
    have hsplit : ∀ τ, joint rest τ = joint (rest.filter (fun f => decide (v.id ∈ scope f))) τ *
        joint (rest.filter (fun f => decide (v.id ∉ scope f))) τ := by
      intro τ
      rw [← joint_append]
      refine joint_perm ?_ τ
      have := List.filter_append_perm (fun f : Factor α => decide (v.id ∈ scope f)) rest
      simpa using this.symm
    have hind : ∀ τ k, joint (rest.filter (fun f => decide (v.id ∉ scope f))) (τ.upd v.id k) =
        joint (rest.filter (fun f => decide (v.id ∉ scope f))) τ := by
      intro τ k
      apply joint_congr
      intro f hf x hx
      have : x.id ≠ v.id := fun e => by
        have hh := (List.mem_filter.1 hf).2
        simp only [decide_eq_true_eq] at hh
        exact hh (mem_scope.2 ⟨x, hx, e⟩)
      simp [Assignment.upd, this]
    have hback : ∀ τ σ : Assignment, τ = (τ.upd v.id (σ v.id)).upd v.id (τ v.id) := by
      intro τ σ
      funext i
      simp only [Assignment.upd]
      split
      · next h => rw [h]
      · rfl
    have hfitU : ∀ σ τ, Fits σ R → Fits τ R → Fits (τ.upd v.id (σ v.id)) R := by
      intro σ τ h1 h2
      rw [← hid]
      exact fits_upd_mem hR h2 hwR (h1 w hwR)
    have hag : ∀ σ τ : Assignment, (∀ i, i ∉ (v :: hs).map Var.id → τ i = σ i) →
        ∀ i, i ∉ hs.map Var.id → (τ.upd v.id (σ v.id)) i = σ i := by
      intro σ τ h i hi
      simp only [Assignment.upd]
      split
      · next e => rw [e]
      · next e => exact h i (by simp only [List.map_cons, List.mem_cons, not_or]; exact ⟨e, hi⟩)
    by_cases hv : v.id ∈ scope u
    · rw [List.filter_cons_of_neg (by simp [hv])] at hp2
      obtain ⟨u', rest', q1, q2, q3, q4⟩ := ih (u := g) (rest := rest.filter (fun f => decide (v.id ∉ scope f)))
        ((hp2.append_right [g]).trans List.perm_append_comm) (fun f hf => hn f (List.mem_filter.1 hf).1) hin'
      refine ⟨u', rest', q1, q2, fun H i hi hl => ?_, fun σ τ h1 h2 h3 h0 => ?_⟩
      · simp only [List.map_cons, List.mem_cons, not_or] at hi
        refine q3 H i hi.2 ?_
        have := hl.elim (v := v.id) hU
        rw [hscopes, hsc]
        simpa [hi.1, hv] using this
      · have := q4 σ (τ.upd v.id (σ v.id)) h1 (hfitU σ τ h1 h2) (hag σ τ h3) h0
        rw [hind] at this
        rw [hsplit, this, mul_zero]
    · rw [List.filter_cons_of_pos (by simp [hv])] at hp2
      rw [List.filter_cons_of_neg (by simp [hv])] at hp3
      have hgv : ∀ σ, Fits σ g.vars → g.val σ = ∑ k ∈ range w.outcomes,
          joint (rest.filter (fun f => decide (v.id ∈ scope f))) (σ.upd v.id k) := by
        intro σ hσ
        rw [hval σ hσ]
        exact Finset.sum_congr rfl (fun k _ => joint_perm hp3 _)
      have hterm : ∀ σ, Fits σ g.vars → ∀ k ∈ range w.outcomes,
          0 ≤ joint (rest.filter (fun f => decide (v.id ∈ scope f))) (σ.upd v.id k) := by
        intro σ hσ k hk
        refine joint_nonneg ((hfit σ hσ k (by simpa using hk)).perm hp3) ?_
        exact fun f hf => hn f (List.mem_filter.1 hf).1
      obtain ⟨u', rest', q1, q2, q3, q4⟩ := ih (u := u) (rest := rest.filter (fun f => decide (v.id ∉ scope f)) ++ [g])
        (hp2.append_right [g]) (by
          intro f hf
          rcases List.mem_append.1 hf with hf | hf
          · exact hn f (List.mem_filter.1 hf).1
          · rw [List.mem_singleton] at hf
            subst hf
            intro σ hσ
            rw [hgv σ hσ]
            exact Finset.sum_nonneg (hterm σ hσ)) hin'
      refine ⟨u', rest', q1, q2, fun H i hi hl => ?_, fun σ τ h1 h2 h3 h0 => ?_⟩
      · simp only [List.map_cons, List.mem_cons, not_or] at hi
        refine q3 H i hi.2 ?_
        have := hl.elim (v := v.id) hU
        rw [hscopes]
        simpa [hi.1, hv] using this
      · have hfU := hfitU σ τ h1 h2
        have := q4 σ (τ.upd v.id (σ v.id)) h1 hfU (hag σ τ h3) h0
        rw [joint_append, hind] at this
        rcases mul_eq_zero.1 this with h | h
        · rw [hsplit, h, mul_zero]
        · have hfg : Fits (τ.upd v.id (σ v.id)) g.vars := hfU.mono hgR
          have hg0 : g.val (τ.upd v.id (σ v.id)) = 0 := by simpa [joint] using h
          rw [hgv _ hfg, Finset.sum_eq_zero_iff_of_nonneg (hterm _ hfg)] at hg0
          have := hg0 (τ v.id) (by rw [Finset.mem_range, ← hid]; exact h2 w hwR)
          rw [← hback] at this
          rw [hsplit, this, zero_mul]

/-- The first policy takes exactly the best outcomes, evenly, in all situations that can occur. -/
theorem solvePolicies_exact [Field α] [LinearOrder α] [IsStrictOrderedRing α] (sch : Sched α) {vs : Vs}
    {fs : List (Factor α)} {deps : List (Var × List Var)} (hp : Problem vs fs deps) {weights : Option (List α)}
    (hu : UtilityOK vs.variables fs weights) (hd : DecisionOK vs.variables fs) (hac : DecAcyclic deps)
    {single : Bool}
    {p : Var × Factor α × Factor α} {ps : List (Var × Factor α × Factor α)} {st' : VE α}
    (h : (VE.new vs fs deps weights).solvePolicies sch single = .ok (some (p :: ps), st'))
    {ds : List Var} (hds : ds = if single then [p.1] else decisionVars vs.variables) :
    p.1 ∈ decisionVars vs.variables ∧ (∀ e ∈ decisionVars vs.variables, ¬ DecEdge deps p.1 e) ∧
    ((∀ f ∈ fs, f.isUtility = false → f.NonNeg) →
      Linked fs (fun i => ∃ v ∈ unseen vs.variables deps ds, v.id = i) p.1.id → ∀ σ, Fits σ vs.variables →
      (∀ u ∈ utilities vs.variables, σ u.id = 0) →
      (∃ j < p.1.outcomes, ∃ τ, Fits τ vs.variables ∧
        (∀ i, i ∉ (unseen vs.variables deps ds).map Var.id → τ i = (σ.upd p.1.id j) i) ∧
        joint (fs.filter (fun f => !f.isUtility)) τ ≠ 0) → ∀ k < p.1.outcomes,
        p.2.2.val (σ.upd p.1.id k) =
          let best := bestOutcomes p.1.outcomes (fun c => sumOver (unseen vs.variables deps ds) (fun τ =>
            joint (fs.filter (fun f => !f.isUtility)) τ * totalUtility vs.variables fs weights τ) (σ.upd p.1.id c))
          if k ∈ best then 1 / (best.length : α) else 0) := by
  obtain ⟨decs, t, st1, st2, i1, i2, i3, i4, i5⟩ := solvePolicies_inv sch h
  have hps := solve_list_order sch single _ st2 i5
  obtain ⟨decs', t', d1, d2, d3⟩ := getDecisions_new sch hp weights
  rw [i1] at d1
  simp only [Except.ok.injEq, Prod.mk.injEq] at d1
  obtain ⟨rfl, rfl⟩ := d1
  obtain ⟨st1', a1, a2, a3, a4, a5, a8, a9, s, a6, a7⟩ := start_spec sch hp hu hd i1
  rw [i3] at a1
  obtain rfl : st1 = st1' := Except.ok.inj a1
  have hF := hp.fixed
  have hRn : (vs.variables.map Var.id).Nodup := hp.ids
  set R := vs.variables with hRd
  obtain ⟨decs2, t2, e1, _, _⟩ := getDecisions_spec sch st1 (hF.vars.of_core a2.core) (a2.depsOK hF)
  obtain ⟨h0, _, _⟩ := new_good hp weights
  have : decs2 = decs := getDecisions_det sch sch hF a8 (by rw [h0]) a9 (by rw [h0]) e1 i1
  subst this
  have hdn : decs2.Nodup := d2.nodup_iff.2 ((List.Nodup.of_map _ hp.ids).filter _)
  obtain ⟨L', hL'⟩ : ∃ L', decs2.reverse = p.1 :: L' := by
    cases hr : decs2.reverse with
    | nil => simp at hr; exact absurd hr i2
    | cons x L' =>
      rw [hr] at hps
      cases single <;> simp at hps <;> exact ⟨L', by rw [hps.1]⟩
  have hLmem : ∀ v ∈ R, v.nodeType = .decision → v ∈ decs2.reverse := by
    intro v hv hvd
    exact List.mem_reverse.2 (d2.symm.subset (List.mem_filter.2 ⟨hv, by simpa using hvd⟩))
  obtain ⟨st2', b1, b2, b3, b4, b5, b6, ⟨hs, b7, b8⟩, _⟩ := elim_full hF sch a2 single e1 rfl
  rw [i4] at b1
  obtain rfl : st2 = st2' := Except.ok.inj b1
  have hun : hiddenR R decs2.reverse st1 ((considered single decs2).flatMap (depsOf deps)) = unseen R deps ds := by
    rw [hiddenR_eq hF a2 a4 hLmem]
    · unfold unseen
      apply List.filter_congr
      intro v _
      have : Known deps (considered single decs2) v ↔ Known deps ds v := by
        rw [hds]
        unfold considered
        cases single with
        | true => simp only [if_true]; rw [hL']; simp
        | false =>
          simp only [Bool.false_eq_true, if_false]
          constructor
          · exact Known.mono (fun d hd => d2.subset (List.mem_reverse.1 hd))
          · exact Known.mono (fun d hd => List.mem_reverse.2 (d2.symm.subset hd))
      simp only [this]
    · intro d hdd
      exact List.mem_reverse.2 (mem_considered hdd)
  rw [hun] at b3 b4 b5 b6 b8
  have hord := lastFirst_reverse hdn (d3 hac)
  rw [hL'] at b2 hord i5
  obtain ⟨hdR, hdt, hde⟩ := b2.openD p.1 (by simp)
  obtain ⟨fac, pol, st3, hr, c1, c2, c3, c4, c5, c6, c7, c8, c9, _⟩ :=
    policy_elim hF sch b2 (hd.outcomes _ hdR) hord single
  have hpe : p = (p.1, fac, pol) := by
    unfold VE.solvePolicyList at i5
    rw [c1, ok_bind] at i5
    dsimp only at i5
    cases single with
    | true =>
      rw [if_pos rfl] at i5
      have := (Prod.mk.inj (Except.ok.inj i5)).1
      exact (List.cons.inj this).1.symm
    | false =>
      rw [if_neg (by simp)] at i5
      obtain ⟨x, _, i6⟩ := bind_ok i5
      have := (Prod.mk.inj (Except.ok.inj i6)).1
      exact (List.cons.inj this).1.symm
  have hpol : p.2.2 = pol := by rw [hpe]
  refine ⟨List.mem_filter.2 ⟨hdR, by simpa using hdt⟩, ?_, ?_⟩
  · intro e he hed
    have heL : e ∈ p.1 :: L' := by
      rw [← hL']; exact List.mem_reverse.2 (d2.symm.subset he)
    rcases List.mem_cons.1 heL with rfl | he'
    · exact hac _ (Relation.TransGen.single hed)
    · exact hord [] p.1 L' rfl e he' hed
  intro hnn hlink σ hσ hσu hpos k hk
  have hgone : ∀ v ∈ unseen R deps ds, v.id ∉ (scopes st2.factors).sup := by
    intro v hv hj
    have hvR : v ∈ R := (List.mem_filter.1 hv).1
    have hvl : v ∈ live R st2 := by
      have := b2.gone v hvR hj
      simp only [live, List.mem_filter, decide_eq_true_eq]
      exact ⟨hvR, this⟩
    have hnd := (b5.nodup_iff.1 ((List.Nodup.of_map _ hRn).filter _))
    rw [List.nodup_append] at hnd
    exact hnd.2.2 v hvl v hv rfl
  obtain ⟨u', rest', s1, s3, s2, s4⟩ := zero_elims hRn b7 (rest := fs.filter (fun f => !f.isUtility)) (u := s)
    (by rw [a6]; exact List.perm_append_comm) (by
      intro f hf
      obtain ⟨f1, f2⟩ := List.mem_filter.1 hf
      exact hnn f f1 (by simpa using f2)) (fun f hf => a2.good.sub f hf)
  have hdU : p.1.id ∈ scope u' := by
    have hl := s2 (fun i => ∃ v ∈ unseen R deps ds, v.id = i) p.1.id (by
      intro hm
      obtain ⟨w, hw, e⟩ := List.mem_map.1 (b8 hm)
      have hwR : w ∈ R := (List.mem_filter.1 (b4 w hw).1).1
      have : w = p.1 := coherent_of_nodup hRn w hwR p.1 hdR e
      exact (b4 w hw).2 (by rw [this, hL']; simp)) (a7 _ _ hdR (by rw [hdt]; decide) hlink)
    refine hl.mem ?_
    rintro j hj ⟨v, hv, rfl⟩
    exact hgone v hv hj
  have hfR : ∀ v ∈ fac.vars, v ∈ R := by
    intro v hv
    obtain ⟨f, hf, hvf⟩ := c4 v hv
    exact b2.good.sub f hf v hvf
  have hu2 : ∀ k' < p.1.outcomes, sumOver (unseen R deps ds) (fun τ => joint (fs.filter (fun f => !f.isUtility)) τ *
      totalUtility R fs weights τ) (σ.upd p.1.id k') = joint st2.factors (σ.upd p.1.id k') := by
    intro k' hk'
    have hf := fits_upd_mem hRn hσ hdR hk'
    rw [b6 _ hf]
    symm
    apply sumOver_congr _ ((List.filter_sublist.map _).nodup hRn)
    intro τ h1 h2
    have hτ : Fits τ R := fits_of_agree hRn (fun v hv => (List.mem_filter.1 hv).1) hf h1 h2
    rw [a5 τ hτ]
    intro u hu
    obtain ⟨hu1, hu2⟩ := List.mem_filter.1 hu
    rw [h1 u.id]
    · simp only [Assignment.upd]
      rw [if_neg, hσu u hu]
      intro e
      have := coherent_of_nodup hRn u hu1 p.1 hdR e
      rw [this, hdt] at hu2
      simp at hu2
    · intro hm
      obtain ⟨w, hw, e⟩ := List.mem_map.1 hm
      obtain ⟨hw1, hw2⟩ := List.mem_filter.1 hw
      have : w = u := coherent_of_nodup hRn w hw1 u hu1 e
      subst this
      simp only [decide_eq_true_eq] at hw2 hu2
      rw [hw2.1] at hu2; cases hu2
  have hσd : σ p.1.id < p.1.outcomes := hσ _ hdR
  have hself : σ = σ.upd p.1.id (σ p.1.id) := by
    funext i
    simp only [Assignment.upd]
    split
    · next h => rw [h]
    · rfl
  have hrest : ∀ k, joint (st2.factors.filter (fun f => p.1.id ∉ scope f)) (σ.upd p.1.id k) =
      joint (st2.factors.filter (fun f => p.1.id ∉ scope f)) σ := by
    intro k
    apply joint_congr
    intro f hf v hv
    have : v.id ≠ p.1.id := by
      intro e
      have hh := (List.mem_filter.1 hf).2
      simp only [decide_eq_true_eq] at hh
      exact hh (mem_scope.2 ⟨v, hv, e⟩)
    simp [Assignment.upd, this]
  have hsubset : ∀ f ∈ st2.factors.filter (fun f => p.1.id ∉ scope f), f ∈ rest' := by
    intro f hf
    obtain ⟨hf1, hf2⟩ := List.mem_filter.1 hf
    simp only [decide_eq_true_eq] at hf2
    rcases List.mem_cons.1 (s1.subset hf1) with rfl | hf3
    · exact absurd hdU hf2
    · exact hf3
  have hnn2 : 0 ≤ joint (st2.factors.filter (fun f => p.1.id ∉ scope f)) σ := by
    apply joint_nonneg
    · intro f hf
      exact hσ.mono (b2.good.sub f (List.mem_filter.1 hf).1)
    · exact fun f hf => s3 f (hsubset f hf)
  have hjk : ∀ k' < p.1.outcomes, joint st2.factors (σ.upd p.1.id k') =
      fac.val (σ.upd p.1.id k') * joint (st2.factors.filter (fun f => p.1.id ∉ scope f)) σ := by
    intro k' hk'
    have hf := fits_upd_mem hRn hσ hdR hk'
    rw [c6 _ (fun f hf' => hf.mono (b2.good.sub f hf')), hrest]
  have hpos2 : 0 < joint (st2.factors.filter (fun f => p.1.id ∉ scope f)) σ := by
    refine lt_of_le_of_ne hnn2 (fun h0 => ?_)
    obtain ⟨j, hj, τ, hτ, hag, hτ0⟩ := hpos
    refine hτ0 (s4 (fun i => if i ∈ hs.map Var.id then σ i else τ i) τ ?_ hτ (fun i hi => by simp [hi]) ?_)
    · intro v hv
      dsimp only
      split
      · exact hσ v hv
      · exact hτ v hv
    · have hpd : (st2.factors.filter (fun f => p.1.id ∉ scope f)).Perm (rest'.filter (fun f => p.1.id ∉ scope f)) := by
        have := s1.filter (fun f => decide (p.1.id ∉ scope f))
        rwa [List.filter_cons_of_neg (by simp [hdU])] at this
      have hsp : (rest'.filter (fun f => p.1.id ∈ scope f) ++ rest'.filter (fun f => p.1.id ∉ scope f)).Perm rest' := by
        have := List.filter_append_perm (fun f : Factor α => decide (p.1.id ∈ scope f)) rest'
        simpa using this
      rw [← joint_perm hsp, joint_append, ← joint_perm hpd,
        joint_congr (fs := st2.factors.filter (fun f => p.1.id ∉ scope f)) (τ := σ), ← h0, mul_zero]
      intro f hf x hx
      obtain ⟨hf1, hf2⟩ := List.mem_filter.1 hf
      simp only [decide_eq_true_eq] at hf2
      have hxf : x.id ∈ scope f := mem_scope.2 ⟨x, hx, rfl⟩
      have hxs : x.id ∈ (scopes st2.factors).sup := mem_scopes_sup.2 ⟨f, hf1, hxf⟩
      split
      · rfl
      · rw [hag x.id]
        · simp only [Assignment.upd]
          rw [if_neg]
          rintro e
          exact hf2 (e ▸ hxf)
        · intro hm
          obtain ⟨y, hy, hyx⟩ := List.mem_map.1 hm
          exact hgone y hy (hyx ▸ hxs)
  have hbest : bestOutcomes p.1.outcomes (fun c => sumOver (unseen R deps ds) (fun τ =>
      joint (fs.filter (fun f => !f.isUtility)) τ * totalUtility R fs weights τ) (σ.upd p.1.id c)) =
      bestOutcomes p.1.outcomes (fun c => fac.val (σ.upd p.1.id c)) := by
    unfold bestOutcomes
    apply List.filter_congr
    intro c hc
    rw [List.mem_range] at hc
    rw [decide_eq_decide]
    refine forall₂_congr (fun c' hc' => ?_)
    dsimp only
    rw [hu2 c hc, hu2 c' hc', hjk c hc, hjk c' hc']
    exact mul_le_mul_iff_left₀ hpos2
  rw [hpol, hbest, c9 _ ((fits_upd_mem hRn hσ hdR hk).mono hfR), policyVal_upd]

end Bbn
