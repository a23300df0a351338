import Verif.Lemmas.Policies
import Verif.Lemmas.SignedNet

/-!
# Policies of a solver whose numbers are rounded
-/

set_option autoImplicit false
set_option linter.unusedSectionVars false

namespace Bbn

open Finset

/-! ## The factor that a decision is taken by -/

section Head

variable {α : Type}

/-- The state in which the last decision is solved: what its factor holds. -/
theorem head_state [Field α] [LinearOrder α] [IsStrictOrderedRing α] (sch : Sched α) {vs : Vs} {fs : List (Factor α)} {deps : List (Var × List Var)}
    (hp : Problem vs fs deps) {weights : Option (List α)} (hu : UtilityOK vs.variables fs weights)
    (hd : DecisionOK vs.variables fs) (hac : DecAcyclic deps) {decs : List Var} {t : Nat}
    (i1 : (VE.new vs fs deps weights).getDecisions sch = .ok (decs, t)) {d : Var} {L : List Var}
    (hL : decs.reverse = d :: L) :
    ∃ (st1 st2 : VE α) (fac : Factor α) (n1 : Nat),
      VE.sumUtilities sch { VE.new vs fs deps weights with tick := t } = .ok st1 ∧
      st1.eliminateHidden sch [] [] true = .ok st2 ∧ PState vs.variables deps st2 (d :: L) ∧
      (∀ e ∈ L, ¬ DecEdge deps d e) ∧ d ∈ vs.variables ∧ d.nodeType = .decision ∧
      decisionProduct st2.vs (st2.findDecisionFactors sch d) = .ok (fac, { st2.vs with factorCounter := n1 }) ∧
      st2.vs.factorCounter ≤ n1 ∧ fac.WF ∧ (∀ v ∈ fac.vars, v ∈ vs.variables) ∧ d ∈ fac.vars ∧
      (∀ σ, Fits σ vs.variables → (∀ u ∈ utilities vs.variables, σ u.id = 0) → ∀ k < d.outcomes,
        sumOver (unseen vs.variables deps [d]) (fun τ => joint (fs.filter (fun f => !f.isUtility)) τ *
          totalUtility vs.variables fs weights τ) (σ.upd d.id k) =
        fac.val (σ.upd d.id k) * joint (st2.factors.filter (fun f => d.id ∉ scope f)) σ) ∧
      ∃ s : Factor α, st1.factors = fs.filter (fun f => !f.isUtility) ++ [s] ∧ (∃ hs : List Var, Elims hs st1.factors st2.factors ∧
          hs.map Var.id ⊆ (unseen vs.variables deps [d]).map Var.id) ∧
        (∀ (H : Nat → Prop) (v : Var), v ∈ vs.variables → v.nodeType ≠ .utility → Linked fs H v.id →
          LinkedS (scopes st1.factors) (scope s) H v.id) ∧
        (∀ v ∈ unseen vs.variables deps [d], v.id ≠ d.id) ∧
        ∀ v ∈ unseen vs.variables deps [d], v.id ∉ (scopes st2.factors).sup := by
  obtain ⟨decs', t', d1, d2, d3⟩ := getDecisions_new sch hp weights
  rw [i1] at d1
  simp only [Except.ok.injEq, Prod.mk.injEq] at d1
  obtain ⟨rfl, rfl⟩ := d1
  obtain ⟨st1, a1, a2, a3, a4, a5, a8, a9, s, a6, a7⟩ := start_spec sch hp hu hd i1
  have hF := hp.fixed
  have hRn : (vs.variables.map Var.id).Nodup := hp.ids
  set R := vs.variables with hRd
  obtain ⟨decs2, t2, e1, _, _⟩ := getDecisions_spec sch st1 (hF.vars.of_core a2.core) (a2.depsOK hF)
  obtain ⟨h0, _, _⟩ := new_good hp weights
  have : decs2 = decs := getDecisions_det sch sch hF a8 (by rw [h0]) a9 (by rw [h0]) e1 i1
  subst this
  have hdn : decs2.Nodup := d2.nodup_iff.2 ((List.Nodup.of_map _ hp.ids).filter _)
  have hLmem : ∀ v ∈ R, v.nodeType = .decision → v ∈ decs2.reverse := by
    intro v hv hvd
    exact List.mem_reverse.2 (d2.symm.subset (List.mem_filter.2 ⟨hv, by simpa using hvd⟩))
  obtain ⟨st2, b1, b2, b3, b4, b5, b6, ⟨hs, b7, b8⟩, _⟩ := elim_full hF sch a2 true e1 rfl
  have hun : hiddenR R decs2.reverse st1 ((considered true decs2).flatMap (depsOf deps)) = unseen R deps [d] := by
    rw [hiddenR_eq hF a2 a4 hLmem]
    · unfold unseen
      apply List.filter_congr
      intro v _
      have : Known deps (considered true decs2) v ↔ Known deps [d] v := by
        unfold considered
        simp only [if_true]; rw [hL]; simp
      simp only [this]
    · intro d hdd
      exact List.mem_reverse.2 (mem_considered hdd)
  rw [hun] at b3 b4 b5 b6 b8
  have hord := lastFirst_reverse hdn (d3 hac)
  rw [hL] at b2 hord
  obtain ⟨hdR, hdt, hde⟩ := b2.openD d (by simp)
  obtain ⟨fac, n1, c1, c2, c3, c4, c5, c6⟩ := factor_step hF sch b2
  have hfR : ∀ v ∈ fac.vars, v ∈ R := by
    intro v hv
    obtain ⟨f, hf, hvf⟩ := c4 v hv
    exact b2.good.sub f hf v hvf
  have hne : ∀ v ∈ unseen R deps [d], v.id ≠ d.id := by
    intro v hv e
    have hvR : v ∈ R := (List.mem_filter.1 hv).1
    have : v = d := coherent_of_nodup hRn v hvR d hdR e
    exact (b4 v hv).2 (by rw [this, hL]; simp)
  refine ⟨st1, st2, fac, n1, a1, b1, b2, fun e he => hord [] d L rfl e he, hdR, hdt, c1, c2, c3, hfR, c5, ?_, s, a6,
    ⟨hs, b7, b8⟩, a7, hne, ?_⟩
  · intro σ hσ hσu k hk
    have hf := fits_upd_mem hRn hσ hdR hk
    have hu2 : sumOver (unseen R deps [d]) (fun τ => joint (fs.filter (fun f => !f.isUtility)) τ *
        totalUtility R fs weights τ) (σ.upd d.id k) = joint st2.factors (σ.upd d.id k) := by
      rw [b6 _ hf]
      symm
      apply sumOver_congr _ ((List.filter_sublist.map _).nodup hRn)
      intro τ h1 h2
      have hτ : Fits τ R := fits_of_agree hRn (fun v hv => (List.mem_filter.1 hv).1) hf h1 h2
      rw [a5 τ hτ]
      intro u hu
      obtain ⟨hu1, hu2⟩ := List.mem_filter.1 hu
      rw [h1 u.id]
      · simp only [Assignment.upd]
        rw [if_neg, hσu u hu]
        intro e
        have := coherent_of_nodup hRn u hu1 d hdR e
        rw [this, hdt] at hu2
        simp at hu2
      · intro hm
        obtain ⟨w, hw, e⟩ := List.mem_map.1 hm
        obtain ⟨hw1, hw2⟩ := List.mem_filter.1 hw
        have : w = u := coherent_of_nodup hRn w hw1 u hu1 e
        subst this
        simp only [decide_eq_true_eq] at hw2 hu2
        rw [hw2.1] at hu2; cases hu2
    have hrest : joint (st2.factors.filter (fun f => d.id ∉ scope f)) (σ.upd d.id k) =
        joint (st2.factors.filter (fun f => d.id ∉ scope f)) σ := by
      apply joint_congr
      intro f hf v hv
      have : v.id ≠ d.id := by
        intro e
        have hh := (List.mem_filter.1 hf).2
        simp only [decide_eq_true_eq] at hh
        exact hh (mem_scope.2 ⟨v, hv, e⟩)
      simp [Assignment.upd, this]
    rw [hu2, c6 _ (fun f hf' => hf.mono (b2.good.sub f hf')), hrest]
  · intro v hv hj
    have hvR : v ∈ R := (List.mem_filter.1 hv).1
    have hvl : v ∈ live R st2 := by
      have := b2.gone v hvR hj
      simp only [live, List.mem_filter, decide_eq_true_eq]
      exact ⟨hvR, this⟩
    have hnd := (b5.nodup_iff.1 ((List.Nodup.of_map _ hRn).filter _))
    rw [List.nodup_append] at hnd
    exact hnd.2.2 v hvl v hv rfl

/-- The factors without the decision do not change the sign of a comparison. -/
theorem rest_nonneg [Field α] [LinearOrder α] [IsStrictOrderedRing α] {R : List Var} {fs fs1 fs2 : List (Factor α)}
    {d : Var} {s : Factor α} {U : List Var} (h1 : fs1 = fs.filter (fun f => !f.isUtility) ++ [s])
    (h2 : ∃ hs : List Var, Elims hs fs1 fs2 ∧ hs.map Var.id ⊆ U.map Var.id)
    (h3 : LinkedS (scopes fs1) (scope s) (fun i => ∃ v ∈ U, v.id = i) d.id) (h4 : ∀ v ∈ U, v.id ≠ d.id)
    (h5 : ∀ v ∈ U, v.id ∉ (scopes fs2).sup) (hnn : ∀ f ∈ fs, f.isUtility = false → f.NonNeg)
    (hsub : ∀ f ∈ fs2, ∀ v ∈ f.vars, v ∈ R) {σ : Assignment} (hσ : Fits σ R) :
    0 ≤ joint (fs2.filter (fun f => d.id ∉ scope f)) σ := by
  obtain ⟨hs, b7, b8⟩ := h2
  have hS : Signed fs1 (scope s) := by
    refine ⟨s, fs.filter (fun f => !f.isUtility), ?_, rfl, ?_⟩
    · rw [h1]; exact List.perm_append_comm
    · intro f hf
      obtain ⟨f1, f2⟩ := List.mem_filter.1 hf
      exact hnn f f1 (by simpa using f2)
  obtain ⟨U', s1, s2⟩ := hS.elims b7
  have hdU : d.id ∈ U' := by
    have hl := s2 (fun i => ∃ v ∈ U, v.id = i) d.id (by
      intro hm
      obtain ⟨w, hw, e⟩ := List.mem_map.1 (b8 hm)
      exact h4 w hw e) h3
    refine hl.mem ?_
    rintro j hj ⟨v, hv, rfl⟩
    exact h5 v hv hj
  obtain ⟨u, rest, hp, hu, hn⟩ := s1
  apply joint_nonneg
  · intro f hf
    exact hσ.mono (hsub f (List.mem_filter.1 hf).1)
  · intro f hf
    obtain ⟨hf1, hf2⟩ := List.mem_filter.1 hf
    simp only [decide_eq_true_eq] at hf2
    rcases List.mem_cons.1 (hp.subset hf1) with rfl | hf3
    · rw [hu] at hf2; exact absurd hdU hf2
    · exact hn f hf3

end Head

/-! ## Numbers forgotten -/

/-- A type with one element: what is left of the solver is the shape of its factors. -/
inductive OneElt where
  | elt

namespace OneElt

instance zeroB : Zero OneElt := ⟨elt⟩
instance oneB : One OneElt := ⟨elt⟩
instance addB : Add OneElt := ⟨fun _ _ => elt⟩
instance mulB : Mul OneElt := ⟨fun _ _ => elt⟩
instance divB : Div OneElt := ⟨fun _ _ => elt⟩

theorem all (a b : OneElt) : a = b := by cases a; cases b; rfl

end OneElt

section Shapes

variable {β K : Type}

theorem blank_embeds [Zero β] [One β] [Add β] [Mul β] [Div β] (h0 : (0 : β) + 0 = 0) :
    Embeds (fun _ : β => OneElt.elt) (fun x => x = 0) where
  zero := OneElt.all _ _
  one := OneElt.all _ _
  add _ _ := OneElt.all _ _
  mul _ _ := OneElt.all _ _
  div _ _ h1 h2 := absurd h1 h2
  eq_zero _ h := ⟨fun _ => h, fun _ => OneElt.all _ _⟩
  pzero := rfl
  padd a b h1 h2 := by rw [h1, h2]; exact h0

theorem blank_eq {f : Factor β} {g : Factor K} (h1 : f.id = g.id) (h2 : f.vars = g.vars) (hf : f.WF) (hg : g.WF) :
    f.mapNum (fun _ => OneElt.elt) = g.mapNum (fun _ => OneElt.elt) := by
  unfold Factor.mapNum
  rw [h1, h2]
  congr 1
  rw [List.map_const', List.map_const', hf.len, hg.len, h2]

theorem Factor.mapNum_mapNum {A B C : Type} (φ : A → B) (ψ : B → C) (f : Factor A) :
    (f.mapNum φ).mapNum ψ = f.mapNum (fun x => ψ (φ x)) := by
  unfold Factor.mapNum
  simp

theorem findDecisionFactors_map (φ : K → β) (s : Sched β) (st : VE K) (d : Var) :
    (st.mapNum φ).findDecisionFactors s d = (st.findDecisionFactors (s.cast K) d).map (Factor.mapNum φ) := by
  unfold VE.findDecisionFactors
  rw [iter_map φ]
  have e : (st.mapNum φ).tick = st.tick := rfl
  have e2 : (st.mapNum φ).factors = st.factors.map (Factor.mapNum φ) := rfl
  dsimp only
  rw [e, e2, Sched.cast_fac φ, List.filter_map, List.filter_map, List.length_map]
  have e3 : ((fun f : Factor β => decide (d ∈ f.vars)) ∘ Factor.mapNum φ) = (fun f : Factor K => decide (d ∈ f.vars)) := rfl
  have e4 : ((fun f : Factor β => decide (d ∈ f.vars ∧ ¬ 1 < f.vars.length)) ∘ Factor.mapNum φ) =
    (fun f : Factor K => decide (d ∈ f.vars ∧ ¬ 1 < f.vars.length)) := rfl
  rw [e3, e4]
  split_ifs <;> rfl

theorem decisionProduct_map [Zero K] [One K] [Add K] [Mul K] [Div K] [Zero β] [One β] [Add β] [Mul β] [Div β] {φ : K → β}
    {P : K → Prop} (h : Embeds φ P) (vs : Vs) (fs : List (Factor K)) :
    ERel (fun a b => b = facPair φ a) (decisionProduct vs fs) (decisionProduct vs (fs.map (Factor.mapNum φ))) := by
  match fs with
  | [] => exact ERel.err
  | [f] => exact ERel.ok rfl
  | f :: g :: fs => exact product_map h vs (f :: g :: fs)

end Shapes

/-! ## One decision -/

section One

variable {β K : Type} [Zero β] [One β] [Add β] [Mul β] [Div β] [NatCast β] [LinearOrder β] [Field K] [LinearOrder K]
  [IsStrictOrderedRing K] {val : β → K} {u : K}

theorem zero_add_zero_of (h : SignedRounding val u) : (0 : β) + 0 = 0 := by
  obtain ⟨d, _, e⟩ := h.add 0 0
  exact h.eq_zero _ (by rw [e, h.zero]; ring)

/-- What is left is not more than its magnitude. -/
theorem joint_le_size {fs : List (Factor ((β × K) × K))} (hf : ∀ f ∈ fs, ∃ k, f.Has (Bounded val u) k) (σ : Assignment) :
    |joint (fs.map (Factor.mapNum (fun x => x.1.2))) σ| ≤ joint (fs.map (Factor.mapNum Prod.snd)) σ := by
  induction fs with
  | nil => simp [joint]
  | cons f fs ih =>
    have ih := ih (fun g hg => hf g (List.mem_cons_of_mem _ hg))
    have h1 : |(f.val σ).1.2| ≤ (f.val σ).2 := by
      obtain ⟨k, hk⟩ := hf f List.mem_cons_self
      unfold Factor.val
      rw [List.getD_eq_getElem?_getD]
      cases hx : f.data[flatIndex f.vars (tupleOf f.vars σ)]? with
      | none => simp
      | some x => exact (hk x (List.mem_of_getElem? hx)).2
    simp only [joint, List.map_cons, List.prod_cons] at ih ⊢
    rw [abs_mul, val_mapped (φ := fun x : (β × K) × K => x.1.2) rfl, val_mapped (φ := (Prod.snd : (β × K) × K → K)) rfl]
    exact mul_le_mul h1 ih (abs_nonneg _) ((abs_nonneg _).trans h1)

theorem filter_scope_map {A B : Type} (φ : A → B) (i : Nat) (fs : List (Factor A)) :
    (fs.map (Factor.mapNum φ)).filter (fun f => i ∉ scope f) = (fs.filter (fun f => i ∉ scope f)).map (Factor.mapNum φ) := by
  rw [List.filter_map]
  rfl

/-- The factor by which a decision is taken, as it is after rounding, exactly, and with magnitudes. -/
theorem decisionProduct_has {P : Nat → (β × K) × K → Prop} (hP : Graded P) {D : (β × K) × K → Prop}
    {φ : (β × K) × K → K} (he : Embeds φ D) {R : List Var} (hR : (R.map Var.id).Nodup) {vs : Vs}
    {fs gs : List (Factor ((β × K) × K))} (h1 : AllHave P R fs) (hs : ∃ l, gs.Perm l ∧ l.Sublist fs) {fac : Factor ((β × K) × K)}
    {vs' : Vs} (hr : decisionProduct vs gs = .ok (fac, vs')) : fac.Has P (budgetOf P fs) := by
  obtain ⟨l, hl, hs⟩ := hs
  have hmem : ∀ f ∈ gs, f ∈ fs := fun f hf => hs.subset (hl.subset hf)
  have hb : budgetOf P gs ≤ budgetOf P fs := (budgetOf_perm hl).trans_le (budgetOf_sublist hs)
  match gs, hr with
  | [], hr => cases hr
  | [f], hr =>
    cases hr
    refine (gradeOf_has (h1.has _ (hmem _ List.mem_cons_self))).mono hP ?_
    rw [budgetOf_single] at hb
    omega
  | f :: g :: gs, hr =>
    have := product_has hP (gradeOf P) (fun x hx => gradeOf_has (h1.has x (hmem x hx))) (a := (fac, vs')) hr
    exact this.mono hP hb

theorem findDecisionFactors_sub {A : Type} (sch : Sched A) (st : VE A) (d : Var) :
    ∃ l, (st.findDecisionFactors sch d).Perm l ∧ l.Sublist st.factors := by
  unfold VE.findDecisionFactors
  dsimp only
  split_ifs
  · exact ⟨_, (sch.fac_perm _ _).filter _, List.filter_sublist⟩
  · exact ⟨_, (sch.fac_perm _ _).filter _, List.filter_sublist⟩

/-- The last decision, solved with rounded numbers. -/
theorem rounded_policy (h : OrderedRounding val u) (sch : Sched β) {st3 : VE ((β × K) × K)} {vs : Vs}
    {fs fsA : List (Factor K)} {deps : List (Var × List Var)} {weights weightsA : Option (List K)}
    (hmid : st3.mapNum (fun x => x.1.2) = VE.new vs fs deps weights)
    (hsnd : st3.mapNum Prod.snd = VE.new vs fsA deps weightsA) (hp : Problem vs fs deps) (hpA : Problem vs fsA deps)
    (hu : UtilityOK vs.variables fs weights) (huA : UtilityOK vs.variables fsA weightsA) (hd : DecisionOK vs.variables fs)
    (hdA : DecisionOK vs.variables fsA) (hac : DecAcyclic deps)
    (hall : AllHave (Bounded val u) vs.variables st3.factors)
    (hw : ∀ ws, st3.weights = some ws → ∀ x ∈ ws, Bounded val u 0 x) {p : Var × Factor K × Factor K} {st' : VE K}
    (hK : (VE.new vs fs deps weights).solvePolicies (sch.cast K) true = .ok (some [p], st')) :
    ∃ (pol fac : Factor β) (stb : VE β),
      (st3.mapNum (fun x => x.1.1)).solvePolicies sch true = .ok (some [(p.1, fac, pol)], stb) ∧ stb.vs = st'.vs ∧
      pol.WF ∧ pol.id = p.2.2.id ∧ pol.vars = p.2.2.vars ∧ pol.vars = otherVars p.1.id fac.vars ++ [p.1] ∧
      p.1 ∈ fac.vars ∧ fac.WF ∧ 0 < p.1.outcomes ∧
      (∀ σ, Fits σ fac.vars → pol.val σ = policyVal fac p.1 σ) ∧
      ((∀ f ∈ fs, f.isUtility = false → f.NonNeg) →
        Linked fs (fun i => ∃ v ∈ unseen vs.variables deps [p.1], v.id = i) p.1.id → ∀ σ, Fits σ vs.variables →
        (∀ u ∈ utilities vs.variables, σ u.id = 0) → pol.val σ ≠ 0 → ∀ k < p.1.outcomes,
          sumOver (unseen vs.variables deps [p.1]) (fun τ => joint (fs.filter (fun f => !f.isUtility)) τ *
            totalUtility vs.variables fs weights τ) (σ.upd p.1.id k) ≤
          sumOver (unseen vs.variables deps [p.1]) (fun τ => joint (fs.filter (fun f => !f.isUtility)) τ *
            totalUtility vs.variables fs weights τ) σ +
          ((1 - u)⁻¹ ^ (budgetOf (Bounded val u) st3.factors + 2 * st3.factors.length + 1 +
            (vs.variables.map (fun w => w.outcomes + 1)).sum) - 1) *
          (sumOver (unseen vs.variables deps [p.1]) (fun τ => joint (fsA.filter (fun f => !f.isUtility)) τ *
            totalUtility vs.variables fsA weightsA τ) (σ.upd p.1.id k) +
          sumOver (unseen vs.variables deps [p.1]) (fun τ => joint (fsA.filter (fun f => !f.isUtility)) τ *
            totalUtility vs.variables fsA weightsA τ) σ)) := by
  have hs := h.toSignedRounding
  have hro := hs.rounding
  have hRn : (vs.variables.map Var.id).Nodup := hp.ids
  -- the exact run
  obtain ⟨decs, t, st1, st2, i1, i2, i3, i4, i5⟩ := solvePolicies_inv (sch.cast K) hK
  obtain ⟨d, L, hL⟩ : ∃ d L, decs.reverse = d :: L := by
    cases hr : decs.reverse with
    | nil => simp at hr; exact absurd hr i2
    | cons x L => exact ⟨x, L, rfl⟩
  obtain ⟨st1', st2', facK, n1, a1, a2, a3, a4, a5, a6, a7, a8, a9, a10, a11, a12, s, a13, a14, a15, a16, a17⟩ :=
    head_state (sch.cast K) hp hu hd hac i1 hL
  obtain rfl : st1 = st1' := Except.ok.inj (i3.symm.trans a1)
  obtain rfl : st2 = st2' := Except.ok.inj (i4.symm.trans a2)
  rw [hL] at i5
  unfold VE.solvePolicyList at i5
  obtain ⟨⟨p', st4⟩, i6, i7⟩ := ok_inv i5
  simp only [if_true] at i7
  have i8 := Prod.mk.inj (Except.ok.inj i7)
  obtain rfl : p' = p := (List.cons.inj i8.1).1
  obtain rfl : st4 = st' := i8.2
  clear i5 i7 i8
  unfold VE.solvePolicy at i6
  rw [a7, ok_bind] at i6
  dsimp only at i6
  have hpos : 0 < d.outcomes := hd.outcomes _ a5
  obtain ⟨polK, q1, q2, q3, q4, q5⟩ := policy_spec { st2.vs with factorCounter := n1 } facK a9 d d a11 rfl hpos
  rw [q1, ok_bind] at i6
  dsimp only at i6
  obtain ⟨vars, i7, i6⟩ := ok_inv i6
  obtain ⟨st5, i8, i6⟩ := ok_inv i6
  have i9 := Prod.mk.inj (Except.ok.inj i6)
  obtain rfl : st5 = st4 := i9.2
  obtain rfl := i9.1
  dsimp only at *
  -- the run on triples
  have g1 : st3.getDecisions (sch.cast ((β × K) × K)) = .ok (decs, t) := by
    have := getDecisions_map (fun x : (β × K) × K => x.1.2) (sch.cast K) st3
    rw [hmid, i1] at this
    exact this.symm
  have hmid' : VE.mapNum (fun x : (β × K) × K => x.1.2) { st3 with tick := t } =
      { VE.new vs fs deps weights with tick := t } := by rw [← hmid]; rfl
  have hsnd' : VE.mapNum (Prod.snd : (β × K) × K → K) { st3 with tick := t } =
      { VE.new vs fsA deps weightsA with tick := t } := by rw [← hsnd]; rfl
  have m1 := sumUtilities_map (middle_embeds hro) (sch.cast K) { st3 with tick := t }
  rw [hmid'] at m1
  obtain ⟨t1, g2, g3⟩ := m1.inv' a1
  have m2 := eliminateHidden_map (middle_embeds hro) (sch.cast K) t1 [] [] true
  rw [← g3] at m2
  obtain ⟨t2, g4, g5⟩ := m2.inv' a2
  have m3 := decisionProduct_map (middle_embeds hro) t2.vs (t2.findDecisionFactors (sch.cast ((β × K) × K)) d)
  have g6 := findDecisionFactors_map (fun x : (β × K) × K => x.1.2) (sch.cast K) t2 d
  rw [← g5] at g6
  have g6' : ((sch.cast K).cast ((β × K) × K)) = sch.cast ((β × K) × K) := rfl
  rw [g6'] at g6 g4 g2
  have g7 : t2.vs = st2.vs := by rw [g5]; rfl
  rw [← g6, g7] at m3
  obtain ⟨⟨fac3, vs3⟩, g8, g9⟩ := m3.inv' a7
  obtain ⟨g10, g11⟩ := Prod.mk.inj g9
  dsimp only at g10 g11
  subst g11
  -- the run with magnitudes
  obtain ⟨decsA, tA, dA1, dA2, dA3⟩ := getDecisions_new (sch.cast K) hpA weightsA
  have gA : (VE.new vs fsA deps weightsA).getDecisions (sch.cast K) = .ok (decs, t) := by
    have := getDecisions_map (Prod.snd : (β × K) × K → K) (sch.cast K) st3
    rw [hsnd] at this
    rw [this]
    exact g1
  obtain ⟨sA1, sA2, facA, nA, b1, b2, b3, b4, b5, b6, b7, b8, b9, b10, b11, b12, _⟩ :=
    head_state (sch.cast K) hpA huA hdA hac gA hL
  have k1 := sumUtilities_map (size_embeds hro) (sch.cast K) { st3 with tick := t }
  rw [hsnd', b1, g6', g2] at k1
  have k2 : sA1 = t1.mapNum Prod.snd := k1
  have k3 := eliminateHidden_map (size_embeds hro) (sch.cast K) t1 [] [] true
  rw [← k2, b2, g6', g4] at k3
  have k4 : sA2 = t2.mapNum Prod.snd := k3
  have k5 := decisionProduct_map (size_embeds hro) t2.vs (t2.findDecisionFactors (sch.cast ((β × K) × K)) d)
  have k6 := findDecisionFactors_map (Prod.snd : (β × K) × K → K) (sch.cast K) t2 d
  rw [← k4, g6'] at k6
  have k7 : sA2.vs = st2.vs := by rw [k4]; exact g7
  rw [← k6, g7, ← k7, b7, k7, g8] at k5
  have k8 : facA = fac3.mapNum Prod.snd := (Prod.mk.inj (show (facA, _) = facPair Prod.snd (fac3, _) from k5)).1
  -- the rounded run
  have f1 : VE.getDecisions sch (st3.mapNum (fun x => x.1.1)) = .ok (decs, t) := by
    have := getDecisions_map (fun x : (β × K) × K => x.1.1) sch st3
    rw [this]
    exact g1
  have f2 := sumUtilities_map (first_embeds hro) sch { st3 with tick := t }
  rw [g2] at f2
  have f3 : VE.sumUtilities sch (VE.mapNum (fun x : (β × K) × K => x.1.1) { st3 with tick := t }) =
      .ok (t1.mapNum (fun x : (β × K) × K => x.1.1)) := f2.eq_map
  have f4 := eliminateHidden_map (first_embeds hro) sch t1 [] [] true
  rw [g4] at f4
  have f5 := f4.eq_map
  have f6 := decisionProduct_map (first_embeds hro) st2.vs (t2.findDecisionFactors (sch.cast ((β × K) × K)) d)
  rw [g8] at f6
  have f7 := f6.eq_map
  have f8 := findDecisionFactors_map (fun x : (β × K) × K => x.1.1) sch t2 d
  rw [← f8] at f7
  set facb : Factor β := fac3.mapNum (fun x : (β × K) × K => x.1.1) with hfacb
  have hvars : facb.vars = facK.vars := by rw [g10]; rfl
  have w3 : fac3.WF := wf_mapped g10 a9
  have wb : facb.WF := ⟨by have := w3.len; simpa [hfacb, Factor.mapNum] using this, w3.nodup⟩
  obtain ⟨pol, r1, r2, r3, r4, r5⟩ := policy_spec { st2.vs with factorCounter := n1 } facb wb d d (by rw [hvars]; exact a11) rfl hpos
  -- the rest of the rounded run
  have hz : (0 : K) + 0 = 0 := add_zero 0
  obtain ⟨XK, hXK⟩ : ∃ X : VE K, X = ⟨{ st2.vs with «variables» := vars, factorCounter := n1 + 1 }, st2.eliminated, st2.deps, insertFactor st2.factors polK, st2.weights,
    st2.tick + 2, st2.log⟩ := ⟨_, rfl⟩
  obtain ⟨XB, hXB⟩ : ∃ X : VE β, X = ⟨{ st2.vs with «variables» := vars, factorCounter := n1 + 1 }, t2.eliminated, t2.deps,
    insertFactor (t2.factors.map (Factor.mapNum (fun x : (β × K) × K => x.1.1))) pol,
    t2.weights.map (List.map (fun x : (β × K) × K => x.1.1)), t2.tick + 2, t2.log⟩ := ⟨_, rfl⟩
  have z1 := eliminateHidden_map (blank_embeds hz) (sch.cast OneElt) XK [] [] true
  have z2 := eliminateHidden_map (blank_embeds (zero_add_zero_of hs)) (sch.cast OneElt) XB [] [] true
  have z3 : VE.mapNum (fun _ : β => OneElt.elt) XB = VE.mapNum (fun _ : K => OneElt.elt) XK := by
    rw [hXK, hXB, g5]
    unfold VE.mapNum
    dsimp only
    rw [← insertFactor_map, ← insertFactor_map, List.map_map,
      blank_eq (f := pol) (g := polK) (r3.trans q3.symm) (r4.trans (by rw [q4, hvars])) r2 q2, List.map_map]
    have e1 : ∀ l : List (Factor ((β × K) × K)),
        l.map (Factor.mapNum (fun _ : β => OneElt.elt) ∘ Factor.mapNum (fun x : (β × K) × K => x.1.1)) =
        l.map (Factor.mapNum (fun _ : K => OneElt.elt) ∘ Factor.mapNum (fun x : (β × K) × K => x.1.2)) := by
      intro l
      apply List.map_congr_left
      intro f _
      simp only [Function.comp, Factor.mapNum_mapNum]
    rw [e1]
    congr 1
    cases t2.weights with
    | none => rfl
    | some ws => simp
  rw [z3] at z2
  have i8' : XK.eliminateHidden (sch.cast K) [] [] true = .ok st5 := by
    rw [hXK]; exact i8
  rw [show ((sch.cast OneElt).cast K) = sch.cast K from rfl, i8'] at z1
  obtain ⟨stb, z4, z5⟩ := z2.inv' z1.eq_map
  have z4 : XB.eliminateHidden sch [] [] true = .ok stb := z4
  have hsolve : (t2.mapNum (fun x : (β × K) × K => x.1.1)).solvePolicy sch true d = .ok ((d, facb, pol), stb) := by
    unfold VE.solvePolicy
    have e : (t2.mapNum (fun x : (β × K) × K => x.1.1)).vs = st2.vs := g7
    rw [e, f7]
    show (do
      let x ← Vs.policy _ facb d
      _) = _
    rw [r1, ok_bind]
    dsimp only
    rw [i7, ok_bind]
    rw [hXB] at z4
    have z6 : VE.eliminateHidden sch
        { t2.mapNum (fun x : (β × K) × K => x.1.1) with
            vs := { st2.vs with «variables» := vars, factorCounter := n1 + 1 },
            tick := (t2.mapNum (fun x : (β × K) × K => x.1.1)).tick + 2,
            factors := insertFactor (t2.mapNum (fun x : (β × K) × K => x.1.1)).factors pol } [] [] true = .ok stb := z4
    rw [z6]
    rfl
  refine ⟨pol, facb, stb, ?_, ?_, r2, r3.trans q3.symm, r4.trans (by rw [q4, hvars]), r4, by rw [hvars]; exact a11, wb, hpos,
    r5, ?_⟩
  · unfold VE.solvePolicies
    rw [f1, ok_bind]
    dsimp only
    have hne : ¬ decs.length = 0 := fun e => i2 (List.length_eq_zero_iff.1 e)
    rw [if_neg hne]
    have f3' : VE.sumUtilities sch { st3.mapNum (fun x : (β × K) × K => x.1.1) with tick := t } =
      .ok (t1.mapNum (fun x : (β × K) × K => x.1.1)) := f3
    rw [f3', ok_bind, f5]
    show (do
      let x ← VE.solvePolicyList sch true decs.reverse (t2.mapNum (fun x : (β × K) × K => x.1.1))
      _) = _
    rw [hL, VE.solvePolicyList, hsolve]
    rfl
  · have := congrArg VE.vs z5
    exact this.symm
  · intro hnn hlink σ hσ hσu hne k hk
    have hσd : σ d.id < d.outcomes := hσ _ a5
    have hself : σ = σ.upd d.id (σ d.id) := by
      funext i
      simp only [Assignment.upd]
      split
      · next h => rw [h]
      · rfl
    -- the grade of the factor
    have hall1 : AllHave (Bounded val u) vs.variables ({ st3 with tick := t } : VE ((β × K) × K)).factors := hall
    have hv3 : ({ st3 with tick := t } : VE ((β × K) × K)).vs.variables = vs.variables := by
      have := congrArg VE.vs hmid
      rw [(new_good hp weights).1] at this
      exact congrArg Vs.variables this
    obtain ⟨u1, u2, u3⟩ := sumUtilities_has (middle_embeds hro) (bounded_graded hs) hRn (sch.cast ((β × K) × K)) hv3 hw hall1 g2
    obtain ⟨v1, v2, hid, v3, v4, v5⟩ := eliminateHidden_has (middle_embeds hro) (bounded_graded hs) hRn
      (sch.cast ((β × K) × K)) (u3.trans hv3) u1 g4
    have hgrade := decisionProduct_has (bounded_graded hs) (middle_embeds hro) hRn v1
      (findDecisionFactors_sub (sch.cast ((β × K) × K)) t2 d) g8
    have hcost := elimCost_sum hRn (l := vs.variables.filter (fun w => w.nodeType = .utility) ++ hid)
      (List.nodup_append.2 ⟨(List.Nodup.of_map _ hRn).filter _, v3, fun x hx y hy e => by
        have a := (List.mem_filter.1 hx).2
        rw [e] at a
        simp [(v4 y hy).2] at a⟩) (fun v hv => by
          rcases List.mem_append.1 hv with hv | hv
          · exact (List.mem_filter.1 hv).1
          · exact (v4 v hv).1)
    rw [List.map_append, List.sum_append] at hcost
    have hE : fac3.Has (Bounded val u) (budgetOf (Bounded val u) st3.factors + 2 * st3.factors.length + 1 +
        (vs.variables.map (fun w => w.outcomes + 1)).sum) := by
      refine hgrade.mono (bounded_graded hs) ?_
      have u2' : budgetOf (Bounded val u) t1.factors ≤ budgetOf (Bounded val u) st3.factors + 2 * st3.factors.length + 1 +
        ((vs.variables.filter (fun w => w.nodeType = .utility)).map (fun v => elimCost vs.variables v.id)).sum := u2
      omega
    generalize budgetOf (Bounded val u) st3.factors + 2 * st3.factors.length + 1 +
        (vs.variables.map (fun w => w.outcomes + 1)).sum = E at hE
    have hbd : ∀ τ, Bounded val u E (fac3.val τ) := by
      intro τ
      unfold Factor.val
      rw [List.getD_eq_getElem?_getD]
      cases hx : fac3.data[flatIndex fac3.vars (tupleOf fac3.vars τ)]? with
      | none => exact (bounded_graded hs).zero _
      | some x => exact hE x (List.mem_of_getElem? hx)
    have eb : ∀ τ, facb.val τ = (fac3.val τ).1.1 := fun τ => val_mapped (φ := fun x : (β × K) × K => x.1.1) rfl fac3 τ
    have eK : ∀ τ, facK.val τ = (fac3.val τ).1.2 := by
      intro τ; rw [g10]; exact val_mapped (φ := fun x : (β × K) × K => x.1.2) rfl fac3 τ
    have eA : ∀ τ, facA.val τ = (fac3.val τ).2 := by
      intro τ; rw [k8]; exact val_mapped (φ := (Prod.snd : (β × K) × K → K)) rfl fac3 τ
    -- the choice
    have hfb : Fits σ facb.vars := hσ.mono (by rw [hvars]; exact a10)
    rw [r5 σ hfb, policyVal] at hne
    have hb : σ d.id ∈ bestOutcomes d.outcomes (fun c => facb.val (σ.upd d.id c)) := by
      by_contra hb
      rw [if_neg hb] at hne
      exact hne rfl
    have hle : val (fac3.val (σ.upd d.id k)).1.1 ≤ val (fac3.val (σ.upd d.id (σ d.id))).1.1 := by
      have := (mem_bestOutcomes.1 hb).2 k hk
      rw [eb, eb] at this
      exact (h.le _ _).1 this
    -- what the other factors contribute
    have hrest : 0 ≤ joint (st2.factors.filter (fun f => d.id ∉ scope f)) σ :=
      rest_nonneg a13 a14 (a15 _ _ a5 (by rw [a6]; decide) hlink) a16 a17 hnn a3.good.sub hσ
    have hsize : joint (st2.factors.filter (fun f => d.id ∉ scope f)) σ ≤
        joint (sA2.factors.filter (fun f => d.id ∉ scope f)) σ := by
      rw [g5, k4]
      show joint (List.filter _ (t2.factors.map _)) σ ≤ joint (List.filter _ (t2.factors.map _)) σ
      rw [filter_scope_map, filter_scope_map]
      exact (le_abs_self _).trans (joint_le_size (val := val) (u := u) (fun f hf => v1.has f (List.mem_filter.1 hf).1) σ)
    have hsum : ∀ k < d.outcomes, _ := a12 σ hσ hσu
    have hsumA : ∀ k < d.outcomes, _ := b12 σ hσ hσu
    have e1 := hsum k hk
    have e2 := hsum _ hσd
    have e3 := hsumA k hk
    have e4 := hsumA _ hσd
    rw [← hself] at e2 e4 hle
    rw [e1, e2, e3, e4, eK, eK, eA, eA]
    have o1 := hbd (σ.upd d.id k)
    have o2 := hbd σ
    have hδ : 0 ≤ (1 - u)⁻¹ ^ E - 1 := sub_nonneg.2 (one_le_growth hs.nonneg hs.lt_one E)
    obtain ⟨o3, o4⟩ := o1
    obtain ⟨o5, o6⟩ := o2
    unfold Off at o3 o5
    generalize (1 - u)⁻¹ ^ E - 1 = δ at hδ o3 o5 ⊢
    generalize val (fac3.val (σ.upd d.id k)).1.1 = y1 at hle o3
    generalize val (fac3.val σ).1.1 = y2 at hle o5
    generalize (fac3.val (σ.upd d.id k)).1.2 = x1 at o3 o4 ⊢
    generalize (fac3.val σ).1.2 = x2 at o5 o6 ⊢
    generalize (fac3.val (σ.upd d.id k)).2 = s1 at o3 o4 ⊢
    generalize (fac3.val σ).2 = s2 at o5 o6 ⊢
    generalize joint (st2.factors.filter (fun f => d.id ∉ scope f)) σ = r at hrest hsize ⊢
    generalize joint (sA2.factors.filter (fun f => d.id ∉ scope f)) σ = R at hsize ⊢
    have h1 := (abs_le.1 o3).1
    have h2 := (abs_le.1 o5).2
    have hs1 : 0 ≤ s1 := (abs_nonneg _).trans o4
    have hs2 : 0 ≤ s2 := (abs_nonneg _).trans o6
    have h3 : x1 ≤ x2 + δ * (s1 + s2) := by linarith
    have h4 := mul_le_mul_of_nonneg_right h3 hrest
    have h5 : δ * (s1 + s2) * r ≤ δ * (s1 + s2) * R :=
      mul_le_mul_of_nonneg_left hsize (mul_nonneg hδ (add_nonneg hs1 hs2))
    calc x1 * r ≤ (x2 + δ * (s1 + s2)) * r := h4
      _ = x2 * r + δ * (s1 + s2) * r := by ring
      _ ≤ x2 * r + δ * (s1 + s2) * R := by linarith
      _ = _ := by ring

end One

end Bbn
