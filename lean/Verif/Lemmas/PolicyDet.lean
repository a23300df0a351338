import Verif.Lemmas.NetPolicies

/-!
# The solved policies do not depend on map iteration order

Two runs of the solver, with different iteration orders of the Go maps, keep tables with the same entries.
-/

set_option autoImplicit false

namespace Bbn

open Finset

variable {α : Type}

/-- Two factors with the same variables and the same entries. -/
structure Like [Zero α] (R : List Var) (f g : Factor α) : Prop where
  scope : scope f = scope g
  val : ∀ σ, Fits σ R → f.val σ = g.val σ

theorem Like.symm [Zero α] {R : List Var} {f g : Factor α} (h : Like R f g) : Like R g f :=
  ⟨h.1.symm, fun σ hσ => (h.2 σ hσ).symm⟩

theorem Like.refl [Zero α] (R : List Var) (f : Factor α) : Like R f f := ⟨rfl, fun _ _ => rfl⟩

theorem Like.trans [Zero α] {R : List Var} {f g k : Factor α} (h : Like R f g) (h' : Like R g k) : Like R f k :=
  ⟨h.1.trans h'.1, fun σ hσ => (h.2 σ hσ).trans (h'.2 σ hσ)⟩

/-- The same factors, up to order. -/
def Alike [Zero α] (R : List Var) (fs gs : List (Factor α)) : Prop :=
  ∃ ks : List (Factor α), ks.Perm gs ∧ List.Forall₂ (Like R) fs ks

theorem Alike.append [Zero α] {R : List Var} {fs gs fs' gs' : List (Factor α)} (h : Alike R fs gs)
    (h' : Alike R fs' gs') : Alike R (fs ++ fs') (gs ++ gs') := by
  obtain ⟨ks, h1, h2⟩ := h
  obtain ⟨ks', h1', h2'⟩ := h'
  exact ⟨ks ++ ks', h1.append h1', List.rel_append h2 h2'⟩

theorem Alike.single [Zero α] {R : List Var} {f g : Factor α} (h : Like R f g) : Alike R [f] [g] :=
  ⟨[g], List.Perm.refl _, .cons h .nil⟩

theorem Alike.filter [Zero α] {R : List Var} {fs gs : List (Factor α)} {p : Factor α → Bool} (h : Alike R fs gs)
    (hp : ∀ f ∈ fs, ∀ g ∈ gs, scope f = scope g → p f = p g) : Alike R (fs.filter p) (gs.filter p) := by
  obtain ⟨ks, h1, h2⟩ := h
  refine ⟨ks.filter p, h1.filter p, ?_⟩
  have hp' : ∀ f ∈ fs, ∀ g ∈ ks, scope f = scope g → p f = p g := fun f hf g hg => hp f hf g (h1.subset hg)
  clear h1 hp
  induction h2 with
  | nil => exact .nil
  | @cons f g fs ks h _ ih =>
    have e := hp' f (by simp) g (by simp) h.scope
    have := ih (fun f hf g hg => hp' f (by simp [hf]) g (by simp [hg]))
    cases hpf : p f with
    | true =>
      rw [List.filter_cons_of_pos hpf, List.filter_cons_of_pos (e ▸ hpf)]
      exact .cons h this
    | false =>
      rw [List.filter_cons_of_neg (by simp [hpf]), List.filter_cons_of_neg (by simp [← e, hpf])]
      exact this

theorem Alike.joint [CommSemiring α] {R : List Var} {fs gs : List (Factor α)} (h : Alike R fs gs) {σ : Assignment}
    (hσ : Fits σ R) : joint fs σ = joint gs σ := by
  obtain ⟨ks, h1, h2⟩ := h
  rw [← joint_perm h1]
  clear h1
  unfold Bbn.joint
  induction h2 with
  | nil => rfl
  | cons h _ ih => rw [List.map_cons, List.map_cons, List.prod_cons, List.prod_cons, ih, h.val σ hσ]

theorem Alike.scopes [Zero α] {R : List Var} {fs gs : List (Factor α)} (h : Alike R fs gs) : scopes fs = scopes gs := by
  obtain ⟨ks, h1, h2⟩ := h
  rw [← scopes_perm h1]
  clear h1
  unfold Bbn.scopes
  congr 1
  induction h2 with
  | nil => rfl
  | cons h _ ih => rw [List.map_cons, List.map_cons, ih, h.scope]

/-- Eliminating the same variables in the same order keeps the factors alike. -/
theorem Elims.alike [CommSemiring α] {R : List Var} (hR : (R.map Var.id).Nodup) {hs : List Var} {fs fs1 : List (Factor α)}
    (h : Elims hs fs fs1) : ∀ {gs gs1 : List (Factor α)}, Elims hs gs gs1 → (∀ f ∈ fs, ∀ v ∈ f.vars, v ∈ R) →
      (∀ f ∈ gs, ∀ v ∈ f.vars, v ∈ R) → Alike R fs gs → Alike R fs1 gs1 := by
  induction h with
  | nil fs =>
    intro gs gs1 h _ _ he
    cases h
    exact he
  | @cons v w hs fs fs1 g hid hw hsub hsc hfit hval _ ih =>
    intro gs gs1 h hf hg he
    cases h with
    | @cons _ w' _ _ _ g' hid' hw' hsub' hsc' hfit' hval' h' =>
      obtain ⟨f0, hf0, hwf⟩ := hw
      obtain ⟨f1, hf1, hwf'⟩ := hw'
      have hwR := hf f0 hf0 w hwf
      have hwR' := hg f1 hf1 w' hwf'
      have hww : w = w' := coherent_of_nodup hR w hwR w' hwR' (hid.trans hid'.symm)
      subst hww
      have hgR : ∀ u ∈ g.vars, u ∈ R := by
        intro u hu
        obtain ⟨f, a, b⟩ := hsub u hu
        exact hf f a u b
      have hgR' : ∀ u ∈ g'.vars, u ∈ R := by
        intro u hu
        obtain ⟨f, a, b⟩ := hsub' u hu
        exact hg f a u b
      refine ih h' ?_ ?_ ?_
      · intro f hm
        rcases List.mem_append.1 hm with hm | hm
        · exact hf f (List.mem_filter.1 hm).1
        · simp only [List.mem_singleton] at hm
          subst hm; exact hgR
      · intro f hm
        rcases List.mem_append.1 hm with hm | hm
        · exact hg f (List.mem_filter.1 hm).1
        · simp only [List.mem_singleton] at hm
          subst hm; exact hgR'
      · refine (he.filter (fun f _ g _ e => by rw [e])).append (Alike.single ⟨?_, ?_⟩)
        · rw [hsc, hsc', he.scopes]
        · intro σ hσ
          rw [hval σ (hσ.mono hgR), hval' σ (hσ.mono hgR')]
          apply Finset.sum_congr rfl
          intro k hk
          refine (he.filter (fun f _ g _ e => by rw [e])).joint ?_
          rw [← hid]
          exact fits_upd_mem hR hσ hwR (by simpa using hk)

/-- Two runs of the solver at the same point. -/
structure Twin [Zero α] (R : List Var) (deps : List (Var × List Var)) (L : List Var) (st st' : VE α) : Prop where
  left : PState R deps st L
  right : PState R deps st' L
  elim : ∀ v ∈ R, v.nodeType ≠ .utility → st.eliminated[v.index]? = st'.eliminated[v.index]?
  factors : Alike R st.factors st'.factors

theorem Twin.decisions [Zero α] {R : List Var} {deps : List (Var × List Var)} (hF : Fixed R deps) {L : List Var}
    {st st' : VE α} (h : Twin R deps L st st') (sch sch' : Sched α) {decs decs' : List Var} {t t' : Nat}
    (hd : st.getDecisions sch = .ok (decs, t)) (hd' : st'.getDecisions sch' = .ok (decs', t')) : decs = decs' := by
  unfold VE.getDecisions at hd hd'
  rw [h.left.vars, h.left.depsEq] at hd
  rw [h.right.vars, h.right.depsEq] at hd'
  have := sortTopological_det sch sch' (dec := (R.map (openVar L)).filter (fun v => v.nodeType = .decision)) hF.idKeys
    st.tick st'.tick
  rw [hd, hd'] at this
  exact Except.ok.inj this

/-- Eliminating hidden variables in two runs. -/
theorem Twin.eliminateHidden [CommSemiring α] {R : List Var} {deps : List (Var × List Var)} (hF : Fixed R deps)
    {L : List Var} {st st' : VE α} (h : Twin R deps L st st') (sch sch' : Sched α) (single : Bool) :
    ∃ st1 st1', st.eliminateHidden sch [] [] single = .ok st1 ∧ st'.eliminateHidden sch' [] [] single = .ok st1' ∧
      Twin R deps L st1 st1' := by
  obtain ⟨decs, t, d1, _, _⟩ := getDecisions_spec sch st (hF.vars.of_core h.left.core) (h.left.depsOK hF)
  obtain ⟨decs', t', d1', _, _⟩ := getDecisions_spec sch' st' (hF.vars.of_core h.right.core) (h.right.depsOK hF)
  obtain rfl := h.decisions hF sch sch' d1 d1'
  set kept := (considered single decs).flatMap (depsOf deps) with hkept
  have hset : ∀ {s : VE α}, PState R deps s L → ∀ v ∈ hiddenSet s.vs.variables s.eliminated kept [] [],
      v.id ∈ (scopes s.factors).sup := by
    intro s hs v hv
    simp only [hiddenSet, List.mem_filter, decide_eq_true_eq] at hv
    obtain ⟨hv1, hv2, hv3, _⟩ := hv
    rw [hs.vars] at hv1
    obtain ⟨w, hw, rfl⟩ := List.mem_map.1 hv1
    have hc := openVar_core L w
    simp only [core, Prod.mk.injEq] at hc
    rw [hc.1]
    rw [hc.2.1] at hv3
    refine hs.occur w hw ?_ hv3
    rcases openVar_chance.1 hv2 with h1 | h1
    · rw [h1]; decide
    · rw [h1.1]; decide
  have heq : hiddenSet st.vs.variables st.eliminated kept [] [] = hiddenSet st'.vs.variables st'.eliminated kept [] [] := by
    unfold hiddenSet
    rw [h.left.vars, h.right.vars]
    apply List.filter_congr
    intro v hv
    obtain ⟨w, hw, rfl⟩ := List.mem_map.1 hv
    have hc := openVar_core L w
    simp only [core, Prod.mk.injEq] at hc
    rw [decide_eq_decide, hc.2.1]
    by_cases hch : (openVar L w).nodeType = .chance
    · rw [h.elim w hw]
      rcases openVar_chance.1 hch with h1 | h1
      · rw [h1]; decide
      · rw [h1.1]; decide
    · simp [hch]
  obtain ⟨n, fs, el, t1, hs, a1, a2, a3, a4, a5, a6, a7, a8, a9⟩ := eliminateHidden_spec hF.vars sch st h.left.core h.left.len
    (h.left.depsOK hF) h.left.good [] [] single d1 (by rw [h.left.depsEq]) (hset h.left)
  obtain ⟨n', fs', el', t1', hs', a1', a2', a3', a4', a5', a6', a7', a8', a9'⟩ := eliminateHidden_spec hF.vars sch' st'
    h.right.core h.right.len (h.right.depsOK hF) h.right.good [] [] single d1' (by rw [h.right.depsEq]) (hset h.right)
  have hhs : hs = hs' := by
    rw [← h.factors.scopes] at a6'
    exact order_unique (a5.trans (heq ▸ a5'.symm)) a6 a6'
  subst hhs
  obtain ⟨st1, b1, b2, _⟩ := elim_full hF sch h.left single d1 rfl
  obtain ⟨st1', b1', b2', _⟩ := elim_full hF sch' h.right single d1' rfl
  refine ⟨st1, st1', b1, b1', b2, b2', ?_, ?_⟩
  · rw [a1] at b1
    rw [a1'] at b1'
    obtain rfl := Except.ok.inj b1
    obtain rfl := Except.ok.inj b1'
    intro v hv hvu
    have hlt := hF.vars.index_lt hv
    have key : el[v.index]? = some true ↔ el'[v.index]? = some true := by
      rw [a4, a4', h.elim v hv hvu]
    rcases getElem?_bool (a3.symm ▸ hlt) with e | e <;> rcases getElem?_bool (a3'.symm ▸ hlt) with e' | e' <;>
      simp_all
  · rw [a1] at b1
    rw [a1'] at b1'
    obtain rfl := Except.ok.inj b1
    obtain rfl := Except.ok.inj b1'
    exact a9.alike hF.vars.ids a9' h.left.good.sub h.right.good.sub h.factors

/-- The factor a decision is solved with: the product of the factors with the decision. -/
theorem solvePolicy_fac [Field α] [LinearOrder α] [IsStrictOrderedRing α] {R : List Var} {deps : List (Var × List Var)}
    (hF : Fixed R deps) (sch : Sched α) {st st' : VE α} {d : Var} {L : List Var} (h : PState R deps st (d :: L))
    {single : Bool} {fac pol : Factor α} (hs : st.solvePolicy sch single d = .ok ((d, fac, pol), st')) :
    scope fac = (scopes (st.factors.filter (fun f => decide (d.id ∈ scope f)))).sup ∧
      ∀ σ, Fits σ fac.vars → fac.val σ = joint (st.factors.filter (fun f => decide (d.id ∈ scope f))) σ := by
  obtain ⟨hdR, hdt, hde⟩ := h.openD d (by simp)
  have hit : (st.iter sch).Perm st.factors := sch.fac_perm _ _
  set p : Factor α → Bool := fun f => decide (d ∈ f.vars) with hp
  have hpi : ∀ f ∈ st.factors, p f = decide (d.id ∈ scope f) := by
    intro f hf
    rw [hp, decide_eq_decide, mem_scope]
    constructor
    · intro h; exact ⟨d, h, rfl⟩
    · rintro ⟨v, hv, e⟩
      rw [← coherent_of_nodup hF.vars.ids v (h.good.sub f hf v hv) d hdR e]; exact hv
  set gs := (st.iter sch).filter p with hgs
  have hgsm : ∀ f ∈ gs, f ∈ st.factors := fun f hf => hit.subset (List.mem_filter.1 hf).1
  obtain ⟨f0, hf0, hin0⟩ := mem_scopes_sup.1 (h.occur d hdR (by rw [hdt]; decide) hde)
  have hf0g : f0 ∈ gs := List.mem_filter.2 ⟨hit.symm.subset hf0, by rw [hpi f0 hf0]; simpa using hin0⟩
  have hne : gs ≠ [] := List.ne_nil_of_mem hf0g
  have hfind : st.findDecisionFactors sch d = gs := by
    unfold VE.findDecisionFactors
    dsimp only
    rw [if_neg]
    intro h0
    exact hne (List.length_eq_zero_iff.1 h0)
  have hgp : gs.Perm (st.factors.filter (fun f => decide (d.id ∈ scope f))) := by
    rw [← List.filter_congr hpi]
    exact hit.filter p
  rw [← scopes_perm hgp]
  have hcoh : CoherentFs gs := coherentFs_of_sub hF.vars.ids (fun f hf => h.good.sub f (hgsm f hf))
  have hprod : ∃ fac n1, decisionProduct st.vs gs = .ok (fac, { st.vs with factorCounter := n1 }) ∧
      (∀ v, v ∈ fac.vars ↔ ∃ f ∈ gs, v ∈ f.vars) ∧
      ∀ σ, Fits σ fac.vars → fac.val σ = joint gs σ := by
    cases hg : gs with
    | nil => exact absurd hg hne
    | cons a l =>
      cases l with
      | nil =>
        refine ⟨a, st.vs.factorCounter, rfl, by simp, ?_⟩
        intro σ _; simp [joint]
      | cons b l =>
        rw [hg] at hcoh hgsm
        obtain ⟨q, h1, h2, h3, h4, h5⟩ := product_spec st.vs (a :: b :: l) (fun f hf => h.good.wf f (hgsm f hf)) hcoh
        exact ⟨q, _, h1, fun v => by rw [h4, mem_scopeUnion], h5⟩
  obtain ⟨fac', n1, f1, f4, f5⟩ := hprod
  unfold VE.solvePolicy at hs
  rw [hfind, f1, ok_bind] at hs
  dsimp only at hs
  obtain ⟨x2, _, hs⟩ := bind_ok hs
  obtain ⟨x3, _, hs⟩ := bind_ok hs
  obtain ⟨x4, _, hs⟩ := bind_ok hs
  have h2 : ((d, fac', x2.1), x4) = ((d, fac, pol), st') := Except.ok.inj hs
  obtain rfl : fac' = fac := by
    have := (Prod.mk.inj (Prod.mk.inj (Prod.mk.inj h2).1).2).1
    exact this
  refine ⟨?_, fun σ hσ => by rw [f5 σ hσ]; exact joint_perm hgp σ⟩
  ext j
  rw [mem_scopes_sup]
  simp only [mem_scope, f4]
  constructor
  · rintro ⟨u, ⟨f, hf, hu⟩, rfl⟩; exact ⟨f, hf, u, hu, rfl⟩
  · rintro ⟨f, hf, u, hu, rfl⟩; exact ⟨u, ⟨f, hf, hu⟩, rfl⟩

/-- A policy has the scope of the factor it is solved from. -/
theorem scope_policy {fac pol : Factor α} {d : Var} (hd : d ∈ fac.vars) (h : pol.vars = otherVars d.id fac.vars ++ [d]) :
    scope pol = scope fac := by
  ext j
  simp only [mem_scope, h, otherVars, List.mem_append, List.mem_filter, List.mem_singleton, decide_eq_true_eq]
  constructor
  · rintro ⟨u, ⟨hu, _⟩ | rfl, rfl⟩
    · exact ⟨u, hu, rfl⟩
    · exact ⟨u, hd, rfl⟩
  · rintro ⟨u, hu, rfl⟩
    by_cases e : u.id = d.id
    · exact ⟨d, .inr rfl, e.symm⟩
    · exact ⟨u, .inl ⟨hu, by simpa using e⟩, rfl⟩

theorem bestOutcomes_congr [LinearOrder α] {n : Nat} {u u' : Nat → α} (h : ∀ c < n, u c = u' c) :
    bestOutcomes n u = bestOutcomes n u' := by
  unfold bestOutcomes
  apply List.filter_congr
  intro c hc
  rw [decide_eq_decide, h c (List.mem_range.1 hc)]
  exact forall₂_congr (fun c' hc' => by rw [h c' hc'])

/-- One decision in two runs. -/
theorem Twin.solvePolicy [Field α] [LinearOrder α] [IsStrictOrderedRing α] {R : List Var} {deps : List (Var × List Var)}
    (hF : Fixed R deps) {d : Var} {L : List Var} {st st' : VE α} (h : Twin R deps (d :: L) st st') (sch sch' : Sched α)
    (hpos : 0 < d.outcomes) (hlast : ∀ e ∈ L, ¬ DecEdge deps d e) (single : Bool) :
    ∃ fac fac' pol pol' st1 st1', st.solvePolicy sch single d = .ok ((d, fac, pol), st1) ∧
      st'.solvePolicy sch' single d = .ok ((d, fac', pol'), st1') ∧ Like R fac fac' ∧ Like R pol pol' ∧
      Twin R deps L st1 st1' := by
  obtain ⟨hdR, hdt, hde⟩ := h.left.openD d (by simp)
  obtain ⟨fac, pol, n, a1, a2, a3, a4, a5, a6, a7, a8, a9⟩ := policy_step hF sch h.left hpos hlast
  obtain ⟨fac', pol', n', a1', a2', a3', a4', a5', a6', a7', a8', a9'⟩ := policy_step hF sch' h.right hpos hlast
  have hfR : ∀ v ∈ fac.vars, v ∈ R := by
    intro v hv
    obtain ⟨f, hf, hvf⟩ := a4 v hv
    exact h.left.good.sub f hf v hvf
  have hfR' : ∀ v ∈ fac'.vars, v ∈ R := by
    intro v hv
    obtain ⟨f, hf, hvf⟩ := a4' v hv
    exact h.right.good.sub f hf v hvf
  have hfac : Like R fac fac' := by
    obtain ⟨decs, t, d1, _, _⟩ := getDecisions_spec sch _ (hF.vars.of_core a2.core) (a2.depsOK hF)
    obtain ⟨s1, b1, _⟩ := elim_full hF sch a2 single d1 rfl
    obtain ⟨decs', t', d1', _, _⟩ := getDecisions_spec sch' _ (hF.vars.of_core a2'.core) (a2'.depsOK hF)
    obtain ⟨s1', b1', _⟩ := elim_full hF sch' a2' single d1' rfl
    have e := a1 single
    rw [b1, ok_bind] at e
    have e' := a1' single
    rw [b1', ok_bind] at e'
    obtain ⟨c1, c2⟩ := solvePolicy_fac hF sch h.left e
    obtain ⟨c1', c2'⟩ := solvePolicy_fac hF sch' h.right e'
    have hal := h.factors.filter (p := fun f => decide (d.id ∈ scope f)) (fun f _ g _ e => by rw [e])
    refine ⟨by rw [c1, c1', hal.scopes], ?_⟩
    intro σ hσ
    rw [c2 σ (hσ.mono hfR), c2' σ (hσ.mono hfR'), hal.joint hσ]
  have hpol : Like R pol pol' := by
    refine ⟨by rw [scope_policy a5 a8, scope_policy a5' a8', hfac.scope], ?_⟩
    intro σ hσ
    rw [a9 σ (hσ.mono hfR), a9' σ (hσ.mono hfR')]
    have : bestOutcomes d.outcomes (fun c => fac.val (σ.upd d.id c)) =
        bestOutcomes d.outcomes (fun c => fac'.val (σ.upd d.id c)) :=
      bestOutcomes_congr (fun c hc => hfac.val _ (fits_upd_mem hF.vars.ids hσ hdR hc))
    unfold policyVal
    rw [this]
  have htw : Twin R deps L _ _ := ⟨a2, a2', h.elim, h.factors.append (.single hpol)⟩
  obtain ⟨st1, st1', b1, b1', b2⟩ := htw.eliminateHidden hF sch sch' single
  refine ⟨fac, fac', pol, pol', st1, st1', ?_, ?_, hfac, hpol, b2⟩
  · rw [a1 single, b1, ok_bind]
  · rw [a1' single, b1', ok_bind]

/-- All decisions in two runs. -/
theorem Twin.solvePolicyList [Field α] [LinearOrder α] [IsStrictOrderedRing α] {R : List Var}
    {deps : List (Var × List Var)} (hF : Fixed R deps) (sch sch' : Sched α) (single : Bool) (L : List Var) :
    ∀ {st st' : VE α}, Twin R deps L st st' → (∀ d ∈ L, 0 < d.outcomes) → LastFirst deps L →
      ∃ ps ps' st1 st1', VE.solvePolicyList sch single L st = .ok (ps, st1) ∧
        VE.solvePolicyList sch' single L st' = .ok (ps', st1') ∧
        List.Forall₂ (fun p p' => p.1 = p'.1 ∧ Like R p.2.1 p'.2.1 ∧ Like R p.2.2 p'.2.2) ps ps' := by
  induction L with
  | nil => intro st st' _ _ _; exact ⟨[], [], st, st', rfl, rfl, .nil⟩
  | cons d L ih =>
    intro st st' h hpos hord
    obtain ⟨fac, fac', pol, pol', st1, st1', a1, a1', a2, a3, a4⟩ := h.solvePolicy hF sch sch' (hpos d (by simp))
      (hord [] d L rfl) single
    obtain ⟨ps, ps', st2, st2', b1, b1', b2⟩ := ih a4 (fun e he => hpos e (by simp [he])) hord.tail
    unfold VE.solvePolicyList
    rw [a1, a1', ok_bind, ok_bind]
    dsimp only
    cases single with
    | true => exact ⟨_, _, _, _, rfl, rfl, .cons ⟨rfl, a2, a3⟩ .nil⟩
    | false =>
      rw [if_neg (by simp), if_neg (by simp), b1, b1', ok_bind, ok_bind]
      exact ⟨_, _, _, _, rfl, rfl, .cons ⟨rfl, a2, a3⟩ b2⟩

theorem vars_of_scope {R : List Var} (hR : (R.map Var.id).Nodup) {f g : Factor α} (hf : ∀ v ∈ f.vars, v ∈ R)
    (hg : ∀ v ∈ g.vars, v ∈ R) (e : scope f = scope g) : ∀ v ∈ f.vars, v ∈ g.vars := by
  intro v hm
  have : v.id ∈ scope g := e ▸ mem_scope.2 ⟨v, hm, rfl⟩
  obtain ⟨w, hw, hid⟩ := mem_scope.1 this
  rw [← coherent_of_nodup hR w (hg w hw) v (hf v hm) hid]
  exact hw

theorem firstUtil_congr (utils : List Var) {f g : Factor α} (h : ∀ v, v ∈ f.vars ↔ v ∈ g.vars) :
    firstUtil utils f = firstUtil utils g := by
  unfold firstUtil
  simp only [h]

/-- The sums of the utility tables in two runs. -/
theorem sumUtilities_twin [CommSemiring α] (sch sch' : Sched α) {vs vs' : Vs} {fs fs' : List (Factor α)}
    {deps : List (Var × List Var)} (hv : vs.variables = vs'.variables) (hp : Problem vs fs deps) (hp' : Problem vs' fs' deps)
    {weights : Option (List α)} (hu : UtilityOK vs.variables fs weights) (hu' : UtilityOK vs.variables fs' weights)
    (hd : DecisionOK vs.variables fs) (hd' : DecisionOK vs.variables fs') (hfs : Alike vs.variables fs fs')
    {decs : List Var} {t t' : Nat} (hdec : (VE.new vs fs deps weights).getDecisions sch = .ok (decs, t))
    (hdec' : (VE.new vs' fs' deps weights).getDecisions sch' = .ok (decs, t')) :
    ∃ st1 st1', VE.sumUtilities sch { VE.new vs fs deps weights with tick := t } = .ok st1 ∧
      VE.sumUtilities sch' { VE.new vs' fs' deps weights with tick := t' } = .ok st1' ∧
      Twin vs.variables deps decs.reverse st1 st1' := by
  obtain ⟨st1, a1, a2, _, a4, _⟩ := start_spec sch hp hu hd hdec
  obtain ⟨st1', a1', a2', _, a4', _⟩ := start_spec sch' hp' (hv ▸ hu') (hv ▸ hd') hdec'
  rw [← hv] at a2' a4'
  refine ⟨st1, st1', a1, a1', a2, a2', ?_, ?_⟩
  · intro v hm hvu
    rw [a4 v hm hvu, a4' v hm hvu]
  · obtain ⟨h0, hg, hR⟩ := new_good hp weights
    obtain ⟨h0', hg', _⟩ := new_good hp' weights
    rw [← hv] at hg'
    set R := vs.variables with hRd
    rw [h0] at a1
    rw [h0'] at a1'
    obtain ⟨n, el, s, b1, b2, b3, b4, b5, b6, b7⟩ := sumUtilities_spec sch
      ⟨vs, List.replicate vs.variables.length false, deps, fs, weights, t, []⟩ hR (by simp) hg hu
    obtain ⟨n', el', s', b1', b2', b3', b4', b5', b6', b7'⟩ := sumUtilities_spec sch'
      ⟨vs', List.replicate vs'.variables.length false, deps, fs', weights, t', []⟩ (hv ▸ hR) (by simp) (by rw [← hv]; exact hg')
      (by rw [← hv]; exact hu')
    dsimp only at b1 b1' b2 b2' b6 b6' b7 b7' a1 a1'
    rw [a1] at b1
    rw [a1'] at b1'
    obtain rfl := Except.ok.inj b1
    obtain rfl := Except.ok.inj b1'
    rw [← hv] at b2' b7'
    have hsame : ∀ f ∈ fs, ∀ g ∈ fs', scope f = scope g → ∀ v, v ∈ f.vars ↔ v ∈ g.vars := by
      intro f hf g hgm e v
      exact ⟨vars_of_scope hR.ids (hg.sub f hf) (hg'.sub g hgm) e v, vars_of_scope hR.ids (hg'.sub g hgm) (hg.sub f hf) e.symm v⟩
    have hut : ∀ f ∈ fs, ∀ g ∈ fs', scope f = scope g → f.isUtility = g.isUtility := by
      intro f hf g hgm e
      have h1 := hsame f hf g hgm e
      rw [Bool.eq_iff_iff]
      simp only [Factor.isUtility, List.any_eq_true, h1]
    have hss : ∀ v, v ∈ s.vars ↔ v ∈ s'.vars := by
      intro v
      rw [b6, b6']
      obtain ⟨ks, k1, k2⟩ := hfs
      refine and_congr_left (fun _ => ?_)
      constructor
      · rintro ⟨f, hf, h1, h2⟩
        obtain ⟨g, hgm, hl⟩ := forall₂_mem_left k2 hf
        have hgm := k1.subset hgm
        exact ⟨g, hgm, by rw [← hut f hf g hgm hl.scope]; exact h1, (hsame f hf g hgm hl.scope v).1 h2⟩
      · rintro ⟨g, hgm, h1, h2⟩
        obtain ⟨f, hf, hl⟩ := forall₂_mem_right k2 (k1.symm.subset hgm)
        exact ⟨f, hf, by rw [hut f hf g hgm hl.scope]; exact h1, (hsame f hf g hgm hl.scope v).2 h2⟩
    refine Alike.append (hfs.filter (fun f hf g hgm e => by rw [hut f hf g hgm e])) (.single ⟨?_, ?_⟩)
    · ext j
      simp only [mem_scope, hss]
    · intro σ hσ
      have hz : ∀ u ∈ utilities R, σ u.id = 0 := by
        intro u hum
        obtain ⟨h1, h2⟩ := List.mem_filter.1 hum
        have := hσ u h1
        rw [hu.one u h1 (by simpa using h2)] at this
        omega
      rw [b7 σ (hσ.mono (b2.sub s (by simp))) hz, b7' σ (hσ.mono (b2'.sub s' (by simp))) hz]
      have hal := hfs.filter (p := fun f => f.isUtility) hut
      have hw : ∀ f ∈ fs, ∀ g ∈ fs', scope f = scope g →
          factorWeight (utilities R) weights f = factorWeight (utilities R) weights g := by
        intro f hf g hgm e
        unfold factorWeight
        cases weights with
        | none => rfl
        | some ws =>
          dsimp only
          rw [firstUtil_congr (utilities R) (hsame f hf g hgm e)]
      obtain ⟨ks, k1, k2⟩ := hal
      rw [← (k1.map _).sum_eq]
      have hw' : ∀ f ∈ fs.filter (fun f => f.isUtility), ∀ g ∈ ks, scope f = scope g →
          factorWeight (utilities R) weights f = factorWeight (utilities R) weights g := fun f hf g hgm =>
        hw f (List.mem_filter.1 hf).1 g (List.mem_filter.1 (k1.subset hgm)).1
      clear k1
      generalize fs.filter (fun f => f.isUtility) = as at k2 hw'
      induction k2 with
      | nil => rfl
      | @cons f g as ks h _ ih =>
        rw [List.map_cons, List.map_cons, List.sum_cons, List.sum_cons,
          ih (fun f hf g hgm => hw' f (by simp [hf]) g (by simp [hgm])), h.val σ hσ, hw' f (by simp) g (by simp) h.scope]

/-- `SolvePolicies` of the solver in two runs. -/
theorem solvePolicies_twin [Field α] [LinearOrder α] [IsStrictOrderedRing α] (sch sch' : Sched α) {vs vs' : Vs}
    {fs fs' : List (Factor α)} {deps : List (Var × List Var)} (hv : vs.variables = vs'.variables) (hp : Problem vs fs deps)
    (hp' : Problem vs' fs' deps) {weights : Option (List α)} (hu : UtilityOK vs.variables fs weights)
    (hu' : UtilityOK vs.variables fs' weights) (hd : DecisionOK vs.variables fs) (hd' : DecisionOK vs.variables fs')
    (hfs : Alike vs.variables fs fs') (hac : DecAcyclic deps) (hne : decisionVars vs.variables ≠ []) (single : Bool) :
    ∃ ps ps' st st', (VE.new vs fs deps weights).solvePolicies sch single = .ok (some ps, st) ∧
      (VE.new vs' fs' deps weights).solvePolicies sch' single = .ok (some ps', st') ∧
      List.Forall₂ (fun p p' => p.1 = p'.1 ∧ Like vs.variables p.2.1 p'.2.1 ∧ Like vs.variables p.2.2 p'.2.2) ps ps' := by
  have hF := hp.fixed
  obtain ⟨decs, t, d1, d2, d3⟩ := getDecisions_new sch hp weights
  obtain ⟨decs', t', d1', d2', _⟩ := getDecisions_new sch' hp' weights
  have : decs = decs' := by
    obtain ⟨h0, _, _⟩ := new_good hp weights
    obtain ⟨h0', _, _⟩ := new_good hp' weights
    exact getDecisions_det sch sch' hF (by rw [h0]) (by rw [h0', hv]) (by rw [h0]) (by rw [h0']) d1 d1'
  subst this
  obtain ⟨st1, st1', a1, a1', a2⟩ := sumUtilities_twin sch sch' hv hp hp' hu hu' hd hd' hfs d1 d1'
  obtain ⟨st2, st2', b1, b1', b2⟩ := a2.eliminateHidden hF sch sch' single
  have hdn : decs.Nodup := d2.nodup_iff.2 ((List.Nodup.of_map _ hp.ids).filter _)
  obtain ⟨ps, ps', st3, st3', c1, c1', c2⟩ := Twin.solvePolicyList hF sch sch' single decs.reverse b2
    (fun d hdd => hd.outcomes d (a2.left.openD d hdd).1) (lastFirst_reverse hdn (d3 hac))
  have hdne : decs ≠ [] := by
    rintro rfl; exact hne (d2.symm.eq_nil)
  exact ⟨ps, ps', st3, st3', solvePolicies_run sch d1 hdne a1 b1 c1, solvePolicies_run sch' d1' hdne a1' b1' c1', c2⟩

end Bbn
