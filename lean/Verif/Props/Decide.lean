import Verif.Lemmas.Policies
import Verif.Props.Solve

/-!
# C28-C30, C74: solving decisions
-/

set_option autoImplicit false

namespace Bbn

open Finset

variable {α : Type}

namespace Ex

theorem umbrella_decision : DecisionOK uvs.variables ufs where
  outcomes := by decide
  occurs := by decide

theorem umbrella_acyclic : DecAcyclic udeps := by
  intro v h
  obtain ⟨p, _, e, he, _, h2, h3⟩ := Relation.TransGen.tail'_iff.1 h
  revert h3
  exact (by decide : ∀ e ∈ udeps, ∀ p ∈ e.2, ¬ p.nodeType = .decision) e he p h2

theorem umbrella_nonneg : ∀ f ∈ ufs, f.isUtility = false → ∀ x ∈ f.data, 0 ≤ x := by decide +kernel

theorem test : Problem qvs qfs qdeps where
  ids := by decide
  index := by
    intro i v h
    rcases i with _ | _ | _ | _ | _ | i <;> simp [qvs] at h <;> subst h <;> rfl
  facIds := by decide
  facLt := by decide
  facWF := by
    intro f hf
    simp only [qfs, List.mem_cons, List.not_mem_nil, or_false] at hf
    rcases hf with rfl | rfl | rfl <;> exact ⟨by decide, by decide⟩
  facVars := by decide
  depKeys := by decide
  depVars := by decide

theorem test_utility : UtilityOK qvs.variables qfs none where
  one := by decide
  only := by decide
  has := by decide
  some := by decide
  weights := by intro ws h; simp at h

theorem test_decision : DecisionOK qvs.variables qfs where
  outcomes := by decide
  occurs := by decide

theorem test_acyclic : DecAcyclic qdeps := by
  have hrank : ∀ p v, DecEdge qdeps p v → v.id < p.id := by
    rintro p v ⟨e, he, h1, h2, h3⟩
    rw [← h1]
    revert h3
    exact (by decide : ∀ e ∈ qdeps, ∀ p ∈ e.2, p.nodeType = .decision → e.1.id < p.id) e he p h2
  intro v h
  have : ∀ a b, Relation.TransGen (DecEdge qdeps) a b → b.id < a.id := by
    intro a b h
    induction h with
    | single h => exact hrank _ _ h
    | tail _ h ih => exact (hrank _ _ h).trans ih
  exact absurd (this v v h) (by omega)

theorem test_nonneg : ∀ f ∈ qfs, f.isUtility = false → ∀ x ∈ f.data, 0 ≤ x := by decide +kernel

end Ex

theorem nonNeg_of_data [Zero α] [LinearOrder α] {f : Factor α} (h : ∀ x ∈ f.data, 0 ≤ x) : f.NonNeg := by
  intro σ _
  unfold Factor.val
  rw [List.getD_eq_getElem?_getD]
  cases hx : f.data[flatIndex f.vars (tupleOf f.vars σ)]? with
  | none => simp
  | some x => simpa using h x (List.mem_of_getElem? hx)

theorem utility_zero {vars : List Var} {fs : List (Factor α)} {weights : Option (List α)}
    (hu : UtilityOK vars fs weights) {σ : Assignment} (hσ : Fits σ vars) : ∀ u ∈ utilities vars, σ u.id = 0 := by
  intro u h
  obtain ⟨h1, h2⟩ := List.mem_filter.1 h
  have := hσ u h1
  rw [hu.one u h1 (by simpa using h2)] at this
  omega

/-- **C28.** `SolvePolicies` solves every decision exactly once, last decision first: each decision is solved before
all decisions it depends on. -/
theorem C28_order [Field α] [LinearOrder α] (sch : Sched α) {vs : Vs} {fs : List (Factor α)}
    {deps : List (Var × List Var)} (hp : Problem vs fs deps) (weights : Option (List α)) (hac : DecAcyclic deps)
    {ps : List (Var × Factor α × Factor α)} {st' : VE α}
    (h : (VE.new vs fs deps weights).solvePolicies sch false = .ok (some ps, st')) :
    (ps.map (fun p => p.1)).Perm (decisionVars vs.variables) ∧ (ps.map (fun p => p.1)).Nodup ∧
      TopoOrdered deps (ps.map (fun p => p.1)).reverse := by
  obtain ⟨decs, t, st1, st2, i1, i2, i3, i4, i5⟩ := solvePolicies_inv sch h
  have hps := solve_list_order sch false _ st2 i5
  simp only [Bool.false_eq_true, if_false] at hps
  obtain ⟨decs', t', d1, d2, d3⟩ := getDecisions_new sch hp weights
  rw [i1] at d1
  simp only [Except.ok.injEq, Prod.mk.injEq] at d1
  obtain ⟨rfl, rfl⟩ := d1
  rw [hps, List.reverse_reverse]
  have h1 := (List.reverse_perm decs).trans d2
  exact ⟨h1, h1.nodup_iff.2 ((List.Nodup.of_map _ hp.ids).filter _), d3 hac⟩

/-- **C28, determinism.** The order does not depend on the iteration order of any map. -/
theorem C28_order_unique [Field α] [LinearOrder α] (sch sch' : Sched α) {vs : Vs} {fs : List (Factor α)}
    {deps : List (Var × List Var)} (hp : Problem vs fs deps) (weights : Option (List α))
    {ps ps' : List (Var × Factor α × Factor α)} {st st' : VE α}
    (h : (VE.new vs fs deps weights).solvePolicies sch false = .ok (some ps, st))
    (h' : (VE.new vs fs deps weights).solvePolicies sch' false = .ok (some ps', st')) :
    ps.map (fun p => p.1) = ps'.map (fun p => p.1) := by
  obtain ⟨decs, t, st1, st2, i1, _, _, _, i5⟩ := solvePolicies_inv sch h
  obtain ⟨decs', t', st1', st2', i1', _, _, _, i5'⟩ := solvePolicies_inv sch' h'
  have hps := solve_list_order sch false _ st2 i5
  have hps' := solve_list_order sch' false _ st2' i5'
  simp only [Bool.false_eq_true, if_false] at hps hps'
  obtain ⟨h0, _, _⟩ := new_good hp weights
  rw [hps, hps', getDecisions_det sch sch' hp.fixed (by rw [h0]) (by rw [h0]) (by rw [h0]) (by rw [h0]) i1 i1']

/-- **C28, success.** All decisions, or only the last, are solved without a panic. -/
theorem C28_solved [Field α] [LinearOrder α] [IsStrictOrderedRing α] (sch : Sched α) {vs : Vs}
    {fs : List (Factor α)} {deps : List (Var × List Var)} (hp : Problem vs fs deps) {weights : Option (List α)}
    (hu : UtilityOK vs.variables fs weights) (hd : DecisionOK vs.variables fs) (hac : DecAcyclic deps)
    (hne : decisionVars vs.variables ≠ []) (single : Bool) :
    ∃ p ps st', (VE.new vs fs deps weights).solvePolicies sch single = .ok (some (p :: ps), st') := by
  obtain ⟨ps, st', h⟩ := solvePolicies_ok sch hp (fun _ => hu) hd hac hne single
  cases ps with
  | cons p ps => exact ⟨p, ps, st', h⟩
  | nil =>
    obtain ⟨decs, t, st1, st2, i1, i2, _, _, i5⟩ := solvePolicies_inv sch h
    have := solve_list_order sch single _ st2 i5
    cases single <;> simp at this <;> exact absurd this i2

/-- Treatment before test in the list of variables, test before treatment in the order: the treatment is solved
first. -/
example : ∃ ps st', (VE.new Ex.qvs Ex.qfs Ex.qdeps none).solvePolicies Ex.backwards false = .ok (some ps, st') ∧
    ps.map (fun p => p.1) = [Ex.qS, Ex.qT] := by
  obtain ⟨p, ps, st', h⟩ := C28_solved Ex.backwards Ex.test Ex.test_utility Ex.test_decision Ex.test_acyclic
    (by decide) false
  refine ⟨_, st', h, ?_⟩
  obtain ⟨h1, h2, h3⟩ := C28_order Ex.backwards Ex.test none Ex.test_acyclic h
  have hl := h1.length_eq
  have hd : decisionVars Ex.qvs.variables = [Ex.qS, Ex.qT] := by decide
  rw [hd] at h1 hl
  generalize (p :: ps).map (fun p => p.1) = l at *
  match l, hl with
  | [a, b], _ =>
    have ha : a = Ex.qS ∨ a = Ex.qT := by simpa using h1.subset (List.mem_cons_self)
    have hb : b = Ex.qS ∨ b = Ex.qT := by simpa using h1.subset (List.mem_cons_of_mem a List.mem_cons_self)
    have hab : a ≠ b := by simpa using h2
    rcases ha with rfl | rfl
    · rcases hb with rfl | rfl
      · exact absurd rfl hab
      · rfl
    · rcases hb with rfl | rfl
      · have := h3 [] Ex.qS [Ex.qT] (by simp) Ex.qT ⟨(Ex.qS, [Ex.qT, Ex.qR]), by decide, by decide, by decide, by decide⟩
        simp at this
      · exact absurd rfl hab

/-- **C29.** The first policy solved is for a decision that no other decision depends on, and it is a best response:
an outcome with non-zero policy has the highest expected utility, for every assignment of the variables that are not
summed out. Summed out are the chance variables no decision knows (with `single` set: that this decision does not
know). -/
theorem C29_best_response [Field α] [LinearOrder α] [IsStrictOrderedRing α] (sch : Sched α) {vs : Vs}
    {fs : List (Factor α)} {deps : List (Var × List Var)} (hp : Problem vs fs deps) {weights : Option (List α)}
    (hu : UtilityOK vs.variables fs weights) (hd : DecisionOK vs.variables fs) (hac : DecAcyclic deps)
    (hnn : ∀ f ∈ fs, f.isUtility = false → ∀ x ∈ f.data, 0 ≤ x) {single : Bool} {d : Var} {fac pol : Factor α}
    {ps : List (Var × Factor α × Factor α)} {st' : VE α}
    (h : (VE.new vs fs deps weights).solvePolicies sch single = .ok (some ((d, fac, pol) :: ps), st'))
    {ds : List Var} (hds : ds = if single then [d] else decisionVars vs.variables)
    (hlink : Linked fs (fun i => ∃ v ∈ unseen vs.variables deps ds, v.id = i) d.id) :
    d ∈ decisionVars vs.variables ∧ (∀ e ∈ decisionVars vs.variables, ¬ DecEdge deps d e) ∧
    ∀ σ, Fits σ vs.variables → pol.val σ ≠ 0 → ∀ k < d.outcomes,
      sumOver (unseen vs.variables deps ds) (fun τ => ((fs.filter (fun f => !f.isUtility)).map (fun f => f.val τ)).prod *
        totalUtility vs.variables fs weights τ) (σ.upd d.id k) ≤
      sumOver (unseen vs.variables deps ds) (fun τ => ((fs.filter (fun f => !f.isUtility)).map (fun f => f.val τ)).prod *
        totalUtility vs.variables fs weights τ) σ := by
  obtain ⟨h1, h2, h3⟩ := solvePolicies_first sch hp hu hd hac (fun f hf hn => nonNeg_of_data (hnn f hf hn)) h hds hlink
  exact ⟨h1, h2, fun σ hσ => h3 σ hσ (utility_zero hu hσ)⟩

/-- With a rain forecast, the policy takes the umbrella. -/
example : ∃ fac pol st', (VE.new Ex.uvs Ex.ufs Ex.udeps (some [1, 2])).solvePolicies Ex.backwards true =
      .ok (some [(Ex.uD, fac, pol)], st') ∧
    pol.val (fun i => if i = 11 then 1 else 0) = 0 := by
  obtain ⟨⟨d, fac, pol⟩, ps, st', h⟩ := C28_solved Ex.backwards Ex.umbrella Ex.umbrella_utility Ex.umbrella_decision
    Ex.umbrella_acyclic (by decide) true
  have hd : d = Ex.uD := by
    obtain ⟨decs, t, st1, st2, i1, i2, _, _, i5⟩ := solvePolicies_inv _ h
    obtain ⟨decs', t', d1, d2, _⟩ := getDecisions_new Ex.backwards Ex.umbrella (some [1, 2])
    rw [i1] at d1
    simp only [Except.ok.injEq, Prod.mk.injEq] at d1
    obtain ⟨rfl, rfl⟩ := d1
    have : decs = [Ex.uD] := List.perm_singleton.1 (d2.trans (by decide))
    have h2 := solve_list_order Ex.backwards true _ st2 i5
    simp [this] at h2
    exact h2.1
  subst hd
  have hps : ps = [] := by
    obtain ⟨decs, t, st1, st2, i1, i2, _, _, i5⟩ := solvePolicies_inv _ h
    have h2 := congrArg List.length (solve_list_order Ex.backwards true _ st2 i5)
    simp at h2
    exact List.length_eq_zero_iff.1 (by omega)
  subst hps
  refine ⟨fac, pol, st', h, ?_⟩
  obtain ⟨_, _, h3⟩ := C29_best_response Ex.backwards Ex.umbrella Ex.umbrella_utility Ex.umbrella_decision
    Ex.umbrella_acyclic Ex.umbrella_nonneg h rfl (Linked.util (f := Ex.tU) (v := Ex.uD) (by decide) (by decide) (by decide))
  by_contra hne
  have := h3 _ (by unfold Fits; decide) hne 1 (by decide)
  revert this
  decide +kernel

theorem prod_policiesOf [CommSemiring α] {ps : List (Var × Factor α × Factor α)} {ds : List Var}
    (hn : (ps.map (fun p => p.1)).Nodup) (hp : (ps.map (fun p => p.1)).Perm ds) (σ : Assignment) :
    (ds.map (fun d => policiesOf ps d σ)).prod = (ps.map (fun p => p.2.2.val σ)).prod := by
  rw [← (hp.map _).prod_eq, List.map_map]
  congr 1
  apply List.map_congr_left
  intro p hpp
  simp only [Function.comp, policiesOf]
  cases hf : ps.find? (fun q => q.1 = p.1) with
  | none =>
    rw [List.find?_eq_none] at hf
    simpa using hf p hpp
  | some q =>
    have h1 : q.1 = p.1 := by simpa using List.find?_some hf
    rw [List.inj_on_of_nodup_map hn (List.mem_of_find?_eq_some hf) hpp h1]

/-- **C74.** Several decisions solved together: every solved policy is a policy, and no other policies, also
randomised, have a higher expected utility. Each policy may use what the decision and the earlier ones (those solved
later) know. -/
theorem C74_jointly_optimal [Field α] [LinearOrder α] [IsStrictOrderedRing α] (sch : Sched α) {vs : Vs}
    {fs : List (Factor α)} {deps : List (Var × List Var)} (hp : Problem vs fs deps) {weights : Option (List α)}
    (hu : UtilityOK vs.variables fs weights) (hd : DecisionOK vs.variables fs) (hac : DecAcyclic deps)
    (hnn : ∀ f ∈ fs, f.isUtility = false → ∀ x ∈ f.data, 0 ≤ x)
    {ps : List (Var × Factor α × Factor α)} {st' : VE α}
    (h : (VE.new vs fs deps weights).solvePolicies sch false = .ok (some ps, st'))
    {order : List Var} (ho : order = (ps.map (fun p => p.1)).reverse)
    (hlink : ∀ A d B, order = A ++ d :: B → Linked fs (Unknown vs.variables deps (A ++ [d])) d.id) :
    (∀ A d B, order = A ++ d :: B → PolicyFor vs.variables deps A d (policiesOf ps d)) ∧
    ∀ δ : Var → Assignment → α, (∀ A d B, order = A ++ d :: B → PolicyFor vs.variables deps A d (δ d)) →
      expectedUtility vs.variables fs weights δ ≤ expectedUtility vs.variables fs weights (policiesOf ps) := by
  have hsplit : ∀ A p B, ps = A ++ p :: B →
      order = (B.map (fun p => p.1)).reverse ++ p.1 :: (A.map (fun p => p.1)).reverse := by
    intro A p B hl
    rw [ho, hl]; simp
  obtain ⟨o1, o2, _⟩ := C28_order sch hp weights hac h
  obtain ⟨h1, h2⟩ := solvePolicies_best sch hp hu hd hac (fun f hf hn => nonNeg_of_data (hnn f hf hn)) h (by
    intro A p B hl
    have := hlink _ _ _ (hsplit A p B hl)
    have he : Unknown vs.variables deps ((B.map (fun p => p.1)).reverse ++ [p.1]) =
        Unknown vs.variables deps (p.1 :: B.map (fun p => p.1)) := by
      funext i
      unfold Unknown
      have : ∀ v, Known deps ((B.map (fun p => p.1)).reverse ++ [p.1]) v ↔ Known deps (p.1 :: B.map (fun p => p.1)) v :=
        fun v => ⟨Known.mono (by intro x hx; simp at hx ⊢; exact hx.symm), Known.mono (by intro x hx; simp at hx ⊢; exact hx.symm)⟩
      simp only [this]
    rw [he] at this
    exact this)
  have hfind : ∀ p ∈ ps, policiesOf ps p.1 = p.2.2.val := by
    intro p hpp
    funext σ
    simp only [policiesOf]
    cases hf : ps.find? (fun q => q.1 = p.1) with
    | none =>
      rw [List.find?_eq_none] at hf
      simpa using hf p hpp
    | some q =>
      have h1 : q.1 = p.1 := by simpa using List.find?_some hf
      rw [List.inj_on_of_nodup_map o2 (List.mem_of_find?_eq_some hf) hpp h1]
  refine ⟨?_, ?_⟩
  · intro A d B hl
    have hl2 : ps.map (fun p => p.1) = B.reverse ++ d :: A.reverse := by
      rw [← List.reverse_reverse (ps.map _), ← ho, hl]; simp
    obtain ⟨A', r, hA, _, hr⟩ := List.map_eq_append_iff.1 hl2
    obtain ⟨p, B', hr2, hp2, hB⟩ := List.map_eq_cons_iff.1 hr
    have := (h1 A' p B' (by rw [hA, hr2])).2.2.2
    rw [hB, List.reverse_reverse, hp2] at this
    rw [← hp2, hfind p (by rw [hA, hr2]; simp), hp2]
    exact this
  · intro δ hδ
    have hpr : ∀ σ, ((decisionVars vs.variables).map (fun d => δ d σ)).prod = (ps.map (fun p => δ p.1 σ)).prod := by
      intro σ
      rw [← (o1.map _).prod_eq, List.map_map]; rfl
    unfold expectedUtility
    simp only [hpr, prod_policiesOf o2 o1]
    have hz : Fits (fun _ => 0) vs.variables := fun v hv => hd.outcomes v hv
    exact h2 δ (fun A p B hl => hδ _ _ _ (hsplit A p B hl)) _ hz (utility_zero hu hz)

/-- The hypotheses hold for the test problem: the utilities mention both decisions. -/
example : ∃ ps st', (VE.new Ex.qvs Ex.qfs Ex.qdeps none).solvePolicies Ex.backwards false = .ok (some ps, st') ∧
    ∀ δ : Var → Assignment → ℚ,
      (∀ A d B, (ps.map (fun p => p.1)).reverse = A ++ d :: B → PolicyFor Ex.qvs.variables Ex.qdeps A d (δ d)) →
      expectedUtility Ex.qvs.variables Ex.qfs none δ ≤ expectedUtility Ex.qvs.variables Ex.qfs none (policiesOf ps) := by
  obtain ⟨p, ps, st', h⟩ := C28_solved Ex.backwards Ex.test Ex.test_utility Ex.test_decision Ex.test_acyclic
    (by decide) false
  refine ⟨_, st', h, ?_⟩
  refine (C74_jointly_optimal Ex.backwards Ex.test Ex.test_utility Ex.test_decision Ex.test_acyclic Ex.test_nonneg h
    rfl ?_).2
  intro A d B hl
  have hd : d ∈ decisionVars Ex.qvs.variables := by
    apply (C28_order Ex.backwards Ex.test none Ex.test_acyclic h).1.subset
    rw [← List.mem_reverse, hl]; simp
  have hd' : d = Ex.qS ∨ d = Ex.qT := by
    have e : decisionVars Ex.qvs.variables = [Ex.qS, Ex.qT] := by decide
    rw [e] at hd; simpa using hd
  rcases hd' with rfl | rfl
  · exact Linked.util (f := Ex.tG) (by decide) (by decide) (by decide)
  · exact Linked.util (f := Ex.tC) (by decide) (by decide) (by decide)

/-- **C30.** A single decision: the solved policy, with or without `single`, depends only on the variables the
decision knows, and no other such policy, also randomised, has a higher expected utility. -/
theorem C30_single_optimal [Field α] [LinearOrder α] [IsStrictOrderedRing α] (sch : Sched α) {vs : Vs}
    {fs : List (Factor α)} {deps : List (Var × List Var)} (hp : Problem vs fs deps) {weights : Option (List α)}
    (hu : UtilityOK vs.variables fs weights) (hd : DecisionOK vs.variables fs) (hac : DecAcyclic deps)
    (hnn : ∀ f ∈ fs, f.isUtility = false → ∀ x ∈ f.data, 0 ≤ x) {d : Var} (hone : decisionVars vs.variables = [d])
    (hlink : Linked fs (Unknown vs.variables deps [d]) d.id) (single : Bool) :
    ∃ fac pol st', (VE.new vs fs deps weights).solvePolicies sch single = .ok (some [(d, fac, pol)], st') ∧
      PolicyFor vs.variables deps [] d pol.val ∧
      ∀ δ, PolicyFor vs.variables deps [] d δ →
        expectedUtility vs.variables fs weights (fun _ => δ) ≤ expectedUtility vs.variables fs weights (fun _ => pol.val) := by
  have hs : (VE.new vs fs deps weights).solvePolicies sch single = (VE.new vs fs deps weights).solvePolicies sch false := by
    cases single
    · rfl
    · exact solvePolicies_single sch hp hu hd hac hone
  rw [hs]
  obtain ⟨⟨d', fac, pol⟩, ps, st', h⟩ := C28_solved sch hp hu hd hac (by rw [hone]; simp) false
  have o1 := (C28_order sch hp weights hac h).1
  rw [hone, List.perm_singleton] at o1
  simp only [List.map_cons, List.cons.injEq, List.map_eq_nil_iff] at o1
  obtain ⟨rfl, rfl⟩ := o1
  obtain ⟨h1, h2⟩ := C74_jointly_optimal sch hp hu hd hac hnn h rfl (by
    intro A d B hl
    simp only [List.map_cons, List.map_nil, List.reverse_cons, List.reverse_nil, List.nil_append] at hl
    rcases A with _ | ⟨a, A⟩
    · simp only [List.nil_append, List.cons.injEq] at hl
      rw [← hl.1]; exact hlink
    · simp at hl)
  have e : policiesOf [(d', fac, pol)] d' = pol.val := by funext σ; simp [policiesOf]
  refine ⟨fac, pol, st', h, ?_, ?_⟩
  · rw [← e]; exact h1 [] d' [] rfl
  · intro δ hδ
    have := h2 (fun _ => δ) (by
      intro A d B hl
      simp only [List.map_cons, List.map_nil, List.reverse_cons, List.reverse_nil, List.nil_append] at hl
      rcases A with _ | ⟨a, A⟩
      · simp only [List.nil_append, List.cons.injEq] at hl
        rw [← hl.1]; exact hδ
      · simp at hl)
    refine this.trans (le_of_eq ?_)
    unfold expectedUtility
    rw [hone]
    simp [e]

/-- In the umbrella problem the solved policy beats, for example, always taking the umbrella. -/
example : ∃ fac pol st', (VE.new Ex.uvs Ex.ufs Ex.udeps (some [1, 2])).solvePolicies Ex.backwards false =
      .ok (some [(Ex.uD, fac, pol)], st') ∧
    25 ≤ expectedUtility Ex.uvs.variables Ex.ufs (some [1, 2]) (fun _ => pol.val) := by
  obtain ⟨fac, pol, st', h1, _, h3⟩ := C30_single_optimal Ex.backwards Ex.umbrella Ex.umbrella_utility
    Ex.umbrella_decision Ex.umbrella_acyclic Ex.umbrella_nonneg (d := Ex.uD) (by decide)
    (Linked.util (f := Ex.tU) (by decide) (by decide) (by decide)) false
  refine ⟨fac, pol, st', h1, le_trans ?_ (h3 (fun σ => if σ 12 = 1 then 1 else 0) ⟨?_, ?_, ?_⟩)⟩
  · decide +kernel
  · intro σ _; split <;> decide
  · intro σ _; simp [Ex.uD, Assignment.upd]
  · intro σ τ hk
    have := hk Ex.uD (by decide) (by decide)
    simp only [Ex.uD] at this
    rw [this]

end Bbn
