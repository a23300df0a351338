import Verif.Spec.Again
import Verif.Lemmas.NetSums
import Verif.Props.Solve

/-!
# The state of the solver between two questions
-/

set_option autoImplicit false

namespace Bbn

variable {α : Type}

/-- The tables without the utility tables. -/
def tablesOfProb (fs : List (Factor α)) : List (Factor α) := fs.filter (fun f => !f.isUtility)

/-- The state after questions that observed `ev` and summed out `H`. -/
structure Asked [CommSemiring α] (vs : Vs) (fs : List (Factor α)) (deps : List (Var × List Var)) (ev : List Evid)
    (H : List Var) (st : VE α) : Prop where
  vars : st.vs.variables = vs.variables
  deps : st.deps = deps
  good : Good vs.variables st.vs.factorCounter st.factors
  len : st.eliminated.length = vs.variables.length
  elim : ∀ v ∈ vs.variables, v.nodeType = .chance → (st.eliminated[v.index]? = some false ↔ ∀ w ∈ H, w.id ≠ v.id)
  scope : ∀ v, (∃ f ∈ tablesOfProb st.factors, v ∈ f.vars) ↔
    (∃ f ∈ tablesOfProb fs, v ∈ f.vars) ∧ (∀ e ∈ ev, e.var.id ≠ v.id) ∧ v ∉ H
  val : ∀ σ, FitsFs σ (tablesOfProb st.factors) →
    joint (tablesOfProb st.factors) σ = sumOver H (fun τ => joint (tablesOfProb fs) (plug ev τ)) σ

theorem asked_new [CommSemiring α] {vs : Vs} {fs : List (Factor α)} {deps : List (Var × List Var)}
    (hp : Problem vs fs deps) (weights : Option (List α)) : Asked vs fs deps [] [] (VE.new vs fs deps weights) := by
  obtain ⟨h0, hg, hR⟩ := new_good hp weights
  rw [h0]
  refine ⟨rfl, rfl, hg, by simp, ?_, by simp, ?_⟩
  · intro v hv _
    simp [hR.index_lt hv]
  · intro σ _
    rfl

/-- A query that drops the utility tables, in any state. -/
theorem solveQuery_again [CommSemiring α] (sch : Sched α) (st : VE α) (hR : VarsOK st.vs.variables)
    (hk : (st.deps.map Prod.fst).Nodup) (hdv : ∀ e ∈ st.deps, e.1 ∈ st.vs.variables ∧ ∀ p ∈ e.2, p ∈ st.vs.variables)
    (hlen : st.eliminated.length = st.vs.variables.length) (qx : List Var)
    (hel : ∀ v ∈ st.vs.variables, v.nodeType = .chance → (st.eliminated[v.index]? = some false ↔ ∀ w ∈ qx, w.id ≠ v.id))
    (hg : Good st.vs.variables st.vs.factorCounter st.factors) {ev : List Evid} (hev : EvidenceOK st.vs.variables ev)
    (q : List Var)
    (hin : ∀ v ∈ hidden st.vs.variables st.deps ev (q ++ qx), ∃ f ∈ tablesOfProb st.factors, v ∈ f.vars) :
    ∃ g st', st.solveQuery sch ev q = .ok (g, st') ∧ g.WF ∧
      (∀ v, v ∈ g.vars ↔ (∃ f ∈ tablesOfProb st.factors, v ∈ f.vars) ∧ (∀ e ∈ ev, e.var.id ≠ v.id) ∧
        v ∉ hidden st.vs.variables st.deps ev (q ++ qx)) ∧
      (∀ σ, Fits σ g.vars → g.val σ =
        sumOver (hidden st.vs.variables st.deps ev (q ++ qx)) (fun τ => joint (tablesOfProb st.factors) (plug ev τ)) σ) ∧
      ∃ n, st'.vs = { st.vs with factorCounter := n } ∧ st'.deps = st.deps ∧ st'.weights = st.weights ∧
        st'.factors = [g] ∧ g.id < n ∧ st'.eliminated.length = st.vs.variables.length ∧
        (∀ i : Nat, st'.eliminated[i]? = some true ↔ st.eliminated[i]? = some true ∨
          ∃ h ∈ hidden st.vs.variables st.deps ev (q ++ qx), h.index = i) := by
  obtain ⟨n, fs1, rs, a1, a2, a3, a4⟩ := eliminateEvidence_spec hR.ids sch ev st
    (fun e he => by
      obtain ⟨b1, b2, b3⟩ := hev e he
      exact ⟨b1, b3⟩) hg
  set st1 : VE α := { st with vs := { st.vs with factorCounter := n }, factors := fs1, tick := st.tick + ev.length }
    with hst1
  obtain ⟨t', b⟩ := removeUtilities_spec sch st1 a2 none
  set p : Factor α → Bool := fun f => !(utilities st.vs.variables).any (fun u => notExcept none u ∧ u ∈ f.vars) with hpd
  change st1.removeUtilities sch none = { st1 with factors := fs1.filter p, tick := t' } at b
  have hkeep : tablesOfProb st.factors = st.factors.filter p := (keep_none hg.sub).symm
  have key := finish_plugged_again sch { st1 with factors := fs1.filter p, tick := t' } hR hk hdv hlen qx hel
    (a2.mono List.filter_sublist (Nat.le_refl _)) ev q (keep := tablesOfProb st.factors) (rs := rs.filter p) (a3.filter p)
    (by
      rw [hkeep]
      apply forall₂_filter a4
      intro c _ r hcr
      simp only [hpd]
      congr 1
      rw [Bool.eq_iff_iff]
      simp only [List.any_eq_true, decide_eq_true_eq]
      constructor
      · rintro ⟨u, hu, h1, h2⟩
        have hu' := hu
        simp only [utilities, List.mem_filter, decide_eq_true_eq] at hu'
        exact ⟨u, hu, h1, (plugged_any hR.ids hev hcr hu'.1 hu'.2).2 h2⟩
      · rintro ⟨u, hu, h1, h2⟩
        have hu' := hu
        simp only [utilities, List.mem_filter, decide_eq_true_eq] at hu'
        exact ⟨u, hu, h1, (plugged_any hR.ids hev hcr hu'.1 hu'.2).1 h2⟩) hin
  obtain ⟨g, st', k1, k2, k3, k4, _, m, k5, k6, k7, k8, k9, k10, k11⟩ := key
  refine ⟨g, st', ?_, k2, k3, k4, m, k5, k6, k7, k8, k9, k10, k11⟩
  unfold VE.solveQuery VE.solve
  rw [a1, ok_bind]
  simp only [Bool.false_eq_true, if_false]
  change (pure (st1.removeUtilities sch none) >>= fun st => _) = _
  rw [b]
  exact k1

theorem plug_of_mem {ev : List Evid} (hc : Consistent ev) {e : Evid} (he : e ∈ ev) (σ : Assignment) :
    plug ev σ e.var.id = e.value.toNat := by
  unfold plug
  cases h : ev.find? (fun e' => e'.var.id = e.var.id) with
  | none =>
    have := List.find?_eq_none.1 h e he
    simp at this
  | some e' =>
    have h1 := List.mem_of_find?_eq_some h
    have h2 := List.find?_some h
    simp only [decide_eq_true_eq] at h2
    simp only [hc e' h1 e he h2]

theorem plug_of_not_mem {ev : List Evid} {i : Nat} (h : ∀ e ∈ ev, e.var.id ≠ i) (σ : Assignment) : plug ev σ i = σ i := by
  unfold plug
  rw [List.find?_eq_none.2]
  intro e he
  simpa using h e he

theorem plug_plug {ev ev' : List Evid} (hc : Consistent ev') (hs : ∀ e ∈ ev, e ∈ ev') (σ : Assignment) :
    plug ev (plug ev' σ) = plug ev' σ := by
  funext i
  by_cases h : ∀ e ∈ ev, e.var.id ≠ i
  · rw [plug_of_not_mem h]
  · push Not at h
    obtain ⟨e, he, rfl⟩ := h
    rw [plug_of_mem (fun a ha b hb => hc a (hs a ha) b (hs b hb)) he, plug_of_mem hc (hs e he)]

theorem sumOver_plug [AddCommMonoid α] {ev : List Evid} {F : Assignment → α} : ∀ {H : List Var} (σ : Assignment),
    (∀ v ∈ H, ∀ e ∈ ev, e.var.id ≠ v.id) → sumOver H F (plug ev σ) = sumOver H (fun τ => F (plug ev τ)) σ
  | [], _, _ => rfl
  | v :: H, σ, h => by
    simp only [sumOver]
    apply Finset.sum_congr rfl
    intro k _
    rw [← plug_upd (h v (by simp)) σ k]
    exact sumOver_plug _ (fun w hw => h w (by simp [hw]))

theorem mem_hidden {vars : List Var} {deps : List (Var × List Var)} {ev : List Evid} {q : List Var} {v : Var} :
    v ∈ hidden vars deps ev q ↔ v ∈ vars ∧ v.nodeType = .chance ∧ (∀ e ∈ ev, e.var.id ≠ v.id) ∧ (∀ w ∈ q, w.id ≠ v.id) ∧
      ∀ e ∈ deps, e.1.nodeType = .decision → ∀ p ∈ e.2, p.id ≠ v.id := by
  simp only [hidden, List.mem_filter, decide_eq_true_eq]

theorem mem_hidden_append {vars : List Var} {deps : List (Var × List Var)} {ev : List Evid} {q H : List Var} {v : Var} :
    v ∈ hidden vars deps ev (q ++ H) ↔ v ∈ hidden vars deps ev q ∧ ∀ w ∈ H, w.id ≠ v.id := by
  rw [mem_hidden, mem_hidden, List.forall_mem_append]
  tauto

/-- What was summed out before and what is summed out now is together what the question sums out. -/
theorem hidden_split {vars : List Var} (hids : (vars.map Var.id).Nodup) {deps : List (Var × List Var)} {ev : List Evid}
    {q H : List Var} (hn : (H.map Var.id).Nodup) (hsub : ∀ v ∈ H, v ∈ hidden vars deps ev q) :
    (hidden vars deps ev (q ++ H) ++ H).Perm (hidden vars deps ev q) := by
  have hin : ∀ v, v ∈ hidden vars deps ev (q ++ H) ↔ v ∈ hidden vars deps ev q ∧ ∀ w ∈ H, w.id ≠ v.id := by
    intro v
    simp only [hidden, List.mem_filter, decide_eq_true_eq, List.forall_mem_append]
    tauto
  have hvars : vars.Nodup := hids.of_map _
  rw [List.perm_ext_iff_of_nodup]
  · intro v
    rw [List.mem_append, hin]
    constructor
    · rintro (h | h)
      · exact h.1
      · exact hsub v h
    · intro h
      by_cases hv : ∀ w ∈ H, w.id ≠ v.id
      · exact .inl ⟨h, hv⟩
      · push Not at hv
        obtain ⟨w, hw, e⟩ := hv
        have := coherent_of_nodup hids w (List.mem_filter.1 (hsub w hw)).1 v (List.mem_filter.1 h).1 e
        exact .inr (this ▸ hw)
  · refine List.Nodup.append (hvars.filter _) (hn.of_map _) ?_
    intro v h1 h2
    exact ((hin v).1 h1).2 v h2 rfl
  · exact hvars.filter _

/-- One more question. -/
theorem asked_step [CommSemiring α] (sch : Sched α) {vs : Vs} {fs : List (Factor α)} {deps : List (Var × List Var)}
    (hp : Problem vs fs deps) {ev : List Evid} {H : List Var} {st : VE α} (hst : Asked vs fs deps ev H st)
    (hn : (H.map Var.id).Nodup) {ev' : List Evid} (hev : EvidenceOK vs.variables ev') (hc : Consistent ev')
    {q : List Var} (hsub : ∀ v ∈ H, v ∈ hidden vs.variables deps ev' q) (hrep : ∀ e ∈ ev, e ∈ ev')
    (hin : ∀ v ∈ hidden vs.variables deps ev' q, ∃ f ∈ fs, f.isUtility = false ∧ v ∈ f.vars) :
    ∃ g st', st.solveQuery sch ev' q = .ok (g, st') ∧ g.WF ∧
      (∀ v, v ∈ g.vars ↔ (∃ f ∈ tablesOfProb fs, v ∈ f.vars) ∧ (∀ e ∈ ev', e.var.id ≠ v.id) ∧
        v ∉ hidden vs.variables deps ev' q) ∧
      (∀ σ, Fits σ g.vars → g.val σ =
        sumOver (hidden vs.variables deps ev' q) (fun τ => joint (tablesOfProb fs) (plug ev' τ)) σ) ∧
      Asked vs fs deps ev' (hidden vs.variables deps ev' q) st' ∧ ∀ f ∈ st'.factors, f.isUtility = false := by
  have hR : VarsOK vs.variables := ⟨hp.ids, hp.index⟩
  have hsplit := hidden_split hp.ids hn hsub
  have hidev : ∀ v ∈ hidden vs.variables deps ev' q, ∀ e ∈ ev', e.var.id ≠ v.id := by
    intro v hv
    have := (List.mem_filter.1 hv).2
    simp only [decide_eq_true_eq] at this
    exact this.2.1
  have hX : ∀ v, v ∈ hidden vs.variables deps ev' q ↔ v ∈ hidden vs.variables deps ev' (q ++ H) ∨ v ∈ H := by
    intro v
    rw [← hsplit.mem_iff, List.mem_append]
  have hXH : ∀ v ∈ hidden vs.variables deps ev' (q ++ H), v ∉ H := by
    intro v hv hvH
    have := (List.mem_filter.1 hv).2
    simp only [decide_eq_true_eq] at this
    exact this.2.2.1 v (by simp [hvH]) rfl
  have key := solveQuery_again sch st (by rw [hst.vars]; exact hR) (by rw [hst.deps]; exact hp.depKeys)
    (by rw [hst.deps, hst.vars]; exact hp.depVars) (by rw [hst.vars]; exact hst.len) H
    (by rw [hst.vars]; exact hst.elim) (by rw [hst.vars]; exact hst.good) (ev := ev') (by rw [hst.vars]; exact hev) q
    (by
      rw [hst.vars, hst.deps]
      intro v hv
      have hv2 := (hX v).2 (.inl hv)
      obtain ⟨f, hf, h1, h2⟩ := hin v hv2
      refine (hst.scope v).2 ⟨⟨f, by simp [tablesOfProb, hf, h1], h2⟩, fun e he => hidev v hv2 e (hrep e he), hXH v hv⟩)
  rw [hst.vars, hst.deps] at key
  obtain ⟨g, st', k1, k2, k3, k4, n, k5, k6, k7, k8, k9, k10, k11⟩ := key
  have hgv : ∀ v, v ∈ g.vars ↔ (∃ f ∈ tablesOfProb fs, v ∈ f.vars) ∧ (∀ e ∈ ev', e.var.id ≠ v.id) ∧
      v ∉ hidden vs.variables deps ev' q := by
    intro v
    rw [k3, hst.scope, hX]
    constructor
    · rintro ⟨⟨h1, _, h3⟩, h4, h5⟩
      exact ⟨h1, h4, by tauto⟩
    · rintro ⟨h1, h2, h3⟩
      exact ⟨⟨h1, fun e he => h2 e (hrep e he), by tauto⟩, h2, by tauto⟩
  have hval : ∀ σ, Fits σ g.vars → g.val σ =
      sumOver (hidden vs.variables deps ev' q) (fun τ => joint (tablesOfProb fs) (plug ev' τ)) σ := by
    intro σ hσ
    rw [k4 σ hσ, ← sumOver_perm hsplit ((hsplit.map _).nodup_iff.2 ((List.filter_sublist.map _).nodup hp.ids)),
      sumOver_append]
    apply sumOver_congr
    · intro τ t1 t2
      rw [hst.val]
      · have h1 := sumOver_plug (F := fun τ => joint (tablesOfProb fs) (plug ev τ)) (ev := ev') (H := H) τ
          (fun v hv => hidev v ((hX v).2 (.inr hv)))
        rw [h1]
        simp only [plug_plug hc hrep]
      · intro f hf v hv
        have hvR := hst.good.sub f (List.mem_filter.1 hf).1 v hv
        by_cases hve : ∀ e ∈ ev', e.var.id ≠ v.id
        · rw [plug_of_not_mem hve]
          by_cases hh : v.id ∈ (hidden vs.variables deps ev' (q ++ H)).map Var.id
          · obtain ⟨w, hw, e⟩ := List.mem_map.1 hh
            have := coherent_of_nodup hp.ids w (List.mem_filter.1 hw).1 v hvR e
            rw [← this]; exact t2 w hw
          · rw [t1 _ hh]
            apply hσ
            rw [k3]
            exact ⟨⟨f, hf, hv⟩, hve, fun h => hh (List.mem_map_of_mem h)⟩
        · push Not at hve
          obtain ⟨e, he, hid⟩ := hve
          obtain ⟨e1, _, e3, e4⟩ := hev e he
          have := coherent_of_nodup hp.ids _ e1 v hvR hid
          rw [← this, plug_of_mem hc he]
          omega
    · exact (List.filter_sublist.map _).nodup hp.ids
  have hgu : g.isUtility = false := by
    unfold Factor.isUtility
    rw [List.any_eq_false]
    intro v hv
    obtain ⟨⟨f, hf, h2⟩, _⟩ := (hgv v).1 hv
    have h3 := (List.mem_filter.1 hf).2
    simp only [Factor.isUtility, Bool.not_eq_true', List.any_eq_false] at h3
    exact h3 v h2
  have hpg : tablesOfProb st'.factors = [g] := by rw [k8]; simp [tablesOfProb, hgu]
  refine ⟨g, st', k1, k2, hgv, hval, ⟨?_, k6, ?_, ?_, ?_, ?_, ?_⟩, by rw [k8]; simpa using hgu⟩
  · rw [k5]; exact hst.vars
  · rw [k8, k5]
    refine ⟨by simp, by simpa using k9, by simpa using k2, ?_⟩
    intro f hf v hv
    rw [List.mem_singleton] at hf
    subst hf
    obtain ⟨⟨f, hf, h2⟩, _⟩ := (hgv v).1 hv
    exact hp.facVars f (List.mem_filter.1 hf).1 v h2
  · exact k10
  · intro v hv hch
    have h1 : st'.eliminated[v.index]? = some false ↔ ¬ st'.eliminated[v.index]? = some true := by
      have := hR.index_lt hv
      rw [← k10] at this
      rw [List.getElem?_eq_getElem this]
      cases st'.eliminated[v.index] <;> simp
    have h2 : st.eliminated[v.index]? = some false ↔ ¬ st.eliminated[v.index]? = some true := by
      have := hR.index_lt hv
      rw [← hst.len] at this
      rw [List.getElem?_eq_getElem this]
      cases st.eliminated[v.index] <;> simp
    rw [h1, k11, not_or, ← h2, hst.elim v hv hch]
    constructor
    · rintro ⟨h3, h4⟩ w hw e
      rcases (hX w).1 hw with h | h
      · have := coherent_of_nodup hp.ids w (List.mem_filter.1 h).1 v hv e
        exact h4 ⟨w, h, by rw [this]⟩
      · exact h3 w h e
    · intro h3
      refine ⟨fun w hw => h3 w ((hX w).2 (.inr hw)), ?_⟩
      rintro ⟨w, hw, e⟩
      have := hR.ext_index (List.mem_filter.1 hw).1 hv e
      exact h3 w ((hX w).2 (.inl hw)) (by rw [this])
  · intro v
    rw [hpg]
    simpa using hgv v
  · intro σ hσ
    rw [hpg] at hσ ⊢
    have := hval σ (hσ g (by simp))
    simpa [joint] using this

theorem product_nil [CommSemiring α] (s : Vs) : ∃ f : Factor α,
    s.product [] = .ok (f, { s with factorCounter := s.factorCounter + 1 }) ∧ f.vars = [] := by
  obtain ⟨f, h1, _, _, h4, _⟩ := product_spec s ([] : List (Factor α)) (by simp) (coherentFs_of_sub (R := []) (by simp) (by simp))
  exact ⟨f, h1, by rw [h4]; rfl⟩

/-- Removing a variable that is in no table panics. -/
theorem removeHidden_lost [CommSemiring α] (sch : Sched α) (st : VE α) {v : Var}
    (h : v.id ∉ (scopes st.factors).sup) : Panics (st.removeHidden sch v) := by
  have hnil : (st.iter sch).filter (fun f => f.vars.any (fun w => w.id = v.id)) = [] := by
    rw [List.filter_eq_nil_iff]
    intro f hf hany
    have hf2 : f ∈ st.factors := (sch.fac_perm _ _).subset hf
    obtain ⟨w, hw, e⟩ := List.any_eq_true.1 hany
    exact h (mem_scopes_sup.2 ⟨f, hf2, mem_scope.2 ⟨w, hw, by simpa using e⟩⟩)
  obtain ⟨q, h1, h2⟩ := product_nil (α := α) st.vs
  unfold VE.removeHidden
  simp only [hnil, h1, ok_bind, Vs.sumOut, h2, lastIdx]
  exact ⟨_, rfl⟩

theorem removeHidden_list_lost [CommSemiring α] {R : List Var} (hR : VarsOK R) (sch : Sched α) (hs : List Var) :
    ∀ (st : VE α), st.eliminated.length = R.length → Good R st.vs.factorCounter st.factors →
      (∀ h ∈ hs, h ∈ R) → (hs.map Var.id).Nodup → (∃ h ∈ hs, h.id ∉ (scopes st.factors).sup) →
      Panics (hs.foldlM (fun st h => st.removeHidden sch h) st) := by
  induction hs with
  | nil => rintro st _ _ _ _ ⟨h, hh, _⟩; simp at hh
  | cons h hs ih =>
    intro st he hg hsub hn hex
    simp only [List.map_cons, List.nodup_cons] at hn
    rw [List.foldlM_cons]
    by_cases hsc : h.id ∈ (scopes st.factors).sup
    · have hw := hsub h (by simp)
      obtain ⟨n1, fs1, a1, a2, a3, _, _⟩ := removeHidden_spec hR.ids sch st hw rfl hsc
        (by rw [he]; exact hR.index_lt hw) hg
      rw [a1, ok_bind]
      refine ih _ (by simpa using he) a2 (fun w hw => hsub w (by simp [hw])) hn.2 ?_
      obtain ⟨w, hw, hl⟩ := hex
      rcases List.mem_cons.1 hw with rfl | hw
      · exact absurd hsc hl
      · refine ⟨w, hw, ?_⟩
        rw [a3, mem_elimScopes_sup]
        exact fun h => hl h.1
    · obtain ⟨m, hm⟩ := removeHidden_lost sch st hsc
      exact ⟨m, by rw [hm]; rfl⟩

/-- A question panics if a variable it has to sum out is in no table. -/
theorem solveQuery_lost [CommSemiring α] (sch : Sched α) (st : VE α) (hR : VarsOK st.vs.variables)
    (hk : (st.deps.map Prod.fst).Nodup) (hdv : ∀ e ∈ st.deps, e.1 ∈ st.vs.variables ∧ ∀ p ∈ e.2, p ∈ st.vs.variables)
    (hlen : st.eliminated.length = st.vs.variables.length) (qx : List Var)
    (hel : ∀ v ∈ st.vs.variables, v.nodeType = .chance → (st.eliminated[v.index]? = some false ↔ ∀ w ∈ qx, w.id ≠ v.id))
    (hg : Good st.vs.variables st.vs.factorCounter st.factors) {ev : List Evid} (hev : EvidenceOK st.vs.variables ev)
    (q : List Var) {v : Var} (hv : v ∈ hidden st.vs.variables st.deps ev (q ++ qx))
    (hlost : ∀ f ∈ tablesOfProb st.factors, v ∉ f.vars) : Panics (st.solveQuery sch ev q) := by
  obtain ⟨n, fs1, rs, a1, a2, a3, a4⟩ := eliminateEvidence_spec hR.ids sch ev st
    (fun e he => by
      obtain ⟨b1, b2, b3⟩ := hev e he
      exact ⟨b1, b3⟩) hg
  set st1 : VE α := { st with vs := { st.vs with factorCounter := n }, factors := fs1, tick := st.tick + ev.length }
    with hst1
  obtain ⟨t', b⟩ := removeUtilities_spec sch st1 a2 none
  set p : Factor α → Bool := fun f => !(utilities st.vs.variables).any (fun u => notExcept none u ∧ u ∈ f.vars) with hpd
  change st1.removeUtilities sch none = { st1 with factors := fs1.filter p, tick := t' } at b
  set st2 : VE α := { st1 with factors := fs1.filter p, tick := t' } with hst2
  have hg2 : Good st.vs.variables n (fs1.filter p) := a2.mono List.filter_sublist (Nat.le_refl _)
  have hdok : DepsOK st.vs.variables st.deps := by
    refine ⟨?_, fun e he p hp => hR.index_lt ((hdv e he).2 p hp)⟩
    rintro v hv p ⟨e, he, h1, h2, h3⟩
    simp [(hdv e he).2 p h2, h3]
  obtain ⟨decs, t, d1, d2, _⟩ := getDecisions_spec sch st2 hR hdok
  have hset := hiddenSet_eq hR hk hdv qx hel d2 ev q
  obtain ⟨t1, hs, h1, hsp, _⟩ := eliminateHidden_run hR sch st2 rfl hlen hdok ev q false d1 rfl
  have hsp' : hs.Perm (hidden st.vs.variables st.deps ev (q ++ qx)) := hset ▸ hsp
  have hpan : Panics (st2.eliminateHidden sch ev q false) := by
    rw [h1]
    refine removeHidden_list_lost hR sch hs _ hlen hg2 (fun h hh => (List.mem_filter.1 (hsp'.subset hh)).1)
      ((hsp'.map _).nodup_iff.2 ((List.filter_sublist.map _).nodup hR.ids)) ⟨v, hsp'.symm.subset hv, ?_⟩
    intro hmem
    obtain ⟨f, hf, hvf⟩ := mem_scopes_sup.1 hmem
    obtain ⟨w, hw, e⟩ := mem_scope.1 hvf
    have hvR : v ∈ st.vs.variables := (List.mem_filter.1 hv).1
    have hwv := coherent_of_nodup hR.ids w (hg2.sub f hf w hw) v hvR e
    subst hwv
    obtain ⟨hf1, hf2⟩ := List.mem_filter.1 hf
    obtain ⟨c, hc, hp⟩ := forall₂_mem_right a4 (a3.subset hf1)
    refine hlost c ?_ (by rw [hp.vars, List.mem_filter] at hw; exact hw.1)
    rw [show tablesOfProb st.factors = st.factors.filter p from (keep_none hg.sub).symm, List.mem_filter]
    refine ⟨hc, ?_⟩
    rw [← hf2]
    simp only [hpd]
    congr 1
    rw [Bool.eq_iff_iff]
    simp only [List.any_eq_true, decide_eq_true_eq]
    constructor
    · rintro ⟨u, hu, h1, h2⟩
      have hu' := hu
      simp only [utilities, List.mem_filter, decide_eq_true_eq] at hu'
      exact ⟨u, hu, h1, (plugged_any hR.ids hev hp hu'.1 hu'.2).2 h2⟩
    · rintro ⟨u, hu, h1, h2⟩
      have hu' := hu
      simp only [utilities, List.mem_filter, decide_eq_true_eq] at hu'
      exact ⟨u, hu, h1, (plugged_any hR.ids hev hp hu'.1 hu'.2).1 h2⟩
  obtain ⟨m, hm⟩ := hpan
  refine ⟨m, ?_⟩
  unfold VE.solveQuery VE.solve
  rw [a1, ok_bind]
  simp only [Bool.false_eq_true, if_false]
  change (pure (st1.removeUtilities sch none) >>= fun st => _) = _
  rw [b]
  change (st2.eliminateHidden sch ev q false >>= fun st => st.multiplyAll sch) = _
  rw [hm]
  rfl

/-- Adding up the utilities panics if there are utility variables but no utility tables. -/
theorem sumUtilities_lost [CommSemiring α] (sch : Sched α) (st : VE α) (hu : utilities st.vs.variables ≠ [])
    (hno : ∀ f ∈ st.factors, f.isUtility = false) : Panics (st.sumUtilities sch) := by
  have hnone : ∀ f ∈ st.iter sch, firstUtil (utilities st.vs.variables) f = none := by
    intro f hf
    have h1 := hno f ((sch.fac_perm _ _).subset hf)
    unfold firstUtil
    rw [List.findIdx?_eq_none_iff]
    intro u hu
    simp only [Factor.isUtility, List.any_eq_false] at h1
    simp only [utilities, List.mem_filter, decide_eq_true_eq] at hu
    simp only [decide_eq_false_iff_not]
    intro h2
    exact h1 u h2 (by simpa using hu.2)
  have hcol : ∀ (L : List (Factor α)), (∀ f ∈ L, firstUtil (utilities st.vs.variables) f = none) →
      collectUtils (utilities st.vs.variables) st.weights L st.vs = .ok ([], [], st.vs) := by
    intro L
    induction L with
    | nil => intro _; rfl
    | cons f L ih =>
      intro h
      rw [collectUtils, h f (by simp)]
      exact ih (fun f hf => h f (by simp [hf]))
  obtain ⟨q, s1, _, _, s4, _⟩ := sum_spec st.vs ([] : List (Factor α)) (by simp)
    (coherentFs_of_sub (R := []) (by simp) (by simp))
  unfold VE.sumUtilities
  dsimp only
  rw [show st.vs.variables.filter (fun u => u.nodeType = .utility) = utilities st.vs.variables from rfl]
  rw [if_neg (by simpa using hu), hcol _ hnone, ok_bind]
  dsimp only
  rw [s1, ok_bind]
  dsimp only
  obtain ⟨u, us, hus⟩ := List.exists_cons_of_ne_nil hu
  rw [hus]
  simp only [sumOutUtils, Vs.sumOut, s4]
  exact ⟨_, rfl⟩

theorem solveUtility_lost [CommSemiring α] (sch : Sched α) (st : VE α) (hids : (st.vs.variables.map Var.id).Nodup)
    (hg : Good st.vs.variables st.vs.factorCounter st.factors) {ev : List Evid} (hev : EvidenceOK st.vs.variables ev)
    (q : List Var) (hu : utilities st.vs.variables ≠ []) (hno : ∀ f ∈ st.factors, f.isUtility = false) :
    Panics (st.solveUtility sch ev q none) := by
  obtain ⟨n, fs1, rs, a1, a2, a3, a4⟩ := eliminateEvidence_spec hids sch ev st
    (fun e he => by
      obtain ⟨b1, b2, b3⟩ := hev e he
      exact ⟨b1, b3⟩) hg
  have hpan := sumUtilities_lost sch { st with vs := { st.vs with factorCounter := n }, factors := fs1,
                                               tick := st.tick + ev.length } hu (by
    intro f hf
    obtain ⟨c, hc, hp⟩ := forall₂_mem_right a4 (a3.subset hf)
    have h1 := hno c hc
    simp only [Factor.isUtility, List.any_eq_false] at h1 ⊢
    intro v hv
    rw [hp.vars, List.mem_filter] at hv
    exact h1 v hv.1)
  obtain ⟨m, hm⟩ := hpan
  refine ⟨m, ?_⟩
  unfold VE.solveUtility VE.solve
  rw [a1, ok_bind]
  simp only [if_true]
  rw [hm]
  rfl

end Bbn
