import Verif.Lemmas.Hidden
import Verif.Spec.Solve

/-!
# Queries: evidence, then elimination, then the final product
-/

set_option autoImplicit false

namespace Bbn

open Finset

variable {α : Type}

theorem foldl_insertFactor (fs : List (Factor α)) : ∀ (acc : List (Factor α)), ((acc ++ fs).map Factor.id).Nodup →
    fs.foldl insertFactor acc = acc ++ fs := by
  induction fs with
  | nil => intro acc _; simp
  | cons f fs ih =>
    intro acc h
    have h1 : insertFactor acc f = acc ++ [f] := by
      unfold insertFactor
      rw [List.filter_eq_self.2]
      intro g hg
      simp only [decide_eq_true_eq]
      intro e
      rw [List.map_append, List.nodup_append] at h
      exact h.2.2 g.id (List.mem_map_of_mem hg) f.id (by simp) e
    rw [List.foldl_cons, h1, ih _ (by simpa using h)]
    simp

/-- A factor after plugging in the evidence. -/
structure Plugged [Zero α] (es : List Evid) (c r : Factor α) : Prop where
  wf : r.WF
  vars : r.vars = c.vars.filter (fun w => ∀ e ∈ es, e.var.id ≠ w.id)
  val : ∀ σ, Fits σ r.vars → r.val σ = c.val (plug es σ)

/-- `restrictEvidence` plugs the observation into each factor. -/
theorem restrictEvidence_each [CommSemiring α] {R : List Var} (hR : (R.map Var.id).Nodup) (sch : Sched α) (st : VE α)
    {v : Var} {k : Nat} (hv : v ∈ R) (hk : k < v.outcomes) (hg : Good R st.vs.factorCounter st.factors) :
    ∃ n fs' rs, st.restrictEvidence sch ⟨v, k⟩ =
        .ok { st with vs := { st.vs with factorCounter := n }, factors := fs', tick := st.tick + 1 } ∧
      Good R n fs' ∧ fs'.Perm rs ∧ List.Forall₂ (IsRestr v.id k) st.factors rs := by
  set p : Factor α → Bool := fun f => decide (v ∈ f.vars) with hp
  have hit : (st.iter sch).Perm st.factors := sch.fac_perm _ _
  have hsplit := (filter_perm_split p).trans ((hit.symm.filter p).append_right (st.factors.filter (fun f => !p f)))
  obtain ⟨n, rs, fs', h1, h2, h3, h4⟩ := restrictIds_spec (R := R) hk ((st.iter sch).filter p)
    (st.factors.filter (fun f => !p f)) { st with tick := st.tick + 1 } hsplit hg
    (fun c hc => by simpa [hp] using (List.mem_filter.1 hc).2)
  have hno : ∀ f ∈ st.factors.filter (fun f => !p f), v.id ∉ f.vars.map Var.id := by
    intro f hf hin
    obtain ⟨w, hw, e⟩ := List.mem_map.1 hin
    obtain ⟨hf1, hf2⟩ := List.mem_filter.1 hf
    have : w = v := coherent_of_nodup hR w (hg.sub f hf1 w hw) v hv e
    subst this
    simp [hp, hw] at hf2
  have hrest : List.Forall₂ (IsRestr v.id k) (st.factors.filter (fun f => !p f)) (st.factors.filter (fun f => !p f)) := by
    rw [List.forall₂_same]
    intro f hf
    refine ⟨hg.wf f (List.mem_filter.1 hf).1, ?_, ?_⟩
    · unfold otherVars
      rw [List.filter_eq_self.2]
      intro w hw
      simp only [decide_eq_true_eq]
      exact fun e => hno f hf (e ▸ List.mem_map_of_mem hw)
    · intro σ _
      apply f.val_congr
      intro w hw
      have : w.id ≠ v.id := fun e => hno f hf (e ▸ List.mem_map_of_mem hw)
      simp [Assignment.upd, this]
  have hall := List.rel_append h3 hrest
  obtain ⟨rs2, hr1, hr2⟩ := List.perm_comp_forall₂ hsplit hall
  refine ⟨n, fs', rs2, h1, h4, ?_, hr1⟩
  exact h2.trans (List.perm_append_comm.trans hr2.symm)

theorem forall₂_comp {A B C : Type} {P : A → B → Prop} {Q : B → C → Prop} {T : A → C → Prop} {as : List A}
    {bs : List B} {cs : List C} (h : ∀ a ∈ as, ∀ b c, P a b → Q b c → T a c) (h1 : List.Forall₂ P as bs)
    (h2 : List.Forall₂ Q bs cs) : List.Forall₂ T as cs := by
  induction h1 generalizing cs with
  | nil => cases h2; exact .nil
  | @cons a b as bs hab _ ih =>
    cases h2 with
    | cons hbc h2 =>
      exact .cons (h a (by simp) _ _ hab hbc) (ih (fun a ha => h a (by simp [ha])) h2)

theorem plug_cons (e : Evid) (es : List Evid) (σ : Assignment) :
    plug (e :: es) σ = (plug es σ).upd e.var.id e.value.toNat := by
  funext i
  simp only [plug, List.find?_cons, Assignment.upd]
  by_cases h : e.var.id = i
  · simp [h]
  · have : ¬ i = e.var.id := fun h' => h h'.symm
    simp [h, this]

theorem Plugged.nil [Zero α] {c : Factor α} (h : c.WF) : Plugged [] c c where
  wf := h
  vars := by simp
  val σ _ := by congr 1

/-- Plugging in one observation after the other. -/
theorem eliminateEvidence_spec [CommSemiring α] {R : List Var} (hR : (R.map Var.id).Nodup) (sch : Sched α)
    (es : List Evid) : ∀ (st : VE α), (∀ e ∈ es, e.var ∈ R ∧ 0 ≤ e.value ∧ e.value < e.var.outcomes) →
      Good R st.vs.factorCounter st.factors →
    ∃ n fs' rs, st.eliminateEvidence sch es =
        .ok { st with vs := { st.vs with factorCounter := n }, factors := fs', tick := st.tick + es.length } ∧
      Good R n fs' ∧ fs'.Perm rs ∧ List.Forall₂ (Plugged es) st.factors rs := by
  induction es with
  | nil =>
    intro st _ hg
    refine ⟨st.vs.factorCounter, st.factors, st.factors, rfl, hg, List.Perm.refl _, ?_⟩
    rw [List.forall₂_same]
    exact fun f hf => Plugged.nil (hg.wf f hf)
  | cons e es ih =>
    intro st he hg
    obtain ⟨he1, he2, he3⟩ := he e (by simp)
    have hval : ((e.value.toNat : Nat) : Int) = e.value := Int.toNat_of_nonneg he2
    have hk : e.value.toNat < e.var.outcomes := by omega
    obtain ⟨n1, fs1, rs1, a1, a2, a3, a4⟩ := restrictEvidence_each hR sch st he1 hk hg
    rw [hval] at a1
    obtain ⟨n2, fs2, rs2, b1, b2, b3, b4⟩ := ih
      { st with vs := { st.vs with factorCounter := n1 }, factors := fs1, tick := st.tick + 1 }
      (fun e' h => he e' (by simp [h])) a2
    obtain ⟨rs3, c1, c2⟩ := List.perm_comp_forall₂ a3.symm b4
    refine ⟨n2, fs2, rs3, ?_, b2, b3.trans c2.symm, ?_⟩
    · unfold VE.eliminateEvidence at b1 ⊢
      rw [List.foldlM_cons, a1, ok_bind, b1]
      simp [Nat.add_assoc, Nat.add_comm 1]
    · refine forall₂_comp ?_ a4 c1
      intro c hc r s hcr hrs
      refine ⟨hrs.wf, ?_, ?_⟩
      · rw [hrs.vars, hcr.vars, otherVars, List.filter_filter]
        apply List.filter_congr
        intro w _
        rw [Bool.eq_iff_iff]
        simp only [Bool.and_eq_true, decide_eq_true_eq, List.mem_cons, forall_eq_or_imp, ne_eq]
        constructor
        · rintro ⟨h1, h2⟩; exact ⟨fun h => h2 h.symm, h1⟩
        · rintro ⟨h1, h2⟩; exact ⟨h2, fun h => h1 h.symm⟩
      · intro σ hσ
        rw [hrs.val σ hσ, hcr.val, plug_cons]
        -- the assignment fits the variables left after the first observation
        intro w hw
        unfold plug
        cases hf : es.find? (fun e => e.var.id = w.id) with
        | none =>
          simp only
          apply hσ
          rw [hrs.vars, List.mem_filter]
          refine ⟨hw, ?_⟩
          simp only [decide_eq_true_eq]
          intro e' he' h'
          have := List.find?_eq_none.1 hf e' he'
          simp [h'] at this
        | some e' =>
          simp only
          have hmem := List.mem_of_find?_eq_some hf
          have hid : e'.var.id = w.id := by simpa using List.find?_some hf
          obtain ⟨h1, h2, h3⟩ := he e' (by simp [hmem])
          have hwR : w ∈ R := hg.sub c hc w (by rw [hcr.vars] at hw; exact (mem_otherVars.1 hw).1)
          have : e'.var = w := coherent_of_nodup hR _ h1 _ hwR hid
          rw [← this]; omega

theorem depsOf_eq {deps : List (Var × List Var)} (h : (deps.map Prod.fst).Nodup) {e : Var × List Var} (he : e ∈ deps) :
    depsOf deps e.1 = e.2 := by
  unfold depsOf
  cases hf : deps.find? (fun x => x.1 = e.1) with
  | none =>
    have := List.find?_eq_none.1 hf e he
    simp at this
  | some x =>
    have h1 := List.mem_of_find?_eq_some hf
    have h2 : x.1 = e.1 := by simpa using List.find?_some hf
    rw [List.inj_on_of_nodup_map h h1 he h2]

theorem VarsOK.ext_index {R : List Var} (h : VarsOK R) {v w : Var} (hv : v ∈ R) (hw : w ∈ R) (e : v.index = w.index) :
    v = w := by
  have h1 := h.get_index hv
  have h2 := h.get_index hw
  rw [e, h2] at h1
  exact (Option.some.inj h1).symm

theorem hiddenSet_eq {R : List Var} (hR : VarsOK R) {deps : List (Var × List Var)} (hk : (deps.map Prod.fst).Nodup)
    (hdv : ∀ e ∈ deps, e.1 ∈ R ∧ ∀ p ∈ e.2, p ∈ R) {elim : List Bool}
    (qx : List Var)
    (hel : ∀ v ∈ R, v.nodeType = .chance → (elim[v.index]? = some false ↔ ∀ w ∈ qx, w.id ≠ v.id)) {decs : List Var}
    (hdec : decs.Perm (R.filter (fun v => v.nodeType = .decision))) (ev : List Evid) (q : List Var) :
    hiddenSet R elim ((considered false decs).flatMap (depsOf deps)) ev q = hidden R deps ev (q ++ qx) := by
  unfold hiddenSet hidden
  apply List.filter_congr
  intro v hv
  have hpar : (∀ p ∈ (considered false decs).flatMap (depsOf deps), p.index ≠ v.index) ↔
      ∀ e ∈ deps, e.1.nodeType = .decision → ∀ p ∈ e.2, p.id ≠ v.id := by
    constructor
    · intro h e he hn p hp heq
      have hpv : p = v := coherent_of_nodup hR.ids p ((hdv e he).2 p hp) v hv heq
      refine h p (List.mem_flatMap.2 ⟨e.1, ?_, ?_⟩) (by rw [hpv])
      · simp only [considered, Bool.false_eq_true, if_false, List.mem_reverse]
        exact hdec.symm.subset (by simp [(hdv e he).1, hn])
      · rw [depsOf_eq hk he]; exact hp
    · intro h p hp heq
      obtain ⟨d, hd, hp⟩ := List.mem_flatMap.1 hp
      obtain ⟨e, he, rfl, hpe⟩ := depsOf_mem hp
      have hd2 := hdec.subset (mem_considered hd)
      simp only [List.mem_filter, decide_eq_true_eq] at hd2
      have := hR.ext_index ((hdv e he).2 p hpe) hv heq
      exact h e he hd2.2 p hpe (by rw [this])
  rw [Bool.eq_iff_iff]
  simp only [decide_eq_true_eq, hpar, List.forall_mem_append]
  constructor
  · rintro ⟨h1, h2, h3, h4, h5⟩; exact ⟨h1, h4, ⟨h5, (hel v hv h1).1 h2⟩, h3⟩
  · rintro ⟨h1, h4, ⟨h5, h2⟩, h3⟩; exact ⟨h1, (hel v hv h1).2 h2, h3, h4, h5⟩

/-- The last two steps of a query, in a state where the chance variables in `qx` have been summed out before. -/
theorem finish_again [CommSemiring α] (sch : Sched α) (st : VE α) (hR : VarsOK st.vs.variables)
    (hk : (st.deps.map Prod.fst).Nodup) (hdv : ∀ e ∈ st.deps, e.1 ∈ st.vs.variables ∧ ∀ p ∈ e.2, p ∈ st.vs.variables)
    (hlen : st.eliminated.length = st.vs.variables.length)
    (qx : List Var)
    (hel : ∀ v ∈ st.vs.variables, v.nodeType = .chance → (st.eliminated[v.index]? = some false ↔ ∀ w ∈ qx, w.id ≠ v.id))
    (hg : Good st.vs.variables st.vs.factorCounter st.factors) (ev : List Evid) (q : List Var)
    (hin : ∀ v ∈ hidden st.vs.variables st.deps ev (q ++ qx), ∃ f ∈ st.factors, v ∈ f.vars) :
    ∃ g st', (st.eliminateHidden sch ev q false >>= fun st => st.multiplyAll sch) = .ok (g, st') ∧ g.WF ∧
      (∀ v, v ∈ g.vars ↔ (∃ f ∈ st.factors, v ∈ f.vars) ∧ v ∉ hidden st.vs.variables st.deps ev (q ++ qx)) ∧
      (∀ σ, Fits σ g.vars → g.val σ = sumOver (hidden st.vs.variables st.deps ev (q ++ qx)) (joint st.factors) σ) ∧
      (∃ hs : List Var, st'.log = st.log ++ hs.map Var.id ∧ hs.Perm (hidden st.vs.variables st.deps ev (q ++ qx)) ∧
        hs.Pairwise (DegreeThenId (scopes st.factors))) ∧
      ∃ n, st'.vs = { st.vs with factorCounter := n } ∧ st'.deps = st.deps ∧ st'.weights = st.weights ∧
        st'.factors = [g] ∧ g.id < n ∧ st'.eliminated.length = st.vs.variables.length ∧
        (∀ i : Nat, st'.eliminated[i]? = some true ↔ st.eliminated[i]? = some true ∨
          ∃ h ∈ hidden st.vs.variables st.deps ev (q ++ qx), h.index = i) := by
  have hdok : DepsOK st.vs.variables st.deps := by
    refine ⟨?_, fun e he p hp => hR.index_lt ((hdv e he).2 p hp)⟩
    rintro v hv p ⟨e, he, h1, h2, h3⟩
    simp [(hdv e he).2 p h2, h3]
  obtain ⟨decs, t, d1, d2, _⟩ := getDecisions_spec sch st hR hdok
  have hset := hiddenSet_eq hR hk hdv qx hel d2 ev q
  set hid := hidden st.vs.variables st.deps ev (q ++ qx) with hhid
  have hidR : ∀ v ∈ hid, v ∈ st.vs.variables := fun v hv => (List.mem_filter.1 hv).1
  obtain ⟨n, fs', el, t', hs, a1, a2, a3, a4, a5, a6, a7, a8, _⟩ := eliminateHidden_spec hR sch st rfl hlen hdok hg ev q
    false d1 rfl (by
      rw [hset]
      intro v hv
      obtain ⟨f, hf, hvf⟩ := hin v hv
      exact mem_scopes_sup.2 ⟨f, hf, mem_scope.2 ⟨v, hvf, rfl⟩⟩)
  rw [hset] at a5
  set st1 : VE α := { st with vs := { st.vs with factorCounter := n }, factors := fs', tick := t',
                              eliminated := el, log := st.log ++ hs.map Var.id } with hst1
  have hit : (st1.iter sch).Perm fs' := sch.fac_perm _ _
  have hg' := a2.perm hit.symm
  obtain ⟨g, b1, b2, b3, b4, b5⟩ := product_spec st1.vs (st1.iter sch) hg'.wf (coherentFs_of_sub hR.ids hg'.sub)
  have hgv : ∀ v, v ∈ g.vars ↔ ∃ f ∈ fs', v ∈ f.vars := by
    intro v
    rw [b4, mem_scopeUnion]
    constructor
    · rintro ⟨f, hf, h⟩; exact ⟨f, hit.subset hf, h⟩
    · rintro ⟨f, hf, h⟩; exact ⟨f, hit.symm.subset hf, h⟩
  refine ⟨g, { st1 with vs := { st1.vs with factorCounter := st1.vs.factorCounter + 1 }, tick := st1.tick + 1,
                        factors := insertFactor [] g }, ?_, b2, ?_, ?_, ⟨hs, rfl, a5, a6⟩, n + 1, rfl, rfl, rfl, rfl, ?_, a3, ?_⟩
  · rw [a1, ok_bind]
    unfold VE.multiplyAll
    rw [b1]; rfl
  · intro v
    rw [hgv v]
    have key : ∀ (gs : List (Factor α)) (_ : ∀ f ∈ gs, ∀ v ∈ f.vars, v ∈ st.vs.variables), v ∈ st.vs.variables →
        ((∃ f ∈ gs, v ∈ f.vars) ↔ v.id ∈ (scopes gs).sup) := by
      intro gs hgs hv
      rw [mem_scopes_sup]
      constructor
      · rintro ⟨f, hf, h⟩; exact ⟨f, hf, mem_scope.2 ⟨v, h, rfl⟩⟩
      · rintro ⟨f, hf, h⟩
        obtain ⟨w, hw, e⟩ := mem_scope.1 h
        have := coherent_of_nodup hR.ids w (hgs f hf w hw) v hv e
        exact ⟨f, hf, this ▸ hw⟩
    have hidiff : v ∈ st.vs.variables → (v ∈ hid ↔ v.id ∈ hs.map Var.id) := by
      intro hv
      constructor
      · intro h; exact List.mem_map_of_mem (a5.symm.subset h)
      · intro h
        obtain ⟨w, hw, e⟩ := List.mem_map.1 h
        have hw2 := a5.subset hw
        have := coherent_of_nodup hR.ids w (hidR w hw2) v hv e
        exact this ▸ hw2
    constructor
    · rintro ⟨f, hf, h⟩
      have hv := a2.sub f hf v h
      have h2 := (key fs' a2.sub hv).1 ⟨f, hf, h⟩
      rw [a7, mem_foldl_elimScopes] at h2
      exact ⟨(key _ hg.sub hv).2 h2.1, fun h => h2.2 ((hidiff hv).1 h)⟩
    · rintro ⟨⟨f, hf, h⟩, h2⟩
      have hv := hg.sub f hf v h
      refine (key fs' a2.sub hv).2 ?_
      rw [a7, mem_foldl_elimScopes]
      exact ⟨(key _ hg.sub hv).1 ⟨f, hf, h⟩, fun h => h2 ((hidiff hv).2 h)⟩
  · intro σ hσ
    rw [b5 σ hσ]
    have h1 : ((st1.iter sch).map (fun g => g.val σ)).prod = joint fs' σ := joint_perm hit σ
    rw [h1, a8 σ (fun f hf v hv => hσ v ((hgv v).2 ⟨f, hf, hv⟩))]
    apply sumOver_perm a5
    exact (a5.map _).nodup_iff.2 ((List.filter_sublist.map _).nodup hR.ids)
  · rw [b3]; exact Nat.lt_succ_self _
  · intro i
    refine (a4 i).trans ?_
    constructor
    · rintro (h | ⟨w, hw, e⟩)
      · exact .inl h
      · exact .inr ⟨w, a5.subset hw, e⟩
    · rintro (h | ⟨w, hw, e⟩)
      · exact .inl h
      · exact .inr ⟨w, a5.symm.subset hw, e⟩

/-- The last two steps of a query. -/
theorem finish_spec [CommSemiring α] (sch : Sched α) (st : VE α) (hR : VarsOK st.vs.variables)
    (hk : (st.deps.map Prod.fst).Nodup) (hdv : ∀ e ∈ st.deps, e.1 ∈ st.vs.variables ∧ ∀ p ∈ e.2, p ∈ st.vs.variables)
    (hlen : st.eliminated.length = st.vs.variables.length)
    (hel : ∀ v ∈ st.vs.variables, v.nodeType = .chance → st.eliminated[v.index]? = some false)
    (hg : Good st.vs.variables st.vs.factorCounter st.factors) (ev : List Evid) (q : List Var)
    (hin : ∀ v ∈ hidden st.vs.variables st.deps ev q, ∃ f ∈ st.factors, v ∈ f.vars) :
    ∃ g st', (st.eliminateHidden sch ev q false >>= fun st => st.multiplyAll sch) = .ok (g, st') ∧ g.WF ∧
      (∀ v, v ∈ g.vars ↔ (∃ f ∈ st.factors, v ∈ f.vars) ∧ v ∉ hidden st.vs.variables st.deps ev q) ∧
      (∀ σ, Fits σ g.vars → g.val σ = sumOver (hidden st.vs.variables st.deps ev q) (joint st.factors) σ) ∧
      ∃ hs : List Var, st'.log = st.log ++ hs.map Var.id ∧ hs.Perm (hidden st.vs.variables st.deps ev q) ∧
        hs.Pairwise (DegreeThenId (scopes st.factors)) := by
  obtain ⟨g, st', h1, h2, h3, h4, h5, _⟩ := finish_again sch st hR hk hdv hlen [] (by
    intro v hv hc; simp [hel v hv hc]) hg ev q (by simpa using hin)
  rw [List.append_nil] at h3 h4 h5
  exact ⟨g, st', h1, h2, h3, h4, h5⟩

/-- `removeUtilities` drops the factors with other utility variables. -/
theorem removeUtilities_spec (sch : Sched α) (st : VE α) {R : List Var} {c : Nat} (hg : Good R c st.factors)
    (except : Option Var) :
    ∃ t', st.removeUtilities sch except =
      { st with factors := st.factors.filter (fun f => !(utilities st.vs.variables).any
                  (fun u => notExcept except u ∧ u ∈ f.vars)), tick := t' } := by
  unfold VE.removeUtilities
  dsimp only
  split
  · rename_i h
    refine ⟨st.tick, ?_⟩
    rw [List.filter_eq_self.2]
    intro f _
    simp only [Bool.not_eq_true', List.any_eq_false]
    intro u hu
    simp only [utilities, List.mem_filter, decide_eq_true_eq] at hu
    have := List.eq_nil_of_length_eq_zero h
    rw [List.filter_eq_nil_iff] at this
    have := this u hu.1
    simp only [hu.2, decide_eq_true_eq, true_and] at this
    simp [this]
  · refine ⟨st.tick + 1, ?_⟩
    rw [deleteAll_filter hg.ids (show (st.iter sch).Perm st.factors from sch.fac_perm _ _)]
    congr 1
    apply List.filter_congr
    intro f _
    congr 1
    rw [Bool.eq_iff_iff]
    simp only [List.any_eq_true, utilities, List.mem_filter, decide_eq_true_eq]
    constructor
    · rintro ⟨u, ⟨h1, h2, h3⟩, h4⟩; exact ⟨u, ⟨h1, h2⟩, h3, h4⟩
    · rintro ⟨u, ⟨h1, h2⟩, h3, h4⟩; exact ⟨u, ⟨h1, h2, h3⟩, h4⟩

theorem mem_isUtility {vars : List Var} {f : Factor α} (h : ∀ v ∈ f.vars, v ∈ vars) :
    (utilities vars).any (fun u => u ∈ f.vars) = f.isUtility := by
  rw [Bool.eq_iff_iff]
  simp only [utilities, Factor.isUtility, List.any_eq_true, List.mem_filter, decide_eq_true_eq]
  constructor
  · rintro ⟨u, ⟨_, h1⟩, h2⟩; exact ⟨u, h2, h1⟩
  · rintro ⟨u, h2, h1⟩; exact ⟨u, ⟨h u h2, h1⟩, h2⟩

theorem forall₂_filter {A B : Type} {P : A → B → Prop} {p : A → Bool} {q : B → Bool} {as : List A} {bs : List B}
    (h : List.Forall₂ P as bs) (hpq : ∀ a ∈ as, ∀ b, P a b → p a = q b) :
    List.Forall₂ P (as.filter p) (bs.filter q) := by
  induction h with
  | nil => exact .nil
  | @cons a b as bs hab _ ih =>
    have h1 := hpq a (by simp) b hab
    have h2 := ih (fun a ha => hpq a (by simp [ha]))
    rw [List.filter_cons, List.filter_cons, ← h1]
    split
    · exact .cons hab h2
    · exact h2

theorem joint_plugged [CommSemiring α] {es : List Evid} {cs rs : List (Factor α)}
    (h : List.Forall₂ (Plugged es) cs rs) {σ : Assignment} (hσ : FitsFs σ rs) :
    joint rs σ = joint cs (plug es σ) := by
  induction h with
  | nil => rfl
  | @cons c r cs rs hcr _ ih =>
    have := ih (fun f hf => hσ f (by simp [hf]))
    simp only [joint, List.map_cons, List.prod_cons] at this ⊢
    rw [this, hcr.val σ (hσ r (by simp))]

/-- The IDs of the observed variables. -/
def evIds (es : List Evid) : Finset Nat := (es.map (fun e => e.var.id)).toFinset

theorem scopes_plugged [CommSemiring α] {es : List Evid} {cs rs : List (Factor α)}
    (h : List.Forall₂ (Plugged es) cs rs) : scopes rs = (scopes cs).map (fun s => s \ evIds es) := by
  induction h with
  | nil => rfl
  | @cons c r cs rs hcr _ ih =>
    simp only [scopes, List.map_cons] at ih ⊢
    rw [← Multiset.cons_coe, ← Multiset.cons_coe, Multiset.map_cons, ih]
    congr 1
    ext i
    simp only [mem_scope, hcr.vars, List.mem_filter, decide_eq_true_eq, Finset.mem_sdiff, evIds, List.mem_toFinset,
      List.mem_map, not_exists, not_and]
    constructor
    · rintro ⟨v, ⟨h1, h2⟩, rfl⟩; exact ⟨⟨v, h1, rfl⟩, fun e he => h2 e he⟩
    · rintro ⟨⟨v, h1, rfl⟩, h2⟩; exact ⟨v, ⟨h1, fun e he => h2 e he⟩, rfl⟩

theorem forall₂_mem_left {A B : Type} {P : A → B → Prop} {as : List A} {bs : List B} (h : List.Forall₂ P as bs) {a : A}
    (ha : a ∈ as) : ∃ b ∈ bs, P a b := by
  induction h with
  | nil => simp at ha
  | cons hab _ ih =>
    rcases List.mem_cons.1 ha with rfl | ha
    · exact ⟨_, by simp, hab⟩
    · obtain ⟨b, hb, h⟩ := ih ha
      exact ⟨b, by simp [hb], h⟩

theorem forall₂_mem_right {A B : Type} {P : A → B → Prop} {as : List A} {bs : List B} (h : List.Forall₂ P as bs) {b : B}
    (hb : b ∈ bs) : ∃ a ∈ as, P a b := by
  induction h with
  | nil => simp at hb
  | cons hab _ ih =>
    rcases List.mem_cons.1 hb with rfl | hb
    · exact ⟨_, by simp, hab⟩
    · obtain ⟨a, ha, h⟩ := ih hb
      exact ⟨a, by simp [ha], h⟩

/-- From the evidence on: what a query does if the remaining factors are those of `keep` with the evidence
plugged in. -/
theorem finish_plugged_again [CommSemiring α] (sch : Sched α) (st : VE α) (hR : VarsOK st.vs.variables)
    (hk : (st.deps.map Prod.fst).Nodup) (hdv : ∀ e ∈ st.deps, e.1 ∈ st.vs.variables ∧ ∀ p ∈ e.2, p ∈ st.vs.variables)
    (hlen : st.eliminated.length = st.vs.variables.length)
    (qx : List Var)
    (hel : ∀ v ∈ st.vs.variables, v.nodeType = .chance → (st.eliminated[v.index]? = some false ↔ ∀ w ∈ qx, w.id ≠ v.id))
    (hg : Good st.vs.variables st.vs.factorCounter st.factors) (ev : List Evid) (q : List Var)
    {keep rs : List (Factor α)} (hperm : st.factors.Perm rs) (hpl : List.Forall₂ (Plugged ev) keep rs)
    (hin : ∀ v ∈ hidden st.vs.variables st.deps ev (q ++ qx), ∃ f ∈ keep, v ∈ f.vars) :
    ∃ g st', (st.eliminateHidden sch ev q false >>= fun st => st.multiplyAll sch) = .ok (g, st') ∧ g.WF ∧
      (∀ v, v ∈ g.vars ↔ (∃ f ∈ keep, v ∈ f.vars) ∧ (∀ e ∈ ev, e.var.id ≠ v.id) ∧
        v ∉ hidden st.vs.variables st.deps ev (q ++ qx)) ∧
      (∀ σ, Fits σ g.vars → g.val σ =
        sumOver (hidden st.vs.variables st.deps ev (q ++ qx)) (fun τ => joint keep (plug ev τ)) σ) ∧
      (∃ hs : List Var, st'.log = st.log ++ hs.map Var.id ∧ hs.Perm (hidden st.vs.variables st.deps ev (q ++ qx)) ∧
        hs.Pairwise (DegreeThenId ((scopes keep).map (fun s => s \ evIds ev)))) ∧
      ∃ n, st'.vs = { st.vs with factorCounter := n } ∧ st'.deps = st.deps ∧ st'.weights = st.weights ∧
        st'.factors = [g] ∧ g.id < n ∧ st'.eliminated.length = st.vs.variables.length ∧
        (∀ i : Nat, st'.eliminated[i]? = some true ↔ st.eliminated[i]? = some true ∨
          ∃ h ∈ hidden st.vs.variables st.deps ev (q ++ qx), h.index = i) := by
  have hmem : ∀ v, (∃ f ∈ st.factors, v ∈ f.vars) ↔ (∃ f ∈ keep, v ∈ f.vars) ∧ ∀ e ∈ ev, e.var.id ≠ v.id := by
    intro v
    constructor
    · rintro ⟨f, hf, h⟩
      obtain ⟨c, hc, hp⟩ := forall₂_mem_right hpl (hperm.subset hf)
      rw [hp.vars, List.mem_filter] at h
      exact ⟨⟨c, hc, h.1⟩, by simpa using h.2⟩
    · rintro ⟨⟨c, hc, h⟩, h2⟩
      obtain ⟨r, hr, hp⟩ := forall₂_mem_left hpl hc
      refine ⟨r, hperm.symm.subset hr, ?_⟩
      rw [hp.vars, List.mem_filter]
      exact ⟨h, by simpa using h2⟩
  have hidev : ∀ v ∈ hidden st.vs.variables st.deps ev (q ++ qx), ∀ e ∈ ev, e.var.id ≠ v.id := by
    intro v hv
    have := (List.mem_filter.1 hv).2
    simp only [decide_eq_true_eq] at this
    exact this.2.1
  obtain ⟨g, st', h1, h2, h3, h4, ⟨hs, h5, h6, h7⟩, h8⟩ := finish_again sch st hR hk hdv hlen qx hel hg ev q
    (fun v hv => (hmem v).2 ⟨hin v hv, hidev v hv⟩)
  refine ⟨g, st', h1, h2, ?_, ?_, ⟨hs, h5, h6, ?_⟩, h8⟩
  · intro v
    rw [h3 v, hmem v, and_assoc]
  · intro σ hσ
    rw [h4 σ hσ]
    apply sumOver_congr
    · intro τ t1 t2
      rw [joint_perm hperm]
      apply joint_plugged hpl
      intro f hf v hv
      have hf2 := hperm.symm.subset hf
      have hvR := hg.sub f hf2 v hv
      by_cases hh : v.id ∈ (hidden st.vs.variables st.deps ev (q ++ qx)).map Var.id
      · obtain ⟨w, hw, e⟩ := List.mem_map.1 hh
        have := coherent_of_nodup hR.ids w (List.mem_filter.1 hw).1 v hvR e
        rw [← this]; exact t2 w hw
      · rw [t1 _ hh]
        apply hσ
        rw [h3]
        exact ⟨⟨f, hf2, hv⟩, fun h => hh (List.mem_map_of_mem h)⟩
    · exact (List.filter_sublist.map _).nodup hR.ids
  · rw [← scopes_plugged hpl, ← scopes_perm hperm]; exact h7

/-- From the evidence on: what a query does if the remaining factors are those of `keep` with the evidence
plugged in. -/
theorem finish_plugged [CommSemiring α] (sch : Sched α) (st : VE α) (hR : VarsOK st.vs.variables)
    (hk : (st.deps.map Prod.fst).Nodup) (hdv : ∀ e ∈ st.deps, e.1 ∈ st.vs.variables ∧ ∀ p ∈ e.2, p ∈ st.vs.variables)
    (hlen : st.eliminated.length = st.vs.variables.length)
    (hel : ∀ v ∈ st.vs.variables, v.nodeType = .chance → st.eliminated[v.index]? = some false)
    (hg : Good st.vs.variables st.vs.factorCounter st.factors) (ev : List Evid) (q : List Var)
    {keep rs : List (Factor α)} (hperm : st.factors.Perm rs) (hpl : List.Forall₂ (Plugged ev) keep rs)
    (hin : ∀ v ∈ hidden st.vs.variables st.deps ev q, ∃ f ∈ keep, v ∈ f.vars) :
    ∃ g st', (st.eliminateHidden sch ev q false >>= fun st => st.multiplyAll sch) = .ok (g, st') ∧ g.WF ∧
      (∀ v, v ∈ g.vars ↔ (∃ f ∈ keep, v ∈ f.vars) ∧ (∀ e ∈ ev, e.var.id ≠ v.id) ∧
        v ∉ hidden st.vs.variables st.deps ev q) ∧
      (∀ σ, Fits σ g.vars → g.val σ =
        sumOver (hidden st.vs.variables st.deps ev q) (fun τ => joint keep (plug ev τ)) σ) ∧
      ∃ hs : List Var, st'.log = st.log ++ hs.map Var.id ∧ hs.Perm (hidden st.vs.variables st.deps ev q) ∧
        hs.Pairwise (DegreeThenId ((scopes keep).map (fun s => s \ evIds ev))) := by
  obtain ⟨g, st', h1, h2, h3, h4, h5, _⟩ := finish_plugged_again sch st hR hk hdv hlen [] (by
    intro v hv hc; simp [hel v hv hc]) hg ev q hperm hpl (by simpa using hin)
  rw [List.append_nil] at h3 h4 h5
  exact ⟨g, st', h1, h2, h3, h4, h5⟩

theorem new_good {vs : Vs} {fs : List (Factor α)} {deps : List (Var × List Var)} (hp : Problem vs fs deps)
    (weights : Option (List α)) :
    VE.new vs fs deps weights =
      ⟨vs, List.replicate vs.variables.length false, deps, fs, weights, 0, []⟩ ∧ Good vs.variables vs.factorCounter fs ∧
      VarsOK vs.variables := by
  refine ⟨?_, ⟨hp.facIds, hp.facLt, hp.facWF, hp.facVars⟩, ⟨hp.ids, hp.index⟩⟩
  unfold VE.new
  rw [foldl_insertFactor fs [] (by simpa using hp.facIds)]
  simp

/-- The utility test gives the same before and after plugging in evidence on other variables. -/
theorem plugged_any [Zero α] {ev : List Evid} {vars : List Var} (hid : (vars.map Var.id).Nodup)
    (hev : EvidenceOK vars ev) {c r : Factor α} (h : Plugged ev c r) {u : Var} (hu : u ∈ vars)
    (hut : u.nodeType = .utility) : u ∈ r.vars ↔ u ∈ c.vars := by
  rw [h.vars, List.mem_filter]
  simp only [decide_eq_true_eq, and_iff_left_iff_imp]
  intro _ e he hid2
  obtain ⟨h1, h2, _⟩ := hev e he
  have := coherent_of_nodup hid _ h1 _ hu hid2
  rw [this] at h2
  exact h2 hut

/-- A query that drops some of the utility tables. -/
theorem solve_remove_spec [CommSemiring α] (sch : Sched α) {vs : Vs} {fs : List (Factor α)}
    {deps : List (Var × List Var)} (hp : Problem vs fs deps) (weights : Option (List α)) {ev : List Evid}
    (hev : EvidenceOK vs.variables ev) (q : List Var) (except : Option Var) {keep : List (Factor α)}
    (hkeep : keep = fs.filter (fun f => !(utilities vs.variables).any (fun u => notExcept except u ∧ u ∈ f.vars)))
    (hin : ∀ v ∈ hidden vs.variables deps ev q, ∃ f ∈ keep, v ∈ f.vars) :
    ∃ g st', ((VE.new vs fs deps weights).eliminateEvidence sch ev >>= fun st =>
        (pure (st.removeUtilities sch except) : Except Fault (VE α)) >>= fun st =>
          st.eliminateHidden sch ev q false >>= fun st => st.multiplyAll sch) = .ok (g, st') ∧ g.WF ∧
      (∀ v, v ∈ g.vars ↔ (∃ f ∈ keep, v ∈ f.vars) ∧ (∀ e ∈ ev, e.var.id ≠ v.id) ∧ v ∉ hidden vs.variables deps ev q) ∧
      (∀ σ, Fits σ g.vars → g.val σ =
        sumOver (hidden vs.variables deps ev q) (fun τ => joint keep (plug ev τ)) σ) ∧
      ∃ hs : List Var, st'.log = hs.map Var.id ∧ hs.Perm (hidden vs.variables deps ev q) ∧
        hs.Pairwise (DegreeThenId ((scopes keep).map (fun s => s \ evIds ev))) := by
  obtain ⟨h0, hg, hR⟩ := new_good hp weights
  obtain ⟨n, fs1, rs, a1, a2, a3, a4⟩ := eliminateEvidence_spec hR.ids sch ev (VE.new vs fs deps weights)
    (fun e he => by
      obtain ⟨b1, b2, b3⟩ := hev e he
      rw [h0] at *
      exact ⟨b1, b3⟩) (by rw [h0]; exact hg)
  rw [h0] at a4 a1
  rw [h0, a1, ok_bind]
  set st1 : VE α := ⟨{ vs with factorCounter := n }, List.replicate vs.variables.length false, deps, fs1, weights,
    0 + ev.length, []⟩ with hst1
  obtain ⟨t', b⟩ := removeUtilities_spec sch st1 a2 except
  set p : Factor α → Bool := fun f => !(utilities vs.variables).any (fun u => notExcept except u ∧ u ∈ f.vars) with hpd
  change st1.removeUtilities sch except = { st1 with factors := fs1.filter p, tick := t' } at b
  have key := finish_plugged sch { st1 with factors := fs1.filter p, tick := t' } hR hp.depKeys hp.depVars
    (by simp [hst1]) (by
      intro v hv _
      have := hR.index_lt hv
      simp [hst1, this])
    (a2.mono List.filter_sublist (Nat.le_refl _)) ev q (keep := keep) (rs := rs.filter p) (a3.filter p)
    (by
      rw [hkeep]
      apply forall₂_filter a4
      intro c _ r hcr
      simp only [hpd]
      congr 1
      rw [Bool.eq_iff_iff]
      simp only [List.any_eq_true, decide_eq_true_eq]
      constructor
      · rintro ⟨u, hu, h1, h2⟩
        have hu' := hu
        simp only [utilities, List.mem_filter, decide_eq_true_eq] at hu'
        exact ⟨u, hu, h1, (plugged_any hR.ids hev hcr hu'.1 hu'.2).2 h2⟩
      · rintro ⟨u, hu, h1, h2⟩
        have hu' := hu
        simp only [utilities, List.mem_filter, decide_eq_true_eq] at hu'
        exact ⟨u, hu, h1, (plugged_any hR.ids hev hcr hu'.1 hu'.2).1 h2⟩) hin
  obtain ⟨g, st', k1, k2, k3, k4, hs, k5, k6, k7⟩ := key
  refine ⟨g, st', ?_, k2, k3, k4, hs, by simpa [hst1] using k5, k6, k7⟩
  rw [b]
  exact k1

end Bbn
