import Verif.Lemmas.Signed
import Verif.Lemmas.Solve
import Verif.Lemmas.Utility
import Verif.Lemmas.TopoDet

/-!
# Solving decisions, last first
-/

set_option autoImplicit false

namespace Bbn

open Finset

variable {α : Type}

/-- Decisions that are no longer open are chance variables. -/
def openVar (L : List Var) (v : Var) : Var :=
  if v.nodeType = .decision ∧ v ∉ L then v.withNodeType .chance else v

theorem openVar_core (L : List Var) (v : Var) : core (openVar L v) = core v := by
  unfold openVar; split <;> rfl

theorem openVar_decision {L : List Var} {v : Var} :
    (openVar L v).nodeType = .decision ↔ v.nodeType = .decision ∧ v ∈ L := by
  unfold openVar
  split
  · rename_i h; simp [Var.withNodeType, h.2]
  · rename_i h
    constructor
    · intro hd; exact ⟨hd, by by_contra hn; exact h ⟨hd, hn⟩⟩
    · exact fun h => h.1

theorem openVar_chance {L : List Var} {v : Var} :
    (openVar L v).nodeType = .chance ↔ v.nodeType = .chance ∨ (v.nodeType = .decision ∧ v ∉ L) := by
  unfold openVar
  split
  · rename_i h; simp [Var.withNodeType, h]
  · rename_i h
    constructor
    · exact .inl
    · rintro (h1 | h1)
      · exact h1
      · exact absurd h1 h

theorem openVar_self {L : List Var} {v : Var} (h : v ∈ L) : openVar L v = v := by
  unfold openVar; rw [if_neg (by simp [h])]

/-- The state while the decisions `L` (last first) are still open. -/
structure PState (R : List Var) (deps : List (Var × List Var)) (st : VE α) (L : List Var) : Prop where
  vars : st.vs.variables = R.map (openVar L)
  depsEq : st.deps = deps
  len : st.eliminated.length = R.length
  good : Good R st.vs.factorCounter st.factors
  occur : ∀ v ∈ R, v.nodeType ≠ .utility → st.eliminated[v.index]? = some false → v.id ∈ (scopes st.factors).sup
  gone : ∀ v ∈ R, v.id ∈ (scopes st.factors).sup → v.nodeType ≠ .utility ∧ st.eliminated[v.index]? = some false
  openD : ∀ d ∈ L, d ∈ R ∧ d.nodeType = .decision ∧ st.eliminated[d.index]? = some false
  nodup : L.Nodup
  closed : ∀ d ∈ L, ∀ p, DecEdge deps p d → p ∈ L

/-- The variables that are not eliminated. -/
def live (R : List Var) (st : VE α) : List Var :=
  R.filter (fun v => v.nodeType ≠ .utility ∧ st.eliminated[v.index]? = some false)

/-- What is fixed about the problem. -/
structure Fixed (R : List Var) (deps : List (Var × List Var)) : Prop where
  vars : VarsOK R
  keys : (deps.map Prod.fst).Nodup
  dvars : ∀ e ∈ deps, e.1 ∈ R ∧ ∀ p ∈ e.2, p ∈ R

theorem Fixed.idKeys {R : List Var} {deps : List (Var × List Var)} (h : Fixed R deps) :
    (deps.map (fun e => e.1.id)).Nodup := by
  have : deps.map (fun e => e.1.id) = (deps.map Prod.fst).map Var.id := by simp
  rw [this]
  refine List.Nodup.map_on ?_ h.keys
  intro a ha b hb e
  obtain ⟨x, hx, rfl⟩ := List.mem_map.1 ha
  obtain ⟨y, hy, rfl⟩ := List.mem_map.1 hb
  exact coherent_of_nodup h.vars.ids _ (h.dvars x hx).1 _ (h.dvars y hy).1 e

theorem PState.core {R : List Var} {deps : List (Var × List Var)} {st : VE α} {L : List Var} (h : PState R deps st L) :
    st.vs.variables.map core = R.map core := by
  rw [h.vars, List.map_map]
  apply List.map_congr_left
  intro v _
  exact openVar_core L v

theorem PState.decisions {R : List Var} {deps : List (Var × List Var)} {st : VE α} {L : List Var}
    (h : PState R deps st L) {v : Var} :
    v ∈ st.vs.variables.filter (fun v => v.nodeType = .decision) ↔ v ∈ L := by
  rw [h.vars]
  simp only [List.mem_filter, List.mem_map, decide_eq_true_eq]
  constructor
  · rintro ⟨⟨w, hw, rfl⟩, h2⟩
    have := openVar_decision.1 h2
    rw [openVar_self this.2]; exact this.2
  · intro hv
    obtain ⟨h1, h2, _⟩ := h.openD v hv
    exact ⟨⟨v, h1, openVar_self hv⟩, h2⟩

theorem PState.depsOK {R : List Var} {deps : List (Var × List Var)} (hF : Fixed R deps) {st : VE α} {L : List Var}
    (h : PState R deps st L) : DepsOK st.vs.variables st.deps := by
  have hlen : st.vs.variables.length = R.length := by simpa using congrArg List.length h.core
  rw [h.depsEq]
  refine ⟨?_, fun e he p hp => hlen ▸ hF.vars.index_lt ((hF.dvars e he).2 p hp)⟩
  intro v hv p hp
  exact h.decisions.2 (h.closed v (h.decisions.1 hv) p hp)

theorem sumOver_map_core [AddCommMonoid α] {g : Var → Var} (hg : ∀ v, core (g v) = core v) (vs : List Var)
    (F : Assignment → α) (σ : Assignment) : sumOver (vs.map g) F σ = sumOver vs F σ := by
  induction vs generalizing σ with
  | nil => rfl
  | cons v vs ih =>
    have h := hg v
    simp only [core, Prod.mk.injEq] at h
    simp only [List.map_cons, sumOver, h.1, h.2.2, ih]

/-- The variables that one elimination removes. -/
def hiddenR (R : List Var) (L : List Var) (st : VE α) (kept : List Var) : List Var :=
  R.filter (fun v => (openVar L v).nodeType = .chance ∧ st.eliminated[v.index]? = some false ∧
    ∀ p ∈ kept, p.index ≠ v.index)

/-- One elimination of hidden variables while decisions are open. -/
theorem elim_step [CommSemiring α] {R : List Var} {deps : List (Var × List Var)} (hF : Fixed R deps) (sch : Sched α)
    {st : VE α} {L : List Var} (h : PState R deps st L) (single : Bool) {decs : List Var} {t : Nat}
    (hdec : st.getDecisions sch = .ok (decs, t)) {hr : List Var}
    (hhr : hr = hiddenR R L st ((considered single decs).flatMap (depsOf deps))) :
    ∃ n fs' el t' lg, st.eliminateHidden sch [] [] single =
        .ok { st with vs := { st.vs with factorCounter := n }, factors := fs', tick := t', eliminated := el,
                      log := lg } ∧
      PState R deps { st with vs := { st.vs with factorCounter := n }, factors := fs', tick := t', eliminated := el,
                              log := lg } L ∧
      (∀ v ∈ R, el[v.index]? = some false ↔ st.eliminated[v.index]? = some false ∧ v ∉ hr) ∧
      (∀ σ, FitsFs σ fs' → joint fs' σ = sumOver hr (joint st.factors) σ) ∧
      ∃ hs : List Var, Elims hs st.factors fs' ∧ hs.map Var.id ⊆ hr.map Var.id := by
  set kept := (considered single decs).flatMap (depsOf deps) with hkept
  have hset : hiddenSet st.vs.variables st.eliminated kept [] [] = hr.map (openVar L) := by
    rw [hhr]
    unfold hiddenSet hiddenR
    rw [h.vars, List.filter_map]
    congr 1
    apply List.filter_congr
    intro v _
    have hc := openVar_core L v
    simp only [core, Prod.mk.injEq] at hc
    simp [hc.2.1]
  have hrR : ∀ v ∈ hr, v ∈ R := by
    intro v hv; rw [hhr] at hv; exact (List.mem_filter.1 hv).1
  have hrp : ∀ v ∈ hr, (openVar L v).nodeType = .chance ∧ st.eliminated[v.index]? = some false := by
    intro v hv
    rw [hhr] at hv
    have := (List.mem_filter.1 hv).2
    simp only [decide_eq_true_eq] at this
    exact ⟨this.1, this.2.1⟩
  obtain ⟨n, fs', el, t', hs, a1, a2, a3, a4, a5, a6, a7, a8, a9⟩ := eliminateHidden_spec hF.vars sch st h.core h.len
    (h.depsOK hF) h.good [] [] single hdec (by rw [h.depsEq]) (by
      rw [hset]
      intro v hv
      obtain ⟨w, hw, rfl⟩ := List.mem_map.1 hv
      have hc := openVar_core L w
      simp only [core, Prod.mk.injEq] at hc
      rw [hc.1]
      refine h.occur w (hrR w hw) ?_ (hrp w hw).2
      rcases openVar_chance.1 (hrp w hw).1 with h1 | h1
      · rw [h1]; decide
      · rw [h1.1]; decide)
  rw [hset] at a5
  have hids : ∀ i, i ∈ hs.map Var.id ↔ i ∈ hr.map Var.id := by
    intro i
    have h1 := (a5.map Var.id).mem_iff (a := i)
    rw [h1, List.map_map]
    have : (Var.id ∘ openVar L) = Var.id := by
      funext v
      have hc := openVar_core L v
      simp only [core, Prod.mk.injEq] at hc
      exact hc.1
    rw [this]
  have hidx : ∀ v ∈ R, (∃ x ∈ hs, x.index = v.index) ↔ v ∈ hr := by
    intro v hv
    constructor
    · rintro ⟨x, hx, e⟩
      obtain ⟨w, hw, rfl⟩ := List.mem_map.1 (a5.subset hx)
      have hc := openVar_core L w
      simp only [core, Prod.mk.injEq] at hc
      rw [hc.2.1] at e
      rw [← hF.vars.ext_index (hrR w hw) hv e]; exact hw
    · intro hvr
      have hc := openVar_core L v
      simp only [core, Prod.mk.injEq] at hc
      exact ⟨openVar L v, a5.symm.subset (List.mem_map_of_mem hvr), hc.2.1⟩
  have hel : ∀ v ∈ R, el[v.index]? = some false ↔ st.eliminated[v.index]? = some false ∧ v ∉ hr := by
    intro v hv
    have hlt : v.index < el.length := by rw [a3]; exact hF.vars.index_lt hv
    have hlt2 : v.index < st.eliminated.length := by rw [h.len]; exact hF.vars.index_lt hv
    have h4 := a4 v.index
    rw [hidx v hv] at h4
    rcases getElem?_bool hlt with e | e <;> rcases getElem?_bool hlt2 with e2 | e2 <;> simp [e, e2] at h4 ⊢ <;>
      simp [h4]
  have hrid : ∀ v ∈ R, (v.id ∈ hs.map Var.id ↔ v ∈ hr) := by
    intro v hv
    rw [hids]
    constructor
    · intro hm
      obtain ⟨w, hw, e⟩ := List.mem_map.1 hm
      rw [← coherent_of_nodup hF.vars.ids w (hrR w hw) v hv e]; exact hw
    · exact fun hm => List.mem_map_of_mem hm
  refine ⟨n, fs', el, t', _, a1, ?_, hel, ?_, hs, a9, fun i hi => (hids i).1 hi⟩
  · refine ⟨h.vars, h.depsEq, a3, a2, ?_, ?_, ?_, h.nodup, h.closed⟩
    · intro v hv hu he
      simp only at he ⊢
      obtain ⟨e1, e2⟩ := (hel v hv).1 he
      rw [a7, mem_foldl_elimScopes, hrid v hv]
      exact ⟨h.occur v hv hu e1, e2⟩
    · intro v hv hin
      simp only at hin ⊢
      rw [a7, mem_foldl_elimScopes, hrid v hv] at hin
      obtain ⟨e1, e2⟩ := h.gone v hv hin.1
      exact ⟨e1, (hel v hv).2 ⟨e2, hin.2⟩⟩
    · intro d hd
      obtain ⟨e1, e2, e3⟩ := h.openD d hd
      refine ⟨e1, e2, (hel d e1).2 ⟨e3, ?_⟩⟩
      intro hdr
      have := (hrp d hdr).1
      rw [openVar_self hd, e2] at this
      cases this
  · intro σ hσ
    rw [a8 σ hσ, sumOver_perm a5]
    · exact sumOver_map_core (openVar_core L) hr _ σ
    · refine (a5.map _).nodup_iff.2 ?_
      rw [← hset]
      exact (List.filter_sublist.map _).nodup (hF.vars.of_core h.core).ids

theorem setChance_open {R : List Var} {deps : List (Var × List Var)} (hF : Fixed R deps) {d : Var} {L : List Var}
    (hd : d ∈ R) (hdt : d.nodeType = .decision) (hn : d ∉ L) :
    setChance (R.map (openVar (d :: L))) d.index = .ok (R.map (openVar L)) := by
  have hget : (R.map (openVar (d :: L)))[d.index]? = some d := by
    rw [List.getElem?_map, hF.vars.get_index hd]
    simp [openVar_self]
  have hlt : d.index < (R.map (openVar (d :: L))).length := by simpa using hF.vars.index_lt hd
  unfold setChance
  have h1 : goGet (R.map (openVar (d :: L))) d.index = .ok d := by
    unfold goGet; rw [hget]
  rw [h1, ok_bind, goSet_ok hlt]
  congr 1
  apply List.ext_getElem?
  intro i
  by_cases e : d.index = i
  · subst e
    rw [List.getElem?_set_self hlt, List.getElem?_map, hF.vars.get_index hd]
    simp [openVar, hdt, hn]
  · rw [List.getElem?_set_ne e, List.getElem?_map, List.getElem?_map]
    cases hv : R[i]? with
    | none => rfl
    | some v =>
      have hne : v ≠ d := by
        rintro rfl; exact e (hF.vars.idx i v hv)
      simp [openVar, hne]

/-- The factors of the last open decision, multiplied. -/
theorem factor_step [CommSemiring α] {R : List Var} {deps : List (Var × List Var)} (hF : Fixed R deps) (sch : Sched α)
    {st : VE α} {d : Var} {L : List Var} (h : PState R deps st (d :: L)) :
    ∃ (fac : Factor α) (n1 : Nat),
      decisionProduct st.vs (st.findDecisionFactors sch d) = .ok (fac, { st.vs with factorCounter := n1 }) ∧
      st.vs.factorCounter ≤ n1 ∧ fac.WF ∧ (∀ v ∈ fac.vars, ∃ f ∈ st.factors, v ∈ f.vars) ∧ d ∈ fac.vars ∧
      ∀ σ, FitsFs σ st.factors →
        joint st.factors σ = fac.val σ * joint (st.factors.filter (fun f => d.id ∉ scope f)) σ := by
  obtain ⟨hdR, hdt, hde⟩ := h.openD d (by simp)
  have hit : (st.iter sch).Perm st.factors := sch.fac_perm _ _
  set p : Factor α → Bool := fun f => decide (d ∈ f.vars) with hp
  have hpi : ∀ f ∈ st.factors, (p f = true ↔ d.id ∈ scope f) := by
    intro f hf
    simp only [hp, decide_eq_true_eq, mem_scope]
    constructor
    · intro h; exact ⟨d, h, rfl⟩
    · rintro ⟨v, hv, e⟩
      rw [← coherent_of_nodup hF.vars.ids v (h.good.sub f hf v hv) d hdR e]; exact hv
  set gs := (st.iter sch).filter p with hgs
  have hgsm : ∀ f ∈ gs, f ∈ st.factors := fun f hf => hit.subset (List.mem_filter.1 hf).1
  obtain ⟨f0, hf0, hin0⟩ := mem_scopes_sup.1 (h.occur d hdR (by rw [hdt]; decide) hde)
  have hf0g : f0 ∈ gs := List.mem_filter.2 ⟨hit.symm.subset hf0, (hpi f0 hf0).2 hin0⟩
  have hne : gs ≠ [] := List.ne_nil_of_mem hf0g
  have hfind : st.findDecisionFactors sch d = gs := by
    unfold VE.findDecisionFactors
    dsimp only
    rw [if_neg]
    intro h0
    exact hne (List.length_eq_zero_iff.1 h0)
  have hcoh : CoherentFs gs := coherentFs_of_sub hF.vars.ids (fun f hf => h.good.sub f (hgsm f hf))
  have hprod : ∃ fac n1, decisionProduct st.vs gs = .ok (fac, { st.vs with factorCounter := n1 }) ∧ st.vs.factorCounter ≤ n1 ∧
      fac.WF ∧ (∀ v, v ∈ fac.vars ↔ ∃ f ∈ gs, v ∈ f.vars) ∧
      ∀ σ, Fits σ fac.vars → fac.val σ = joint gs σ := by
    cases hg : gs with
    | nil => exact absurd hg hne
    | cons a l =>
      cases l with
      | nil =>
        refine ⟨a, st.vs.factorCounter, rfl, le_rfl, h.good.wf a (hgsm a (by simp [hg])), by simp, ?_⟩
        intro σ _; simp [joint]
      | cons b l =>
        rw [hg] at hcoh hgsm
        obtain ⟨q, h1, h2, h3, h4, h5⟩ := product_spec st.vs (a :: b :: l) (fun f hf => h.good.wf f (hgsm f hf)) hcoh
        exact ⟨q, _, h1, by omega, h2, fun v => by rw [h4, mem_scopeUnion], h5⟩
  obtain ⟨fac, n1, f1, f2, f3, f4, f5⟩ := hprod
  have hdfac : d ∈ fac.vars := (f4 d).2 ⟨f0, hf0g, by simpa [hp] using (List.mem_filter.1 hf0g).2⟩
  have hfsub : ∀ v ∈ fac.vars, ∃ f ∈ st.factors, v ∈ f.vars := by
    intro v hv
    obtain ⟨f, hf, hvf⟩ := (f4 v).1 hv
    exact ⟨f, hgsm f hf, hvf⟩
  refine ⟨fac, n1, by rw [hfind]; exact f1, f2, f3, hfsub, hdfac, ?_⟩
  intro σ hσ
  rw [f5 σ (fun v hv => by
    obtain ⟨f, hf, hvf⟩ := hfsub v hv
    exact hσ f hf v hvf)]
  rw [hgs, joint_perm (hit.filter p), joint_perm (filter_perm_split p), joint_append]
  congr 2
  apply List.filter_congr
  intro f hf
  rw [Bool.eq_iff_iff, Bool.not_eq_true', ← Bool.not_eq_true, hpi f hf]; simp

/-- One decision: the factor, the policy, and the state before the next elimination. -/
theorem policy_step [Field α] [LinearOrder α] [IsStrictOrderedRing α] {R : List Var} {deps : List (Var × List Var)}
    (hF : Fixed R deps) (sch : Sched α) {st : VE α} {d : Var} {L : List Var} (h : PState R deps st (d :: L))
    (hpos : 0 < d.outcomes) (hlast : ∀ e ∈ L, ¬ DecEdge deps d e) :
    ∃ (fac pol : Factor α) (n : Nat),
      (∀ single, st.solvePolicy sch single d =
        (VE.eliminateHidden sch { st with vs := { st.vs with «variables» := R.map (openVar L), factorCounter := n },
                                          tick := st.tick + 2, factors := st.factors ++ [pol] }
          [] [] single >>= fun st' => .ok ((d, fac, pol), st'))) ∧
      PState R deps { st with vs := { st.vs with «variables» := R.map (openVar L), factorCounter := n },
                              tick := st.tick + 2, factors := st.factors ++ [pol] } L ∧
      fac.WF ∧ (∀ v ∈ fac.vars, ∃ f ∈ st.factors, v ∈ f.vars) ∧ d ∈ fac.vars ∧
      (∀ σ, FitsFs σ st.factors →
        joint st.factors σ = fac.val σ * joint (st.factors.filter (fun f => d.id ∉ scope f)) σ) ∧
      pol.WF ∧ pol.vars = otherVars d.id fac.vars ++ [d] ∧ ∀ σ, Fits σ fac.vars → pol.val σ = policyVal fac d σ := by
  obtain ⟨hdR, hdt, hde⟩ := h.openD d (by simp)
  have hdn : d ∉ L := (List.nodup_cons.1 h.nodup).1
  have hLn : L.Nodup := (List.nodup_cons.1 h.nodup).2
  obtain ⟨fac, n1, f1, f2, f3, hfsub, hdfac, f6⟩ := factor_step hF sch h
  have hfR : ∀ v ∈ fac.vars, v ∈ R := by
    intro v hv
    obtain ⟨f, hf, hvf⟩ := hfsub v hv
    exact h.good.sub f hf v hvf
  obtain ⟨pol, p1, p2, p3, p4, p5⟩ := policy_spec { st.vs with factorCounter := n1 } fac f3 d d hdfac rfl hpos
  simp only at p3
  have hpR : ∀ v ∈ pol.vars, v ∈ fac.vars := by
    intro v hv
    rw [p4] at hv
    rcases List.mem_append.1 hv with hv | hv
    · exact (mem_otherVars.1 hv).1
    · simp only [List.mem_singleton] at hv
      rw [hv]; exact hdfac
  have hsup : ∀ i, i ∈ (scopes (st.factors ++ [pol])).sup ↔ i ∈ (scopes st.factors).sup := by
    intro i
    rw [mem_scopes_sup, mem_scopes_sup]
    constructor
    · rintro ⟨f, hf, hi⟩
      rcases List.mem_append.1 hf with hf | hf
      · exact ⟨f, hf, hi⟩
      · simp only [List.mem_singleton] at hf
        subst hf
        obtain ⟨v, hv, e⟩ := mem_scope.1 hi
        obtain ⟨f', hf', hvf'⟩ := hfsub v (hpR v hv)
        exact ⟨f', hf', mem_scope.2 ⟨v, hvf', e⟩⟩
    · rintro ⟨f, hf, hi⟩; exact ⟨f, by simp [hf], hi⟩
  refine ⟨fac, pol, n1 + 1, ?_, ?_, f3, hfsub, hdfac, f6, p2, p4, p5⟩
  · intro single
    unfold VE.solvePolicy
    rw [f1, ok_bind]
    dsimp only
    rw [p1, ok_bind]
    dsimp only
    rw [h.vars, setChance_open hF hdR hdt hdn, ok_bind, insertFactor_fresh h.good.lt (by omega)]
    rfl
  · refine ⟨rfl, h.depsEq, h.len, ?_, ?_, ?_, ?_, hLn, ?_⟩
    · exact h.good.append p2 (fun v hv => hfR v (hpR v hv)) (by omega) (by simp; omega)
    · intro v hv hu he
      exact (hsup v.id).2 (h.occur v hv hu he)
    · intro v hv hin
      exact h.gone v hv ((hsup v.id).1 hin)
    · intro e he; exact h.openD e (by simp [he])
    · intro e he q hq
      rcases List.mem_cons.1 (h.closed e (by simp [he]) q hq) with rfl | hq2
      · exact absurd hq (hlast e he)
      · exact hq2

end Bbn
