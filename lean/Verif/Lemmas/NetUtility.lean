import Verif.Lemmas.NetSolve

/-!
# `SolveUtility` of a network
-/

set_option autoImplicit false

namespace Bbn

open Finset

variable {α : Type}

/-- All variables have an outcome they have. -/
def Net.FitsAll (n : Net α) (w : World) : Prop := ∀ v ∈ n.variables, w v.name < v.outcomes.length

theorem Net.FitsAll.state {n : Net α} {w : World} (h : n.FitsAll w) : n.FitsWorld w :=
  fun v hv => h v (mem_stateVars.1 hv).1

theorem Net.FitsAll.utility {n : Net α} (hn : n.Valid) {w : World} (h : n.FitsAll w) {v : NVar} (hv : v ∈ n.variables)
    (hu : v.nodeType = .utility) (ht : v.name ≠ n.totalName) : w v.name = 0 := by
  have := h v hv
  rw [hn.single v hv hu ht] at this
  omega

theorem observe_none {n : Net α} {evidence : List (String × String)} {s : String} (h : ∀ e ∈ evidence, e.1 ≠ s)
    (w : World) : n.observe evidence w s = w s := by
  unfold Net.observe
  have : evidence.find? (fun e => e.1 = s) = none := by
    rw [List.find?_eq_none]; intro e he; simpa using h e he
  rw [this]

theorem observe_some {n : Net α} (hn : n.Valid) {evidence : List (String × String)}
    (hk : (evidence.map Prod.fst).Nodup) {e : String × String} (he : e ∈ evidence) {v : NVar} (hv : v ∈ n.variables)
    (hvn : v.name = e.1) (w : World) : n.observe evidence w v.name = v.outcomes.idxOf e.2 := by
  unfold Net.observe
  cases hf : evidence.find? (fun x => x.1 = v.name) with
  | none =>
    rw [List.find?_eq_none] at hf
    exact absurd hvn.symm (by simpa using hf e he)
  | some x =>
    have h1 : x.1 = v.name := by simpa using List.find?_some hf
    have : x = e := List.inj_on_of_nodup_map hk (List.mem_of_find?_eq_some hf) he (h1.trans hvn)
    subst this
    dsimp only
    rw [find_name hn hv]; rfl

section
variable {n : Net α} (hn : n.Valid) {evidence l : List (String × String)} (hev : n.EvidenceOK evidence)
  (hl : l.Perm evidence)
include hn hev hl

omit hl in
theorem observe_fits {w : World} (hw : n.FitsAll w) : n.FitsAll (n.observe evidence w) := by
  intro v hv
  by_cases h : ∀ e ∈ evidence, e.1 ≠ v.name
  · rw [observe_none h]; exact hw v hv
  · simp only [not_forall, not_not, ne_eq] at h
    obtain ⟨e, he, h⟩ := h
    rw [observe_some hn hev.keys he hv h.symm]
    obtain ⟨u, hu, k1, _, k3⟩ := hev.known e he
    have := name_unique hn hu hv (k1.trans h)
    subst this
    exact List.idxOf_lt_length_of_mem k3

/-- Plugging in evidence is observing. -/
theorem plug_observe (w : World) : plug (l.map n.solverEv) (n.ids w) = n.ids (n.observe evidence w) := by
  funext i
  have hne : ∀ {v : NVar}, n.variables[i]? = some v → ∀ x ∈ l, (n.solverEv x).var.id = i → x.1 = v.name := by
    intro v hv x hx hi
    obtain ⟨u, hu, k1, k2, _⟩ := ev_known hev hl x hx
    obtain ⟨j, hj⟩ := List.getElem?_of_mem hu
    have hnt : n.totalUtility ≠ some j := fun e => k2 (total_utility hn hu ((totalName_iff hn hj).2 e))
    simp only [Net.solverEv, ← k1, varOf_eq hn hj hnt, Net.solverVar] at hi
    subst hi
    rw [hj] at hv
    simp at hv
    rw [← k1, hv]
  unfold plug
  cases hf : (l.map n.solverEv).find? (fun e => e.var.id = i) with
  | none =>
    dsimp only
    unfold Net.ids
    cases hv : n.variables[i]? with
    | none => rfl
    | some v =>
      dsimp only
      rw [observe_none]
      intro e he hen
      rw [List.find?_eq_none] at hf
      refine absurd ?_ (by simpa using hf (n.solverEv e) (List.mem_map_of_mem (hl.symm.subset he)))
      obtain ⟨u, hu, k1, k2, _⟩ := hev.known e he
      have := name_unique hn hu (List.mem_of_getElem? hv) (k1.trans hen)
      subst this
      have hnt : n.totalUtility ≠ some i := fun e => k2 (total_utility hn hu ((totalName_iff hn hv).2 e))
      simp only [Net.solverEv, hen, varOf_eq hn hv hnt, Net.solverVar]
  | some e =>
    have h1 : e.var.id = i := by simpa using List.find?_some hf
    obtain ⟨x, hx, rfl⟩ := List.mem_map.1 (List.mem_of_find?_eq_some hf)
    dsimp only
    obtain ⟨u, hu, k1, k2, k3⟩ := ev_known hev hl x hx
    obtain ⟨j, hj⟩ := List.getElem?_of_mem hu
    have hnt : n.totalUtility ≠ some j := fun e => k2 (total_utility hn hu ((totalName_iff hn hj).2 e))
    have hij : j = i := by
      simp only [Net.solverEv, ← k1, varOf_eq hn hj hnt, Net.solverVar] at h1
      exact h1
    subst hij
    unfold Net.ids
    rw [hj]
    dsimp only
    rw [observe_some hn hev.keys (hl.subset hx) hu k1]
    simp [Net.solverEv, ← k1, outcomesOf_name hn hu]

end

section
variable [Field α] [DecidableEq α] {n : Net α} (hn : n.Valid) (hp : n.PoliciesOK) {pols : List (String × Factor α)}
  (hpols : ∀ p ∈ pols, p ∈ n.policies) {vs : Vs} {fs ps : List (Factor α)} {deps : List (Var × List Var)}
  (hS : Solver n pols vs fs ps deps)
include hn hp hpols hS

omit hp hpols in
/-- The hidden solver variables are those of the hidden network variables. -/
theorem hidden_vars {evidence l : List (String × String)} (hev : n.EvidenceOK evidence) (hl : l.Perm evidence)
    {query : List String} (hq : ∀ q ∈ query, ∃ v ∈ n.stateVars, v.name = q) :
    (hidden vs.variables deps (l.map n.solverEv) (query.map n.varOf)).Perm
      ((n.hiddenVars evidence query).map (fun v => n.varOf v.name)) := by
  have hsub : ∀ v ∈ n.hiddenVars evidence query, v ∈ n.stateVars := fun v hv => (List.mem_filter.1 hv).1
  rw [List.perm_ext_iff_of_nodup]
  · intro w
    unfold hidden
    rw [List.mem_filter]
    simp only [decide_eq_true_eq]
    rw [List.mem_map]
    constructor
    · rintro ⟨hw, ht, he, hqq, hd⟩
      obtain ⟨v, hv, rfl⟩ := List.mem_map.1 ((mem_stateSolver hn hS.vars).2 ⟨hw, by rw [ht]; decide⟩)
      obtain ⟨hv1, hv2⟩ := mem_stateVars.1 hv
      have hvar := isVar_state hn hv1 hv2
      refine ⟨v, List.mem_filter.2 ⟨hv, ?_⟩, rfl⟩
      simp only [decide_eq_true_eq]
      refine ⟨?_, ?_, ?_, ?_⟩
      · obtain ⟨i, hi⟩ := List.getElem?_of_mem hv1
        have hnt : n.totalUtility ≠ some i := fun e => hv2 (total_utility hn hv1 ((totalName_iff hn hi).2 e))
        rw [varOf_eq hn hi hnt] at ht
        simp only [Net.solverVar, Net.solverType] at ht
        split_ifs at ht with h
        · exact .inr h.2
        · exact .inl ht
      · intro e hem hen
        exact he (n.solverEv e) (List.mem_map_of_mem (hl.symm.subset hem)) (by simp [Net.solverEv, hen])
      · intro hmem
        exact hqq _ (List.mem_map_of_mem hmem) rfl
      · intro f hf hk ho hmem
        have hfo : n.isOpen f = true := by simp [Net.isOpen, hk, ho]
        refine hd (n.depEntry f) (by rw [hS.deps_eq]; exact List.mem_map_of_mem (List.mem_filter.2 ⟨hf, hfo⟩)) ?_ _
          (List.mem_map_of_mem hmem) rfl
        obtain ⟨x, hx, hxn, hxt⟩ := isKind_mem.1 hk
        obtain ⟨i, hi⟩ := List.getElem?_of_mem hx
        have hnt : n.totalUtility ≠ some i := fun e => by
          have := total_utility hn hx ((totalName_iff hn hi).2 e)
          rw [hxt] at this; exact absurd this (by decide)
        simp only [Net.depEntry]
        rw [← hxn, varOf_eq hn hi hnt]
        simp [Net.solverVar, Net.solverType, hxt, hxn, ho]
    · rintro ⟨v, hv, rfl⟩
      obtain ⟨hv0, hvh⟩ := List.mem_filter.1 hv
      simp only [decide_eq_true_eq] at hvh
      obtain ⟨a1, a2, a3, a4⟩ := hvh
      obtain ⟨hv1, hv2⟩ := mem_stateVars.1 hv0
      have hvar := isVar_state hn hv1 hv2
      obtain ⟨i, hi⟩ := List.getElem?_of_mem hv1
      have hnt : n.totalUtility ≠ some i := fun e => hv2 (total_utility hn hv1 ((totalName_iff hn hi).2 e))
      refine ⟨hvar.varOf_mem hS.vars hn, ?_, ?_, ?_, ?_⟩
      · rw [varOf_eq hn hi hnt]
        simp only [Net.solverVar, Net.solverType]
        rcases a1 with a1 | a1
        · simp [a1]
        · cases hk : v.nodeType
          · simp
          · simp [a1]
          · exact absurd hk hv2
      · intro e he
        obtain ⟨x, hx, rfl⟩ := List.mem_map.1 he
        obtain ⟨u, hu, k1, k2, _⟩ := ev_known hev hl x hx
        intro hid
        have hux := isVar_state hn hu k2
        simp only [Net.solverEv, ← k1] at hid
        exact a2 x (hl.subset hx) (k1.symm.trans (Net.IsVar.inj hn hux hvar hid))
      · intro q hqm
        obtain ⟨s, hs, rfl⟩ := List.mem_map.1 hqm
        obtain ⟨u, hu, rfl⟩ := hq s hs
        obtain ⟨hu1, hu2⟩ := mem_stateVars.1 hu
        intro hid
        exact a3 (Net.IsVar.inj hn (isVar_state hn hu1 hu2) hvar hid ▸ hs)
      · intro e he hed p hpm hid
        rw [hS.deps_eq] at he
        obtain ⟨f, hf, rfl⟩ := List.mem_map.1 he
        obtain ⟨hf1, hf2⟩ := List.mem_filter.1 hf
        simp only [Net.isOpen, decide_eq_true_eq] at hf2
        obtain ⟨s, hs, rfl⟩ := List.mem_map.1 hpm
        have hnt : f.forVar ≠ n.totalName := by
          intro e
          obtain ⟨x, hx, hxn, hxt⟩ := isKind_mem.1 hf2.1
          have := total_utility hn hx (hxn.trans e)
          rw [hxt] at this; exact absurd this (by decide)
        have := Net.IsVar.inj hn (dims_isVar hn hf1 hnt s (by simp [NFactor.dims, hs])) hvar hid
        exact a4 f hf1 hf2.1 hf2.2 (this ▸ hs)
  · exact (List.Nodup.of_map _ hS.vars.ids).filter _
  · have := List.Nodup.of_map _ (stateSolver_ids hn)
    exact this.sublist (List.filter_sublist.map _)

omit hp hpols in
/-- The solver's utility variables. -/
theorem utilities_vars : utilities vs.variables = n.utilityNames.map n.varOf := by
  unfold utilities
  rw [hS.vars.vars_eq, utilityNames_eq, List.map_map, List.filter_map]
  have e : (n.solverVars 0 n.variables).filter ((fun v => decide (v.nodeType = NodeType.utility)) ∘ Prod.snd) =
      (n.solverVars 0 n.variables).filter (fun e => decide (e.1.nodeType = .utility)) := by
    apply List.filter_congr
    intro e he
    obtain ⟨j, h3, h4, h5⟩ := (mem_solverVars n).1 he
    simp only [Function.comp]
    rw [h5]
    simp only [Net.solverVar]
    congr 1
    exact propext solverType_utility
  rw [e]
  apply List.map_congr_left
  intro e he
  obtain ⟨j, h3, h4, h5⟩ := (mem_solverVars n).1 (List.mem_filter.1 he).1
  rw [Nat.zero_add] at h4 h5
  simp only [Function.comp]
  rw [varOf_eq hn h3 (fun e => h4 e.symm), h5]

omit [Field α] [DecidableEq α] hp hpols hS in
theorem utilityNames_nodup : n.utilityNames.Nodup := by
  have h : n.utilityNames.Sublist (n.variables.zipIdx.map (fun p => p.1.name)) := List.filter_sublist.map _
  have e : n.variables.zipIdx.map (fun p => p.1.name) = n.variables.map NVar.name := by
    have : n.variables.zipIdx.map (fun p => p.1.name) = (n.variables.zipIdx.map Prod.fst).map NVar.name := by
      rw [List.map_map]; rfl
    rw [this]; simp
  rw [e] at h
  exact hn.names.sublist h

omit [Field α] [DecidableEq α] hp hpols hS in
theorem utilityNames_perm : n.utilityNames.Perm (n.utilityVars.map NVar.name) := by
  have hnd : (n.utilityVars.map NVar.name).Nodup := hn.names.sublist (List.filter_sublist.map _)
  rw [List.perm_ext_iff_of_nodup (utilityNames_nodup hn) hnd]
  intro s
  rw [mem_utilityNames hn, List.mem_map]
  simp only [Net.utilityVars, List.mem_filter, decide_eq_true_eq]
  constructor
  · rintro ⟨v, h1, rfl, h2, h3⟩; exact ⟨v, ⟨h1, h2, h3⟩, rfl⟩
  · rintro ⟨v, ⟨h1, h2, h3⟩, rfl⟩; exact ⟨v, h1, rfl, h2, h3⟩

omit [Field α] [DecidableEq α] hp hpols hS in
theorem utility_isVar {s : String} (h : s ∈ n.utilityNames) : n.IsVar s := by
  obtain ⟨v, hv, rfl, _, h3⟩ := (mem_utilityNames hn).1 h
  exact isVar_of hn hv h3

omit hp hpols in
theorem weight_eq {s : String} (h : s ∈ n.utilityNames) : weightOf n.solverWeights vs.variables (n.varOf s) = n.weight s := by
  unfold weightOf
  rw [utilities_vars hn hS]
  unfold Net.solverWeights
  cases ht : n.totalUtility with
  | none => simp [Net.weight, ht]
  | some i =>
    dsimp only
    obtain ⟨j, hj⟩ := List.getElem?_of_mem h
    obtain ⟨hlt, rfl⟩ := List.getElem?_eq_some_iff.1 hj
    have hnd : (n.utilityNames.map n.varOf).Nodup :=
      List.Nodup.of_map _ (nodup_varOf hn (fun s hs => utility_isVar hn hs) (utilityNames_nodup hn))
    have : (n.utilityNames.map n.varOf).idxOf (n.varOf n.utilityNames[j]) = j := by
      have := hnd.idxOf_getElem j (by simpa using hlt)
      rwa [List.getElem_map] at this
    rw [this]
    simp [hlt]

omit [Field α] [DecidableEq α] hp hpols hS in
theorem fits_table {f : NFactor α} (hf : f ∈ n.factors) (ht : f.forVar ≠ n.totalName) {w : World}
    (hw : n.FitsAll w) : ∀ s ∈ f.dims, w s < n.count s := by
  intro s hs
  have : ∃ v ∈ n.variables, v.name = s := by
    simp only [NFactor.dims, List.mem_append, List.mem_singleton] at hs
    rcases hs with hs | rfl
    · obtain ⟨v, hv, h, _⟩ := hn.parents f hf ht s hs
      exact ⟨v, hv, h⟩
    · exact hn.known f hf
  obtain ⟨v, hv, rfl⟩ := this
  rw [count_eq hn hv]
  exact hw v hv

/-- The solver tables of a utility variable. -/
theorem utility_tables {s : String} (h : s ∈ n.utilityNames) :
    List.Forall₂ (TableFac n) (n.factors.filter (fun f => f.forVar = s)) ((fs ++ ps).filter (fun f => n.varOf s ∈ f.vars)) := by
  have hvar := utility_isVar hn h
  obtain ⟨v, hv, hvs, hvu, hvt⟩ := (mem_utilityNames hn).1 h
  have hty : (n.varOf s).nodeType = .utility := by
    rw [← hvs]; exact (varOf_utility hn hv (hvs ▸ hvt)).2 hvu
  have e1 : ps.filter (fun f => n.varOf s ∈ f.vars) = [] := by
    rw [List.filter_eq_nil_iff]
    intro f hf hm
    obtain ⟨p, hp1, hp2⟩ := forall₂_mem_right hS.policies hf
    have := policy_vars_state hp (hpols p hp1) hp2
    simp only [Factor.isUtility, List.any_eq_false, decide_eq_true_eq] at this
    exact this _ (by simpa using hm) hty
  rw [List.filter_append, e1, List.append_nil]
  have h2 := forall₂_filter (p := fun f => decide (f.forVar = s)) (q := fun f => decide (n.varOf s ∈ f.vars)) hS.tables (by
    intro f hf fac hfac
    obtain ⟨hf1, hf2⟩ := List.mem_filter.1 hf
    simp only [Net.isTable, decide_eq_true_eq] at hf2
    congr 1
    apply propext
    rw [hfac.vars, List.mem_map]
    constructor
    · rintro rfl; exact ⟨f.forVar, by simp [NFactor.dims], rfl⟩
    · rintro ⟨t, ht, e⟩
      have := Net.IsVar.inj hn (dims_isVar hn hf1 hf2.1 t ht) hvar (by rw [e])
      subst this
      simp only [NFactor.dims, List.mem_append, List.mem_singleton] at ht
      rcases ht with ht | ht
      · obtain ⟨x, hx, hxn, hxu⟩ := hn.parents f hf1 hf2.1 t ht
        exact absurd (name_unique hn hx hv (hxn.trans hvs.symm) ▸ hvu) hxu
      · exact ht.symm)
  rw [List.filter_filter] at h2
  have e2 : n.factors.filter (fun f => decide (f.forVar = s) && n.isTable f) = n.factors.filter (fun f => f.forVar = s) := by
    apply List.filter_congr
    intro f hf
    rw [Bool.and_eq_left_iff_imp]
    intro hfs
    simp only [decide_eq_true_eq] at hfs
    subst hfs
    simp only [Net.isTable, decide_eq_true_eq]
    refine ⟨hvt, ?_⟩
    rw [← hvs, Bool.eq_false_iff, ne_eq, isKind_iff hn hv, hvu]; decide
  rw [e2] at h2
  exact h2

theorem utility_val {s : String} (h : s ∈ n.utilityNames) {w : World} (hw : n.FitsAll w) :
    (((fs ++ ps).filter (fun f => n.varOf s ∈ f.vars)).map (fun f => f.val (n.ids w))).sum = n.utilityIn s w := by
  obtain ⟨v, hv, hvs, hvu, hvt⟩ := (mem_utilityNames hn).1 h
  have hw0 : w.set s 0 = w := by
    funext t
    unfold World.set
    split_ifs with e
    · rw [e, ← hvs]; exact (hw.utility hn hv hvu (hvs ▸ hvt)).symm
    · rfl
  unfold Net.utilityIn
  rw [hw0]
  have h2 := utility_tables hn hp hpols hS h
  have key : ∀ {as : List (NFactor α)} {bs : List (Factor α)}, List.Forall₂ (TableFac n) as bs →
      (∀ f ∈ as, f ∈ n.factors ∧ f.forVar = s) → (bs.map (fun f => f.val (n.ids w))).sum = (as.map (fun f => n.entry f w)).sum := by
    intro as bs h
    induction h with
    | nil => intro _; rfl
    | @cons a b as bs hab _ ih =>
      intro hm
      obtain ⟨ha1, ha2⟩ := hm a List.mem_cons_self
      rw [List.map_cons, List.map_cons, List.sum_cons, List.sum_cons, ih (fun f hf => hm f (List.mem_cons_of_mem _ hf)),
        hab.val w (fits_table hn ha1 (ha2 ▸ hvt) hw), ha2, ← hvs, if_neg]
      rw [isKind_iff hn hv, hvu]; decide
  exact key h2 (fun f hf => by simpa using hf)

theorem totalUtility_world {w : World} (hw : n.FitsAll w) :
    totalUtility vs.variables (fs ++ ps) n.solverWeights (n.ids w) = n.totalIn w := by
  unfold totalUtility Net.totalIn
  rw [utilities_vars hn hS, List.map_map]
  have e : n.utilityVars.map (fun u => n.weight u.name * n.utilityIn u.name w) =
      (n.utilityVars.map NVar.name).map (fun s => n.weight s * n.utilityIn s w) := by rw [List.map_map]; rfl
  rw [e, ← ((utilityNames_perm hn).map _).sum_eq]
  congr 1
  apply List.map_congr_left
  intro s hs
  simp only [Function.comp]
  rw [weight_eq hn hS hs, utility_val hn hp hpols hS hs hw]

theorem utility_ok (hu : n.utilityVars ≠ []) : UtilityOK vs.variables (fs ++ ps) n.solverWeights := by
  have hof : ∀ u ∈ vs.variables, u.nodeType = .utility → ∃ s ∈ n.utilityNames, n.varOf s = u := by
    intro u hu hut
    have : u ∈ utilities vs.variables := List.mem_filter.2 ⟨hu, by simpa using hut⟩
    rw [utilities_vars hn hS] at this
    exact List.mem_map.1 this
  constructor
  · intro u hu hut
    obtain ⟨s, hs, rfl⟩ := hof u hu hut
    rw [(utility_isVar hn hs).outcomes hn]
    obtain ⟨v, hv, rfl, h2, h3⟩ := (mem_utilityNames hn).1 hs
    rw [count_eq hn hv, hn.single v hv h2 h3]
  · intro f hf u hu w hw hut hwt
    have huR := hS.problem.facVars f hf u hu
    have hwR := hS.problem.facVars f hf w hw
    obtain ⟨s, hs, rfl⟩ := hof u huR hut
    obtain ⟨t, ht, rfl⟩ := hof w hwR hwt
    obtain ⟨a, ha, ha2⟩ := forall₂_mem_right (utility_tables hn hp hpols hS hs)
      (List.mem_filter.2 ⟨hf, by simpa using hu⟩)
    simp only [List.mem_filter, decide_eq_true_eq] at ha
    rw [ha2.vars] at hw
    obtain ⟨x, hx, e⟩ := List.mem_map.1 hw
    obtain ⟨v, hv, hvs, hvu, hvt⟩ := (mem_utilityNames hn).1 hs
    obtain ⟨v', hv', hvs', hvu', _⟩ := (mem_utilityNames hn).1 ht
    have := Net.IsVar.inj hn (dims_isVar hn ha.1 (ha.2 ▸ hvt) x hx) (utility_isVar hn ht) (by rw [e])
    subst this
    simp only [NFactor.dims, List.mem_append, List.mem_singleton] at hx
    rcases hx with hx | hx
    · obtain ⟨y, hy, hyn, hyu⟩ := hn.parents a ha.1 (ha.2 ▸ hvt) x hx
      exact absurd (name_unique hn hy hv' (hyn.trans hvs'.symm) ▸ hvu') hyu
    · rw [hx, ha.2]
  · intro u hu hut
    obtain ⟨s, hs, rfl⟩ := hof u hu hut
    obtain ⟨v, hv, hvs, hvu, hvt⟩ := (mem_utilityNames hn).1 hs
    obtain ⟨f, hf, hfn⟩ := hn.hasTable v hv (by rw [hvu]; decide)
    obtain ⟨b, hb, _⟩ := forall₂_mem_left (utility_tables hn hp hpols hS hs)
      (List.mem_filter.2 ⟨hf, by simpa using hfn.trans hvs⟩)
    obtain ⟨hb1, hb2⟩ := List.mem_filter.1 hb
    exact ⟨b, hb1, by simpa using hb2⟩
  · rw [utilities_vars hn hS]
    intro e
    apply hu
    have := (utilityNames_perm hn).length_eq
    rw [List.map_eq_nil_iff] at e
    rw [e] at this
    simpa using this.symm
  · intro ws hws
    rw [utilities_vars hn hS]
    unfold Net.solverWeights at hws
    split at hws
    · exact absurd hws (by simp)
    · simp only [Option.some.injEq] at hws
      rw [← hws]; simp

end

/-- The variables of a utility factor. -/
def Net.UtilityScope (n : Net α) (evidence : List (String × String)) (query : List String) (u : String) (g : Factor α) : Prop :=
  ∀ x ∈ g.vars, ∃ v, n.variables[x.id]? = some v ∧ x.outcomes = v.outcomes.length ∧
    v ∉ n.hiddenVars evidence query ∧ (∀ e ∈ evidence, e.1 ≠ v.name) ∧ (v.nodeType = .utility → v.name = u)

theorem fits_solver {n : Net α} {names : List (String × NVar × Var)} {R : List Var} (hs : SolverVars n names R) {w : World}
    (hw : n.FitsAll w) {l : List Var} (hl : ∀ x ∈ l, x ∈ R) : Fits (n.ids w) l := by
  intro x hx
  obtain ⟨v, h1, _, h3⟩ := hs.mem.1 (hl x hx)
  have : x.outcomes = v.outcomes.length := by rw [h3]; rfl
  rw [this]
  simp only [Net.ids, h1]
  exact hw v (List.mem_of_getElem? h1)

theorem solve_utility [Field α] [DecidableEq α] (sch : NSched α) {n : Net α} (hn : n.Valid) (hp : n.PoliciesOK)
    {evidence : List (String × String)} (hev : n.EvidenceOK evidence) {query : List String}
    (hq : ∀ q ∈ query, ∃ v ∈ n.stateVars, v.name = q) {u : String}
    (hu : u = "" ∧ n.utilityVars ≠ [] ∨ ∃ v ∈ n.utilityVars, v.name = u) (ign : Bool) :
    ∃ g vs', n.solveUtility sch evidence query u ign = (.ok g, { n with vs := some vs', names := n.nameTable }) ∧ g.WF ∧
      n.UtilityScope evidence query u g ∧
      ∀ w, n.FitsAll w → g.val (n.ids w) = sumWorlds (n.hiddenVars evidence query) (fun w' =>
          n.joint (n.active evidence ign) (n.observe evidence w') * n.asked u (n.observe evidence w')) w := by
  obtain ⟨vs, fs, ps, deps, h1, hS⟩ := toVE_spec sch 0 hn hp (if ign then evidence else [])
  have hl := sch.ev_perm evidence
  have hperm := active_perm sch 0 n evidence ign
  set pols := sch.active 0 n evidence ign with hpols
  have hsub : ∀ p ∈ pols, p ∈ n.policies := fun p h => active_sub p (hperm.subset h)
  have hSS : Solver n pols vs fs ps deps := hS
  set l := sch.ev evidence with hldef
  set es := l.map n.solverEv with hes
  set qs := query.map n.varOf with hqs
  set H := hidden vs.variables deps es qs with hH
  have hHp : H.Perm ((n.hiddenVars evidence query).map (fun v => n.varOf v.name)) := hidden_vars hn hSS hev hl hq
  have hHn : (H.map Var.id).Nodup := hS.problem.ids.sublist (List.filter_sublist.map _)
  have hocc : ∀ v ∈ H, ∃ f ∈ fs ++ ps, f.isUtility = false ∧ v ∈ f.vars := by
    intro v hv
    obtain ⟨f, hf, h⟩ := hidden_occurs hn hp hl hperm hSS qs hv
    obtain ⟨hf1, hf2⟩ := List.mem_filter.1 hf
    exact ⟨f, hf1, by simpa using hf2, h⟩
  -- from solver sums to worlds
  have hsum : ∀ (G : Assignment → α) (w : World), n.FitsAll w → (∀ w', n.FitsAll w' → G (n.ids w') = n.asked u w') →
      sumOver H (fun τ => joint (probTables (fs ++ ps)) (plug es τ) * G (plug es τ)) (n.ids w) =
      sumWorlds (n.hiddenVars evidence query) (fun w' =>
          n.joint (n.active evidence ign) (n.observe evidence w') * n.asked u (n.observe evidence w')) w := by
    intro G w hw hG
    rw [sumOver_perm hHp hHn]
    symm
    apply sumWorlds_eq hn
    · intro v hv; exact mem_stateVars.1 (List.mem_filter.1 hv).1
    · exact (stateVars_names hn).sublist (List.filter_sublist.map _)
    · intro w' hw1 hw2
      have hw' : n.FitsAll w' := by
        intro v hv
        by_cases hm : v.name ∈ (n.hiddenVars evidence query).map NVar.name
        · obtain ⟨x, hx, hxn⟩ := List.mem_map.1 hm
          have := name_unique hn (mem_stateVars.1 (List.mem_filter.1 hx).1).1 hv hxn
          exact this ▸ hw1 x hx
        · rw [hw2 _ hm]; exact hw v hv
      have hob := observe_fits hn hev hw'
      rw [plug_observe hn hev hl, hG _ hob, joint_world hn hp hsub hSS hob.state, joint_pols hperm]
  have hscope : ∀ {g : Factor α}, (∀ x ∈ g.vars, x ∈ vs.variables ∧ x ∉ H ∧ (∀ e ∈ es, e.var.id ≠ x.id) ∧
      (x.nodeType = .utility → x = n.varOf u)) → n.UtilityScope evidence query u g := by
    intro g hg x hx
    obtain ⟨a1, a2, a3, a4⟩ := hg x hx
    obtain ⟨v, b1, b2, b3⟩ := hSS.vars.mem.1 a1
    have hv := List.mem_of_getElem? b1
    have hvo : n.varOf v.name = x := by rw [varOf_eq hn b1 (fun e => b2 e.symm)]; exact b3.symm
    have hvt : v.name ≠ n.totalName := fun e => b2 ((totalName_iff hn b1).1 e).symm
    refine ⟨v, b1, by rw [b3]; rfl, ?_, ?_, ?_⟩
    · intro hm
      apply a2
      rw [← hvo]
      exact hHp.symm.subset (List.mem_map_of_mem (f := fun v : NVar => n.varOf v.name) hm)
    · intro e he h
      refine a3 (n.solverEv e) (List.mem_map_of_mem (hl.symm.subset he)) ?_
      simp only [Net.solverEv, h, hvo]
    · intro hvu
      have hxu : x.nodeType = .utility := by rw [← hvo]; exact (varOf_utility hn hv hvt).2 hvu
      rcases hu with ⟨rfl, _⟩ | ⟨y, hy, rfl⟩
      · exfalso
        have h0 := a4 hxu
        have : n.varOf "" = ⟨0, 0, 0, .chance⟩ := by
          unfold Net.varOf
          cases hm : mapGet n.nameTable "" with
          | none => rfl
          | some p =>
            obtain ⟨i, c1, c2, _⟩ := ((selfVars n).get hn).1 hm
            exact absurd c2 (hn.named _ (List.mem_of_getElem? c1))
        rw [h0, this] at hxu
        exact absurd hxu (by decide)
      · simp only [Net.utilityVars, List.mem_filter, decide_eq_true_eq] at hy
        exact Net.IsVar.inj hn (isVar_of hn hv hvt) (isVar_of hn hy.1 hy.2.2) (by rw [hvo, a4 hxu])
  rcases hu with ⟨rfl, hne⟩ | ⟨y, hy, rfl⟩
  · have hUok := utility_ok hn hp hsub hSS hne
    obtain ⟨g, st', g1, g2, g3, g4, _⟩ := solve_total_spec (sch.ve 0) hS.problem hUok
      (ev_ok hn hev hl hS.vars) qs (fun v hv => by obtain ⟨f, hf, _, h⟩ := hocc v hv; exact ⟨f, hf, h⟩)
    have hgR : ∀ x ∈ g.vars, x ∈ vs.variables := by
      intro x hx
      obtain ⟨⟨f, hf, h⟩, _⟩ := (g3 x).1 hx
      exact hS.problem.facVars f hf x h
    refine ⟨g, st'.vs, ?_, g2, hscope (fun x hx => ?_), fun w hw => ?_⟩
    · unfold Net.solveUtility Net.solve Net.enter
      rw [h1]
      dsimp only
      unfold solveNamed
      rw [mapM_evidence hn (ev_known hev hl), ok_bind, mapM_query hn hq, ok_bind]
      simp only [if_true]
      rw [show utilityOf n.nameTable "" = .ok none from rfl, ok_bind, g1]
    · obtain ⟨_, c2, c3, c4⟩ := (g3 x).1 hx
      exact ⟨hgR x hx, c4, c3, fun h => absurd h c2⟩
    · rw [g4 _ (fits_solver hS.vars hw hgR) (by
        intro x hx
        rw [utilities_vars hn hSS] at hx
        obtain ⟨s, hs, rfl⟩ := List.mem_map.1 hx
        rw [(utility_isVar hn hs).ids hn]
        obtain ⟨v, hv, rfl, k2, k3⟩ := (mem_utilityNames hn).1 hs
        exact hw.utility hn hv k2 k3)]
      exact hsum _ w hw (fun w' hw' => by rw [totalUtility_world hn hp hsub hSS hw']; simp [Net.asked])
  · have hy0 := hy
    simp only [Net.utilityVars, List.mem_filter, decide_eq_true_eq] at hy0
    obtain ⟨hy1, hy2, hy3⟩ := hy0
    have hyN : y.name ∈ n.utilityNames := (mem_utilityNames hn).2 ⟨y, hy1, rfl, hy2, hy3⟩
    have hUok := utility_ok hn hp hsub hSS (fun e => by rw [e] at hy; exact absurd hy (by simp))
    have hyR : n.varOf y.name ∈ vs.variables := (isVar_of hn hy1 hy3).varOf_mem hS.vars hn
    have hyt : (n.varOf y.name).nodeType = .utility := (varOf_utility hn hy1 hy3).2 hy2
    obtain ⟨f, hf, hfn⟩ := hn.hasTable y hy1 (by rw [hy2]; decide)
    have hone : n.factors.filter (fun f => f.forVar = y.name) = [f] := by
      rw [← List.perm_singleton, List.perm_ext_iff_of_nodup ((List.Nodup.of_map _ hn.tables).filter _) (by simp)]
      intro a
      simp only [List.mem_filter, decide_eq_true_eq, List.mem_singleton]
      constructor
      · rintro ⟨ha, hb⟩; exact List.inj_on_of_nodup_map hn.tables ha hf (hb.trans hfn.symm)
      · rintro rfl; exact ⟨hf, hfn⟩
    have htab := utility_tables hn hp hsub hSS hyN
    rw [hone] at htab
    obtain ⟨fu, hfu⟩ : ∃ fu, (fs ++ ps).filter (fun f => n.varOf y.name ∈ f.vars) = [fu] := by
      generalize (fs ++ ps).filter (fun f => n.varOf y.name ∈ f.vars) = L at htab
      cases htab with
      | cons _ h => cases h; exact ⟨_, rfl⟩
    have hfum : fu ∈ fs ++ ps ∧ n.varOf y.name ∈ fu.vars := by
      have : fu ∈ (fs ++ ps).filter (fun f => n.varOf y.name ∈ f.vars) := by rw [hfu]; simp
      obtain ⟨k1, k2⟩ := List.mem_filter.1 this
      exact ⟨k1, by simpa using k2⟩
    obtain ⟨g, st', g1, g2, g3, g4⟩ := C26_solveUtility_single (sch.ve 0) hS.problem n.solverWeights hUok.only
      (ev_ok hn hev hl hS.vars) qs hyR hyt hfu (fun v hv => .inl (hocc v hv))
    have hgR : ∀ x ∈ g.vars, x ∈ vs.variables := by
      intro x hx
      obtain ⟨h, _⟩ := (g3 x).1 hx
      rcases h with ⟨f, hf, _, h⟩ | h
      · exact hS.problem.facVars f hf x h
      · exact hS.problem.facVars fu hfum.1 x h
    refine ⟨g, st'.vs, ?_, g2, hscope (fun x hx => ?_), fun w hw => ?_⟩
    · unfold Net.solveUtility Net.solve Net.enter
      rw [h1]
      dsimp only
      unfold solveNamed
      rw [mapM_evidence hn (ev_known hev hl), ok_bind, mapM_query hn hq, ok_bind]
      simp only [if_true]
      have : utilityOf n.nameTable y.name = .ok (some (n.varOf y.name)) := by
        unfold utilityOf
        rw [if_neg (hn.named y hy1), get_state hn hy1 hy3]
      rw [this, ok_bind, g1]
    · obtain ⟨c1, c2, c3⟩ := (g3 x).1 hx
      refine ⟨hgR x hx, c3, c2, fun h => ?_⟩
      rcases c1 with ⟨f, hf, hfu, hxf⟩ | h'
      · simp only [Factor.isUtility, List.any_eq_false, decide_eq_true_eq] at hfu
        exact absurd h (hfu x hxf)
      · exact hUok.only fu hfum.1 x h' _ hfum.2 h hyt
    · have hfit := fits_solver hS.vars hw hgR
      have hv := g4 _ hfit
      rw [get_eq_val g2 hfit] at hv
      injection hv with hv
      rw [hv]
      refine hsum _ w hw (fun w' hw' => ?_)
      have := utility_val hn hp hsub hSS hyN hw'
      rw [hfu] at this
      simpa [Net.asked, hn.named y hy1] using this

end Bbn
