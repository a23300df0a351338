import Verif.Lemmas.Cost

/-!
# The tables of a query of a network on a computer with limited memory
-/

set_option autoImplicit false

namespace Bbn

open Finset

variable {α : Type} {L : Nat}

theorem place_eq {n : Net α} (hn : n.Valid) {i : Nat} {v : NVar} (hv : n.variables[i]? = some v) :
    n.place v.name = i := by
  unfold Net.place
  obtain ⟨hi, e⟩ := List.getElem?_eq_some_iff.1 hv
  rw [List.findIdx_eq hi]
  refine ⟨by simp [e], ?_⟩
  intro j hj
  simp only [decide_eq_false_iff_not]
  intro h
  exact absurd (pos_unique hn (List.getElem?_eq_getElem (by omega)) hv h) (by omega)

theorem Net.IsVar.id_place {n : Net α} (hn : n.Valid) {s : String} (h : n.IsVar s) : (n.varOf s).id = n.place s := by
  obtain ⟨i, v, h1, rfl, h3⟩ := h
  rw [varOf_eq hn h1 h3, place_eq hn h1]; rfl

theorem width_pos {n : Net α} (hn : n.Valid) (i : Nat) : 0 < n.width i := by
  unfold Net.width
  cases h : n.variables[i]? with
  | none => simp
  | some v => simpa using (hn.outcomes v (List.mem_of_getElem? h)).1

theorem solver_width {n : Net α} {names : List (String × NVar × Var)} {R : List Var} (hs : SolverVars n names R)
    {w : Var} (hw : w ∈ R) : w.outcomes = n.width w.id := by
  obtain ⟨v, h1, _, h3⟩ := hs.mem.1 hw
  rw [h3]
  simp [Net.width, Net.solverVar, h1]

theorem allChance_total {n : Net α} (hn : n.Valid) (hc : n.AllChance) {f : NFactor α} (hf : f ∈ n.factors) :
    f.forVar ≠ n.totalName := by
  intro e
  obtain ⟨v, hv, h⟩ := hn.known f hf
  have := total_utility hn hv (h.trans e)
  rw [hc v hv] at this
  exact absurd this (by decide)

theorem allChance_isTable {n : Net α} (hn : n.Valid) (hc : n.AllChance) {f : NFactor α} (hf : f ∈ n.factors) :
    n.isTable f = true := by
  have h1 := allChance_total hn hc hf
  have h2 : n.isKind .decision f.forVar = false := by
    rw [Bool.eq_false_iff]
    intro h
    obtain ⟨v, hv, _, h3⟩ := isKind_mem.1 h
    rw [hc v hv] at h3
    exact absurd h3 (by decide)
  simp [Net.isTable, h1, h2]

section
variable [Field α] [DecidableEq α]

theorem addTableM_memory {n : Net α} (hn : n.Valid) (hc : n.AllChance) {names : List (String × NVar × Var)}
    {R : List Var} (hs : SolverVars n names R) (st : List (Factor α) × List (Var × List Var) × Vs) {f : NFactor α}
    (hf : f ∈ n.factors) : n.addTableM (.memory L) names st f =
      if size (f.dims.map n.varOf) ≤ L then n.addTable names st f else tooBig := by
  have ht := allChance_total hn hc hf
  obtain ⟨v, hv, hvn⟩ := hn.known f hf
  have hd := dims_isVar hn hf ht
  obtain ⟨i, hi⟩ := List.getElem?_of_mem hv
  have hti : n.totalUtility ≠ some i := fun e => ht (by rw [← hvn]; exact (totalName_iff hn hi).2 e)
  have hvt : v.nodeType ≠ .decision := by rw [hc v hv]; decide
  have hk := allChance_isTable hn hc hf
  simp only [Net.isTable, decide_eq_true_eq] at hk
  obtain ⟨t, ht1, ht2⟩ := hn.size f hf ht hk.2
  have hgiven := givenVars_spec hn hs (l := f.given) (fun s hs => hd s (by simp [NFactor.dims, hs]))
  have hvar : n.varOf f.forVar = n.solverVar i v := by rw [← hvn, varOf_eq hn hi hti]
  have hdims : f.given.map n.varOf ++ [n.solverVar i v] = f.dims.map n.varOf := by
    simp [NFactor.dims, hvar]
  have hsz := size_varOf hn hd
  have hcreate : st.2.2.createFactor (f.dims.map n.varOf) f.table =
      .ok (⟨st.2.2.factorCounter, t, f.dims.map n.varOf⟩, { st.2.2 with factorCounter := st.2.2.factorCounter + 1 }) := by
    unfold Vs.createFactor
    rw [ht1]
    dsimp only
    rw [if_neg (by rw [ht2, hsz]; simp)]
  have hty : (n.solverVar i v).nodeType = v.nodeType := by simp [Net.solverVar, Net.solverType, hvt]
  unfold Net.addTable Net.addTableM
  rw [if_neg ht, if_neg ht, ← hvn, hs.get_of hn hi hti]
  dsimp only
  have hty' : ¬ (n.solverVar i v).nodeType = .decision := by rw [hty]; exact hvt
  rw [hgiven, ok_bind, ok_bind]
  simp only [if_neg hty', if_neg hvt, hdims]
  by_cases h : size (f.dims.map n.varOf) ≤ L
  · rw [if_pos h, createFactorM_room _ _ h, hcreate, ok_bind, ok_bind]
    dsimp only
    rw [normalizeForM_room _ _ _ (by exact h)]
  · rw [if_neg h, createFactorM_full _ _ (by omega)]
    rfl

theorem addTablesM_memory {n : Net α} (hn : n.Valid) (hc : n.AllChance) {names : List (String × NVar × Var)}
    {R : List Var} (hs : SolverVars n names R) : ∀ (l : List (NFactor α)), (∀ f ∈ l, f ∈ n.factors) →
    ∀ (st : List (Factor α) × List (Var × List Var) × Vs), l.foldlM (n.addTableM (.memory L) names) st =
      if ∀ f ∈ l, size (f.dims.map n.varOf) ≤ L then l.foldlM (n.addTable names) st else tooBig := by
  intro l
  induction l with
  | nil => intro _ st; simp
  | cons f l ih =>
    intro hl st
    have hf := hl f List.mem_cons_self
    rw [List.foldlM_cons, List.foldlM_cons, addTableM_memory hn hc hs st hf]
    by_cases h : size (f.dims.map n.varOf) ≤ L
    · rw [if_pos h]
      obtain ⟨fac, c, _, _, _, a4⟩ := addTable_table hn hs st hf (allChance_isTable hn hc hf)
      rw [a4, ok_bind, ok_bind, ih (fun g hg => hl g (List.mem_cons_of_mem _ hg))]
      simp only [List.forall_mem_cons, h, true_and]
    · rw [if_neg h, if_neg (by simp [h])]
      rfl

theorem toVEM_memory {n : Net α} (hn : n.Valid) (hc : n.AllChance) (hpol : n.policies = []) (sch : NSched α) (k : Nat)
    (evidence : List (String × String)) : n.toVEM (.memory L) sch k evidence =
      if ∀ f ∈ n.factors, size (f.dims.map n.varOf) ≤ L then n.toVE sch k evidence else tooBig := by
  obtain ⟨R, h1, h2⟩ := start_vars n hn
  have hp : sch.pol k n.policies = [] := by
    have := sch.pol_perm k n.policies
    rw [hpol] at this ⊢
    exact this.eq_nil
  unfold Net.toVEM Net.toVE
  rw [h1, ok_bind, ok_bind]
  dsimp only
  rw [addTablesM_memory hn hc h2 n.factors (fun _ h => h), hp]
  split_ifs with h
  · rfl
  · rfl

/-- The loop over the query variables makes only tables of single variables. -/
theorem queryLoopM_memory {n : Net α} (hn : n.Valid) (f : Factor α) (qs : List String)
    (hq : ∀ q ∈ qs, (∃ v ∈ n.stateVars, v.name = q) ∧ size [n.varOf q] ≤ L) :
    ∀ (r : List (String × List α)) (m : Net α), m.names = n.nameTable →
      Net.queryLoopM (.memory L) f qs r m = Net.queryLoop f qs r m := by
  induction qs with
  | nil => intro r m _; rfl
  | cons q qs ih =>
    intro r m hm
    obtain ⟨⟨v, hv, rfl⟩, hsz⟩ := hq q List.mem_cons_self
    obtain ⟨hv1, hv2⟩ := mem_stateVars.1 hv
    have hget := get_state hn hv1 (state_notTotal hn hv1 hv2)
    have e1 : m.marginalM (.memory L) f v.name = m.marginal f v.name := by
      unfold Net.marginalM Net.marginal
      rw [hm, hget]
      dsimp only
      congr 1
      funext s
      exact marginalM_room s f _ hsz
    unfold Net.queryLoopM Net.queryLoop
    rw [e1]
    have hvs : ∀ (s : Vs) (m : Factor α) (s' : Vs), s.marginal f (n.varOf v.name) = .ok (m, s') → m.vars = [n.varOf v.name] := by
      intro s m s' h
      unfold Vs.marginal at h
      split at h
      · cases h
      · dsimp only [Vs.createFactor] at h
        rw [ok_bind] at h
        dsimp only at h
        obtain ⟨d, _, h⟩ := bind_inv h
        cases h
        rfl
    rcases hmm : m.marginal f v.name with ⟨e | g, m1⟩
    · rfl
    · dsimp only
      have hg : g.vars = [n.varOf v.name] ∧ m1.names = n.nameTable := by
        unfold Net.marginal Net.withVs at hmm
        rw [hm, hget] at hmm
        dsimp only at hmm
        split at hmm
        · cases hmm
        · split at hmm
          · cases hmm
          · rename_i x vs' hx
            cases hmm
            exact ⟨hvs _ _ _ hx, rfl⟩
      have e2 : m1.normalizeM (.memory L) g = m1.normalize g := by
        unfold Net.normalizeM Net.normalize
        congr 1
        funext s
        exact normalizeM_room s g (by rw [hg.1]; exact hsz)
      rw [e2]
      rcases hnn : m1.normalize g with ⟨e | g', m2⟩
      · rfl
      · dsimp only
        refine ih (fun q hq' => hq q (List.mem_cons_of_mem _ hq')) _ m2 ?_
        unfold Net.normalize Net.withVs at hnn
        split at hnn
        · cases hnn
        · split at hnn
          · cases hnn
          · cases hnn
            exact hg.2

theorem families_scopes {n : Net α} (hn : n.Valid) (hc : n.AllChance) {fs : List (Factor α)}
    (h : List.Forall₂ (TableFac n) n.factors fs) : scopes fs = n.families := by
  unfold scopes Net.families
  congr 1
  have hall : ∀ f ∈ n.factors, ∀ s ∈ f.dims, n.IsVar s := fun f hf => dims_isVar hn hf (allChance_total hn hc hf)
  generalize n.factors = l at h hall
  induction h with
  | nil => rfl
  | @cons f fac l fs hf _ ih =>
    rw [List.map_cons, List.map_cons, ih (fun g hg => hall g (List.mem_cons_of_mem _ hg))]
    congr 1
    unfold scope
    rw [hf.vars, List.map_map]
    congr 1
    apply List.map_congr_left
    intro s hs
    exact (hall f List.mem_cons_self s hs).id_place hn

/-- What a query does on a computer with limited memory. -/
theorem netSolveQueryM_memory {n : Net α} (hn : n.Valid) (hc : n.AllChance) (hpol : n.policies = []) (sch : NSched α)
    {evidence : List (String × String)} (hev : n.EvidenceOK evidence) {query : List String}
    (hq : ∀ q ∈ query, ∃ v ∈ n.variables, v.name = q) (ign : Bool) {order : List Nat}
    (hord : n.TakesOut evidence query order) :
    (n.biggestTable evidence order ≤ L →
      n.solveQueryM (.memory L) sch evidence query ign = n.solveQuery sch evidence query ign) ∧
    (L < n.biggestTable evidence order → (n.solveQueryM (.memory L) sch evidence query ign).1 = tooBig) := by
  have hpo : n.PoliciesOK := ⟨by simp [hpol], by simp [hpol], by simp [hpol], by simp [hpol]⟩
  have hstate : ∀ v ∈ n.variables, v ∈ n.stateVars := fun v hv =>
    mem_stateVars.2 ⟨hv, by rw [hc v hv]; decide⟩
  have hq' : ∀ q ∈ query, ∃ v ∈ n.stateVars, v.name = q := fun q h => by
    obtain ⟨v, hv, e⟩ := hq q h
    exact ⟨v, hstate v hv, e⟩
  have hvar : ∀ v ∈ n.variables, n.IsVar v.name := fun v hv => isVar_state hn hv (by rw [hc v hv]; decide)
  obtain ⟨vs, fs, ps, deps, h1, hS⟩ := toVE_spec sch 0 hn hpo (if ign then evidence else [])
  have hps : ps = [] := by
    have := hS.policies
    have hp : sch.pol 0 n.policies = [] := by
      have := sch.pol_perm 0 n.policies
      rw [hpol] at this ⊢
      exact this.eq_nil
    rw [hp, List.filter_nil] at this
    cases this; rfl
  subst hps
  have htab := hS.tables
  rw [List.filter_eq_self.2 (fun f hf => allChance_isTable hn hc hf)] at htab
  have hsc := families_scopes hn hc htab
  have hdeps : deps = [] := by
    rw [hS.deps_eq, List.filter_eq_nil_iff.2]
    · rfl
    · intro f hf h
      have := allChance_isTable hn hc hf
      simp only [Net.isTable, Net.isOpen, decide_eq_true_eq] at this h
      rw [this.2] at h
      exact absurd h.1 (by decide)
  have hl := sch.ev_perm evidence
  have hwid : ∀ v ∈ vs.variables, v.outcomes = n.width v.id := fun v hv => solver_width hS.vars hv
  have hut : utilities vs.variables = [] := by
    unfold utilities
    rw [List.filter_eq_nil_iff]
    intro v hv
    obtain ⟨u, hu1, _, hu3⟩ := hS.vars.mem.1 hv
    have hch := hc u (List.mem_of_getElem? hu1)
    rw [hu3]
    simp [Net.solverVar, Net.solverType, hch]
  -- the tables of the network
  have hfam : (∀ f ∈ n.factors, size (f.dims.map n.varOf) ≤ L) ↔ (n.families.map (entriesOver n.width)).sup ≤ L := by
    rw [Multiset.sup_le]
    have : ∀ f ∈ n.factors, size (f.dims.map n.varOf) = entriesOver n.width (f.dims.map n.place).toFinset := by
      intro f hf
      have hd := dims_isVar hn hf (allChance_total hn hc hf)
      rw [size_entries (k := n.width) (nodup_varOf hn hd (hn.dims f hf)), List.map_map]
      · congr 2
        apply List.map_congr_left
        intro s hs
        exact (hd s hs).id_place hn
      · intro v hv
        obtain ⟨s, hs, rfl⟩ := List.mem_map.1 hv
        exact hwid _ ((hd s hs).varOf_mem hS.vars hn)
    simp only [Net.families, Multiset.map_coe, Multiset.mem_coe, List.map_map, List.mem_map, Function.comp,
      forall_exists_index, and_imp, forall_apply_eq_imp_iff₂]
    exact forall₂_congr (fun f hf => by rw [this f hf])
  have hbig : n.biggestTable evidence order ≤ L ↔ (n.families.map (entriesOver n.width)).sup ≤ L ∧
      biggest n.width order (n.unobserved evidence) ≤ L := by
    unfold Net.biggestTable; rw [max_le_iff]
  have henter : n.enterM (.memory L) sch 0 (if ign then evidence else []) =
      if (n.families.map (entriesOver n.width)).sup ≤ L then n.enter sch 0 (if ign then evidence else []) else
        (tooBig, n) := by
    unfold Net.enterM Net.enter
    rw [toVEM_memory hn hc hpol]
    by_cases h : (n.families.map (entriesOver n.width)).sup ≤ L
    · rw [if_pos (hfam.2 h), if_pos h]; rfl
    · rw [if_neg (fun e => h (hfam.1 e)), if_neg h]; rfl
  by_cases hfit : (n.families.map (entriesOver n.width)).sup ≤ L
  swap
  · refine ⟨fun h => absurd (hbig.1 h).1 hfit, fun _ => ?_⟩
    unfold Net.solveQueryM Net.solveM
    rw [henter, if_neg hfit]
    rfl
  rw [if_pos hfit] at henter
  have hfs : ∀ f ∈ fs ++ [], size f.vars ≤ L := by
    intro f hf
    rw [List.append_nil] at hf
    obtain ⟨g, hg, h⟩ := forall₂_mem_right htab hf
    rw [h.vars]
    exact hfam.2 hfit g hg
  obtain ⟨hs, o1, o2, o3⟩ := solveQueryM_memory (L := L) (k := n.width) (sch.ve 0) hS.problem n.solverWeights
    (ev_ok hn hev hl hS.vars) (query.map n.varOf) (fun v hv => by
      obtain ⟨f, hf, h⟩ := hidden_occurs hn hpo hl (active_perm sch 0 n evidence ign) hS _ hv
      exact ⟨f, (List.mem_filter.1 hf).1, h⟩) hut hwid (width_pos hn) hfs
  have hevi : evIds ((sch.ev evidence).map n.solverEv) = (evidence.map (fun e => n.place e.1)).toFinset := by
    unfold evIds
    rw [List.map_map]
    ext j
    simp only [List.mem_toFinset, List.mem_map, Function.comp, Net.solverEv]
    constructor
    · rintro ⟨e, he, rfl⟩
      have he' := hl.subset he
      obtain ⟨v, hv, e1, _⟩ := hev.known e he'
      exact ⟨e, he', ((e1 ▸ hvar v hv : n.IsVar e.1).id_place hn).symm⟩
    · rintro ⟨e, he, rfl⟩
      obtain ⟨v, hv, e1, _⟩ := hev.known e he
      exact ⟨e, hl.symm.subset he, (e1 ▸ hvar v hv : n.IsVar e.1).id_place hn⟩
  have hun : (scopes (fs ++ [])).map (fun s => s \ evIds ((sch.ev evidence).map n.solverEv)) = n.unobserved evidence := by
    rw [List.append_nil, hsc, hevi]; rfl
  rw [hun] at o2 o3
  have hids : hs.map Var.id = order := by
    have hnd : (hs.map Var.id).Nodup := by
      refine (o1.map _).nodup_iff.2 ((List.filter_sublist.map _).nodup ?_)
      exact hS.problem.ids
    have hnd2 : order.Nodup := hord.sorted.imp (fun {i j} h => by
      rintro rfl
      rcases h with h | h <;> omega)
    refine List.Perm.eq_of_pairwise (le := fun i j => (around i (n.unobserved evidence)).card <
        (around j (n.unobserved evidence)).card ∨ (around i (n.unobserved evidence)).card =
        (around j (n.unobserved evidence)).card ∧ i < j) ?_ ?_ hord.sorted ?_
    · intro a b _ _ h1 h2
      omega
    · rw [List.pairwise_map]; exact o2
    · rw [List.perm_ext_iff_of_nodup hnd hnd2]
      intro i
      rw [hord.mem i, List.mem_map]
      constructor
      · rintro ⟨v, hv, rfl⟩
        have hv2 := o1.subset hv
        simp only [hidden, List.mem_filter, decide_eq_true_eq] at hv2
        obtain ⟨hv3, _, hv4, hv5, _⟩ := hv2
        obtain ⟨u, hu1, hu2, hu3⟩ := hS.vars.mem.1 hv3
        refine ⟨u, hu1, ?_, ?_⟩
        · intro h
          obtain ⟨e, he, h⟩ := List.mem_map.1 h
          refine hv4 (n.solverEv e) (List.mem_map_of_mem (hl.symm.subset he)) ?_
          simp only [Net.solverEv]
          rw [h, (hvar u (List.mem_of_getElem? hu1)).id_place hn, place_eq hn hu1]
        · intro h
          refine hv5 (n.varOf u.name) (List.mem_map_of_mem h) ?_
          rw [(hvar u (List.mem_of_getElem? hu1)).id_place hn, place_eq hn hu1]
      · rintro ⟨u, hu1, hu2, hu3⟩
        have hum := List.mem_of_getElem? hu1
        have hid : (n.varOf u.name).id = i := by rw [(hvar u hum).id_place hn, place_eq hn hu1]
        refine ⟨n.varOf u.name, o1.symm.subset ?_, hid⟩
        simp only [hidden, List.mem_filter, decide_eq_true_eq]
        refine ⟨(hvar u hum).varOf_mem hS.vars hn, ?_, ?_, ?_, ?_⟩
        · obtain ⟨j, w, w1, w2, w3⟩ := hvar u hum
          rw [← w2, varOf_eq hn w1 w3]
          simp [Net.solverVar, Net.solverType, hc w (List.mem_of_getElem? w1)]
        · intro e he h
          obtain ⟨e', he', rfl⟩ := List.mem_map.1 he
          have he2 := hl.subset he'
          obtain ⟨x, hx, x1, _⟩ := hev.known e' he2
          simp only [Net.solverEv] at h
          have := Net.IsVar.inj hn (x1 ▸ hvar x hx : n.IsVar e'.1) (hvar u hum) h
          exact hu2 (List.mem_map.2 ⟨e', he2, this⟩)
        · intro q hqm h
          obtain ⟨s, hs', rfl⟩ := List.mem_map.1 hqm
          obtain ⟨x, hx, rfl⟩ := hq s hs'
          have := Net.IsVar.inj hn (hvar x hx) (hvar u hum) h
          exact hu3 (this ▸ hs')
        · rw [hdeps]; simp
  rw [hids] at o3
  have hnamed : solveNamedM (.memory L) sch (VE.new vs (fs ++ []) deps n.solverWeights) n.nameTable evidence query false "" =
      if biggest n.width order (n.unobserved evidence) ≤ L then
        solveNamed sch (VE.new vs (fs ++ []) deps n.solverWeights) n.nameTable evidence query false "" else tooBig := by
    unfold solveNamedM solveNamed
    rw [mapM_evidence hn (ev_known hev hl), ok_bind, ok_bind, mapM_query hn hq', ok_bind, ok_bind]
    simp only [Bool.false_eq_true, if_false]
    exact o3
  have hen : n.enter sch 0 (if ign then evidence else []) = (.ok (VE.new vs (fs ++ []) deps n.solverWeights),
      { n with vs := some (VE.new vs (fs ++ []) deps n.solverWeights).vs, names := n.nameTable }) := by
    unfold Net.enter; rw [h1]
  have hone : ∀ q ∈ query, (∃ v ∈ n.stateVars, v.name = q) ∧ size [n.varOf q] ≤ L := by
    intro q hqm
    refine ⟨hq' q hqm, ?_⟩
    obtain ⟨v, hv, rfl⟩ := hq q hqm
    obtain ⟨f, hf, hfv⟩ := hn.hasTable v hv (by rw [hc v hv]; decide)
    refine le_trans (size_le_of_subperm (U := f.dims.map n.varOf) ?_ ?_) (hfam.2 hfit f hf)
    · rw [List.singleton_subperm_iff]
      exact List.mem_map_of_mem (by simp [NFactor.dims, hfv])
    · intro u hu
      obtain ⟨s, hs', rfl⟩ := List.mem_map.1 hu
      rw [hwid _ ((dims_isVar hn hf (allChance_total hn hc hf) s hs').varOf_mem hS.vars hn)]
      exact width_pos hn _
  by_cases hb : biggest n.width order (n.unobserved evidence) ≤ L
  · refine ⟨fun _ => ?_, fun h => absurd (hbig.2 ⟨hfit, hb⟩) (by omega)⟩
    rw [if_pos hb] at hnamed
    have e : n.solveM (.memory L) sch evidence query false "" ign = n.solve sch evidence query false "" ign := by
      unfold Net.solveM Net.solve
      rw [henter, hen]
      dsimp only
      rw [hnamed]
      rfl
    unfold Net.solveQueryM Net.solveQuery
    rw [e]
    obtain ⟨_, _, _, _, g, vs', k1, _⟩ := solve_query sch hn hpo hev hq' ign
    rw [k1]
    dsimp only
    rw [queryLoopM_memory hn g query hone _ _ rfl]
    rfl
  · refine ⟨fun h => absurd (hbig.1 h).2 hb, fun _ => ?_⟩
    rw [if_neg hb] at hnamed
    unfold Net.solveQueryM Net.solveM
    rw [henter, hen]
    dsimp only
    rw [hnamed]
    rfl

end

end Bbn
