import Verif.Lemmas.NetQuery
import Verif.Props.Solve

/-!
# `SolveQuery` of a network
-/

set_option autoImplicit false

namespace Bbn

open Finset

variable {α : Type}

/-- The outcomes of the variable of this name. -/
def Net.outcomesOf (n : Net α) (s : String) : List String := ((n.variables.find? (fun v => v.name = s)).map NVar.outcomes).getD []

theorem outcomesOf_name {n : Net α} (hn : n.Valid) {v : NVar} (hv : v ∈ n.variables) :
    n.outcomesOf v.name = v.outcomes := by
  unfold Net.outcomesOf
  rw [find_name hn hv]; rfl

/-- Evidence for the solver. -/
def Net.solverEv (n : Net α) (e : String × String) : Evid := ⟨n.varOf e.1, ((n.outcomesOf e.1).idxOf e.2 : Nat)⟩

theorem get_state {n : Net α} (hn : n.Valid) {v : NVar} (hv : v ∈ n.variables) (ht : v.name ≠ n.totalName) :
    mapGet n.nameTable v.name = some (v, n.varOf v.name) := by
  obtain ⟨i, hi⟩ := List.getElem?_of_mem hv
  have hti : n.totalUtility ≠ some i := fun e => ht ((totalName_iff hn hi).2 e)
  rw [(selfVars n).get_of hn hi hti, varOf_eq hn hi hti]

theorem state_notTotal {n : Net α} (hn : n.Valid) {v : NVar} (hv : v ∈ n.variables) (ht : v.nodeType ≠ .utility) :
    v.name ≠ n.totalName := fun h => ht (total_utility hn hv h)

theorem mapM_evidence {n : Net α} (hn : n.Valid) {l : List (String × String)}
    (h : ∀ e ∈ l, ∃ v ∈ n.variables, v.name = e.1 ∧ v.nodeType ≠ .utility ∧ e.2 ∈ v.outcomes) :
    l.mapM (evidenceOf n.nameTable) = .ok (l.map n.solverEv) := by
  induction l with
  | nil => rfl
  | cons e l ih =>
    rw [List.mapM_cons, ih (fun x hx => h x (List.mem_cons_of_mem _ hx))]
    obtain ⟨v, hv, h1, h2, h3⟩ := h e List.mem_cons_self
    have : evidenceOf n.nameTable e = .ok (n.solverEv e) := by
      unfold evidenceOf
      rw [← h1, get_state hn hv (state_notTotal hn hv h2)]
      dsimp only
      rw [slicesIndex_idxOf h3]
      simp [Net.solverEv, ← h1, outcomesOf_name hn hv]
    rw [this]; rfl

theorem mapM_query {n : Net α} (hn : n.Valid) {l : List String} (h : ∀ q ∈ l, ∃ v ∈ n.stateVars, v.name = q) :
    l.mapM (queryOf n.nameTable) = .ok (l.map n.varOf) := by
  induction l with
  | nil => rfl
  | cons q l ih =>
    rw [List.mapM_cons, ih (fun x hx => h x (List.mem_cons_of_mem _ hx))]
    obtain ⟨v, hv, rfl⟩ := h q List.mem_cons_self
    obtain ⟨h1, h2⟩ := mem_stateVars.1 hv
    have : queryOf n.nameTable v.name = .ok (n.varOf v.name) := by
      unfold queryOf
      rw [get_state hn h1 (state_notTotal hn h1 h2)]
    rw [this]; rfl

section evidence
variable {n : Net α} (hn : n.Valid) {evidence l : List (String × String)} (hev : n.EvidenceOK evidence)
  (hl : l.Perm evidence)
include hn hev hl

omit hn in
theorem ev_known : ∀ e ∈ l, ∃ v ∈ n.variables, v.name = e.1 ∧ v.nodeType ≠ .utility ∧ e.2 ∈ v.outcomes :=
  fun e he => hev.known e (hl.subset he)

theorem ev_state : ∀ e ∈ l.map n.solverEv, e.var ∈ n.stateSolver ∧ e.value.toNat < e.var.outcomes := by
  intro e he
  obtain ⟨x, hx, rfl⟩ := List.mem_map.1 he
  obtain ⟨v, hv, h1, h2, h3⟩ := ev_known hev hl x hx
  refine ⟨List.mem_map.2 ⟨v, mem_stateVars.2 ⟨hv, h2⟩, by simp [Net.solverEv, h1]⟩, ?_⟩
  have := (isVar_state hn hv h2).outcomes hn
  simp only [Net.solverEv, ← h1, outcomesOf_name hn hv, this, count_eq hn hv, Int.toNat_natCast]
  exact List.idxOf_lt_length_of_mem h3

theorem ev_nodup : (((l.map n.solverEv).map Evid.var).map Var.id).Nodup := by
  have h1 : (l.map Prod.fst).Nodup := (hl.map _).nodup_iff.2 hev.keys
  have := nodup_varOf hn (l := l.map Prod.fst) (by
    intro s hs
    obtain ⟨e, he, rfl⟩ := List.mem_map.1 hs
    obtain ⟨v, hv, h1, h2, _⟩ := ev_known hev hl e he
    rw [← h1]; exact isVar_state hn hv h2) h1
  simpa [List.map_map, Function.comp_def, Net.solverEv] using this

theorem ev_agrees (w : World) : n.Agrees evidence w ↔
    ∀ e ∈ l.map n.solverEv, n.ids w e.var.id = e.value.toNat := by
  unfold Net.Agrees
  constructor
  · intro h e he
    obtain ⟨x, hx, rfl⟩ := List.mem_map.1 he
    obtain ⟨v, hv, h1, h2, h3⟩ := ev_known hev hl x hx
    have := h x (hl.subset hx) v hv h1
    simp only [Net.solverEv, ← h1, (isVar_state hn hv h2).ids hn w, outcomesOf_name hn hv, Int.toNat_natCast]
    rw [h1]; exact this
  · intro h x hx v hv h1
    obtain ⟨u, hu, k1, k2, k3⟩ := hev.known x hx
    have huv := name_unique hn hu hv (k1.trans h1.symm)
    subst huv
    have := h (n.solverEv x) (List.mem_map_of_mem (hl.symm.subset hx))
    simp only [Net.solverEv, ← h1, (isVar_state hn hu k2).ids hn w, outcomesOf_name hn hu, Int.toNat_natCast] at this
    rw [← h1]; exact this

theorem ev_ok {R : List Var} (hs : SolverVars n n.nameTable R) : EvidenceOK R (l.map n.solverEv) := by
  intro e he
  obtain ⟨h1, h2⟩ := ev_state hn hev hl e he
  obtain ⟨h3, h4⟩ := (mem_stateSolver hn hs).1 h1
  obtain ⟨x, hx, rfl⟩ := List.mem_map.1 he
  refine ⟨h3, h4, by simp [Net.solverEv], ?_⟩
  simpa [Net.solverEv] using h2

end evidence

theorem varOf_state {n : Net α} {v : NVar} (hv : v ∈ n.stateVars) : n.varOf v.name ∈ n.stateSolver :=
  List.mem_map_of_mem (f := fun v : NVar => n.varOf v.name) hv

/-- The active policies in the order of the iteration. -/
def NSched.active (sch : NSched α) (k : Nat) (n : Net α) (evidence : List (String × String)) (ign : Bool) :
    List (String × Factor α) :=
  (sch.pol k n.policies).filter (fun p => ∀ e ∈ (if ign then evidence else []), e.1 ≠ p.1)

theorem active_perm (sch : NSched α) (k : Nat) (n : Net α) (evidence : List (String × String)) (ign : Bool) :
    (sch.active k n evidence ign).Perm (n.active evidence ign) := by
  unfold NSched.active Net.active
  cases ign
  · simpa using sch.pol_perm k n.policies
  · simpa using (sch.pol_perm k n.policies).filter _

theorem active_sub {n : Net α} {evidence : List (String × String)} {ign : Bool} :
    ∀ p ∈ n.active evidence ign, p ∈ n.policies := by
  intro p hp
  unfold Net.active at hp
  split_ifs at hp
  · exact (List.mem_filter.1 hp).1
  · exact hp

theorem joint_pols [Field α] [DecidableEq α] {n : Net α} {ps qs : List (String × Factor α)} (h : ps.Perm qs) :
    n.joint ps = n.joint qs := by
  funext w
  unfold Net.joint
  rw [(h.map _).prod_eq]

/-- Every hidden variable of a query occurs in a probability table. -/
theorem hidden_occurs [Field α] [DecidableEq α] {n : Net α} (hn : n.Valid) (hp : n.PoliciesOK)
    {evidence l : List (String × String)} (hl : l.Perm evidence) {ign : Bool}
    {pols : List (String × Factor α)} (hpols : pols.Perm (n.active evidence ign))
    {vs : Vs} {fs ps : List (Factor α)} {deps : List (Var × List Var)}
    (hS : Solver n pols vs fs ps deps) (query : List Var) {v : Var}
    (hv : v ∈ hidden vs.variables deps (l.map n.solverEv) query) : ∃ f ∈ probTables (fs ++ ps), v ∈ f.vars := by
  simp only [hidden, List.mem_filter, decide_eq_true_eq] at hv
  obtain ⟨hvR, hvt, hve, _⟩ := hv
  obtain ⟨x, h1, h2, h3⟩ := hS.vars.mem.1 hvR
  have hx := List.mem_of_getElem? h1
  have hvar : n.varOf x.name = v := by rw [varOf_eq hn h1 (fun e => h2 e.symm)]; exact h3.symm
  have hxt : n.solverType x = .chance := by
    have := congrArg Var.nodeType h3
    rw [hvt] at this; exact this.symm
  have hxu : x.nodeType ≠ .utility := by
    intro e
    rw [solverType_utility.2 e] at hxt
    exact absurd hxt (by decide)
  rw [← hvar, occurs_iff hn hp (fun p h => active_sub p (hpols.subset h)) hS (isVar_state hn hx hxu)]
  by_cases hd : x.nodeType = .decision
  · right
    have hhas : n.hasPolicy x.name = true := by
      by_contra hno
      simp only [Net.solverType, hd, hno] at hxt
      exact absurd hxt (by simp)
    obtain ⟨p, hpm, hpn⟩ := List.mem_map.1 (mapGet_isSome.1 hhas)
    obtain ⟨i, y, a1, a2, a3, w, hw, hwi⟩ := hp.decision p hpm
    refine ⟨p, hpols.symm.subset ?_, w, hw, ?_⟩
    · unfold Net.active
      split_ifs
      · refine List.mem_filter.2 ⟨hpm, ?_⟩
        simp only [decide_eq_true_eq]
        intro e he h
        refine hve (n.solverEv e) (List.mem_map_of_mem (hl.symm.subset he)) ?_
        simp only [Net.solverEv, h, hpn, hvar]
      · exact hpm
    · rw [hwi, a1]; simp [a2, hpn]
  · left
    obtain ⟨f, hf, hfn⟩ := hn.hasTable x hx hd
    refine ⟨f, List.mem_filter.2 ⟨hf, ?_⟩, by simp [NFactor.dims, hfn]⟩
    rw [hfn, isKind_iff hn hx]
    cases hxk : x.nodeType
    · rfl
    · exact absurd hxk hd
    · exact absurd hxk hxu

theorem sumOver_upd_out [AddCommMonoid α] {F : Assignment → α} {i k : Nat} : ∀ {vs : List Var} (σ : Assignment),
    i ∉ vs.map Var.id → sumOver vs F (σ.upd i k) = sumOver vs (fun τ => F (τ.upd i k)) σ := by
  intro vs
  induction vs with
  | nil => intro σ _; rfl
  | cons v vs ih =>
    intro σ h
    simp only [List.map_cons, List.mem_cons, not_or] at h
    simp only [sumOver]
    apply Finset.sum_congr rfl
    intro c _
    rw [upd_comm _ h.1, ih _ h.2]

/-- What `solve` returns for a query. -/
theorem solve_query [Field α] [DecidableEq α] (sch : NSched α) {n : Net α} (hn : n.Valid) (hp : n.PoliciesOK)
    {evidence : List (String × String)} (hev : n.EvidenceOK evidence) {query : List String}
    (hq : ∀ q ∈ query, ∃ v ∈ n.stateVars, v.name = q) (ign : Bool) :
    ∃ vs fs ps deps g vs', n.solve sch evidence query false "" ign =
        (.ok g, { n with vs := some vs', names := n.nameTable }) ∧
      Solver n (sch.active 0 n evidence ign) vs fs ps deps ∧ g.WF ∧
      (∀ v, v ∈ g.vars ↔ (∃ f ∈ probTables (fs ++ ps), v ∈ f.vars) ∧
        (∀ e ∈ (sch.ev evidence).map n.solverEv, e.var.id ≠ v.id) ∧
        v ∉ hidden vs.variables deps ((sch.ev evidence).map n.solverEv) (query.map n.varOf)) ∧
      ∀ σ, Fits σ g.vars → g.val σ = sumOver (hidden vs.variables deps ((sch.ev evidence).map n.solverEv)
        (query.map n.varOf)) (fun τ => joint (probTables (fs ++ ps)) (plug ((sch.ev evidence).map n.solverEv) τ)) σ := by
  obtain ⟨vs, fs, ps, deps, h1, hS⟩ := toVE_spec sch 0 hn hp (if ign then evidence else [])
  have hl := sch.ev_perm evidence
  have hperm := active_perm sch 0 n evidence ign
  obtain ⟨g, st', g1, g2, g3, g4, _⟩ := solve_remove_spec (sch.ve 0) hS.problem n.solverWeights
    (ev_ok hn hev hl hS.vars) (query.map n.varOf) none (keep_none hS.problem.facVars).symm
    (fun v hv => hidden_occurs hn hp hl hperm hS _ hv)
  refine ⟨vs, fs, ps, deps, g, st'.vs, ?_, hS, g2, g3, g4⟩
  unfold Net.solve Net.enter
  rw [h1]
  dsimp only
  unfold solveNamed
  rw [mapM_evidence hn (ev_known hev hl), ok_bind, mapM_query hn hq, ok_bind]
  simp only [Bool.false_eq_true, if_false]
  have : (VE.new vs (fs ++ ps) deps n.solverWeights).solveQuery (sch.ve 0) ((sch.ev evidence).map n.solverEv)
      (query.map n.varOf) = .ok (g, st') := g1
  rw [this]

/-- The unnormalised marginal of a factor. -/
def margOf [AddCommMonoid α] (g : Factor α) (v : Var) (k : Nat) : α :=
  sumOver (otherVars v.id g.vars) g.val (Assignment.upd (fun _ => 0) v.id k)

/-- The entries `SolveQuery` computes for one variable. -/
def postData [Field α] (g : Factor α) (v : Var) : List α :=
  (List.range v.outcomes).map (fun k => margOf g v k / ∑ j ∈ range v.outcomes, margOf g v j)

theorem marginal_data [Field α] (vs : Vs) {g : Factor α} (hg : g.WF) {v : Var} (hv : v ∈ g.vars) :
    ∃ m vs', vs.marginal g v = .ok (m, vs') ∧ ∀ vs' : Vs, ∃ m' vs'', vs'.normalize m = .ok (m', vs'') ∧
      m'.data = postData g v := by
  obtain ⟨m, h1, h2, _, h4, h5⟩ := marginal_spec vs g hg v hv
  refine ⟨m, _, h1, fun vs' => ?_⟩
  obtain ⟨m', k1, k2, _, k4, k5, _⟩ := normalize_spec vs' m h2
  refine ⟨m', _, k1, ?_⟩
  have hlen : m.data.length = v.outcomes := by rw [h2.len, h4]; simp [size]
  have hval : ∀ k < v.outcomes, m.data.getD k 0 = margOf g v k := by
    intro k hk
    have := h5 (Assignment.upd (fun _ => 0) v.id k) (by rw [h4]; intro u hu; simp at hu; subst hu; simpa [Assignment.upd] using hk)
    unfold margOf
    rw [← this]
    unfold Factor.val
    have e : flatIndex m.vars (tupleOf m.vars (Assignment.upd (fun _ => 0) v.id k)) = k := by
      rw [h4]; simp [tupleOf, flatIndex, indexLoop, Assignment.upd]
    rw [e]
  have hsum : goSum m.data = ∑ j ∈ range v.outcomes, margOf g v j := by
    rw [goSum_eq_sum, hlen]
    exact Finset.sum_congr rfl (fun k hk => hval k (by simpa using hk))
  rw [k5, hsum]
  apply List.ext_getElem
  · simp [postData, hlen]
  · intro k hk hk'
    simp only [List.length_map] at hk
    have := hval k (by rw [← hlen]; exact hk)
    rw [List.getD_eq_getElem?_getD, List.getElem?_eq_getElem hk] at this
    simp only [Option.getD_some] at this
    simp [postData, this]

theorem queryLoop_spec [Field α] {n : Net α} (hn : n.Valid) {g : Factor α} (hg : g.WF) : ∀ (qs : List String)
    (result : List (String × List α)) (m : Net α) (vs : Vs), m.names = n.nameTable → m.vs = some vs →
    (∀ q ∈ qs, (∃ v ∈ n.stateVars, v.name = q) ∧ n.varOf q ∈ g.vars) →
    ∃ r vs', Net.queryLoop g qs result m = (.ok r, { m with vs := some vs' }) ∧
      ((result.map Prod.fst).Nodup → (r.map Prod.fst).Nodup) ∧
      ∀ s, mapGet r s = if s ∈ qs then some (postData g (n.varOf s)) else mapGet result s := by
  intro qs
  induction qs with
  | nil =>
    intro result m vs h1 h2 _
    refine ⟨result, vs, ?_, id, by simp⟩
    rw [← h2]; rfl
  | cons q qs ih =>
    intro result m vs h1 h2 h3
    obtain ⟨⟨v, hv, rfl⟩, hqg⟩ := h3 q List.mem_cons_self
    obtain ⟨hv1, hv2⟩ := mem_stateVars.1 hv
    obtain ⟨mm, vs1, a1, a2⟩ := marginal_data vs hg hqg
    obtain ⟨m', vs2, a2, a3⟩ := a2 vs1
    obtain ⟨r, vs', b1, b2, b3⟩ := ih (mapSet result v.name m'.data) { m with vs := some vs2 } vs2 h1 rfl
      (fun q hq => h3 q (List.mem_cons_of_mem _ hq))
    refine ⟨r, vs', ?_, fun h => b2 (mapSet_keys h), ?_⟩
    · have e1 : m.marginal g v.name = (.ok mm, { m with vs := some vs1 }) := by
        unfold Net.marginal Net.withVs
        rw [h1, get_state hn hv1 (state_notTotal hn hv1 hv2)]
        dsimp only
        rw [h2]
        dsimp only
        rw [a1]
      have e2 : ({ m with vs := some vs1 } : Net α).normalize mm = (.ok m', { m with vs := some vs2 }) := by
        unfold Net.normalize Net.withVs
        dsimp only
        rw [a2]
      unfold Net.queryLoop
      rw [e1]
      dsimp only
      rw [e2]
      dsimp only
      rw [b1]
    · intro s
      rw [b3, mapGet_mapSet, a3]
      by_cases hs : s ∈ qs
      · simp [hs]
      · by_cases hs2 : s = v.name
        · simp [hs2]
        · simp [hs, hs2]

/-- The marginals of a query result, times a constant, are masses. -/
theorem posterior [Field α] [CharZero α] [DecidableEq α] {n : Net α} (hn : n.Valid) (hp : n.PoliciesOK)
    {evidence l : List (String × String)} (hev : n.EvidenceOK evidence) (hl : l.Perm evidence) {ign : Bool}
    {pols : List (String × Factor α)} (hpols : pols.Perm (n.active evidence ign))
    {vs : Vs} {fs ps : List (Factor α)} {deps : List (Var × List Var)}
    (hS : Solver n pols vs fs ps deps) {query : List Var} {g : Factor α} (hg : g.WF)
    (hgv : ∀ v, v ∈ g.vars ↔ (∃ f ∈ probTables (fs ++ ps), v ∈ f.vars) ∧ (∀ e ∈ l.map n.solverEv, e.var.id ≠ v.id) ∧
        v ∉ hidden vs.variables deps (l.map n.solverEv) query)
    (hgval : ∀ σ, Fits σ g.vars → g.val σ = sumOver (hidden vs.variables deps (l.map n.solverEv) query)
      (fun τ => joint (probTables (fs ++ ps)) (plug (l.map n.solverEv) τ)) σ)
    {q : NVar} (hq : q ∈ n.stateVars) (hqq : n.varOf q.name ∈ query) (hqe : ∀ e ∈ evidence, e.1 ≠ q.name)
    (hqo : n.Occurs pols q.name) :
    n.varOf q.name ∈ g.vars ∧ ∃ C : α, C ≠ 0 ∧
      (∀ k < q.outcomes.length, n.mass (n.active evidence ign) (fun w => n.Agrees evidence w ∧ w q.name = k) =
        C * margOf g (n.varOf q.name) k) ∧
      n.mass (n.active evidence ign) (n.Agrees evidence) =
        C * ∑ k ∈ range q.outcomes.length, margOf g (n.varOf q.name) k := by
  obtain ⟨hq1, hq2⟩ := mem_stateVars.1 hq
  have hsub : ∀ p ∈ pols, p ∈ n.policies := fun p h => active_sub p (hpols.subset h)
  set v := n.varOf q.name with hvdef
  set es := l.map n.solverEv with hes
  set H := hidden vs.variables deps es query with hH
  set J := joint (probTables (fs ++ ps)) with hJ
  have hvar := isVar_state hn hq1 hq2
  have hst := stateSolver_ids hn
  have hout : v.outcomes = q.outcomes.length := by rw [hvdef, hvar.outcomes hn, count_eq hn hq1]
  have hvS : v ∈ n.stateSolver := varOf_state hq
  have hocc : ∃ f ∈ probTables (fs ++ ps), v ∈ f.vars := (occurs_iff hn hp hsub hS hvar).2 hqo
  have hve : ∀ e ∈ es, e.var.id ≠ v.id := by
    intro e he h
    obtain ⟨x, hx, rfl⟩ := List.mem_map.1 he
    obtain ⟨u, hu, h1, h2, _⟩ := hev.known x (hl.subset hx)
    have : x.1 = q.name := Net.IsVar.inj hn (by rw [← h1]; exact isVar_state hn hu h2) hvar h
    exact hqe x (hl.subset hx) this
  have hvH : v ∉ H := by
    intro h
    simp only [hH, hidden, List.mem_filter, decide_eq_true_eq] at h
    exact h.2.2.2.1 v hqq rfl
  have hvg : v ∈ g.vars := (hgv v).2 ⟨hocc, hve, hvH⟩
  refine ⟨hvg, ?_⟩
  classical
  let p : Var → Bool := fun u => decide (∃ f ∈ probTables (fs ++ ps), u ∈ f.vars)
  have hp1 : ∀ f ∈ probTables (fs ++ ps), ∀ u ∈ f.vars, p u = true := by
    intro f hf u hu
    simp only [p, decide_eq_true_eq]
    exact ⟨f, hf, hu⟩
  have hpv : p v = true := by simp only [p, decide_eq_true_eq]; exact hocc
  have hHmem : ∀ u ∈ H, p u = true ∧ (∀ e ∈ es, e.var.id ≠ u.id) ∧ u ∈ vs.variables ∧ u ∈ n.stateSolver := by
    intro u hu
    have ho := hidden_occurs hn hp hl hpols hS query hu
    obtain ⟨f, hf, huf⟩ := ho
    simp only [hH, hidden, List.mem_filter, decide_eq_true_eq] at hu
    exact ⟨hp1 f hf u huf, hu.2.2.1, hu.1, probTables_state hn hS hf huf⟩
  have hHn : (H.map Var.id).Nodup := hS.problem.ids.sublist (List.filter_sublist.map _)
  have hgS : ∀ u ∈ g.vars, u ∈ n.stateSolver := by
    intro u hu
    obtain ⟨⟨f, hf, huf⟩, _⟩ := (hgv u).1 hu
    exact probTables_state hn hS hf huf
  set O := otherVars v.id g.vars with hO
  have hOn : (O.map Var.id).Nodup := otherVars_nodup hg.nodup
  -- the remaining variables
  have hOH : ((O ++ H).map Var.id).Nodup := by
    rw [List.map_append, List.nodup_append]
    refine ⟨hOn, hHn, ?_⟩
    rintro a ha b hb rfl
    obtain ⟨x, hx, e1⟩ := List.mem_map.1 ha
    obtain ⟨y, hy, e2⟩ := List.mem_map.1 hb
    have hxg := (mem_otherVars.1 hx).1
    have : x = y := coherent_of_nodup hst x (hgS x hxg) y (hHmem y hy).2.2.2 (e1.trans e2.symm)
    exact ((hgv x).1 hxg).2.2 (this ▸ hy)
  have hvOH : v.id ∉ (O ++ H).map Var.id := by
    intro h
    obtain ⟨x, hx, e⟩ := List.mem_map.1 h
    rcases List.mem_append.1 hx with hx | hx
    · exact (mem_otherVars.1 hx).2 e
    · have := coherent_of_nodup hst x (hHmem x hx).2.2.2 v hvS e
      exact hvH (this ▸ hx)
  have hmarg : ∀ k < v.outcomes, margOf g v k =
      sumOver (O ++ H) (fun τ => J (plug es τ)) (Assignment.upd (fun _ => 0) v.id k) := by
    intro k hk
    rw [sumOver_append]
    unfold margOf
    apply sumOver_congr _ hOn
    intro τ h1 h2
    apply hgval
    intro u hu
    by_cases huv : u.id = v.id
    · have hvO : v.id ∉ O.map Var.id := fun h => hvOH (by rw [List.map_append]; exact List.mem_append_left _ h)
      have := coherent_of_nodup hst u (hgS u hu) v hvS huv
      rw [this, h1 _ hvO]; simpa [Assignment.upd] using hk
    · exact h2 u (mem_otherVars.2 ⟨hu, huv⟩)
  have hperm0 : (n.stateSolver.filter (fun u => p u && decide (∀ e ∈ es, e.var.id ≠ u.id))).Perm (v :: (O ++ H)) := by
    rw [List.perm_ext_iff_of_nodup ((List.Nodup.of_map _ hst).filter _)
      (List.Nodup.of_map Var.id (by rw [List.map_cons, List.nodup_cons]; exact ⟨hvOH, hOH⟩))]
    intro u
    simp only [List.mem_filter, Bool.and_eq_true, decide_eq_true_eq, List.mem_cons, List.mem_append]
    constructor
    · rintro ⟨hu1, hu2, hu3⟩
      by_cases huH : u ∈ H
      · exact .inr (.inr huH)
      · have hug : u ∈ g.vars := (hgv u).2 ⟨by simpa [p] using hu2, hu3, huH⟩
        by_cases huv : u.id = v.id
        · exact .inl (coherent_of_nodup hst u hu1 v hvS huv)
        · exact .inr (.inl (mem_otherVars.2 ⟨hug, huv⟩))
    · rintro (rfl | hu | hu)
      · exact ⟨hvS, hpv, hve⟩
      · have hug := (mem_otherVars.1 hu).1
        obtain ⟨⟨f, hf, h1⟩, h2, _⟩ := (hgv u).1 hug
        exact ⟨hgS u hug, hp1 f hf u h1, h2⟩
      · have := hHmem u hu
        exact ⟨this.2.2.2, this.1, this.2.1⟩
  have hmass : ∀ (P : World → Prop) [DecidablePred P], n.mass (n.active evidence ign) P =
      n.total pols (fun w => if P w then 1 else 0) := by
    intro P _
    unfold Net.mass Net.total
    rw [joint_pols hpols]
  set C : α := (size (n.stateSolver.filter (fun u => !p u && decide (∀ e ∈ es, e.var.id ≠ u.id))) : α) with hC
  refine ⟨C, ?_, ?_, ?_⟩
  · rw [hC, Nat.cast_ne_zero]
    have : ∀ us : List Var, (∀ u ∈ us, 0 < u.outcomes) → size us ≠ 0 := by
      intro us
      induction us with
      | nil => intro _; simp [size]
      | cons u us ih =>
        intro h
        simp only [size]
        exact Nat.mul_ne_zero (Nat.pos_iff_ne_zero.1 (h u List.mem_cons_self))
          (ih (fun x hx => h x (List.mem_cons_of_mem _ hx)))
    apply this
    intro u hu
    obtain ⟨x, hx, rfl⟩ := List.mem_map.1 (List.mem_filter.1 hu).1
    obtain ⟨hx1, hx2⟩ := mem_stateVars.1 hx
    rw [(isVar_state hn hx1 hx2).outcomes hn, count_eq hn hx1]
    exact (hn.outcomes x hx1).1
  · intro k hk
    rw [hmass, hmarg k (by rw [hout]; exact hk)]
    set e0 : Evid := ⟨v, (k : Nat)⟩ with he0
    rw [total_evidence hn hp hsub hS (es := e0 :: es) (P := fun w => n.Agrees evidence w ∧ w q.name = k)
      (F := fun _ => 1) (G := fun _ => 1) (p := p)]
    · have f1 : n.stateSolver.filter (fun u => !p u && decide (∀ e ∈ e0 :: es, e.var.id ≠ u.id)) =
          n.stateSolver.filter (fun u => !p u && decide (∀ e ∈ es, e.var.id ≠ u.id)) := by
        apply List.filter_congr
        intro u hu
        by_cases huv : v.id = u.id
        · have := coherent_of_nodup hst v hvS u hu huv
          rw [← this, hpv]; simp
        · have : (∀ e ∈ e0 :: es, e.var.id ≠ u.id) ↔ ∀ e ∈ es, e.var.id ≠ u.id := by
            simp [he0, huv]
          simp only [this]
      have f2 : (n.stateSolver.filter (fun u => p u && decide (∀ e ∈ e0 :: es, e.var.id ≠ u.id))).Perm (O ++ H) := by
        have h1 : n.stateSolver.filter (fun u => p u && decide (∀ e ∈ e0 :: es, e.var.id ≠ u.id)) =
            (n.stateSolver.filter (fun u => p u && decide (∀ e ∈ es, e.var.id ≠ u.id))).filter (fun u => decide (v.id ≠ u.id)) := by
          rw [List.filter_filter]
          apply List.filter_congr
          intro u _
          rw [Bool.eq_iff_iff]
          simp [he0]
          tauto
        rw [h1]
        refine (hperm0.filter _).trans ?_
        rw [List.filter_cons_of_neg (by simp), List.filter_eq_self.2]
        intro u hu
        simp only [ne_eq, decide_not, Bool.not_eq_true', decide_eq_false_iff_not]
        intro e
        exact hvOH (e ▸ List.mem_map_of_mem hu)
      rw [f1]
      congr 1
      rw [sumOver_perm f2 (hst.sublist (List.filter_sublist.map _)), sumOver_upd_out _ hvOH]
      congr 1
      funext τ
      rw [plug_cons, mul_one, plug_upd hve]
      simp [he0, hJ]
    · intro e he
      rcases List.mem_cons.1 he with rfl | he
      · exact ⟨hvS, by simp [he0, hout, hk]⟩
      · exact ev_state hn hev hl e he
    · rw [List.map_cons, List.map_cons, List.nodup_cons]
      refine ⟨?_, ev_nodup hn hev hl⟩
      intro h
      obtain ⟨x, hx, e⟩ := List.mem_map.1 h
      obtain ⟨y, hy, rfl⟩ := List.mem_map.1 hx
      exact hve y hy e
    · intro w
      rw [List.forall_mem_cons, ← ev_agrees hn hev hl w, and_comm]
      simp [he0, hvdef, hvar.ids hn w]
    · intro _ _ _; rfl
    · exact hp1
    · intro _ _ _ _ _; rfl
  · rw [hmass, total_evidence hn hp hsub hS (es := es) (G := fun _ => 1) (p := p) (ev_state hn hev hl)
      (ev_nodup hn hev hl) (ev_agrees hn hev hl) (fun _ _ _ => rfl) hp1 (fun _ _ _ _ _ => rfl),
      sumOver_perm hperm0 (hst.sublist (List.filter_sublist.map _))]
    congr 1
    simp only [mul_one, sumOver]
    rw [hout]
    exact Finset.sum_congr rfl (fun k hk => (hmarg k (by rw [hout]; simpa using hk)).symm)

end Bbn
